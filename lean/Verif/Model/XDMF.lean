import Verif.Model.Soup
import Verif.Model.ElementTypes
import Mathlib.Algebra.Order.Ring.Defs
import Mathlib.Algebra.Order.Group.Unbundled.Abs

/-!
# XDMF input/output of a PolytopeSoup

Model of `src/mesh/polytope_soup.cpp` 1157-1430 (writers) and 1480-1990 (readers) for one uniform grid.

* The HDF5 group of the grid is a list of named datasets.  `createDataSet` fails when the name is empty or `.`,
  contains `/` or is taken; the library throws an exception that nothing catches, hence `none`.  A dataset
  reads back as it was written.
* The XML document is the record `Grid` below; an attribute or node value reads back as it was written.  In
  particular the text of an integer (`Dimensions`, `NumberOfElements`) is represented by the integer, and the
  attributes `DataType`, `Precision`, `Format`, `SetType`, `Center`, on which the reader only checks for the
  constants that the writer emits, are left out.
* Coordinates are an ordered ring `R`; `Float` and the file have the same precision.
* Ids are natural numbers as in `Verif.Model.Soup`; the topology array is of type `Int`.
* Reading or writing outside an array is `none`.
-/

namespace Verif.XDMF

open Verif.Polytope Verif.ElemTypes

abbrev Name := List Char

/-- A dataset: integers or floats. -/
inductive Data (R : Type)
  | ints (l : List ℤ)
  | floats (l : List R)

abbrev Group (R : Type) := List (Name × Data R)

variable {R : Type}

/-- `H5::Group::createDataSet` followed by `write`. -/
def create (g : Group R) (n : Name) (d : Data R) : Option (Group R) :=
  if n = [] ∨ n = ['.'] ∨ '/' ∈ n ∨ n ∈ g.map (·.1) then none else some (g ++ [(n, d)])

/-- The parts of a path between the slashes. -/
def splitSlash : Name → List Name
  | [] => [[]]
  | c :: p => if c = '/' then [] :: splitSlash p else (c :: (splitSlash p).headD []) :: (splitSlash p).tail

/-- The links that HDF5 follows for a path from the root: empty parts and `.` do not count. -/
def links (p : Name) : List Name := (splitSlash p).filter fun c => decide (c ≠ [] ∧ c ≠ ['.'])

/-- `openDataSet(path)` in a file whose only group is `h5path`; an unknown path throws. -/
def openPath (h5path : Name) (g : Group R) (p : Name) : Option (Data R) :=
  (g.find? fun e => decide (links p = links h5path ++ [e.1])).map (·.2)

/-- `dataset.read(Int *)`, `dataset.read(Float *)`. -/
def asInts : Data R → Option (List ℤ)
  | .ints l => some l
  | .floats _ => none

def asFloats : Data R → Option (List R)
  | .floats l => some l
  | .ints _ => none

/-- The `Geometry` node. -/
structure GeomNode where
  kind : String
  numVerts : Nat
  dim : Nat
  path : Name

/-- The `Topology` node, when it was completed. `dims` is the list of numbers in `Dimensions`. -/
structure TopoNode where
  kind : String
  nelems : Nat
  dims : List Nat
  path : Name

/-- A `Set` node; `att` is the path of the attached data. -/
structure SetNode where
  name : Name
  path : Name
  att : Option Name

/-- The `Grid` node. -/
structure Grid where
  geom : GeomNode
  topo : Option TopoNode
  sets : List SetNode

/-- `h5filename + ":" + h5path + "/" + name`, polytope_soup.cpp 1225, 1326, 1383. -/
def dataPath (h5filename h5path name : Name) : Name := h5filename ++ [':'] ++ h5path ++ ['/'] ++ name

/-- The name under which set data are stored. -/
def dataName (n : Name) : Name := n ++ "_data".toList

/-! ### Geometry -/

abbrev Vert (R : Type) := R × R × R
abbrev XSoup (R : Type) := Soup (Vert R) ℤ Name R

section
variable [Ring R] [LinearOrder R]

/-- `dim` of polytope_soup.cpp 1203-1207. -/
def geomDim (eps : R) (vs : List (Vert R)) (o : Vert R) : Nat :=
  if (vs.any fun v => decide (eps < |v.2.2|)) || decide (eps < |o.2.2|) then 3 else 2

/-- The array `xyz`, polytope_soup.cpp 1233-1245 (filled from front to back). -/
def geomArray (dim : Nat) (vs : List (Vert R)) (o : Vert R) : List R :=
  if dim = 2 then vs.flatMap fun v => [v.1 + o.1, v.2.1 + o.2.1]
  else vs.flatMap fun v => [v.1 + o.1, v.2.1 + o.2.1, v.2.2 + o.2.2]

/-- `writeXDMFGeometry`, polytope_soup.cpp 1194-1247. -/
def writeGeometry (eps : R) (h5filename h5path : Name) (g : Group R) (s : XSoup R) (o : Vert R) :
    Option (GeomNode × Group R) :=
  let dim := geomDim eps s.verts o
  (create g "Geometry".toList (.floats (geomArray dim s.verts o))).map fun g' =>
    (⟨if dim = 3 then "XYZ" else "XY", s.verts.length, dim, dataPath h5filename h5path "Geometry".toList⟩, g')

/-- `addNodesToSoup`, polytope_soup.cpp 1481-1506: the vertices read. -/
def nodesOf (d : List R) (n dim : Nat) (xyz : Bool) : Option (List (Vert R)) :=
  if n * dim < d.length then none
  else if xyz then
    (List.range n).mapM fun i => (d[i * 3]?).bind fun x => (d[i * 3 + 1]?).bind fun y =>
      (d[i * 3 + 2]?).map fun z => (x, y, z)
  else
    (List.range n).mapM fun i => (d[i * 2]?).bind fun x => (d[i * 2 + 1]?).map fun y => (x, y, 0)

/-- `readXDMFGeometry`, polytope_soup.cpp 1508-1597. -/
def readGeometry (h5filename h5path : Name) (g : Group R) (n : GeomNode) (s : XSoup R) : Option (XSoup R) :=
  if n.kind ≠ "XYZ" ∧ n.kind ≠ "XY" then some s
  else if n.kind = "XYZ" ∧ n.dim ≠ 3 then some s
  else if n.kind = "XY" ∧ n.dim ≠ 2 then some s
  else
    (openPath h5path g (n.path.drop (h5filename.length + 1))).bind fun d => (asFloats d).bind fun d =>
      (nodesOf d n.numVerts n.dim (decide (n.kind = "XYZ"))).map fun vs =>
        vs.foldl (fun s v => (addVertex s v).1) s

end

/-! ### Topology -/

/-- The name and vertex count of the homogeneous topologies, polytope_soup.cpp 1266-1287. -/
def homogeneous (t : ℤ) : Option (String × Nat) :=
  if t = VTK.Triangle then some ("Triangle", 3)
  else if t = VTK.Quad then some ("Quadrilateral", 4)
  else if t = VTK.QuadraticEdge then some ("Edge_3", 3)
  else if t = VTK.QuadraticTriangle then some ("Triangle_6", 6)
  else if t = VTK.QuadraticQuad then some ("Quadrilateral_8", 8)
  else none

/-- The loop of polytope_soup.cpp 1301-1316 over the elements; state `(topology, topo_ctr)`.  `none` inside:
unsupported element type. -/
def mixedStep {V D : Type} (s : Soup V ℤ Name D) (st : Option (List ℤ × Nat)) (i : Nat) :
    Option (Option (List ℤ × Nat)) :=
  match st with
  | none => some none
  | some (topo, ctr) =>
    (s.types[i]?).bind fun t =>
      if vtkToXDMF t = XDMF.Invalid then some none
      else
        (put topo ctr (vtkToXDMF t)).bind fun topo => (s.eoffs[i]?).bind fun a => (s.eoffs[i + 1]?).bind fun b =>
          ((List.range (b - a)).foldlM (fun topo j => (s.conn[a + j]?).bind fun (c : Nat) =>
            put topo (ctr + 1 + j) (c : ℤ)) topo).map fun topo => some (topo, ctr + (b - a) + 1)

/-- `writeXDMFTopology`, polytope_soup.cpp 1249-1346.  An unsupported type leaves an empty `Topology` node. -/
def writeTopology (h5filename h5path : Name) (g : Group R) (s : XSoup R) :
    Option (Option TopoNode × Group R) :=
  let path := dataPath h5filename h5path "Topology".toList
  let nelems := s.types.length
  match getElemTypes s with
  | [t] =>
    match homogeneous t with
    | none => some (none, g)
    | some (kind, nverts) =>
      -- `write` reads nelems * nverts integers
      if s.conn.length < nelems * nverts then none
      else
        (create g "Topology".toList (.ints ((s.conn.take (nelems * nverts)).map (fun (c : Nat) => (c : ℤ))))).map
          fun g' => (some ⟨kind, nelems, [nelems, nverts], path⟩, g')
  | _ =>
    ((List.range nelems).foldlM (mixedStep s) (some (List.replicate (nelems + s.conn.length) 0, 0))).bind fun st =>
      match st with
      | none => some (none, g)
      | some (topo, _) => (create g "Topology".toList (.ints topo)).map
          fun g' => (some ⟨"Mixed", nelems, [nelems + s.conn.length], path⟩, g')

/-- `static_cast<int8_t>`. -/
def int8 (x : ℤ) : ℤ := x.bmod 256

/-- One element of a mixed topology, polytope_soup.cpp 1621-1632.  State `(position, soup)`; an invalid type
has vertex count -1000, which makes the call of `resize` undefined. -/
def readMixedStep {V D : Type} (d : List ℤ) (st : Nat × Soup V ℤ Name D) : Option (Nat × Soup V ℤ Name D) :=
  (d[st.1]?).bind fun code =>
    let t := xdmfToVTK (int8 code)
    if verticesPerElem t < 0 then none
    else
      let n := (verticesPerElem t).toNat
      ((List.range n).mapM fun j => d[st.1 + j + 1]?).map fun conn =>
        (st.1 + n + 1, (addElement st.2 t (conn.map Int.toNat)).1)

/-- The element type read for a homogeneous topology, polytope_soup.cpp 1650-1662. -/
def homogeneousType (kind : String) : Option ℤ :=
  if kind = "Triangle" then some VTK.Triangle
  else if kind = "Quadrilateral" then some VTK.Quad
  else if kind = "Triangle_6" then some VTK.QuadraticTriangle
  else if kind = "Quadrilateral_8" then some VTK.QuadraticQuad
  else none

/-- `readXDMFTopology` and `addElementsToSoup`, polytope_soup.cpp 1601-1745. -/
def readTopology (h5filename h5path : Name) (g : Group R) (n : Option TopoNode) (s : XSoup R) :
    Option (XSoup R) :=
  match n with
  | none => some s
  | some n =>
    (openPath h5path g (n.path.drop (h5filename.length + 1))).bind fun d => (asInts d).bind fun d =>
      if n.kind = "Mixed" then
        match n.dims with
        | [len] =>
          if len < d.length then none
          else ((List.range n.nelems).foldlM (fun st _ => readMixedStep d st) (0, s)).map (·.2)
        | _ => none
      else
        match n.dims with
        | [ncells, nverts] =>
          if ncells ≠ n.nelems then some s
          else if ncells * nverts < d.length then none
          else
            match homogeneousType n.kind with
            | none => some s
            | some t =>
              (List.range ncells).foldlM (fun s i =>
                ((List.range nverts).mapM fun j => d[i * nverts + j]?).map fun conn =>
                  (addElement s t (conn.map Int.toNat)).1) s
        | _ => none

/-! ### Element sets -/

/-- One element set, polytope_soup.cpp 1357-1409. -/
def writeSet (h5filename h5path : Name) (s : XSoup R) (st : List SetNode × Group R) (i : Nat) :
    Option (List SetNode × Group R) :=
  (s.names[i]?).bind fun name => (s.soffs[i]?).bind fun a => (s.soffs[i + 1]?).bind fun b =>
  (readBlock s.sids a b).bind fun ids =>
  (create st.2 name (.ints (ids.map (fun (c : Nat) => (c : ℤ))))).bind fun g =>
  (s.sdata[i]?).bind fun d =>
    if d.isEmpty then some (st.1 ++ [⟨name, dataPath h5filename h5path name, none⟩], g)
    else (create g (dataName name) (.floats d)).map fun g =>
      (st.1 ++ [⟨name, dataPath h5filename h5path name, some (dataName (dataPath h5filename h5path name))⟩], g)

/-- `writeXDMFElsets`, polytope_soup.cpp 1348-1410. -/
def writeSets (h5filename h5path : Name) (g : Group R) (s : XSoup R) : Option (List SetNode × Group R) :=
  (List.range s.names.length).foldlM (writeSet h5filename h5path s) ([], g)

/-- One element set, polytope_soup.cpp 1793-1975.  `none` inside: the reader has returned early (first
component of the state `false`).  A data set of another length than the ids is read beyond the end of the
buffer, or leaves part of it unset: undefined. -/
def readSet (h5filename h5path : Name) (g : Group R) (st : Bool × XSoup R) (n : SetNode) :
    Option (Bool × XSoup R) :=
  if !st.1 then some st
  else if n.name = [] then some (false, st.2)
  else
    (openPath h5path g (n.path.drop (h5filename.length + 1))).bind fun d => (asInts d).bind fun d =>
    match n.att with
    | none => some (true, (addElset st.2 n.name (d.map Int.toNat) []).1)
    | some p =>
      (openPath h5path g (p.drop (h5filename.length + 1))).bind fun f => (asFloats f).bind fun f =>
        if f.length ≠ d.length then none
        else some (true, (addElset st.2 n.name (d.map Int.toNat) f).1)

/-- `readXDMFElsets`, polytope_soup.cpp 1786-1976. -/
def readSets (h5filename h5path : Name) (g : Group R) (ns : List SetNode) (s : XSoup R) : Option (XSoup R) :=
  (ns.foldlM (readSet h5filename h5path g) (true, s)).map (·.2)

/-! ### The grid -/

variable [Ring R] [LinearOrder R]

/-- `writeXDMFUniformGrid`, polytope_soup.cpp 1414-1431, into a new group. -/
def writeGrid (eps : R) (h5filename h5path : Name) (s : XSoup R) (o : Vert R) : Option (Grid × Group R) :=
  (writeGeometry eps h5filename h5path [] s o).bind fun (geom, g) =>
  (writeTopology h5filename h5path g s).bind fun (topo, g) =>
  (writeSets h5filename h5path g s).map fun (sets, g) => (⟨geom, topo, sets⟩, g)

/-- `readXDMFUniformGrid`, polytope_soup.cpp 1984-1991. -/
def readGrid (h5filename h5path : Name) (x : Grid × Group R) (s : XSoup R) : Option (XSoup R) :=
  (readGeometry h5filename h5path x.2 x.1.geom s).bind fun s =>
  (readTopology h5filename h5path x.2 x.1.topo s).bind fun s =>
  readSets h5filename h5path x.2 x.1.sets s

end Verif.XDMF
