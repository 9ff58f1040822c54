import Verif.Model.Pin
import Verif.Model.Grid
import Verif.Model.ElementTypes
import Verif.Model.Int32

/-!
# The MPACT model: a hierarchy of tables

Model of `class Model`, include/um2/mpact/model.hpp 57-310 and 408-512, and of its modifiers in
src/mpact/model.cpp 68-1156 and 1164-1271, `getMeanChordLengths` 3177-3244.

Simplifications.  `Float` is a linearly ordered field `K`; materials have an abstract type `M`, their names are given by a
function (`Material::getName`); the four mesh classes are one type (`Pin.Mesh`).  `MatID` is `Int8`.  `logger::error`
does not exit (`exit_on_error = false`).  `std::sort` is a function argument.  `none` is undefined behaviour.
-/

namespace Verif.Mpact

open Verif.Pin (Mesh Libm)
open Verif.ElemTypes (MeshType)

/-- `Model::CoarseCell`, model.hpp 63-75. -/
structure CoarseCell (K : Type) where
  ext : K × K
  meshType : MeshType
  meshId : ℤ
  mats : List Int8

/-- `RectilinearPartition2<Int>`: divisions of the two axes, children. -/
structure Rect (K : Type) where
  xs : List K
  ys : List K
  children : List ℤ

/-- `RegularPartition2<Int>`: spacing, numbers of cells (the minima are 0), children. -/
structure Lattice (K : Type) where
  spacing : K × K
  nx : Nat
  ny : Nat
  children : List ℤ

/-- `RectilinearPartition1<Int>`. -/
structure Assembly (K : Type) where
  zs : List K
  children : List ℤ

/-- The members of `Model`, model.hpp 82-99. -/
structure Model (K M : Type) where
  core : Rect K
  assemblies : List (Assembly K)
  lattices : List (Lattice K)
  rtms : List (Rect K)
  cells : List (CoarseCell K)
  materials : List M
  tris : List (Mesh K)
  quads : List (Mesh K)
  tri6s : List (Mesh K)
  quad8s : List (Mesh K)

/-- The default constructor, and `clear`, model.cpp 102-117. -/
def Model.empty (K M : Type) : Model K M :=
  ⟨⟨[], [], []⟩, [], [], [], [], [], [], [], [], []⟩

/-- Indexing a `Vector` by an `Int`: outside it, undefined behaviour. -/
def at? {α : Type} (l : List α) (i : ℤ) : Option α := if i < 0 then none else l[i.toNat]?

/-- The meshes of a type, for example model.cpp 832-873: `none` for other types. -/
def Model.meshes {K M : Type} (s : Model K M) (t : MeshType) : Option (List (Mesh K)) :=
  if t = MeshType.Tri then some s.tris
  else if t = MeshType.Quad then some s.quads
  else if t = MeshType.QuadraticTri then some s.tri6s
  else if t = MeshType.QuadraticQuad then some s.quad8s
  else none

variable {K M N : Type} [Field K] [LinearOrder K]

/-- `addMaterial`, model.cpp 122-130; `validateXSec` only reports. -/
def addMaterial (s : Model K M) (mat : M) : Option (Model K M × ℤ) :=
  some ({ s with materials := s.materials ++ [mat] }, (s.materials.length : ℤ))

/-- `addCylindricalPinMesh`, model.cpp 136-649. -/
def addCylindricalPinMesh (m : Libm K) (s : Model K M) (pitch : K) (radii : List K) (numRings : List ℤ) (na order : ℤ) :
    Option (Model K M × ℤ) :=
  match Pin.cylindricalMesh m pitch radii numRings na order with
  | none => none
  | some none => some (s, -1)
  | some (some mesh) =>
    if order = 1 then some ({ s with quads := s.quads ++ [mesh] }, (s.quads.length : ℤ))
    else some ({ s with quad8s := s.quad8s ++ [mesh] }, (s.quad8s.length : ℤ))

/-- `addRectangularPinMesh`, model.cpp 715-766: the (empty) mesh is appended before the arguments are checked. -/
def addRectangularPinMesh (s : Model K M) (ext : K × K) (nx ny : ℤ) : Option (Model K M × ℤ) :=
  match Pin.rectangularMesh ext nx ny with
  | none => none
  | some none => some ({ s with quads := s.quads ++ [⟨[], []⟩] }, -1)
  | some (some mesh) => some ({ s with quads := s.quads ++ [mesh] }, (s.quads.length : ℤ))

/-- `addTriMesh`, model.cpp 772-780. -/
def addTriMesh (s : Model K M) (mesh : Mesh K) : Option (Model K M × ℤ) :=
  some ({ s with tris := s.tris ++ [mesh] }, (s.tris.length : ℤ))

/-- `addQuadMesh`, model.cpp 782-790. -/
def addQuadMesh (s : Model K M) (mesh : Mesh K) : Option (Model K M × ℤ) :=
  some ({ s with quads := s.quads ++ [mesh] }, (s.quads.length : ℤ))

/-- `addTri6Mesh`, model.cpp 792-800. -/
def addTri6Mesh (s : Model K M) (mesh : Mesh K) : Option (Model K M × ℤ) :=
  some ({ s with tri6s := s.tri6s ++ [mesh] }, (s.tri6s.length : ℤ))

/-- `addQuad8Mesh`, model.cpp 802-810. -/
def addQuad8Mesh (s : Model K M) (mesh : Mesh K) : Option (Model K M × ℤ) :=
  some ({ s with quad8s := s.quad8s ++ [mesh] }, (s.quad8s.length : ℤ))

/-- `addCoarseCell`, model.cpp 816-891. -/
def addCoarseCell (s : Model K M) (ext : K × K) (t : MeshType) (meshId : ℤ) (mats : List Int8) : Option (Model K M × ℤ) :=
  let added := some ({ s with cells := s.cells ++ [⟨ext, t, meshId, mats⟩] }, (s.cells.length : ℤ))
  if ext.1 ≤ 0 ∨ ext.2 ≤ 0 then some (s, -1)
  else if meshId = -1 then added
  else
    match s.meshes t with
    | none => some (s, -1)
    | some l =>
      if 0 > meshId ∨ meshId ≥ l.length then some (s, -1)
      else (at? l meshId).bind fun mesh =>
        if mesh.faces.length ≠ mats.length then some (s, -1)
        else if mats.any fun id => decide (id.toInt < 0) || decide (id.toInt ≥ s.materials.length) then some (s, -1)
        else added

/-- The search for a material by name, model.cpp 674-686; the index is an `Int`. -/
def findMaterial [DecidableEq N] (name : M → N) (s : Model K M) (mat : M) : Option Nat :=
  s.materials.findIdx? fun x => decide (name x = name mat)

/-- The material of every face, model.cpp 694-706: the material of region `i` for `rings[i] * na` faces, then the last one
for `na` faces.  `static_cast<MatID>` keeps the low 8 bits. -/
def cellMats (na : Nat) : List Nat → List ℤ → List Int8
  | i :: is, n :: ns => List.replicate (n.toNat * na) (Int8.ofInt i) ++ cellMats na is ns
  | is, [] => List.replicate na (Int8.ofInt (is.getLastD 0 : Nat))
  | [], _ => []

/-- `addCylindricalPinCell`, model.cpp 655-709.  With `na > 0`, a negative number of rings makes the loops write behind the
allocated elements; a negative `na` gives a vector of negative size. -/
def addCylindricalPinCell [DecidableEq N] (m : Libm K) (name : M → N) (s : Model K M) (pitch : K) (radii : List K) (mats : List M)
    (numRings : List ℤ) (na order : ℤ) : Option (Model K M × ℤ) :=
  (addCylindricalPinMesh m s pitch radii numRings na order).bind fun (s1, meshId) =>
  if mats.length ≠ numRings.length + 1 then some (s1, -1)
  else
    match mats.mapM (findMaterial name s1) with
    | none => some (s1, -1)
    | some idx =>
      if na < 0 then none
      else if 0 < na ∧ numRings.any (fun n => decide (n < 0)) then none
      else addCoarseCell s1 (pitch, pitch) (if order = 1 then MeshType.Quad else MeshType.QuadraticQuad) meshId
        (cellMats na.toNat idx numRings)

/-- The distinct ids in order of first occurrence, model.cpp 902-920. -/
def uniqueIds (ids : List ℤ) : List ℤ := ids.foldl (fun u id => if id ∈ u then u else u ++ [id]) []

/-- `RectilinearGrid2F(xy_extents, ids)`, rectilinear_grid.hpp 184-215; `sort` stands for `std::sort`. -/
def mkGrid (sort : List K → List K) (eps : K) (dxdy : List (K × K)) (ids : List (List Nat)) : Option (List K × List K) :=
  (Grid.gridBoxes dxdy ids).map fun b => (sort (Grid.boxDivs eps (b.map (·.1))), sort (Grid.boxDivs eps (b.map (·.2))))

/-- `extents()` of a rectilinear grid, rectilinear_grid.hpp 325-330, 236-277: `front` and `back` of an empty vector are
undefined. -/
def extents (xs ys : List K) : Option (K × K) :=
  match xs.head?, xs.getLast?, ys.head?, ys.getLast? with
  | some x0, some x1, some y0, some y1 => some (x1 - x0, y1 - y0)
  | _, _, _, _ => none

/-- `Vec2::isApprox`, vec.hpp 820-825, with the default tolerance `epsDistance²`. -/
def isApprox (eps : K) (a b : K × K) : Bool :=
  decide ((a.1 - b.1) * (a.1 - b.1) + (a.2 - b.2) * (a.2 - b.2) < eps * eps)

/-- `addRTM`, model.cpp 897-947. -/
def addRTM (sort : List K → List K) (eps : K) (s : Model K M) (ids : List (List ℤ)) : Option (Model K M × ℤ) :=
  if ids.flatten.any fun id => decide (id < 0) || decide (id ≥ s.cells.length) then some (s, -1)
  else
    let u := uniqueIds ids.flatten
    (u.mapM fun id => (at? s.cells id).map (·.ext)).bind fun dxdy =>
    let renumbered := ids.map fun row => row.map fun id => u.idxOf id
    (mkGrid sort eps dxdy renumbered).bind fun (xs, ys) =>
    let add := (Grid.flattenLattice ids []).bind fun flat =>
      some ({ s with rtms := s.rtms ++ [⟨xs, ys, flat⟩] }, (s.rtms.length : ℤ))
    match s.rtms with
    | [] => add
    | r :: _ => (extents r.xs r.ys).bind fun e0 => (extents xs ys).bind fun e =>
      if !isApprox eps e0 e then some (s, -1) else add

/-- `addLattice`, model.cpp 953-988. -/
def addLattice (s : Model K M) (ids : List (List ℤ)) : Option (Model K M × ℤ) :=
  if ids.flatten.any fun id => decide (id < 0) || decide (id ≥ s.rtms.length) then some (s, -1)
  else
    match s.rtms, ids with
    | [], _ => none
    | _, [] => none
    | r :: _, row0 :: rows => (extents r.xs r.ys).bind fun e =>
      if rows.any fun row => decide (row.length ≠ row0.length) then some (s, -1)
      else (Grid.flattenLattice ids []).bind fun flat =>
        some ({ s with lattices := s.lattices ++ [⟨e, row0.length, ids.length, flat⟩] }, (s.lattices.length : ℤ))

/-- `um2::is_sorted`, stdlib/algorithm/is_sorted.hpp: no element is less than its predecessor. -/
def isSorted : List K → Bool
  | a :: b :: l => !decide (b < a) && isSorted (b :: l)
  | _ => true

/-- The end of `addAssembly`, model.cpp 1033-1054: all lattices have the dimensions of the first one; `lat_ids[0]` (1035) of
an empty list is undefined. -/
def placeAssembly (s : Model K M) (ids : List ℤ) (z : List K) : Option (Model K M × ℤ) :=
  match ids with
  | [] => none
  | id0 :: rest => (at? s.lattices id0).bind fun l0 => ((id0 :: rest).mapM (at? s.lattices)).bind fun ls =>
    if ls.any fun l => decide (l.nx ≠ l0.nx) || decide (l.ny ≠ l0.ny) then some (s, -1)
    else some ({ s with assemblies := s.assemblies ++ [⟨z, id0 :: rest⟩] }, (s.assemblies.length : ℤ))

/-- `addAssembly`, model.cpp 994-1055; `front`/`back` of an empty vector cannot occur (`z` has an element more than the
ids). -/
def addAssembly (eps : K) (s : Model K M) (ids : List ℤ) (z : List K) : Option (Model K M × ℤ) :=
  if ids.any fun id => decide (id < 0) || decide (id ≥ s.lattices.length) then some (s, -1)
  else if ids.length + 1 ≠ z.length then some (s, -1)
  else if !isSorted z then some (s, -1)
  else
    (z.head?).bind fun z0 => (z.getLast?).bind fun z1 =>
    if (eps < |z0 + 1 / 2| ∨ eps < |z1 - 1 / 2|) ∧ eps < |z0| then some (s, -1)
    else
      match s.assemblies with
      | [] => placeAssembly s ids z
      | a :: _ => (a.zs.head?).bind fun b0 => (a.zs.getLast?).bind fun b1 =>
        if eps < |z1 - b1| ∨ eps < |z0 - b0| then some (s, -1) else placeAssembly s ids z

/-- `RegularGrid::extents`, regular_grid.hpp 243-252. -/
def Lattice.extents (l : Lattice K) : K × K := (l.spacing.1 * (l.nx : K), l.spacing.2 * (l.ny : K))

/-- `addCore`, model.cpp 1061-1094. -/
def addCore (sort : List K → List K) (eps : K) (s : Model K M) (ids : List (List ℤ)) : Option (Model K M × ℤ) :=
  if s.core.children ≠ [] then some (s, -1)
  else if ids.flatten.any fun id => decide (id < 0) || decide (id ≥ s.assemblies.length) then some (s, -1)
  else
    (s.assemblies.mapM fun a : Assembly K => (a.children.head?).bind fun id => (at? s.lattices id).map Lattice.extents).bind fun dxdy =>
    (mkGrid sort eps dxdy (ids.map fun row => row.map Int.toNat)).bind fun (xs, ys) =>
    (Grid.flattenLattice ids []).bind fun flat => some ({ s with core := ⟨xs, ys, flat⟩ }, 0)

/-- `n` calls of a function that ignores its result. -/
def repeatCall (f : Model K M → Option (Model K M × ℤ)) : Nat → Model K M → Option (Model K M)
  | 0, s => some s
  | n + 1, s => (f s).bind fun r => repeatCall f n r.1

/-- The RTM loop of `addCoarseGrid`, model.cpp 1131-1136. -/
def gridRTMs (sort : List K → List K) (eps : K) : List Nat → Model K M → Option (Model K M)
  | [], s => some s
  | i :: is, s => (addRTM sort eps s [[(i : ℤ)]]).bind fun r => gridRTMs sort eps is r.1

/-- `addCoarseGrid`, model.cpp 1100-1156; the assertions that the model is empty (1116-1120) are compiled out. -/
def addCoarseGrid (sort : List K → List K) (eps : K) (s : Model K M) (ext : K × K) (nx ny : ℤ) : Option (Model K M) :=
  if ext.1 ≤ 0 ∨ ext.2 ≤ 0 then some s
  else if nx ≤ 0 ∨ ny ≤ 0 then some s
  else if 2 ^ 31 ≤ nx * ny then none
  else
    (repeatCall (fun s => addCoarseCell s (ext.1 / (nx.toNat : K), ext.2 / (ny.toNat : K)) MeshType.Invalid (-1) [])
      (nx.toNat * ny.toNat) s).bind fun s =>
    (gridRTMs sort eps (List.range (nx.toNat * ny.toNat)) s).bind fun s =>
    (addLattice s ((Grid.coarseGridIds nx.toNat ny.toNat).map fun row => row.map fun i : Nat => (i : ℤ))).bind fun (s, _) =>
    (addAssembly eps s [0] [-1 / 2, 1 / 2]).bind fun (s, _) =>
    (addCore sort eps s [[0]]).bind fun (s, _) => some s

/-! ## Import of coarse cell meshes -/

/-- What `importCoarseCellMeshes` reads for one coarse cell, model.cpp 1179-1195: mesh type, mesh (already shifted to the
origin, 1261-1265), and for each element set `Material_<name>` the name and the elements. -/
structure ImportCell (K N : Type) where
  meshType : MeshType
  mesh : Mesh K
  sets : List (N × List ℤ)

/-- The assignments of one set, 1205-1209. -/
def assignAll (v : Int8) : List ℤ → List Int8 → Option (List Int8)
  | [], l => some l
  | i :: is, l => if i < 0 ∨ l.length ≤ i then none else assignAll v is (l.set i.toNat v)

/-- The loop over the sets, 1192-1218: the second component is whether every material was found. -/
def assignSets [DecidableEq N] (name : M → N) (materials : List M) : List (N × List ℤ) → List Int8 → Option (List Int8 × Bool)
  | [], l => some (l, true)
  | (n, ids) :: rest, l =>
    match materials.findIdx? fun x => decide (name x = n) with
    | none => some (l, false)
    | some i => (assignAll (Int8.ofInt i) ids l).bind fun l => assignSets name materials rest l

/-- The index at which a mesh of this type will be stored, and the model with it, 1231-1259. -/
def pushMesh (s : Model K M) (t : MeshType) (mesh : Mesh K) : Option (Model K M × ℤ) :=
  if t = MeshType.Tri then addTriMesh s mesh
  else if t = MeshType.Quad then addQuadMesh s mesh
  else if t = MeshType.QuadraticTri then addTri6Mesh s mesh
  else if t = MeshType.QuadraticQuad then addQuad8Mesh s mesh
  else none

/-- One coarse cell, 1177-1270; the flag is whether the import goes on.  An unsupported mesh type is an error (1255-1257). -/
def importCell [DecidableEq N] (name : M → N) (s : Model K M) (icc : Nat) (c : ImportCell K N) : Option (Model K M × Bool) :=
  (s.cells[icc]?).bind fun cell =>
  (assignSets name s.materials c.sets (List.replicate c.mesh.faces.length (-1))).bind fun (ids, found) =>
  let cell1 : CoarseCell K := { cell with meshType := c.meshType, mats := ids }
  let s1 : Model K M := { s with cells := s.cells.set icc cell1 }
  if !found then some (s1, false)
  else if ids.any fun id => decide (id = -1) then some (s1, false)
  else
    match pushMesh s1 c.meshType c.mesh with
    | none => some (s1, false)
    | some (s2, id) => some ({ s2 with cells := s.cells.set icc { cell1 with meshId := id } }, true)

/-- `importCoarseCellMeshes`, 1164-1271, over the coarse cells in order. -/
def importCells [DecidableEq N] (name : M → N) : Nat → List (ImportCell K N) → Model K M → Option (Model K M × Bool)
  | _, [], s => some (s, true)
  | icc, c :: cs, s => (importCell name s icc c).bind fun (s, ok) =>
    if ok then importCells name (icc + 1) cs s else some (s, false)

/-! ## Totals -/

/-- The accumulation `total += f(id)` over a list of ids (model.hpp 460-511). -/
def sumLoop (f : ℤ → ℤ → Option ℤ) : List ℤ → ℤ → Option ℤ
  | [], acc => some acc
  | id :: ids, acc => (f id acc).bind fun acc => sumLoop f ids acc

/-- `numAssembliesTotal`, model.hpp 454-458. -/
def numAssembliesTotal (s : Model K M) : ℤ := s.core.children.length

/-- `numLatticesTotal`, model.hpp 460-468. -/
def numLatticesTotal (s : Model K M) : Option ℤ :=
  sumLoop (fun a acc => (at? s.assemblies a).bind fun asy => chk (acc + asy.children.length)) s.core.children 0

/-- `numRTMsTotal`, model.hpp 470-480. -/
def numRTMsTotal (s : Model K M) : Option ℤ :=
  sumLoop (fun a acc => (at? s.assemblies a).bind fun asy =>
    sumLoop (fun l acc => (at? s.lattices l).bind fun lat => chk (acc + lat.children.length)) asy.children acc)
    s.core.children 0

/-- `numCoarseCellsTotal`, model.hpp 482-494. -/
def numCoarseCellsTotal (s : Model K M) : Option ℤ :=
  sumLoop (fun a acc => (at? s.assemblies a).bind fun asy =>
    sumLoop (fun l acc => (at? s.lattices l).bind fun lat =>
      sumLoop (fun r acc => (at? s.rtms r).bind fun rtm => chk (acc + rtm.children.length)) lat.children acc)
      asy.children acc) s.core.children 0

/-- `numFineCellsTotal`, model.hpp 496-511, and the first loop of `getMeanChordLengths`, model.cpp 3179-3188. -/
def numFineCellsTotal (s : Model K M) : Option ℤ :=
  sumLoop (fun a acc => (at? s.assemblies a).bind fun asy =>
    sumLoop (fun l acc => (at? s.lattices l).bind fun lat =>
      sumLoop (fun r acc => (at? s.rtms r).bind fun rtm =>
        sumLoop (fun c acc => (at? s.cells c).bind fun cell => chk (acc + cell.mats.length)) rtm.children acc)
        lat.children acc) asy.children acc) s.core.children 0

/-! ## Mean chord lengths -/

/-- Nested loops over ids with a state. -/
def forIds {σ : Type} (f : ℤ → σ → Option σ) : List ℤ → σ → Option σ
  | [], st => some st
  | id :: ids, st => (f id st).bind fun st => forIds f ids st

/-- The inner loop of `getMeanChordLengths` over the faces `i, i + 1, …` of a mesh, for example 3201-3203. -/
def chordFaces (chord : Mesh K → Nat → K) (mesh : Mesh K) (ctr : Nat) : Nat → Nat → List K → Option (List K)
  | 0, _, res => some res
  | n + 1, i, res => (Grid.set? res (ctr + i) (chord mesh i)).bind fun res => chordFaces chord mesh ctr n (i + 1) res

/-- One coarse cell of `getMeanChordLengths`, 3194-3238: an unsupported type is reported and skipped.  The state is the
result vector and `ctr`. -/
def chordCell (chord : Mesh K → Nat → K) (s : Model K M) (c : ℤ) (st : List K × Nat) : Option (List K × Nat) :=
  (at? s.cells c).bind fun cell =>
  match s.meshes cell.meshType with
  | none => some st
  | some l => (at? l cell.meshId).bind fun mesh =>
    (chordFaces chord mesh st.2 mesh.faces.length 0 st.1).bind fun res => some (res, st.2 + mesh.faces.length)

/-- `getMeanChordLengths`, 3177-3244; `chord mesh i` is `mesh.getFace(i).meanChordLength()`. -/
def getMeanChordLengths (chord : Mesh K → Nat → K) (s : Model K M) : Option (List K) :=
  (numFineCellsTotal s).bind fun n =>
  (forIds (fun a st => (at? s.assemblies a).bind fun asy =>
    forIds (fun l st => (at? s.lattices l).bind fun lat =>
      forIds (fun r st => (at? s.rtms r).bind fun rtm => forIds (chordCell chord s) rtm.children st) lat.children st)
      asy.children st) s.core.children (List.replicate n.toNat 0, 0)).bind fun st => some st.1

end Verif.Mpact
