import Verif.Model.Mpact
import Verif.Model.Names
import Verif.Model.Abaqus
import Verif.Model.Grid

/-!
# The XDMF tree of an MPACT model

Model of `writeXDMFFile` (src/mpact/model.cpp 1530-1949) and `readXDMFFile` (2298-2955), for the hierarchy: which objects the
tree names, and which tables the reader recovers from it.

* The XML document is a tree of nodes with their `Name`, their `NX_by_NY` text and their `Grid` children; pugixml is assumed to
  give back what was put in.
* The uniform grid of a coarse cell is the vertices, and `rest` for everything that the writer and the reader hand through
  (connectivity, mesh type, material ids): writing and reading one grid is property C50.
* Numbers are exact: the texts of the `z` coordinates are the coordinates.
* The suffix `_YYYYY` of a name is a parameter `tail` of the place of the node in the tree; the reader does not look at it.
* The material names, the optional cross section and Knudsen data and the HDF5 groups are left out.
* `none` is undefined behaviour or an early error return; the `ASSERT`s are compiled out.
* The reader's pairs of vectors that are always extended together (`assembly_ids` and `assembly_lattice_ids`, ...) are lists of
  pairs.
-/

namespace Verif.ModelXdmf

open Verif.Mpact Verif.Grid Verif.StrView Verif.Abaqus
open Verif.Str (Byte)

/-- What the uniform grid of a coarse cell holds. -/
structure Body (K T : Type) where
  verts : List (K × K)
  rest : T

/-- The uniform grid of a coarse cell. -/
structure CellNode (K T : Type) where
  name : List Byte
  body : Body K T

/-- The `Grid` node of a ray tracing module. -/
structure RtmNode (K T : Type) where
  name : List Byte
  dims : List Byte
  cells : List (CellNode K T)

/-- The `Grid` node of a lattice; `zlo`, `zhi` are the first and the third number of its `Z` information. -/
structure LatNode (K T : Type) where
  name : List Byte
  zlo : K
  zhi : K
  dims : List Byte
  rtms : List (RtmNode K T)

/-- The `Grid` node of an assembly. -/
structure AsyNode (K T : Type) where
  name : List Byte
  dims : List Byte
  lats : List (LatNode K T)

/-- The `Grid` node of the core. -/
structure CoreNode (K T : Type) where
  dims : List Byte
  asys : List (AsyNode K T)

/-! ### The texts -/

/-- `"Assembly_"`. -/
def preAsy : List Byte := [65, 115, 115, 101, 109, 98, 108, 121, 95]

/-- `"Lattice_"`. -/
def preLat : List Byte := [76, 97, 116, 116, 105, 99, 101, 95]

/-- `"RTM_"`. -/
def preRtm : List Byte := [82, 84, 77, 95]

/-- `"Coarse_Cell_"`. -/
def preCell : List Byte := [67, 111, 97, 114, 115, 101, 95, 67, 101, 108, 108, 95]

/-- `"Assembly_" + getASCIINumber(asy_id) + "_" + getASCIINumber(asy_id_ctr)`, model.cpp 1782-1783, and the same for the other
levels (1822-1823, 1868-1869, 1912-1913). -/
def nodeName (pre : List Byte) (id : ℤ) (tail : List Byte) : List Byte := pre ++ Names.getASCIINumber id ++ tail

/-- `String(nx) + " x " + String(ny)`, model.cpp 1764. -/
def dimsText (nx ny : Nat) : List Byte := digits nx ++ [32, 120, 32] ++ digits ny

/-! ### Writing -/

/-- Apply `f` to every entry. -/
def mapAll {α β : Type} (f : α → Option β) : List α → Option (List β)
  | [] => some []
  | x :: l => (f x).bind fun y => (mapAll f l).bind fun ys => some (y :: ys)

/-- The order of the loops `for (iy < ny) for (ix < nx)`, model.cpp 1768-1769, 1856-1857, 1900-1901. -/
def places (nx ny : Nat) : List (Nat × Nat) := (List.range ny).flatMap fun iy => (List.range nx).map fun ix => (ix, iy)

/-- `getChild(ix, iy)`, rectilinear_partition.hpp and regular_partition.hpp. -/
def childAt (nx : Nat) (ch : List ℤ) (p : Nat × Nat) : Option ℤ := ch[p.1 + p.2 * nx]?

/-- `grid().getBox(ix, iy).minima()` of a rectilinear grid. -/
def corner {K : Type} (xs ys : List K) (p : Nat × Nat) : Option (K × K) :=
  (xs[p.1]?).bind fun x => (ys[p.2]?).bind fun y => some (x, y)

section
variable {K M T : Type} [Field K] [LinearOrder K]

/-- One coarse cell, model.cpp 1903-1929: `bodies` are `coarse_cell_soups`, translated by the offset. -/
def writeCell (bodies : List (Body K T)) (tail : List Nat → List Byte) (path : List Nat) (off : K × K) (id : ℤ) :
    Option (CellNode K T) :=
  (at? bodies id).bind fun b =>
  some ⟨nodeName preCell id (tail path), ⟨b.verts.map fun v => (v.1 + off.1, v.2 + off.2), b.rest⟩⟩

/-- One ray tracing module, model.cpp 1859-1931. -/
def writeRtm (s : Model K M) (bodies : List (Body K T)) (tail : List Nat → List Byte) (path : List Nat) (off : K × K) (id : ℤ) :
    Option (RtmNode K T) :=
  (at? s.rtms id).bind fun r =>
  if r.children = [] then none else
  (mapAll (fun p => (childAt (r.xs.length - 1) r.children p).bind fun c =>
    (corner r.xs r.ys p).bind fun o => writeCell bodies tail (p.1 :: p.2 :: path) (o.1 + off.1, o.2 + off.2) c)
    (places (r.xs.length - 1) (r.ys.length - 1))).bind fun cells =>
  some ⟨nodeName preRtm id (tail path), dimsText (r.xs.length - 1) (r.ys.length - 1), cells⟩

/-- One lattice, model.cpp 1809-1933. -/
def writeLat (s : Model K M) (bodies : List (Body K T)) (tail : List Nat → List Byte) (path : List Nat) (off : K × K)
    (zlo zhi : K) (id : ℤ) : Option (LatNode K T) :=
  (at? s.lattices id).bind fun l =>
  if l.children = [] then none else
  (mapAll (fun p => (childAt l.nx l.children p).bind fun c =>
    writeRtm s bodies tail (p.1 :: p.2 :: path) ((p.1 : K) * l.spacing.1 + off.1, (p.2 : K) * l.spacing.2 + off.2) c)
    (places l.nx l.ny)).bind fun rtms =>
  some ⟨nodeName preLat id (tail path), zlo, zhi, dimsText l.nx l.ny, rtms⟩

/-- One assembly, model.cpp 1771-1934. -/
def writeAsy (s : Model K M) (bodies : List (Body K T)) (tail : List Nat → List Byte) (path : List Nat) (off : K × K) (id : ℤ) :
    Option (AsyNode K T) :=
  (at? s.assemblies id).bind fun a =>
  if a.children = [] then none else
  (mapAll (fun k => (a.children[k]?).bind fun c => (a.zs[k]?).bind fun lo => (a.zs[k + 1]?).bind fun hi =>
    writeLat s bodies tail (k :: path) off lo hi c) (List.range (a.zs.length - 1))).bind fun lats =>
  some ⟨nodeName preAsy id (tail path), dimsText (a.zs.length - 1) 1, lats⟩

/-- `writeXDMFFile`, model.cpp 1528-1949. -/
def write (s : Model K M) (bodies : List (Body K T)) (tail : List Nat → List Byte) : Option (CoreNode K T) :=
  if s.core.children = [] then none else
  (mapAll (fun p => (childAt (s.core.xs.length - 1) s.core.children p).bind fun c =>
    (corner s.core.xs s.core.ys p).bind fun o => writeAsy s bodies tail [p.1, p.2] o c)
    (places (s.core.xs.length - 1) (s.core.ys.length - 1))).bind fun asys =>
  some ⟨dimsText (s.core.xs.length - 1) (s.core.ys.length - 1), asys⟩

end

/-! ### Reading -/

/-- `getNXbyNY`, model.cpp 2240-2262, and 2604-2622. -/
def getNXbyNY (text : List Byte) : ℤ × ℤ :=
  let t := getToken 32 (lineView text)
  (strto32 t.1.suf, strto32 (removePrefix t.2 2).suf)

/-- `name.substr(n, 5)` and `strto<Int>`, for example model.cpp 2486-2488. -/
def parseId (n : Nat) (name : List Byte) : Option ℤ :=
  if n ≤ name.length then some (strto32 ((name.drop n).take 5)) else none

/-- `table[ij[1]][ij[0]] = id` with `ij = mapFlatIndexToLattice2D(count, nx, ny)`, for example model.cpp 2493-2494. -/
def putId (nx ny : ℤ) (t : List (List ℤ)) (count : Nat) (id : ℤ) : Option (List (List ℤ)) :=
  (mapFlat count nx ny).bind fun ij =>
  (at? t ij.2).bind fun row =>
  if ij.1 < 0 then none else (set? row ij.1.toNat id).bind fun row => set? t ij.2.toNat row

/-- The assignments for `ids`, the first of them having number `count`. -/
def putIds (nx ny : ℤ) (t : List (List ℤ)) (count : Nat) : List ℤ → Option (List (List ℤ))
  | [] => some t
  | id :: ids => (putId nx ny t count id).bind fun t => putIds nx ny t (count + 1) ids

/-- The table of an object, for example model.cpp 2472-2476 and 2493-2495: `ny` rows of `nx` entries −1, then the ids of its
children are put in.  (In the code the assignments alternate with the visits of the children, which do not touch the table.) -/
def table (nx ny : ℤ) (ids : List ℤ) : Option (List (List ℤ)) :=
  putIds nx ny (List.replicate ny.toNat (List.replicate nx.toNat (-1))) 0 ids

/-- The vectors of the reader; cells have their body and their extents. -/
structure St (K T : Type) where
  asys : List (ℤ × (List ℤ × List K))
  lats : List (ℤ × List (List ℤ))
  rtms : List (ℤ × List (List ℤ))
  cells : List (ℤ × (Body K T × (K × K)))

section
variable {K T : Type} [Field K] [LinearOrder K]

/-- The mesh of a cell, model.cpp 2728-2779: the minima of its bounding box are subtracted from the vertices, the extents of the
box are kept.  `bb` is the bounding box, minima and maxima. -/
def readBody (bb : Body K T → (K × K) × (K × K)) (b : Body K T) : Body K T × (K × K) :=
  (⟨b.verts.map fun v => (v.1 - (bb b).1.1, v.2 - (bb b).1.2), b.rest⟩,
    ((bb b).2.1 - (bb b).1.1, (bb b).2.2 - (bb b).1.2))

/-- Whether an id is in the list of ids already met. -/
def known {α : Type} (l : List (ℤ × α)) (id : ℤ) : Bool := l.any fun p => decide (p.1 = id)

/-- The coarse cell loop, model.cpp 2685-2795. -/
def visitCell (bb : Body K T → (K × K) × (K × K)) (st : St K T) (c : CellNode K T) : Option (St K T) :=
  (parseId 12 c.name).bind fun id =>
  if known st.cells id then some st else some { st with cells := st.cells ++ [(id, readBody bb c.body)] }

/-- Fold with a step that can fail. -/
def foldAll {α β : Type} (f : β → α → Option β) : β → List α → Option β
  | s, [] => some s
  | s, x :: l => (f s x).bind fun s => foldAll f s l

/-- The RTM loop, model.cpp 2635-2871. -/
def visitRtm (bb : Body K T → (K × K) × (K × K)) (st : St K T) (r : RtmNode K T) : Option (St K T) :=
  (parseId 4 r.name).bind fun id =>
  if known st.rtms id then some st else
  (mapAll (fun c : CellNode K T => parseId 12 c.name) r.cells).bind fun ids =>
  (table (getNXbyNY r.dims).1 (getNXbyNY r.dims).2 ids).bind fun t =>
  foldAll (visitCell bb) { st with rtms := st.rtms ++ [(id, t)] } r.cells

/-- The lattice loop, model.cpp 2539-2872, below the assignments to the vectors of the assembly.  Line 2599 puts `assembly_id`
(here `key`) into `lattice_ids`, not the id of the lattice. -/
def visitLat (bb : Body K T → (K × K) × (K × K)) (key : ℤ → ℤ) (st : St K T) (l : LatNode K T) : Option (St K T) :=
  (parseId 8 l.name).bind fun id =>
  if known st.lats id then some st else
  (mapAll (fun c : RtmNode K T => parseId 4 c.name) l.rtms).bind fun ids =>
  (table (getNXbyNY l.dims).1 (getNXbyNY l.dims).2 ids).bind fun t =>
  foldAll (visitRtm bb) { st with lats := st.lats ++ [(key id, t)] } l.rtms

/-- The assignments to `assembly_lattice_ids.back()` and `assembly_lattice_zs.back()`, model.cpp 2549 and 2579-2583. -/
def putLats (a : List ℤ × List K) (count : Nat) : List (ℤ × K × K) → Option (List ℤ × List K)
  | [] => some a
  | (id, lo, hi) :: l =>
    (set? a.1 count id).bind fun ids =>
    (if count = 0 then set? a.2 0 lo else some a.2).bind fun zs =>
    (set? zs (count + 1) hi).bind fun zs => putLats (ids, zs) (count + 1) l

/-- The vectors of an assembly, model.cpp 2531-2534. -/
def asyTable (n : ℤ) (l : List (ℤ × K × K)) : Option (List ℤ × List K) :=
  putLats (List.replicate n.toNat 0, List.replicate (n + 1).toNat 0) 0 l

/-- The assembly loop, model.cpp 2482-2873.  `key asy lat` is what is put into `lattice_ids`. -/
def visitAsy (bb : Body K T → (K × K) × (K × K)) (key : ℤ → ℤ → ℤ) (st : St K T) (a : AsyNode K T) : Option (St K T) :=
  (parseId 9 a.name).bind fun id =>
  if known st.asys id then some st else
  if (getNXbyNY a.dims).2 ≠ 1 then none else
  (mapAll (fun l : LatNode K T => (parseId 8 l.name).bind fun i => some (i, l.zlo, l.zhi)) a.lats).bind fun ids =>
  (asyTable (getNXbyNY a.dims).1 ids).bind fun t =>
  foldAll (visitLat bb (key id)) { st with asys := st.asys ++ [(id, t)] } a.lats

/-- What is handed to `addCoarseCell`, `addRTM`, `addLattice`, `addAssembly` and `addCore`, in the order of the calls. -/
structure Tables (K T : Type) where
  cells : List (Body K T × (K × K))
  rtms : List (List (List ℤ))
  lats : List (List (List ℤ))
  asys : List (List ℤ × List K)
  core : List (List ℤ)

/-- The loops at model.cpp 2886-2951: for each `i`, the first entry with id `i`; without one the index is out of bounds. -/
def pick {α : Type} (l : List (ℤ × α)) : Option (List α) :=
  mapAll (fun i : Nat => (l.find? fun p => decide (p.1 = (i : ℤ))).map (·.2)) (List.range l.length)

/-- `readXDMFFile` with `key asy lat` put into `lattice_ids`. -/
def readWith (bb : Body K T → (K × K) × (K × K)) (key : ℤ → ℤ → ℤ) (c : CoreNode K T) : Option (Tables K T) :=
  (mapAll (fun a : AsyNode K T => parseId 9 a.name) c.asys).bind fun ids =>
  (table (getNXbyNY c.dims).1 (getNXbyNY c.dims).2 ids).bind fun core =>
  (foldAll (visitAsy bb key) ⟨[], [], [], []⟩ c.asys).bind fun st =>
  (pick st.cells).bind fun cells =>
  (pick st.rtms).bind fun rtms =>
  (pick st.lats).bind fun lats =>
  (pick st.asys).bind fun asys =>
  some ⟨cells, rtms, lats, asys, core⟩

/-- `readXDMFFile`, model.cpp 2297-2956: line 2599 is `lattice_ids.emplace_back(assembly_id)`. -/
def read (bb : Body K T → (K × K) × (K × K)) (c : CoreNode K T) : Option (Tables K T) := readWith bb (fun asy _ => asy) c

end

end Verif.ModelXdmf
