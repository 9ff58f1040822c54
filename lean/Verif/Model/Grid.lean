import Verif.Model.Int32
import Verif.Model.Mem
import Mathlib.Algebra.Order.Floor.Ring
import Mathlib.Algebra.Order.Field.Basic
import Mathlib.Algebra.Order.Group.Unbundled.Abs
import Mathlib.Data.List.Basic

/-!
# Model of include/um2/mesh/{regular_grid,rectilinear_grid,regular_partition,rectilinear_partition}.hpp

Index arithmetic is over `ℤ` with every 32-bit operation checked (`chk`, overflow is `none`).
Coordinates are in exact arithmetic over a linearly ordered field.  A `D`-vector of cell counts or
indices is a list of length `D`; coordinates are treated one axis at a time where the code loops over
the axes independently.
-/

namespace Verif.Grid

/-! ## Flat indices -/

/-- The loop of `totalNumCells`, regular_grid.hpp 232-239, rectilinear_grid.hpp 303-311. -/
def totalLoop (acc : ℤ) : List ℤ → Option ℤ
  | [] => some acc
  | n :: ns => (chk (acc * n)).bind fun t => totalLoop t ns

/-- `totalNumCells`. -/
def totalNumCells (num : List ℤ) : Option ℤ := totalLoop 1 num

/-- `exclusive_scan_prod`, regular_grid.hpp 321-326, rectilinear_grid.hpp 364-368: `acc` is the entry
written last; the last count is not used. -/
def scanProd (acc : ℤ) : List ℤ → Option (List ℤ)
  | [] => some []
  | [_] => some [acc]
  | n :: n' :: ns => (chk (acc * n)).bind fun a => (scanProd a (n' :: ns)).bind fun r => some (acc :: r)

/-- The loop of `Vec::dot`, vec.hpp 733-735. -/
def dotLoop (acc : ℤ) : List ℤ → List ℤ → Option ℤ
  | a :: as, b :: bs => (chk (a * b)).bind fun p => (chk (acc + p)).bind fun s => dotLoop s as bs
  | _, _ => some acc

/-- `Vec::dot` on `Int` vectors, vec.hpp 730-737. -/
def dot : List ℤ → List ℤ → Option ℤ
  | a :: as, b :: bs => (chk (a * b)).bind fun p => dotLoop p as bs
  | _, _ => none

/-- `RegularGrid::getFlatIndex`, regular_grid.hpp 307-331 (`if constexpr` on `D`).  The `ASSERT`s are
compiled out. -/
def getFlatIndex : List ℤ → List ℤ → Option ℤ
  | [_], [i0] => some i0
  | [n0, _], [i0, i1] => (chk (i1 * n0)).bind fun p => chk (i0 + p)
  | [n0, n1, _], [i0, i1, i2] =>
    (chk (i2 * n1)).bind fun p => (chk (i1 + p)).bind fun q => (chk (n0 * q)).bind fun r => chk (i0 + r)
  | num, idx => (scanProd 1 num).bind fun e => dot idx e

/-- `RectilinearGrid::numCells`, rectilinear_grid.hpp 279-300, on the sizes of the division lists. -/
def rectNumCells {K : Type} (divs : List (List K)) : List ℤ := divs.map fun d => (d.length : ℤ) - 1

/-- `RectilinearGrid::getFlatIndex`, rectilinear_grid.hpp 348-372 (the 3D formula multiplies in another
order). -/
def rectFlatIndex {K : Type} (divs : List (List K)) (idx : List ℤ) : Option ℤ :=
  match rectNumCells divs, idx with
  | [_], [i0] => some i0
  | [n0, _], [i0, i1] => (chk (i1 * n0)).bind fun p => chk (i0 + p)
  | [n0, n1, _], [i0, i1, i2] =>
    (chk (n1 * i2)).bind fun p => (chk (i1 + p)).bind fun q => (chk (n0 * q)).bind fun r => chk (i0 + r)
  | num, idx => (scanProd 1 num).bind fun e => dot idx e

/-! ## RegularGrid, one axis -/

section
variable {K : Type} [Field K] [LinearOrder K]

/-- One axis of a `RegularGrid`, regular_grid.hpp 20-28: lower end, spacing, number of cells. -/
structure Axis (K : Type) where
  min : K
  dx : K
  n : ℤ

/-- `extents(i)`, regular_grid.hpp 254-261. -/
def Axis.extent (g : Axis K) : K := g.dx * (g.n : K)

/-- `maxima(i)`, regular_grid.hpp 274-281. -/
def Axis.max (g : Axis K) : K := g.min + g.extent

/-- `getBox`, regular_grid.hpp 290-305, on one axis: lower and upper end. -/
def Axis.cell (g : Axis K) (i : ℤ) : K × K := (g.min + g.dx * (i : K), g.min + g.dx * (i : K) + g.dx)

/-- `getCellCentroid`, regular_grid.hpp 343-359, on one axis. -/
def Axis.centroid (g : Axis K) (i : ℤ) : K := g.min + g.dx * ((i : K) + 1 / 2)

/-- `um2::clamp`, stdlib/algorithm/clamp.hpp, on `Int`. -/
def clampInt (v lo hi : ℤ) : ℤ := if v < lo then lo else if hi < v then hi else v

variable [FloorRing K]

/-- The body of the loop of `getCellIndexContaining`, regular_grid.hpp 396-405. -/
def Axis.index (g : Axis K) (p : K) : Option ℤ :=
  (chk ⌊(p - g.min) / g.dx⌋).bind fun r =>
  if g.n - 1 < r ∨ r < 0 then some (-1) else some (clampInt r 0 (g.n - 1))

/-- The body of the loop of `getCellIndicesIntersecting`, regular_grid.hpp 368-385. -/
def Axis.range (g : Axis K) (lo hi : K) : Option (ℤ × ℤ) :=
  (chk ⌊(lo - g.min) / g.dx⌋).bind fun r0 =>
  (chk ⌊(hi - g.min) / g.dx⌋).bind fun r1 =>
  if g.n - 1 < r0 ∨ r1 < 0 then some (-1, -1)
  else some (clampInt r0 0 (g.n - 1), clampInt r1 0 (g.n - 1))

/-- `getCellIndexContaining`, regular_grid.hpp 389-407: one index per axis. -/
def getCellIndexContaining (g : List (Axis K)) (p : List K) : Option (List ℤ) :=
  (List.zipWith Axis.index g p).mapM id

end

/-! ## RectilinearGrid -/

section
variable {K : Type} [Field K] [LinearOrder K]

/-- One search-and-append step of the box constructor, rectilinear_grid.hpp 155-164 (or 165-175):
append `x` unless some division is closer than `eps`. -/
def addDiv (eps : K) (ds : List K) (x : K) : List K :=
  if ds.any fun d => decide (|d - x| < eps) then ds else ds ++ [x]

/-- The divisions along one axis before sorting, rectilinear_grid.hpp 153-177; the boxes are given by
their lower and upper ends along that axis. -/
def boxDivs (eps : K) (boxes : List (K × K)) : List K :=
  boxes.foldl (fun ds b => addDiv eps (addDiv eps ds b.1) b.2) []

/-- `RectilinearGrid(boxes)`, rectilinear_grid.hpp 147-182, along one axis: `std::sort` of the
divisions (179-181). -/
def IsRectAxis (eps : K) (boxes : List (K × K)) (divs : List K) : Prop :=
  IsStdSort (fun a b => decide (a < b)) (boxDivs eps boxes) divs

/-- `getBox`, rectilinear_grid.hpp 387-401, on one axis; an index outside the divisions is an
out-of-bounds read. -/
def rectCell (divs : List K) (i : Nat) : Option (K × K) :=
  (divs[i]?).bind fun lo => (divs[i + 1]?).bind fun hi => some (lo, hi)

/-- The boxes of one row of the id constructor, rectilinear_grid.hpp 205-212: `lo` is `(x, y)`. -/
def rowBoxes (dxdy : List (K × K)) (y : K) : K → List Nat → Option (List ((K × K) × (K × K)))
  | _, [] => some []
  | x, id :: ids => (dxdy[id]?).bind fun d =>
    (rowBoxes dxdy y (x + d.1) ids).bind fun r => some (((x, x + d.1), (y, y + d.2)) :: r)

/-- All boxes of the id constructor, rectilinear_grid.hpp 200-214, rows already reversed (203).  Every
row is read up to the length `ncols` of `ids[0]` (190); a shorter row is an out-of-bounds read, and so
is `row[0]` (213) if `ncols` is 0.  The box list is written in order, so it is modelled as appending. -/
def idBoxes (dxdy : List (K × K)) (ncols : Nat) : K → List (List Nat) →
    Option (List ((K × K) × (K × K)))
  | _, [] => some []
  | y, row :: rows =>
    if row.length < ncols then none else
    (rowBoxes dxdy y 0 (row.take ncols)).bind fun b =>
    (row[0]?).bind fun id0 => (dxdy[id0]?).bind fun d0 =>
    (idBoxes dxdy ncols (y + d0.2) rows).bind fun r => some (b ++ r)

/-- `RectilinearGrid(dxdy, ids)`, rectilinear_grid.hpp 184-215: the boxes handed to the box
constructor; `ids[0]` of an empty list (190) is an out-of-bounds read.  Each element is the pair of
x-extent and y-extent. -/
def gridBoxes (dxdy : List (K × K)) (ids : List (List Nat)) : Option (List ((K × K) × (K × K))) :=
  match ids with
  | [] => none
  | row0 :: _ => idBoxes dxdy row0.length 0 ids.reverse

/-- `RectilinearGrid(dxdy, ids)`: `xs`, `ys` are the resulting divisions. -/
def IsIdGrid (eps : K) (dxdy : List (K × K)) (ids : List (List Nat)) (xs ys : List K) : Prop :=
  ∃ b, gridBoxes dxdy ids = some b ∧ IsRectAxis eps (b.map (·.1)) xs ∧ IsRectAxis eps (b.map (·.2)) ys

end

/-! ## Children of a partition, lattices -/

/-- `arr[k] = v` in a vector: outside it, undefined behaviour. -/
def set? {α : Type} (arr : List α) (k : Nat) (v : α) : Option (List α) :=
  if k < arr.length then some (arr.set k v) else none

/-- The assignments `arr[i * nc + j] = src[top - i][j]` for `j` in `js`. -/
def fillRow {α : Type} (src : List (List α)) (top nc i : Nat) (arr : List α) : List Nat → Option (List α)
  | [] => some arr
  | j :: js =>
    if top < i then none else
    (src[top - i]?).bind fun row => (row[j]?).bind fun v =>
    (set? arr (i * nc + j) v).bind fun arr => fillRow src top nc i arr js

/-- The same for every `i` in `is`. -/
def fillRows {α : Type} (src : List (List α)) (top nc : Nat) (arr : List α) : List Nat → Option (List α)
  | [] => some arr
  | i :: is => (fillRow src top nc i arr (List.range nc)).bind fun arr => fillRows src top nc arr is

/-- `RectilinearPartition(dxdy, ids)`, rectilinear_partition.hpp 102-119, for a grid with `nx × ny`
cells: `resize` to `nx * ny` (112) default values, then the two loops.  The `static_cast<P>` is left
out. -/
def partitionChildren {α : Type} [Inhabited α] (nx ny : Nat) (ids : List (List α)) : Option (List α) :=
  fillRows ids (ny - 1) nx (List.replicate (nx * ny) default) (List.range ny)

/-- `getChild(i, j)`, rectilinear_partition.hpp 152-159, regular_partition.hpp: the flat index of the
2D grid, then an unchecked read. -/
def getChild {α : Type} (nx : Nat) (children : List α) (i j : Nat) : Option α :=
  children[i + j * nx]?

/-- `flattenLattice`, src/mpact/model.cpp 68-87: `none` is the out-of-bounds read of `ids[0]`;
`flat` is what the output vector held before (kept when a row has another length: 75-79). -/
def flattenLattice {α : Type} [Inhabited α] (ids : List (List α)) (flat : List α) : Option (List α) :=
  match ids with
  | [] => none
  | row0 :: rows =>
    let nr := rows.length + 1
    let nc := row0.length
    if rows.any fun r => decide (r.length ≠ nc) then some flat
    else fillRows ids (nr - 1) nc (flat.take (nr * nc) ++ List.replicate (nr * nc - flat.length) default)
      (List.range nr)

/-- `mapFlatIndexToLattice2D`, src/mpact/model.cpp 2283-2295 (`%` and `/` of a zero divisor are
undefined). -/
def mapFlat (flat nx ny : ℤ) : Option (ℤ × ℤ) :=
  if nx = 0 then none else some (flat.tmod nx, ny - flat.tdiv nx - 1)

/-- The row lists of `addCoarseGrid`, src/mpact/model.cpp 1140-1147. -/
def coarseGridIds (nx ny : Nat) : List (List Nat) :=
  (List.range ny).map fun iy => (List.range nx).map fun ix => (ny - 1 - iy) * nx + ix

end Verif.Grid
