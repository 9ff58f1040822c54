import Verif.Model.Fp
import Verif.Model.Grid

/-!
# Rectilinear grids in floating-point arithmetic

The constructors of `mesh/rectilinear_grid.hpp` as they run with `float` or `double`; `Verif.Model.Grid` has the same functions in exact arithmetic.
`getBox`, `numCells` and the flat index do no arithmetic with coordinates, so they are those of `Verif.Model.Grid`.
-/

namespace Verif.Fp

open Verif.Grid (rectCell rectNumCells)

variable {K : Type} [Field K] [LinearOrder K] {p : ℕ}

/-- One search-and-append step of the box constructor, rectilinear_grid.hpp 155-164 (or 165-175): append `x` unless the rounded difference to some division
is less than `eps`. -/
def addDiv (R : Rounding K p) (eps : K) (ds : List K) (x : K) : List K :=
  if ds.any fun d => decide (|R.rnd (d - x)| < eps) then ds else ds ++ [x]

/-- The divisions along one axis before sorting, rectilinear_grid.hpp 153-177; the boxes are given by their lower and upper ends along that axis. -/
def boxDivs (R : Rounding K p) (eps : K) (boxes : List (K × K)) : List K :=
  boxes.foldl (fun ds b => addDiv R eps (addDiv R eps ds b.1) b.2) []

/-- `RectilinearGrid(boxes)`, rectilinear_grid.hpp 147-182, along one axis: `std::sort` of the divisions (179-181). -/
def IsRectAxis (R : Rounding K p) (eps : K) (boxes : List (K × K)) (divs : List K) : Prop :=
  IsStdSort (fun a b => decide (a < b)) (boxDivs R eps boxes) divs

/-- The boxes of one row of the id constructor, rectilinear_grid.hpp 205-212: `lo` is `(x, y)`. -/
def rowBoxes (R : Rounding K p) (dxdy : List (K × K)) (y : K) : K → List ℕ → Option (List ((K × K) × (K × K)))
  | _, [] => some []
  | x, id :: ids => (dxdy[id]?).bind fun d =>
    (rowBoxes R dxdy y (R.rnd (x + d.1)) ids).bind fun r => some (((x, R.rnd (x + d.1)), (y, R.rnd (y + d.2))) :: r)

/-- All boxes of the id constructor, rectilinear_grid.hpp 200-214, rows already reversed (203).  Every row is read up to the length `ncols` of `ids[0]`
(190); a shorter row is an out-of-bounds read, and so is `row[0]` (213) if `ncols` is 0. -/
def idBoxes (R : Rounding K p) (dxdy : List (K × K)) (ncols : ℕ) : K → List (List ℕ) → Option (List ((K × K) × (K × K)))
  | _, [] => some []
  | y, row :: rows =>
    if row.length < ncols then none else
    (rowBoxes R dxdy y 0 (row.take ncols)).bind fun b =>
    (row[0]?).bind fun id0 => (dxdy[id0]?).bind fun d0 =>
    (idBoxes R dxdy ncols (R.rnd (y + d0.2)) rows).bind fun r => some (b ++ r)

/-- `RectilinearGrid(dxdy, ids)`, rectilinear_grid.hpp 184-215: the boxes handed to the box constructor. -/
def gridBoxes (R : Rounding K p) (dxdy : List (K × K)) (ids : List (List ℕ)) : Option (List ((K × K) × (K × K))) :=
  match ids with
  | [] => none
  | row0 :: _ => idBoxes R dxdy row0.length 0 ids.reverse

/-- `RectilinearGrid(dxdy, ids)`: `xs`, `ys` are the resulting divisions. -/
def IsIdGrid (R : Rounding K p) (eps : K) (dxdy : List (K × K)) (ids : List (List ℕ)) (xs ys : List K) : Prop :=
  ∃ b, gridBoxes R dxdy ids = some b ∧ IsRectAxis R eps (b.map (·.1)) xs ∧ IsRectAxis R eps (b.map (·.2)) ys

end Verif.Fp
