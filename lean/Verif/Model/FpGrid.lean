import Verif.Model.Fp
import Verif.Model.Grid

/-!
# Regular grids in floating-point arithmetic

`mesh/regular_grid.hpp` for a grid of `float` or `double`, one axis at a time (the code treats the axes independently); `Verif.Model.Grid` has
the same functions in exact arithmetic.  With `fused` the compiler has made one operation of a product and a sum, as GCC does by
default on a machine that has it.
-/

namespace Verif.Fp

open Verif.Grid (Axis clampInt)

variable {K : Type} [Field K] [LinearOrder K] {p : ℕ}

/-- `a + b * c`. -/
def mulAdd (R : Rounding K p) (fused : Bool) (a b c : K) : K := if fused then R.rnd (a + b * c) else R.rnd (a + R.rnd (b * c))

/-- `maxima(i)`, regular_grid.hpp 254-261 and 274-281. -/
def gridMax (R : Rounding K p) (fused : Bool) (g : Axis K) : K := mulAdd R fused g.min g.dx (R.rnd (g.n : K))

/-- `getBox`, regular_grid.hpp 290-305: lower and upper end; the index is converted to `T`. -/
def gridCell (R : Rounding K p) (fused : Bool) (g : Axis K) (i : ℤ) : K × K :=
  (mulAdd R fused g.min g.dx (R.rnd (i : K)), R.rnd (mulAdd R fused g.min g.dx (R.rnd (i : K)) + g.dx))

/-- `getCellCentroid`, regular_grid.hpp 343-359. -/
def gridCentroid (R : Rounding K p) (fused : Bool) (g : Axis K) (i : ℤ) : K := mulAdd R fused g.min g.dx (R.rnd (R.rnd (i : K) + 1 / 2))

variable [FloorRing K]

/-- `um2::floor((x - _minima[i]) / _spacing[i])`, regular_grid.hpp 371, 373 and 397. -/
def gridFloor (R : Rounding K p) (g : Axis K) (x : K) : ℤ := ⌊R.rnd (R.rnd (x - g.min) / g.dx)⌋

/-- The body of the loop of `getCellIndexContaining`, regular_grid.hpp 396-405. -/
def gridIndex (R : Rounding K p) (g : Axis K) (x : K) : Option ℤ :=
  (chk (gridFloor R g x)).bind fun r => if g.n - 1 < r ∨ r < 0 then some (-1) else some (clampInt r 0 (g.n - 1))

/-- The body of the loop of `getCellIndicesIntersecting`, regular_grid.hpp 368-385. -/
def gridRange (R : Rounding K p) (g : Axis K) (lo hi : K) : Option (ℤ × ℤ) :=
  (chk (gridFloor R g lo)).bind fun r0 =>
  (chk (gridFloor R g hi)).bind fun r1 =>
  if g.n - 1 < r0 ∨ r1 < 0 then some (-1, -1) else some (clampInt r0 0 (g.n - 1), clampInt r1 0 (g.n - 1))

end Verif.Fp
