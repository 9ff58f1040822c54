import Verif.Model.FpGeom
import Mathlib.Analysis.Real.Sqrt

/-!
# `solveQuadratic` in floating-point arithmetic

Model of quadratic_equation.hpp 48-108 with every operation rounded (see `Verif.Model.Fp`); `um2::sqrt` rounds the exact root.
-/

namespace Verif.Fp

noncomputable section

variable {p : ℕ} (R : Rounding ℝ p)

/-- `um2::copysign(x, y)` for `y ≠ 0` (the only use). -/
def copysign (x y : ℝ) : ℝ := if y < 0 then -|x| else |x|

/-- `um2::sqrt`. -/
def fsqrt (x : ℝ) : ℝ := R.rnd (Real.sqrt x)

/-- `q`, quadratic_equation.hpp 101. -/
def quadQ (b d : ℝ) : ℝ := R.rnd (-R.rnd (b + copysign (fsqrt R d) b) / 2)

/-- `solveQuadratic`, quadratic_equation.hpp 66-108; `invalid` is the rounded literal `1e16`. -/
def solveQuadratic (invalid a b c : ℝ) : ℝ × ℝ :=
  if a = 0 then
    if b = 0 then (invalid, invalid) else (R.rnd (-c / b), invalid)
  else if b = 0 then
    let x0sq := R.rnd (-c / a)
    if x0sq < 0 then (invalid, invalid)
    else
      let x0 := fsqrt R x0sq
      (-x0, x0)
  else
    let d := disc R a b c
    if d < 0 then (invalid, invalid)
    else
      let q := quadQ R b d
      let r0 := R.rnd (q / a)
      let r1 := R.rnd (c / q)
      if r1 < r0 then (r1, r0) else (r0, r1)

end

end Verif.Fp
