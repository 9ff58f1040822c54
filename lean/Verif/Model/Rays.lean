import Verif.Model.Int32
import Mathlib.Analysis.SpecialFunctions.Trigonometric.Arctan
import Mathlib.Algebra.Order.Floor.Ring

/-!
# Model of include/um2/geometry/modular_rays.hpp

Exact real arithmetic; `sin`, `cos`, `atan`, `ceil` are the real functions.
-/

namespace Verif.Rays

/-- `ModularRayParams`, modular_rays.hpp 27-34: box corners, number of rays on the x and y edges,
spacing, direction. -/
structure Params where
  x0 : ℝ
  y0 : ℝ
  x1 : ℝ
  y1 : ℝ
  nx : ℤ
  ny : ℤ
  dx : ℝ
  dy : ℝ
  ux : ℝ
  uy : ℝ

/-- The constructor, modular_rays.hpp 73-106.  `none`: a violated `ASSERT_ASSUME` (82-84), a count
outside `Int` (93-94), or a count which is not positive (`ASSERT` 95-96; with exact arithmetic that is
the angle π/2, for which 97 divides by zero). -/
noncomputable def mk (a s x0 y0 x1 y1 : ℝ) : Option Params :=
  if ¬ (0 < a) then none else
  if ¬ (a < Real.pi) then none else
  if ¬ (0 < s) then none else
  let w := x1 - x0
  let h := y1 - y0
  (chk ⌈|w * Real.sin a / s|⌉).bind fun nx =>
  (chk ⌈|h * Real.cos a / s|⌉).bind fun ny =>
  if ¬ (nx > 0) then none else
  if ¬ (ny > 0) then none else
  let dx := w / nx
  let dy := h / ny
  let aEff := Real.arctan (dy / dx)
  let ux := Real.cos aEff
  let ux := if a > Real.pi / 2 then -ux else ux
  some ⟨x0, y0, x1, y1, nx, ny, dx, dy, ux, Real.sin aEff⟩

/-- `getTotalNumRays`, modular_rays.hpp 165-170. -/
def Params.total (p : Params) : ℤ := p.nx + p.ny

/-- The origin of `getRay(i)`, modular_rays.hpp 112-163; `none`: violated `ASSERT_ASSUME` 139 (the sum is taken not to overflow).  The
direction of every ray is `(ux, uy)`. -/
noncomputable def Params.origin (p : Params) (i : ℤ) : Option (ℝ × ℝ) :=
  if ¬ (i < p.nx + p.ny) then none else
  let half : ℝ := (i : ℝ) + 1 / 2
  match decide (i < p.nx), decide (p.ux < 0) with
  | true, false => some (p.x1 - p.dx * half, p.y0)
  | false, false => some (p.x0, p.y0 + p.dy * (half - p.nx))
  | true, true => some (p.x0 + p.dx * half, p.y0)
  | false, true => some (p.x1, p.y0 + p.dy * (half - p.nx))

end Verif.Rays
