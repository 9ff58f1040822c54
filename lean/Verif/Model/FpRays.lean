import Verif.Model.FpBox
import Verif.Model.Int32

/-!
# Modular rays in floating-point arithmetic

`include/um2/geometry/modular_rays.hpp` with `float` or `double`; `Verif.Model.Rays` has the same functions in exact arithmetic.  The values of the
library's `sin(a)` and `cos(a)`, and the pair `cos(atan(t))`, `sin(atan(t))` for each `t`, are parameters.
-/

namespace Verif.Fp

variable {K : Type} [Field K] [LinearOrder K] [FloorRing K] {p : ℕ}

/-- `ModularRayParams`, modular_rays.hpp 27-34. -/
structure RayParams (K : Type) where
  x0 : K
  y0 : K
  x1 : K
  y1 : K
  nx : ℤ
  ny : ℤ
  dx : K
  dy : K
  ux : K
  uy : K

/-- The number of rays on an edge, modular_rays.hpp 90-91: `len` is its length, `f` the sine or cosine of the angle. -/
def rayCount (R : Rounding K p) (len f s : K) : ℤ := ⌈|R.rnd (R.rnd (len * f) / s)|⌉

/-- The constructor, modular_rays.hpp 73-106. `sinA` and `cosA` are the values of `sin(a)` and `cos(a)`, `obtuse` is `a > pi_2<T>`, `trig t` is
`(cos(atan(t)), sin(atan(t)))`.  `none`: `s` is not positive (84), a count is no `Int` (93-94) or is not positive (95-96). The counts divide as they
are (97): `ceil` of a floating-point number is one. -/
def rayParams (R : Rounding K p) (trig : K → K × K) (sinA cosA s : K) (obtuse : Bool) (x0 y0 x1 y1 : K) : Option (RayParams K) :=
  if ¬ (0 < s) then none else
  let w := R.rnd (x1 - x0)
  let h := R.rnd (y1 - y0)
  (chk (rayCount R w sinA s)).bind fun nx =>
  (chk (rayCount R h cosA s)).bind fun ny =>
  if ¬ (nx > 0) then none else
  if ¬ (ny > 0) then none else
  let dx := R.rnd (w / nx)
  let dy := R.rnd (h / ny)
  let u := trig (R.rnd (dy / dx))
  some ⟨x0, y0, x1, y1, nx, ny, dx, dy, if obtuse then -u.1 else u.1, u.2⟩

/-- `a - b * c`; with `fused` the compiler has made one operation of it. -/
def mulSub (R : Rounding K p) (fused : Bool) (a b c : K) : K := if fused then R.rnd (a - b * c) else R.rnd (a - R.rnd (b * c))

/-- The origin of `getRay(i)`, modular_rays.hpp 112-163; `none`: `Int` overflow or a violated `ASSERT_ASSUME` (139). -/
def RayParams.origin (R : Rounding K p) (fused : Bool) (r : RayParams K) (i : ℤ) : Option (K × K) :=
  (chk (r.nx + r.ny)).bind fun total =>
  if ¬ (i < total) then none else
  let half := R.rnd (R.rnd (i : K) + 1 / 2)
  match decide (i < r.nx), decide (r.ux < 0) with
  | true, false => some (mulSub R fused r.x1 r.dx half, r.y0)
  | false, false => some (r.x0, mulAdd R fused r.y0 r.dy (R.rnd (half - R.rnd (r.nx : K))))
  | true, true => some (mulAdd R fused r.x0 r.dx half, r.y0)
  | false, true => some (r.x1, mulAdd R fused r.y0 r.dy (R.rnd (half - R.rnd (r.nx : K))))

end Verif.Fp
