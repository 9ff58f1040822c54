import Verif.Model.FpGrid

/-!
# Linear interpolation in floating-point arithmetic

`LineSegment::operator()` (one coordinate at a time, as the operators of `Vec` do) and the interpolation of cross sections in temperature; the
exact versions are in `Verif.Model.Geom` and `Verif.Model.XSec`.  With `fused` the compiler has made one operation of the product and the
sum.  The square root is an argument.
-/

namespace Verif.Fp

variable {K : Type} [Field K] [LinearOrder K] {p : ℕ}

/-- `interpolate(l, r)`, line_segment.hpp 154-166, one coordinate: `l[0] + r * (l[1] - l[0])`. -/
def lerp (R : Rounding K p) (fused : Bool) (a b r : K) : K := mulAdd R fused a r (R.rnd (b - a))

/-- `d` of `Nuclide::interpXS`, nuclide.cpp 95-100; dividing by zero is `none`. -/
def weight (R : Rounding K p) (sq : K → K) (t0 t1 t : K) : Option K :=
  if R.rnd (sq t1 - sq t0) = 0 then none else some (R.rnd (R.rnd (sq t - sq t0) / R.rnd (sq t1 - sq t0)))

/-- One value of `Nuclide::interpXS` between the temperatures `t0` and `t1`, nuclide.cpp 112-118. -/
def interpValue (R : Rounding K p) (fused : Bool) (sq : K → K) (t0 t1 t x0 x1 : K) : Option K :=
  (weight R sq t0 t1 t).bind fun d => some (lerp R fused x0 x1 d)

end Verif.Fp
