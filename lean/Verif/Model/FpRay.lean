import Verif.Model.FpGeom

/-! Intersections of rays with segments and polygons in floating-point arithmetic.  `cross` has explicit `fma`, so nothing is left to contract. -/

namespace Verif.Fp

variable {K : Type} [Field K] [LinearOrder K] {p : ℕ} (R : Rounding K p)

/-- `LineSegment::intersect(ray, buffer)`, line_segment.hpp 357-369, for the segment from `a` to `b` and the ray from `o` in direction `d`: the value written
if the result is 1, `none` if it is 0.  If `z` is zero then `s` is infinite or NaN and the result is 0. -/
def segIntersect (a b o d : P2 K) : Option K :=
  let v := sub R b a
  let u := sub R o a
  let z := cross R v d
  if z = 0 then none
  else
    let s := R.rnd (cross R u d / z)
    let r := R.rnd (cross R u v / z)
    if 0 ≤ s ∧ s ≤ 1 ∧ 0 ≤ r then some r else none

/-- `intersect(PlanarPolygon, ray, buffer)` for linear polygons, polygon.hpp 251-262, with `getEdge`, 61-70: the values written, edge by edge. -/
def polyIntersect (vs : List (P2 K)) (o d : P2 K) : List K :=
  (vs.zip (vs.rotate 1)).flatMap fun e => (segIntersect R e.1 e.2 o d).toList

end Verif.Fp
