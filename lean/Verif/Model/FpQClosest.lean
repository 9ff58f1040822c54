import Verif.Model.FpQuad

/-!
# The point of a quadratic segment that is closest to a point, in floating-point arithmetic

`Verif.Model.QSeg` has the functions in exact arithmetic.  `solve` is `solveCubic`: the theorems hold for any function in its place.
-/

namespace Verif.Fp

variable {K : Type} [Field K] [LinearOrder K] {p : ℕ} (R : Rounding K p)

/-- The choices of the compiler: the three products of each coordinate of the interpolation, the products of the coefficients, and those of the loops of `Vec`. -/
structure QClosestFused where
  x : Bool × Bool × Bool
  y : Bool × Bool × Bool
  bx : Bool
  by' : Bool
  c : Bool
  vec : Bool

/-- `interpolate(QuadraticSegment)`, quadratic_segment.hpp 199-208, for a segment in the plane. -/
def qAt (f : QClosestFused) (q0 q1 q2 : P2 K) (r : K) : P2 K :=
  (qInterp R f.x.1 f.x.2.1 f.x.2.2 q0.1 q1.1 q2.1 r, qInterp R f.y.1 f.y.2.1 f.y.2.2 q0.2 q1.2 q2.2 r)

/-- `Vec::squaredDistanceTo`, vec.hpp 805-811, for points of the plane. -/
def sqDistP2 (fused : Bool) (u v : P2 K) : K := squaredDistanceTo R fused [u.1, u.2] [v.1, v.2]

/-- The coefficients of the cubic equation, quadratic_segment.hpp 438-446. -/
def qCubic (f : QClosestFused) (q0 q1 q2 pt : P2 K) : K × K × K × K :=
  let cx := qCoeffs R f.bx q0.1 q1.1 q2.1
  let cy := qCoeffs R f.by' q0.2 q1.2 q2.2
  let va := [cx.2, cy.2]
  let vb := [cx.1, cy.1]
  let vw := subV R [q0.1, q0.2] [pt.1, pt.2]
  (R.rnd (2 * squaredNorm R f.vec va), R.rnd (3 * dot R f.vec va vb), R.rnd (squaredNorm R f.vec vb + prodIf R f.c (2 * dot R f.vec va vw)), dot R f.vec vb vw)

/-- One pass of the loop over the roots, quadratic_segment.hpp 464-473. -/
def qClosestStep (f : QClosestFused) (q0 q1 q2 pt : P2 K) (best : K × K) (rr : K) : K × K :=
  if 0 ≤ rr ∧ rr ≤ 1 then
    let d := sqDistP2 R f.vec pt (qAt R f q0 q1 q2 rr)
    if d < best.2 then (rr, d) else best
  else best

/-- `r` and `sq_dist` before the loop, quadratic_segment.hpp 456-462. -/
def qClosestEnds (f : QClosestFused) (q0 q1 pt : P2 K) : K × K :=
  if sqDistP2 R f.vec pt q1 < sqDistP2 R f.vec pt q0 then (1, sqDistP2 R f.vec pt q1) else (0, sqDistP2 R f.vec pt q0)

/-- `QuadraticSegment::pointClosestTo`, quadratic_segment.hpp 410-475; `none` is the division of zero by zero for a straight segment with equal ends. -/
def qClosest (solve : K → K → K → K → K × K × K) (f : QClosestFused) (eps2 : K) (q0 q1 q2 pt : P2 K) : Option K :=
  if qIsStraight R f.vec eps2 q0 q1 q2 then pointClosestTo R f.vec [q0.1, q0.2] [q1.1, q1.2] [pt.1, pt.2]
  else
    let e := qCubic R f q0 q1 q2 pt
    let roots := solve e.1 e.2.1 e.2.2.1 e.2.2.2
    some ([roots.1, roots.2.1, roots.2.2].foldl (qClosestStep R f q0 q1 q2 pt) (qClosestEnds R f q0 q1 pt)).1

/-- `QuadraticSegment::squaredDistanceTo`, quadratic_segment.hpp 481-488. -/
def qSqDist (solve : K → K → K → K → K × K × K) (f : QClosestFused) (eps2 : K) (q0 q1 q2 pt : P2 K) : Option K :=
  (qClosest R solve f eps2 q0 q1 q2 pt).map fun r => sqDistP2 R f.vec (qAt R f q0 q1 q2 r) pt

end Verif.Fp
