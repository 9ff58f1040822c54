import Verif.Model.FpArea
import Verif.Model.FpDist

/-!
# Quadratic segments and cells in floating-point arithmetic

Functions of `QuadraticSegment`, coordinate by coordinate where the code treats the coordinates separately; `Verif.Model.Quadratic` has them in exact
arithmetic.  The compiler may contract a product with the sum that it is an operand of: that is a choice for each product.
-/

namespace Verif.Fp

variable {K : Type} [Field K] [LinearOrder K] {p : ℕ} (R : Rounding K p)

/-- A product that is an operand of a sum. -/
def prodIf (fused : Bool) (x : K) : K := if fused then x else R.rnd x

/-- `interpolate(QuadraticSegment)`, quadratic_segment.hpp 199-208, one coordinate. -/
def qInterp (f0 f1 f2 : Bool) (v0 v1 v2 r : K) : K :=
  let a := R.rnd (R.rnd (2 * r) - 1)
  let b := R.rnd (r - 1)
  R.rnd (R.rnd (prodIf R f0 (R.rnd (a * b) * v0) + prodIf R f1 (R.rnd (a * r) * v1)) + prodIf R f2 (R.rnd (R.rnd (-4 * r) * b) * v2))

/-- `jacobian(QuadraticSegment)`, quadratic_segment.hpp 221-229, one coordinate. -/
def qJacobian (f0 f1 : Bool) (v0 v1 v2 r : K) : K :=
  R.rnd (prodIf R f0 (R.rnd (R.rnd (4 * r) - 3) * R.rnd (v0 - v2)) + prodIf R f1 (R.rnd (R.rnd (4 * r) - 1) * R.rnd (v1 - v2)))

/-- `getPolyCoeffs`, quadratic_segment.hpp 241-259, one coordinate: the coefficients `b` and `a`. -/
def qCoeffs (f0 : Bool) (v0 v1 v2 : K) : K × K :=
  (R.rnd (prodIf R f0 (3 * R.rnd (v2 - v0)) + R.rnd (v2 - v1)), R.rnd (-2 * R.rnd (R.rnd (v2 - v0) + R.rnd (v2 - v1))))

/-- `QuadraticSegment::boundingBox`, quadratic_segment.hpp 369-404, one coordinate. -/
def qBox (f0 f1 : Bool) (v0 v1 v2 : K) : K × K :=
  let b := (qCoeffs R f0 v0 v1 v2).1
  let a := (qCoeffs R f0 v0 v1 v2).2
  if a = 0 then (min v0 v1, max v0 v1)
  else
    let hb := R.rnd (b / 2)
    let r := R.rnd (-hb / a)
    if 0 < r ∧ r < 1 then
      let x := R.rnd (v0 + prodIf R f1 (r * hb))
      (min (min v0 v1) x, max (max v0 v1) x)
    else (min v0 v1, max v0 v1)

/-- `enclosedArea(QuadraticSegment2)`, quadratic_segment.hpp 891-902. -/
def qEnclosed (f : Bool) (q0 q1 q2 : P2 K) : K := prodIf R f (R.rnd (2 / 3) * cross R (sub R q2 q0) (sub R q1 q0))

/-- `QuadraticSegment::curvesLeft`, quadratic_segment.hpp 972-978. -/
def qCurvesLeft (q0 q1 q2 : P2 K) : Bool := areCCW R q0 q2 q1

/-- `isStraight(QuadraticSegment2)`, quadratic_segment.hpp 266-291; `eps2` is `epsDistance2<T>()`. -/
def qIsStraight (fused : Bool) (eps2 : K) (q0 q1 q2 : P2 K) : Bool :=
  let v10 := sub R q1 q0
  let v20 := sub R q2 q0
  let v10sq := squaredNorm R fused [v10.1, v10.2]
  let v20sq := squaredNorm R fused [v20.1, v20.2]
  if v10sq ≤ v20sq then false
  else
    let cp := cross R v10 v20
    decide (R.rnd (R.rnd (cp * cp) / v10sq) < eps2)

/-- The loop of `area(PlanarQuadraticPolygon)`, polygon.hpp 163-167. -/
def qAreaLoop (f : Bool) : K → List (P2 K × P2 K × P2 K) → K
  | s, [] => s
  | s, (q0, q1, q2) :: es => qAreaLoop f (R.rnd (s + qEnclosed R f q0 q1 q2)) es

/-- `area` of a quadratic triangle, polygon.hpp 157-171. -/
def tri6Area (f : Bool) (v0 v1 v2 v3 v4 v5 : P2 K) : K := qAreaLoop R f (triArea R v0 v1 v2) [(v0, v1, v3), (v1, v2, v4), (v2, v0, v5)]

/-- `area` of a quadratic quadrilateral, polygon.hpp 157-171. -/
def quad8Area (f : Bool) (v0 v1 v2 v3 v4 v5 v6 v7 : P2 K) : K :=
  qAreaLoop R f (quadArea R v0 v1 v2 v3) [(v0, v1, v4), (v1, v2, v5), (v2, v3, v6), (v3, v0, v7)]

end Verif.Fp
