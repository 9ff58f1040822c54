import Verif.Model.FpQuad
import Verif.Model.FpRoots

/-!
# Rays and quadratic segments in floating-point arithmetic

`Verif.Model.QSeg` has the functions in exact arithmetic.
-/

namespace Verif.Fp

noncomputable section

variable {p : ℕ} (R : Rounding ℝ p)

/-- The choices of the compiler: which products are contracted with the sums that they are operands of. -/
structure QRayFused where
  bx : Bool
  by' : Bool
  ix : Bool
  iy : Bool
  ox : Bool
  oy : Bool
  dot : Bool

/-- `a`, `b` and `c`, quadratic_segment.hpp 673-686. -/
def qRayEq (f : QRayFused) (q0 q1 q2 o d : P2 ℝ) : ℝ × ℝ × ℝ :=
  let cx := qCoeffs R f.bx q0.1 q1.1 q2.1
  let cy := qCoeffs R f.by' q0.2 q1.2 q2.2
  (cross R (cx.2, cy.2) d, cross R (cx.1, cy.1) d, cross R (sub R q0 o) d)

/-- One coordinate of `voc + s * (vb + s * va)`, quadratic_segment.hpp 693. -/
def qRayPoint (fi fo : Bool) (voc vb va s : ℝ) : ℝ := R.rnd (voc + prodIf R fo (s * R.rnd (vb + prodIf R fi (s * va))))

/-- `r`, quadratic_segment.hpp 693. -/
def qRayDist (f : QRayFused) (q0 q1 q2 o d : P2 ℝ) (s : ℝ) : ℝ :=
  let cx := qCoeffs R f.bx q0.1 q1.1 q2.1
  let cy := qCoeffs R f.by' q0.2 q1.2 q2.2
  let voc := sub R q0 o
  dot R f.dot [qRayPoint R f.ix f.ox voc.1 cx.1 cx.2 s, qRayPoint R f.iy f.oy voc.2 cy.1 cy.2 s] [d.1, d.2]

/-- `QuadraticSegment::intersect(ray, buffer)`, quadratic_segment.hpp 667-701: the values written.  `inv` is the rounded literal `1e16` of `solveQuadratic`. -/
def qRay (inv : ℝ) (f : QRayFused) (q0 q1 q2 o d : P2 ℝ) : List ℝ :=
  let e := qRayEq R f q0 q1 q2 o d
  let s := solveQuadratic R inv e.1 e.2.1 e.2.2
  [s.1, s.2].filterMap fun s =>
    if 0 ≤ s ∧ s ≤ 1 then
      let r := qRayDist R f q0 q1 q2 o d s
      if 0 ≤ r then some r else none
    else none

/-- `intersect(PlanarPolygon, ray, buffer)` for quadratic polygons, polygon.hpp 251-262; the edges are given by `getEdge`. -/
def qRayCell (inv : ℝ) (f : QRayFused) (edges : List (P2 ℝ × P2 ℝ × P2 ℝ)) (o d : P2 ℝ) : List ℝ :=
  edges.foldl (fun buf e => buf ++ qRay R inv f e.1 e.2.1 e.2.2 o d) []

end

end Verif.Fp
