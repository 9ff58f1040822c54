import Verif.Model.FpGeom
import Verif.Model.FpGrid

/-! Areas and centroids of triangles, quadrilaterals and polygons in floating-point arithmetic.  Halves are exact. -/

namespace Verif.Fp

variable {K : Type} [Field K] [LinearOrder K] {p : ℕ} (R : Rounding K p)

/-- `area(Triangle2)`, triangle.hpp 249-257. -/
def triArea (a b c : P2 K) : K := R.rnd (cross R (sub R b a) (sub R c a) / 2)

/-- `isCCW(Triangle2)`, triangle.hpp 296-301. -/
def triIsCCW (a b c : P2 K) : Bool := areCCW R a b c

/-- One coordinate of `centroid(Triangle2)` and `centroid(Triangle3)`, triangle.hpp 271-283. -/
def triCentroid (a b c : K) : K := R.rnd (R.rnd (R.rnd (a + b) + c) / 3)

/-- `isConvex(Quadrilateral2)`, quadrilateral.hpp 246-258. -/
def quadIsConvex (a b c d : P2 K) : Bool := areCCW R a b c && areCCW R b c d && areCCW R c d a && areCCW R d a b

/-- `area(Quadrilateral2)`, quadrilateral.hpp 291-300. -/
def quadArea (a b c d : P2 K) : K := R.rnd (cross R (sub R c a) (sub R d b) / 2)

/-- `centroid(Quadrilateral2)`, quadrilateral.hpp 314-337: the weights and, coordinate by coordinate, the quotient; `none` for a division by zero.  The compiler may contract
the products and sums (`fused`). -/
def quadCentroid (fused : Bool) (a b c d : P2 K) : Option (P2 K) :=
  let v10 := sub R b a
  let v20 := sub R c a
  let v30 := sub R d a
  let a1 := cross R v10 v20
  let a2 := cross R v20 v30
  let a12 := R.rnd (a1 + a2)
  let e := R.rnd (3 * a12)
  let co := fun q0 q1 q2 q3 : K => R.rnd (mulAdd R fused (mulAdd R fused (R.rnd (a1 * q1)) a2 q3) a12 (R.rnd (q0 + q2)) / e)
  if e = 0 then none else some (co a.1 b.1 c.1 d.1, co a.2 b.2 c.2 d.2)

/-- The loop of `area(PlanarLinearPolygon)`, polygon.hpp 150-152. -/
def shoelaceLoop : K → List (P2 K) → K
  | s, v :: w :: vs => shoelaceLoop (R.rnd (s + cross R v w)) (w :: vs)
  | s, _ => s

/-- `area(PlanarLinearPolygon)`, polygon.hpp 143-155, for the vertices `v :: vs`. -/
def polyArea (v : P2 K) (vs : List (P2 K)) : K := R.rnd (shoelaceLoop R (cross R ((v :: vs).getLast (by simp)) v) (v :: vs) / 2)

end Verif.Fp
