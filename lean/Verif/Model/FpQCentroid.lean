import Verif.Model.FpNorm
import Verif.Model.FpQLength

/-!
# Centroids and mean chords of quadratic cells in floating-point arithmetic

`Verif.Model.Quadratic` has the functions in exact arithmetic.  `sqrt` is the exact square root, of which `um2::sqrt` is the rounding.
-/

namespace Verif.Fp

variable {K : Type} [Field K] [LinearOrder K] {p : ℕ} (R : Rounding K p)

/-- Which products the compiler contracts with the sum they are operands of: those of the norm (`n`), of the three scalar products (`d`), of the sum of line 962
(`w`), of the matrix with the vector (`u`), of the area (`a`) and of the sum of the moments (`c`). A pair has a choice for each operand. -/
structure QCenFuse where
  n : Bool
  d2 : Bool × Bool
  d3 : Bool × Bool
  d4 : Bool × Bool
  w : Bool × Bool
  ux : Bool × Bool
  uy : Bool × Bool
  a : Bool
  c : Bool

/-- A sum of two products: `Vec::dot`, vec.hpp 729-737, in the plane; the product of a matrix and a vector, mat.hpp 222-231, where the sum begins with zero,
which changes nothing. -/
def sum2 (f : Bool × Bool) (a b x y : K) : K := R.rnd (prodIf R f.1 (a * x) + prodIf R f.2 (b * y))

/-- `enclosedCentroid`, quadratic_segment.hpp 908-966; `none` for the division by a norm of zero. -/
def qEnclosedCentroid (sqrt : K → K) (m : QCenFuse) (q0 q1 q2 : P2 K) : Option (P2 K) :=
  let v12 := sub R q1 q0
  let v13 := sub R q2 q0
  let n := norm R sqrt m.n [v12.1, v12.2]
  if n = 0 then none
  else
    let u1 : P2 K := (R.rnd (v12.1 / n), R.rnd (v12.2 / n))
    let u2 : P2 K := (-u1.2, u1.1)
    let p2ux := sum2 R m.d2 u1.1 u1.2 v12.1 v12.2
    let p3ux := sum2 R m.d3 u1.1 u1.2 v13.1 v13.2
    let p3uy := sum2 R m.d4 u2.1 u2.2 v13.1 v13.2
    let tenth := R.rnd (1 / 10)
    let cu : P2 K := (R.rnd (sum2 R m.w 3 4 p2ux p3ux * tenth), R.rnd (R.rnd (4 * p3uy) * tenth))
    some (R.rnd (sum2 R m.ux u1.1 u2.1 cu.1 cu.2 + q0.1), R.rnd (sum2 R m.uy u1.2 u2.2 cu.1 cu.2 + q0.2))

/-- The loop of `centroid(PlanarQuadraticPolygon)`, polygon.hpp 201-207. -/
def qCentroidLoop (sqrt : K → K) (m : QCenFuse) : K → P2 K → List (P2 K × P2 K × P2 K) → Option (K × P2 K)
  | s, c, [] => some (s, c)
  | s, c, (q0, q1, q2) :: es =>
    (qEnclosedCentroid R sqrt m q0 q1 q2).bind fun g =>
      let a := R.rnd (qEnclosed R m.a q0 q1 q2)
      qCentroidLoop sqrt m (R.rnd (s + qEnclosed R m.a q0 q1 q2))
        (R.rnd (c.1 + prodIf R m.c (a * g.1)), R.rnd (c.2 + prodIf R m.c (a * g.2))) es

/-- `centroid(PlanarQuadraticPolygon)`, polygon.hpp 193-209, given the area and the centroid of the linear polygon; `none` for a division by zero. -/
def qCentroid (sqrt : K → K) (m : QCenFuse) (area : K) (lin : P2 K) (es : List (P2 K × P2 K × P2 K)) : Option (P2 K) :=
  (qCentroidLoop R sqrt m area (R.rnd (area * lin.1), R.rnd (area * lin.2)) es).bind fun s =>
    if s.1 = 0 then none else some (R.rnd (s.2.1 / s.1), R.rnd (s.2.2 / s.1))

/-- `centroid` of a quadratic triangle. -/
def tri6Centroid (sqrt : K → K) (m : QCenFuse) (v0 v1 v2 v3 v4 v5 : P2 K) : Option (P2 K) :=
  qCentroid R sqrt m (triArea R v0 v1 v2) (triCentroid R v0.1 v1.1 v2.1, triCentroid R v0.2 v1.2 v2.2) [(v0, v1, v3), (v1, v2, v4), (v2, v0, v5)]

/-- `centroid` of a quadratic quadrilateral; `f`: the choice of the compiler in the centroid of the linear one. -/
def quad8Centroid (sqrt : K → K) (m : QCenFuse) (f : Bool) (v0 v1 v2 v3 v4 v5 v6 v7 : P2 K) : Option (P2 K) :=
  (quadCentroid R f v0 v1 v2 v3).bind fun g => qCentroid R sqrt m (quadArea R v0 v1 v2 v3) g [(v0, v1, v4), (v1, v2, v5), (v2, v3, v6), (v3, v0, v7)]

/-- `meanChordLength(PlanarPolygon)`, polygon.hpp 237-245, of a quadratic triangle; `pi` is the constant of numbers.hpp 12. -/
def tri6MeanChord (m : QLenMath K) (eps2 pi : K) (f : Bool) (v0 v1 v2 v3 v4 v5 : P2 K) : Option K :=
  (qPerimeter R m eps2 (v0, v1, v3) [(v1, v2, v4), (v2, v0, v5)]).bind fun l =>
    if l = 0 then none else some (R.rnd (R.rnd (pi * tri6Area R f v0 v1 v2 v3 v4 v5) / l))

/-- `meanChordLength(PlanarPolygon)`, polygon.hpp 237-245, of a quadratic quadrilateral. -/
def quad8MeanChord (m : QLenMath K) (eps2 pi : K) (f : Bool) (v0 v1 v2 v3 v4 v5 v6 v7 : P2 K) : Option K :=
  (qPerimeter R m eps2 (v0, v1, v4) [(v1, v2, v5), (v2, v3, v6), (v3, v0, v7)]).bind fun l =>
    if l = 0 then none else some (R.rnd (R.rnd (pi * quad8Area R f v0 v1 v2 v3 v4 v5 v6 v7) / l))

end Verif.Fp
