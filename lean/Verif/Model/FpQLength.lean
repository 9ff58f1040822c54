import Verif.Model.FpQuad

/-!
# The length of a quadratic segment in floating-point arithmetic

`Verif.Model.QSeg` has the function in exact arithmetic.  A result that is not a finite number (the root of a negative number, the logarithm of a
number that is not positive, a division by zero) is `none`.
-/

namespace Verif.Fp

variable {K : Type} [Field K] [LinearOrder K] {p : ℕ} (R : Rounding K p)

/-- The functions of `um2/math`, before (`sqrt`) or after (`log`) they are rounded, and the choices of the compiler: the products of the coefficients
of each coordinate (`bx`, `by'`), those of the loops of `Vec` (`vec`), of the numerator and the denominator of the logarithm (`n`, `d`), of the
difference (`g`, `h`) and of the sum (`s`, `t`) of lines 355-356. -/
structure QLenMath (K : Type) where
  sqrt : K → K
  log : K → K
  bx : Bool
  by' : Bool
  vec : Bool
  n : Bool
  d : Bool
  g : Bool
  h : Bool
  s : Bool
  t : Bool

/-- `a`, `b` and `c`, quadratic_segment.hpp 327-329. -/
def qSpeed (vec : Bool) (x1 x2 : P2 K) : K × K × K :=
  (R.rnd (4 * squaredNorm R vec [x2.1, x2.2]), R.rnd (4 * dot R vec [x2.1, x2.2] [x1.1, x1.2]), squaredNorm R vec [x1.1, x1.2])

/-- The formula of `length`, quadratic_segment.hpp 350-358. -/
def qLenFormula (m : QLenMath K) (a b c : K) : Option K :=
  let abc := R.rnd (R.rnd (a + b) + c)
  if abc < 0 then none
  else
    let sa := R.rnd (m.sqrt a)
    let sc := R.rnd (m.sqrt c)
    let sabc := R.rnd (m.sqrt abc)
    let a2b := R.rnd (R.rnd (2 * a) + b)
    let n := R.rnd (prodIf R m.n (R.rnd (2 * sa) * sc) + b)
    let d := R.rnd (prodIf R m.d (R.rnd (2 * sa) * sabc) + a2b)
    if d = 0 then none
    else
      let ratio := R.rnd (n / d)
      if ratio ≤ 0 then none
      else
        let diff := R.rnd (prodIf R m.g (a2b * sabc) - prodIf R m.h (b * sc))
        let num := R.rnd (prodIf R m.s (disc R a b c * m.log ratio) + prodIf R m.t (sa * R.rnd (2 * diff)))
        let den := R.rnd (R.rnd (R.rnd (8 * sa) * sa) * sa)
        if den = 0 then none else some (R.rnd (num / den))

/-- `QuadraticSegment::length`, quadratic_segment.hpp 297-363, for a segment in the plane; `distanceTo`, vec.hpp 813-818. -/
def qLength (m : QLenMath K) (eps2 : K) (q0 q1 q2 : P2 K) : Option K :=
  if qIsStraight R m.vec eps2 q0 q1 q2 then some (R.rnd (m.sqrt (squaredDistanceTo R m.vec [q0.1, q0.2] [q1.1, q1.2])))
  else
    let cx := qCoeffs R m.bx q0.1 q1.1 q2.1
    let cy := qCoeffs R m.by' q0.2 q1.2 q2.2
    let q := qSpeed R m.vec (cx.1, cy.1) (cx.2, cy.2)
    qLenFormula R m q.1 q.2.1 q.2.2

/-- The loop of `perimeter(QuadraticPolygon)`, polygon.hpp 113-115; a sum with a number that is not finite is not finite. -/
def qPerimeterLoop (m : QLenMath K) (eps2 : K) : K → List (P2 K × P2 K × P2 K) → Option K
  | s, [] => some s
  | s, (q0, q1, q2) :: es => (qLength R m eps2 q0 q1 q2).bind fun l => qPerimeterLoop m eps2 (R.rnd (s + l)) es

/-- `perimeter(QuadraticPolygon)`, polygon.hpp 106-118, for the edges `e :: es`. -/
def qPerimeter (m : QLenMath K) (eps2 : K) (e : P2 K × P2 K × P2 K) (es : List (P2 K × P2 K × P2 K)) : Option K :=
  (qLength R m eps2 e.1 e.2.1 e.2.2).bind fun l => qPerimeterLoop R m eps2 l es

end Verif.Fp
