import Verif.Model.FpQCentroid
import Verif.Model.FpRoots

/-!
# The side of a quadratic segment in floating-point arithmetic

`Verif.Model.QSeg` has the functions in exact arithmetic.
-/

namespace Verif.Fp

noncomputable section

variable {p : ℕ} (R : Rounding ℝ p)

/-- The choices of the compiler: which products are contracted with the sums that they are operands of, in `isStraight` (`s`), the norm (`n`), the products of
the matrix with a vector (`rx`, `ry`), the box (`b0`, `b1`) and the height of the curve (`y`). The other products of sums are by powers of two, which are
exact. -/
structure QLeftFuse where
  s : Bool
  n : Bool
  rx : Bool × Bool
  ry : Bool × Bool
  b0 : Bool
  b1 : Bool
  y : Bool

/-- `getBezierControlPoint`, quadratic_segment.hpp 515-524, one coordinate. -/
def qControl (v0 v1 v2 : ℝ) : ℝ := R.rnd (R.rnd (2 * v2) - R.rnd (R.rnd (v0 + v1) / 2))

/-- The matrix of `getRotation`, line_segment.hpp 276-313, for the unit vector `u` of the chord, times a vector. -/
def qRotate (f : QLeftFuse) (u v : P2 ℝ) : P2 ℝ := (sum2 R f.rx u.1 u.2 v.1 v.2, sum2 R f.ry (-u.2) u.1 v.1 v.2)

/-- `qy`, quadratic_segment.hpp 627, 632, 633. -/
def qHeight (f : QLeftFuse) (by_ r : ℝ) : ℝ := R.rnd (r * R.rnd (by_ + prodIf R f.y (r * -by_)))

/-- `is_left`, quadratic_segment.hpp 614-639, for the chord from the origin to `l` on the axis, the middle node `(x2, y2)` and the point `(x, y)`; `invalid` and
`limit` are the rounded literals `1e16` of the solver and `1e15` of this function. -/
def qLeftAbove (f : QLeftFuse) (invalid limit l x2 y2 x y : ℝ) : Bool :=
  let bx := R.rnd (-l + R.rnd (4 * x2))
  let by_ := R.rnd (4 * y2)
  let ax := R.rnd (-bx + l)
  let roots := solveQuadratic R invalid ax bx (-x)
  if roots.2 > limit then decide (y ≥ qHeight R f by_ roots.1)
  else
    let qy0 := qHeight R f by_ roots.1
    let qy1 := qHeight R f by_ roots.2
    !(decide (min qy0 qy1 ≤ y) && decide (y ≤ max qy0 qy1))

/-- `isLeft` after the change of coordinates, quadratic_segment.hpp 568-639: `q1`, `q2` and `pt` are the rotated end, middle node and point. -/
def qLeftTurned (f : QLeftFuse) (invalid limit : ℝ) (q1 q2 pt : P2 ℝ) : Bool :=
  let right := decide (q2.2 ≥ 0)
  let y2 := if right then q2.2 else -q2.2
  let y := if right then pt.2 else -pt.2
  let bx := qBox R f.b0 f.b1 0 q1.1 q2.1
  let by_ := qBox R f.b0 f.b1 0 q1.2 y2
  if bx.1 ≤ pt.1 ∧ pt.1 ≤ bx.2 ∧ by_.1 ≤ y ∧ y ≤ by_.2 then
    let left := qLeftAbove R f invalid limit q1.1 q2.1 y2 pt.1 y
    if right then left else !left
  else right

/-- `QuadraticSegment::isLeft`, quadratic_segment.hpp 529-639; `eps2` is `epsDistance2<T>()`. Coinciding ends divide by zero in the rotation (`none`). -/
def qIsLeft (f : QLeftFuse) (eps2 invalid limit : ℝ) (q0 q1 q2 pt : P2 ℝ) : Option Bool :=
  if qIsStraight R f.s eps2 q0 q1 q2 then some (areCCW R q0 q1 pt)
  else
    let c : P2 ℝ := (qControl R q0.1 q1.1 q2.1, qControl R q0.2 q1.2 q2.2)
    let inside := if triIsCCW R q0 q1 c then triContains R q0 q1 c pt else triContains R q0 c q1 pt
    if !inside then some (areCCW R q0 q1 pt)
    else
      let v1 := sub R q1 q0
      let v2 := sub R q2 q0
      let n := norm R Real.sqrt f.n [v1.1, v1.2]
      if n = 0 then none
      else
        let u : P2 ℝ := (R.rnd (v1.1 / n), R.rnd (v1.2 / n))
        some (qLeftTurned R f invalid limit (qRotate R f u v1) (qRotate R f u v2) (qRotate R f u (sub R pt q0)))

end

end Verif.Fp
