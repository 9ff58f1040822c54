import Verif.Model.Quadratic
import Verif.Model.Roots
import Mathlib.Analysis.SpecialFunctions.Log.Basic

/-!
# Model of the queries of a quadratic segment: include/um2/geometry/quadratic_segment.hpp

Exact real arithmetic, in the plane.  Results that would be NaN are `none`.
-/

namespace Verif.Geom

open Verif.Roots

/-- `isStraight`, quadratic_segment.hpp 266-291 (2D); `eps2` is `epsDistance2<T>()`. If the ends
coincide the first test has returned before the division. -/
noncomputable def isStraight (eps2 : ℝ) (q : Poly 3 2 ℝ) : Bool :=
  let v10 := q 1 - q 0
  let v20 := q 2 - q 0
  if sqNorm v20 ≥ sqNorm v10 then false
  else
    let cp := cross v10 v20
    decide (cp * cp / sqNorm v10 < eps2)

/-! ## Length -/

/-- The formula of `QuadraticSegment::length`, quadratic_segment.hpp 351-360, from the coefficients of
`‖Q'(r)‖² = a r² + b r + c`. The logarithm of a ratio that is not positive, and division by zero, are
`none`. -/
noncomputable def lengthFormula (a b c : ℝ) : Option ℝ :=
  let sa := Real.sqrt a
  let sc := Real.sqrt c
  let sabc := Real.sqrt (a + b + c)
  let dsc := disc a b c
  let a2b := 2 * a + b
  if 2 * sa * sabc + a2b = 0 then none
  else if (2 * sa * sc + b) / (2 * sa * sabc + a2b) ≤ 0 then none
  else
    let num := dsc * Real.log ((2 * sa * sc + b) / (2 * sa * sabc + a2b)) + sa * (2 * (a2b * sabc - b * sc))
    let den := 8 * sa * sa * sa
    if den = 0 then none else some (num / den)

/-- `QuadraticSegment::length`, quadratic_segment.hpp 297-363. -/
noncomputable def qsegLength (eps2 : ℝ) (q : Poly 3 2 ℝ) : Option ℝ :=
  if isStraight eps2 q then some (Real.sqrt (sqDist (q 0) (q 1)))
  else
    let x1 := (polyCoeffs q).2.1
    let x2 := (polyCoeffs q).2.2
    lengthFormula (4 * sqNorm x2) (4 * dot x2 x1) (sqNorm x1)

/-- `perimeter(QuadraticPolygon)`, polygon.hpp 106-118. -/
noncomputable def qpolyPerimeter {m : Nat} (eps2 : ℝ) (v : Poly (2 * (m + 1)) 2 ℝ) : Option ℝ := do
  let l ← qsegLength eps2 (getEdge2 v 0)
  (List.finRange m).foldlM (fun s i => (qsegLength eps2 (getEdge2 v i.succ)).map (s + ·)) l

/-! ## Closest point -/

/-- One pass of the loop over the roots, quadratic_segment.hpp 457-467. -/
noncomputable def closestStep (q : Poly 3 2 ℝ) (p : Pt 2 ℝ) (best : ℝ × ℝ) (rr : ℝ) : ℝ × ℝ :=
  if 0 ≤ rr ∧ rr ≤ 1 then
    let d := sqDist p (qsegAt q rr)
    if d < best.2 then (rr, d) else best
  else best

/-- `QuadraticSegment::pointClosestTo`, quadratic_segment.hpp 410-475; `solve` is `solveCubic`. -/
noncomputable def qsegClosest (solve : ℝ → ℝ → ℝ → ℝ → Option (ℝ × ℝ × ℝ)) (eps2 : ℝ) (q : Poly 3 2 ℝ)
    (p : Pt 2 ℝ) : Option ℝ :=
  if isStraight eps2 q then pointClosestTo ![q 0, q 1] p
  else
    let vc := (polyCoeffs q).1
    let vb := (polyCoeffs q).2.1
    let va := (polyCoeffs q).2.2
    let vw := vc - p
    let a := 2 * sqNorm va
    let b := 3 * dot va vb
    let c := sqNorm vb + 2 * dot va vw
    let d := dot vb vw
    (solve a b c d).map fun roots =>
      let d0 := sqDist p (q 0)
      let d1 := sqDist p (q 1)
      let best := if d1 < d0 then (1, d1) else (0, d0)
      ([roots.1, roots.2.1, roots.2.2].foldl (closestStep q p) best).1

/-- `QuadraticSegment::squaredDistanceTo`, quadratic_segment.hpp 481-488. -/
noncomputable def qsegSqDist (solve : ℝ → ℝ → ℝ → ℝ → Option (ℝ × ℝ × ℝ)) (eps2 : ℝ) (q : Poly 3 2 ℝ)
    (p : Pt 2 ℝ) : Option ℝ :=
  (qsegClosest solve eps2 q p).map fun r => sqDist (qsegAt q r) p

/-! ## Intersection with a ray -/

/-- `QuadraticSegment::intersect(ray, buffer)`, quadratic_segment.hpp 667-701: the values written. -/
noncomputable def qsegIntersect (q : Poly 3 2 ℝ) (o d : Pt 2 ℝ) : List ℝ :=
  let vc := (polyCoeffs q).1
  let vb := (polyCoeffs q).2.1
  let va := (polyCoeffs q).2.2
  let voc := vc - o
  let a := cross va d
  let b := cross vb d
  let c := cross voc d
  let s := solveQuadratic a b c
  [s.1, s.2].flatMap fun s =>
    if 0 ≤ s ∧ s ≤ 1 then
      let r := dot (fun i => voc i + s * (vb i + s * va i)) d
      if 0 ≤ r then [r] else []
    else []

/-- `intersect(PlanarPolygon, ray, buffer)` for quadratic polygons, polygon.hpp 251-262. -/
noncomputable def qpolyIntersect {m : Nat} (v : Poly (2 * m) 2 ℝ) (o d : Pt 2 ℝ) : List ℝ :=
  (List.finRange m).foldl (fun buf i => buf ++ qsegIntersect (getEdge2 v i) o d) []

/-! ## Side of a point -/

/-- `getRotation`, line_segment.hpp 276-313, times a vector; `u` is the unit vector of the chord. -/
def rotate (u v : Pt 2 ℝ) : Pt 2 ℝ := ![u 0 * v 0 + u 1 * v 1, -u 1 * v 0 + u 0 * v 1]

/-- The last part of `isLeft`, quadratic_segment.hpp 614-639, after the change of coordinates that
puts the first end at the origin, the second at `(l, 0)` and the middle vertex `(x2, y2)` above the
axis: `is_left` for the point `p`. -/
noncomputable def leftAbove (l x2 y2 : ℝ) (p : Pt 2 ℝ) : Bool :=
  let bx := -l + 4 * x2
  let by_ := 4 * y2
  let ax := -bx + l
  let ay := -by_
  let roots := solveQuadratic ax bx (-p 0)
  if roots.2 > 10 ^ 15 then decide (p 1 ≥ roots.1 * (by_ + roots.1 * ay))
  else
    let qy0 := roots.1 * (by_ + roots.1 * ay)
    let qy1 := roots.2 * (by_ + roots.2 * ay)
    !(decide (Box.cmin qy0 qy1 ≤ p 1) && decide (p 1 ≤ Box.cmax qy0 qy1))

/-- `QuadraticSegment::isLeft`, quadratic_segment.hpp 529-639. Coinciding ends divide by zero in the
rotation (`none`). -/
noncomputable def qsegIsLeft (eps2 : ℝ) (q : Poly 3 2 ℝ) (p : Pt 2 ℝ) : Option Bool :=
  if isStraight eps2 q then some (areCCW (q 0) (q 1) p)
  else
    let tri : Poly 3 2 ℝ := ![q 0, q 1, bezierControl q]
    let tri := if triIsCCW tri then tri else triFlip tri
    if !triContains tri p then some (areCCW (q 0) (q 1) p)
    else
      let v1 := q 1 - q 0
      let n := Real.sqrt (sqNorm v1)
      if n = 0 then none
      else
        let u : Pt 2 ℝ := fun i => v1 i / n
        let q1 := rotate u v1
        let q2 := rotate u (q 2 - q 0)
        let pr := rotate u (p - q 0)
        let right := decide (q2 1 ≥ 0)
        let q2 := if right then q2 else ![q2 0, -q2 1]
        let pr := if right then pr else ![pr 0, -pr 1]
        if !Box.contains (qsegBox ![fun _ => 0, q1, q2]) pr then some right
        else
          let left := leftAbove (q1 0) (q2 0) (q2 1) pr
          some (if right then left else !left)

/-- `contains(PlanarQuadraticPolygon, p)`, polygon.hpp 214-226: the first edge the point is not left
of decides. -/
noncomputable def qpolyContains {m : Nat} (eps2 : ℝ) (v : Poly (2 * m) 2 ℝ) (p : Pt 2 ℝ) : Option Bool :=
  (List.finRange m).foldr
    (fun i rest => (qsegIsLeft eps2 (getEdge2 v i) p).bind fun b => if b then rest else some false) (some true)

end Verif.Geom
