import Verif.Model.Quadratic

/-!
# Intersections of quadratic segments

Model of `intersect` and `intersects` for two quadratic segments, include/um2/geometry/quadratic_segment.hpp 703-891, and of
`hasSelfIntersection` and `fixSelfIntersection`, polygon.hpp 264-387.

* Exact arithmetic. `tol` is `err_tol = 100 * epsDistance`, `eps2` is `epsDistance2`.
* The buffer is the list of the points written; its capacity is not modelled.
-/

namespace Verif.QCross

open Verif.Geom

variable {K : Type} [Field K] [LinearOrder K]

/-- The test on the scaled boxes, quadratic_segment.hpp 713-722. -/
def near (q1 q2 : Poly 3 2 K) : Bool :=
  Box.intersects (Box.scale (qsegBox q1) (65 / 64)) (Box.scale (qsegBox q2) (65 / 64))

/-- One step of Newton's method, quadratic_segment.hpp 734-751; `none` if the determinant is zero. -/
def newtonStep (q1 q2 : Poly 3 2 K) (r s : K) : Option (K × K) :=
  let j1 := qsegJac q1 r
  let j2 := -qsegJac q2 s
  let a := j1 0
  let b := j2 0
  let c := j1 1
  let d := j2 1
  let det := Mx.det2x2 a b c d
  let f := qsegAt q1 r - qsegAt q2 s
  if det = 0 then none
  else some (r - (d / det * f 0 + -b / det * f 1), s - (-c / det * f 0 + a / det * f 1))

/-- The do-while loop, quadratic_segment.hpp 732-755: at most `n` steps. -/
def newtonLoop (q1 q2 : Poly 3 2 K) : Nat → K → K → K → Option (K × K × K)
  | 0, r, s, err => some (r, s, err)
  | n + 1, r, s, err =>
    match newtonStep q1 q2 r s with
    | none => none
    | some (r', s') =>
      let err' := sqNorm (qsegAt q1 r' - qsegAt q2 s')
      if err' < err ∧ 0 < n then newtonLoop q1 q2 n r' s' err' else some (r', s', err')

/-- The part of `intersect` for `iters > 4`, quadratic_segment.hpp 727-766. -/
def leaf (tol : K) (q1 q2 : Poly 3 2 K) : Option (Pt 2 K) :=
  match newtonLoop q1 q2 10 0 0 (sqNorm (qsegAt q1 0 - qsegAt q2 0)) with
  | none => none
  | some (r, s, err) =>
    if err < tol ∧ -tol ≤ r ∧ r ≤ 1 + tol ∧ -tol ≤ s ∧ s ≤ 1 + tol then some (qsegAt q1 r) else none

/-- The inner loop of the removal of duplicates, quadratic_segment.hpp 786-792: `todo` is what is behind index `j`, an element
to be removed is replaced by the last one. -/
def dropNear (p : Pt 2 K → Bool) : Nat → List (Pt 2 K) → List (Pt 2 K) → List (Pt 2 K)
  | n + 1, done, y :: rest =>
    if p y then
      match rest.getLast? with
      | none => done
      | some z => dropNear p n done (z :: rest.dropLast)
    else dropNear p n (done ++ [y]) rest
  | _, done, todo => done ++ todo

/-- The removal of duplicates, quadratic_segment.hpp 785-793. -/
def dedup (eps2 : K) : Nat → List (Pt 2 K) → List (Pt 2 K)
  | n + 1, x :: l => x :: dedup eps2 n (dropNear (fun y => decide (sqDist x y < eps2)) l.length [] l)
  | _, l => l

/-- `intersect(q1, q2, buffer, iters)`, quadratic_segment.hpp 707-797, with `n = 5 - iters`. -/
def crossings (tol eps2 : K) : Nat → Poly 3 2 K → Poly 3 2 K → List (Pt 2 K)
  | 0, q1, q2 => if near q1 q2 then (leaf tol q1 q2).toList else []
  | n + 1, q1, q2 =>
    if near q1 q2 then
      let l := crossings tol eps2 n (qsegLeft q1) (qsegLeft q2) ++ crossings tol eps2 n (qsegLeft q1) (qsegRight q2) ++
        crossings tol eps2 n (qsegRight q1) (qsegLeft q2) ++ crossings tol eps2 n (qsegRight q1) (qsegRight q2)
      dedup eps2 l.length l
    else []

/-- `intersects(q1, q2, iters)`, quadratic_segment.hpp 799-867, with `n = 5 - iters`. -/
def meets (tol : K) : Nat → Poly 3 2 K → Poly 3 2 K → Bool
  | 0, q1, q2 => if near q1 q2 then (leaf tol q1 q2).isSome else false
  | n + 1, q1, q2 =>
    if near q1 q2 then
      meets tol n (qsegLeft q1) (qsegLeft q2) || meets tol n (qsegLeft q1) (qsegRight q2) ||
        meets tol n (qsegRight q1) (qsegLeft q2) || meets tol n (qsegRight q1) (qsegRight q2)
    else false

/-- `QuadraticSegment::intersect(other, buffer)`, quadratic_segment.hpp 869-876. -/
def qsegCross (tol eps2 : K) (q1 q2 : Poly 3 2 K) : List (Pt 2 K) := crossings tol eps2 5 q1 q2

/-- `QuadraticSegment::intersects(other)`, quadratic_segment.hpp 878-885. -/
def qsegMeets (tol : K) (q1 q2 : Poly 3 2 K) : Bool := meets tol 5 q1 q2

/-! ### Polygons -/

/-- Two edges with more than one intersection. -/
def twice (tol eps2 : K) {m : Nat} (v : Poly (2 * m) 2 K) (i j : Fin m) : Bool :=
  decide (1 < (qsegCross tol eps2 (getEdge2 v i) (getEdge2 v j)).length)

/-- `hasSelfIntersection`, polygon.hpp 269-298, of a polygon with `k + 2` edges. -/
def hasSelfIntersection (tol eps2 : K) {k : Nat} (v : Poly (2 * (k + 2)) 2 K) : Bool :=
  (List.finRange (k + 1)).any (fun i => twice tol eps2 v i.castSucc i.succ) ||
    twice tol eps2 v (Fin.last (k + 1)) 0 ||
    if h : k = 2 then twice tol eps2 v ⟨0, by omega⟩ ⟨2, by omega⟩ || twice tol eps2 v ⟨1, by omega⟩ ⟨3, by omega⟩ else false

/-- The two edges chosen by `fixSelfIntersection`, polygon.hpp 332-361: the first hit of the loop, overwritten by every later
hit. -/
def badEdges (tol eps2 : K) {k : Nat} (v : Poly (2 * (k + 2)) 2 K) : Option (Fin (k + 2) × Fin (k + 2)) :=
  let e := ((List.finRange (k + 1)).find? fun i => twice tol eps2 v i.castSucc i.succ).map fun i => (i.castSucc, i.succ)
  let e := if twice tol eps2 v (Fin.last (k + 1)) 0 then some (Fin.last (k + 1), 0) else e
  if h : k = 2 then
    let e := if twice tol eps2 v ⟨0, by omega⟩ ⟨2, by omega⟩ then some (⟨0, by omega⟩, ⟨2, by omega⟩) else e
    if twice tol eps2 v ⟨1, by omega⟩ ⟨3, by omega⟩ then some (⟨1, by omega⟩, ⟨3, by omega⟩) else e
  else e

/-- A segment with its middle vertex moved. -/
def moveMid (q : Poly 3 2 K) (u : Pt 2 K) : Poly 3 2 K := ![q 0, q 1, q 2 + u]

/-- The second part of `fixSelfIntersection`, polygon.hpp 371-387, `e0` being the edge to be changed: the index of the moved
vertex, the displacement and the polygon, or `some none` if the edges still have two intersections. -/
def repair (tol eps2 : K) {k : Nat} (v : Poly (2 * (k + 2)) 2 K) (e0 e1 : Fin (k + 2)) :
    Option (Option (Fin (2 * (k + 2)) × Pt 2 K × Poly (2 * (k + 2)) 2 K)) :=
  let edge0 := getEdge2 v e0
  let edge1 := getEdge2 v e1
  (pointClosestTo ![edge1 0, edge1 1] (edge1 2)).map fun r =>
    let disp := edge1 2 - segAt ![edge1 0, edge1 1] r
    if 1 < (qsegCross tol eps2 (moveMid edge0 disp) edge1).length then none
    else
      let vid : Fin (2 * (k + 2)) := ⟨k + 2 + e0.val, by omega⟩
      some (vid, disp, fun i => if i = vid then v i + disp else v i)

/-- `fixSelfIntersection`, polygon.hpp 323-388. No bad edges: `getEdge(-1)`, undefined (`none`); an edge with equal ends
divides zero by zero (`none`). Distances are compared by their squares. -/
def fixSelfIntersection (tol eps2 : K) {k : Nat} (v : Poly (2 * (k + 2)) 2 K) :
    Option (Option (Fin (2 * (k + 2)) × Pt 2 K × Poly (2 * (k + 2)) 2 K)) :=
  match badEdges tol eps2 v with
  | none => none
  | some (e0, e1) =>
    match segSqDist ![getEdge2 v e0 0, getEdge2 v e0 1] (getEdge2 v e0 2),
      segSqDist ![getEdge2 v e1 0, getEdge2 v e1 1] (getEdge2 v e1 2) with
    | some d0, some d1 => if d1 < d0 then repair tol eps2 v e1 e0 else repair tol eps2 v e0 e1
    | _, _ => none

end Verif.QCross
