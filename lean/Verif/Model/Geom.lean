import Verif.Model.Matrix
import Mathlib.Algebra.BigOperators.Fin
import Mathlib.Data.Fin.VecNotation
import Mathlib.Data.List.FinRange
import Mathlib.Algebra.Order.Field.Basic

/-!
# Model of the linear shapes: include/um2/geometry/{point,line_segment,triangle,quadrilateral,polygon}.hpp

Exact arithmetic over a linearly ordered field `K`.  A point is `Fin D → K`; a shape with `N` vertices
is `Fin N → Fin D → K`.
-/

namespace Verif.Geom

/-- `Point<D, T>`, point.hpp 18-24. -/
abbrev Pt (D : Nat) (K : Type) := Fin D → K

/-- The `N` vertices of a shape (`_v`, e.g. triangle.hpp 35). -/
abbrev Poly (N D : Nat) (K : Type) := Fin N → Pt D K

/-- `um2::swap(v[i], v[j])` (vertices of a shape, or vertex ids of a mesh face). -/
def swapV {N : Nat} {α : Type} (v : Fin N → α) (i j : Fin N) : Fin N → α :=
  fun k => if k = i then v j else if k = j then v i else v k

/-- `Triangle::flip`, triangle.hpp 315-320; `flipFace` of a mesh of triangles, face_vertex_mesh.hpp
415-416. -/
def triFlip {α : Type} (t : Fin 3 → α) : Fin 3 → α := swapV t 1 2

/-- `Quadrilateral::flip`, quadrilateral.hpp 372-377; `flipFace`, face_vertex_mesh.hpp 417-418. -/
def quadFlip {α : Type} (q : Fin 4 → α) : Fin 4 → α := swapV q 1 3

/-- `getEdge(LinearPolygon, i)`, polygon.hpp 61-70; `getEdgeConn`, face_vertex_mesh.hpp 359-362. -/
def getEdge {N : Nat} {α : Type} (v : Fin N → α) (i : Fin N) : Fin 2 → α :=
  if h : i.val < N - 1 then ![v i, v ⟨i.val + 1, by omega⟩]
  else ![v ⟨N - 1, by omega⟩, v ⟨0, by omega⟩]

section
variable {D : Nat} {K : Type} [Field K] [LinearOrder K]

/-- `Vec::dot`, vec.hpp 728-737 (the order of summation is immaterial in exact arithmetic). -/
def dot (a b : Pt D K) : K := ∑ i, a i * b i

/-- `Vec::squaredNorm`, vec.hpp 739-748. -/
def sqNorm (a : Pt D K) : K := ∑ i, a i * a i

/-- `Vec::squaredDistanceTo`, vec.hpp 805-811. -/
def sqDist (a b : Pt D K) : K := ∑ i, (a i - b i) * (a i - b i)

/-- `Vec::cross` in 2D, vec.hpp 785-794. -/
def cross (a b : Pt 2 K) : K := Mx.det2x2 (a 0) (a 1) (b 0) (b 1)

/-- `areCCW`, point.hpp 51-60. -/
def areCCW (a b c : Pt 2 K) : Bool := decide (0 ≤ cross (b - a) (c - a))

/-- `areApproxCCW`, point.hpp 64-73. -/
def areApproxCCW (eps : K) (a b c : Pt 2 K) : Bool := decide (-eps ≤ cross (b - a) (c - a))

/-- `clamp`, stdlib/algorithm/clamp.hpp 9-18 (`lo ≤ hi`). -/
def clamp (v lo hi : K) : K := if v < lo then lo else if hi < v then hi else v

/-! ## Line segments -/

/-- `interpolate(LineSegment, r)`, line_segment.hpp 154-159. -/
def segAt (l : Poly 2 D K) (r : K) : Pt D K := fun i => l 0 i + r * (l 1 i - l 0 i)

/-- `pointClosestTo(LineSegment, p)`, line_segment.hpp 221-236. A segment of length zero divides zero
by zero (`none`). -/
def pointClosestTo (l : Poly 2 D K) (p : Pt D K) : Option K :=
  let ab := l 1 - l 0
  if sqNorm ab = 0 then none
  else
    let r := dot (p - l 0) ab / sqNorm ab
    some (clamp (clamp r 0 1) 0 1)

/-- `squaredDistanceTo(LineSegment, p)`, line_segment.hpp 249-256. -/
def segSqDist (l : Poly 2 D K) (p : Pt D K) : Option K :=
  (pointClosestTo l p).map fun r => sqDist (segAt l r) p

/-- `LineSegment::isLeft`, line_segment.hpp 319-325. -/
def isLeft (l : Poly 2 2 K) (p : Pt 2 K) : Bool := areCCW (l 0) (l 1) p

/-- `LineSegment::intersect(ray, buffer)`, line_segment.hpp 357-369: the value written if the result
is 1, `none` if it is 0. If `z` is zero then `s` is infinite or NaN and the result is 0. -/
def segIntersect (l : Poly 2 2 K) (o d : Pt 2 K) : Option K :=
  let v := l 1 - l 0
  let u := o - l 0
  let z := cross v d
  if z = 0 then none
  else
    let s := cross u d / z
    let r := cross u v / z
    if 0 ≤ s ∧ s ≤ 1 ∧ 0 ≤ r then some r else none

/-! ## Triangles -/

/-- `Triangle::operator()(r, s)`, triangle.hpp 170-179. -/
def triAt (t : Poly 3 D K) (r s : K) : Pt D K := fun i => (1 - r - s) * t 0 i + r * t 1 i + s * t 2 i

/-- `jacobian(Triangle)`, triangle.hpp 185-190: its two columns. -/
def triJac (t : Poly 3 D K) : Pt D K × Pt D K := (t 1 - t 0, t 2 - t 0)

/-- `area(Triangle2)`, triangle.hpp 249-257. -/
def triArea (t : Poly 3 2 K) : K := cross (t 1 - t 0) (t 2 - t 0) / 2

/-- `centroid(Triangle)`, triangle.hpp 271-283. -/
def triCentroid (t : Poly 3 D K) : Pt D K := fun i => (t 0 i + t 1 i + t 2 i) / 3

/-- `isCCW(Triangle2)`, triangle.hpp 296-301. -/
def triIsCCW (t : Poly 3 2 K) : Bool := areCCW (t 0) (t 1) (t 2)

/-- `Triangle::contains(p)`, triangle.hpp 337-349. -/
def triContains (t : Poly 3 2 K) (p : Pt 2 K) : Bool :=
  areCCW (t 0) (t 1) p && areCCW (t 1) (t 2) p && areCCW (t 2) (t 0) p

/-! ## Quadrilaterals -/

/-- `Quadrilateral::operator()(r, s)`, quadrilateral.hpp 166-180. -/
def quadAt (q : Poly 4 D K) (r s : K) : Pt D K := fun i =>
  (1 - r) * (1 - s) * q 0 i + r * (1 - s) * q 1 i + r * s * q 2 i + (1 - r) * s * q 3 i

/-- `jacobian(Quadrilateral, r, s)`, quadrilateral.hpp 186-196: its two columns. -/
def quadJac (q : Poly 4 D K) (r s : K) : Pt D K × Pt D K :=
  (fun i => (1 - s) * (q 1 i - q 0 i) - s * (q 3 i - q 2 i),
   fun i => (1 - r) * (q 3 i - q 0 i) - r * (q 1 i - q 2 i))

/-- `isConvex(Quadrilateral2)`, quadrilateral.hpp 246-258. -/
def quadIsConvex (q : Poly 4 2 K) : Bool :=
  areCCW (q 0) (q 1) (q 2) && areCCW (q 1) (q 2) (q 3) && areCCW (q 2) (q 3) (q 0) &&
    areCCW (q 3) (q 0) (q 1)

/-- `area(Quadrilateral2)`, quadrilateral.hpp 291-300. -/
def quadArea (q : Poly 4 2 K) : K := cross (q 2 - q 0) (q 3 - q 1) / 2

/-- `centroid(Quadrilateral2)`, quadrilateral.hpp 314-337. -/
def quadCentroid (q : Poly 4 2 K) : Pt 2 K :=
  let a1 := cross (q 1 - q 0) (q 2 - q 0)
  let a2 := cross (q 2 - q 0) (q 3 - q 0)
  let a12 := a1 + a2
  fun i => (a1 * q 1 i + a2 * q 3 i + a12 * (q 0 i + q 2 i)) / (3 * a12)

/-- `isCCW(Quadrilateral2)`, quadrilateral.hpp 351-358. -/
def quadIsCCW (eps : K) (q : Poly 4 2 K) : Bool :=
  areApproxCCW eps (q 0) (q 1) (q 2) && areApproxCCW eps (q 0) (q 2) (q 3)

/-- `Quadrilateral::contains(p)`, quadrilateral.hpp 383-394. -/
def quadContains (q : Poly 4 2 K) (p : Pt 2 K) : Bool :=
  areCCW (q 0) (q 1) p && areCCW (q 1) (q 2) p && areCCW (q 2) (q 3) p && areCCW (q 3) (q 0) p

/-! ## Polygons with any number of vertices (a nonempty list) -/

/-- `intersect(PlanarPolygon, ray, buffer)` for linear polygons, polygon.hpp 251-262: the values
written, edge by edge (`hits` is their number). -/
def polyIntersect {N : Nat} (v : Poly N 2 K) (o d : Pt 2 K) : List K :=
  (List.finRange N).foldl (fun buf i => buf ++ (segIntersect (getEdge v i) o d).toList) []

/-- Twice the area: the sum of polygon.hpp 149-152, over the vertices `p :: ps`. The pairs of the loop
`i < N - 1` are the consecutive vertices. -/
def shoelace2 (p : Pt 2 K) (ps : List (Pt 2 K)) : K :=
  ((p :: ps).zip ps).foldl (fun s e => s + cross e.1 e.2) (cross ((p :: ps).getLast (by simp)) p)

/-- `area(PlanarLinearPolygon)`, polygon.hpp 143-155. -/
def polyArea (p : Pt 2 K) (ps : List (Pt 2 K)) : K := shoelace2 p ps / 2

/-- The loop of `centroid(PlanarLinearPolygon)`, polygon.hpp 181-187: `area_sum`, `centroid_sum`. -/
def centroidSums (p : Pt 2 K) (ps : List (Pt 2 K)) : K × Pt 2 K :=
  let l := (p :: ps).getLast (by simp)
  ((p :: ps).zip ps).foldl
    (fun s e => (s.1 + cross e.1 e.2, fun i => s.2 i + cross e.1 e.2 * (e.1 i + e.2 i)))
    (cross l p, fun i => cross l p * (l i + p i))

/-- `centroid(PlanarLinearPolygon)`, polygon.hpp 177-191. -/
def polyCentroid (p : Pt 2 K) (ps : List (Pt 2 K)) : Pt 2 K :=
  fun i => (centroidSums p ps).2 i / (3 * (centroidSums p ps).1)

end

end Verif.Geom
