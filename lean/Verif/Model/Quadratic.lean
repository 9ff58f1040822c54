import Verif.Model.Geom
import Verif.Model.Box
import Mathlib.Analysis.Real.Sqrt

/-!
# Model of the quadratic shapes: include/um2/geometry/{quadratic_segment,quadratic_triangle,
quadratic_quadrilateral,polygon}.hpp

Exact arithmetic.  A quadratic segment is `Fin 3 → Point` (ends, then the middle vertex).
-/

namespace Verif.Geom

/-- `getEdge(QuadraticPolygon, i)`, polygon.hpp 72-83, for `2 * m` vertices; `getEdgeConn`,
face_vertex_mesh.hpp 363-367. -/
def getEdge2 {m : Nat} {α : Type} (v : Fin (2 * m) → α) (i : Fin m) : Fin 3 → α :=
  if h : i.val < m - 1 then
    ![v ⟨i.val, by omega⟩, v ⟨i.val + 1, by omega⟩, v ⟨i.val + m, by omega⟩]
  else ![v ⟨m - 1, by omega⟩, v ⟨0, by omega⟩, v ⟨2 * m - 1, by omega⟩]

/-- `QuadraticTriangle::flip`, quadratic_triangle.hpp 247-253; `flipFace`, face_vertex_mesh.hpp
419-421. -/
def tri6Flip {α : Type} (t : Fin 6 → α) : Fin 6 → α := swapV (swapV t 1 2) 3 5

/-- `QuadraticQuadrilateral::flip`, quadratic_quadrilateral.hpp 270-276; `flipFace`,
face_vertex_mesh.hpp 422-424. -/
def quad8Flip {α : Type} (q : Fin 8 → α) : Fin 8 → α := swapV (swapV q 1 3) 4 7

/-- `linearPolygon`, polygon.hpp 45-54. -/
def linearPolygon {m : Nat} {α : Type} (v : Fin (2 * m) → α) : Fin m → α := fun i => v ⟨i.val, by omega⟩

section
variable {D : Nat} {K : Type} [Field K] [LinearOrder K]

/-- `interpolate(QuadraticSegment, r)`, quadratic_segment.hpp 199-208. -/
def qsegAt (q : Poly 3 D K) (r : K) : Pt D K := fun i =>
  (2 * r - 1) * (r - 1) * q 0 i + (2 * r - 1) * r * q 1 i + -4 * r * (r - 1) * q 2 i

/-- `jacobian(QuadraticSegment, r)`, quadratic_segment.hpp 221-229. -/
def qsegJac (q : Poly 3 D K) (r : K) : Pt D K := fun i =>
  (4 * r - 3) * (q 0 i - q 2 i) + (4 * r - 1) * (q 1 i - q 2 i)

/-- `getPolyCoeffs`, quadratic_segment.hpp 242-260: `(C, B, A)`. -/
def polyCoeffs (q : Poly 3 D K) : Pt D K × Pt D K × Pt D K :=
  (q 0, fun i => 3 * (q 2 i - q 0 i) + (q 2 i - q 1 i),
    fun i => -2 * ((q 2 i - q 0 i) + (q 2 i - q 1 i)))

/-- One coordinate of `boundingBox`, quadratic_segment.hpp 380-402: the least and greatest value. -/
def qsegRange (v0 v1 b a : K) : K × K :=
  let mn := Box.cmin v0 v1
  let mx := Box.cmax v0 v1
  if a = 0 then (mn, mx)
  else
    let hb := b / 2
    let r := -hb / a
    if 0 < r ∧ r < 1 then
      let x := v0 + r * hb
      (Box.cmin mn x, Box.cmax mx x)
    else (mn, mx)

/-- `QuadraticSegment::boundingBox`, quadratic_segment.hpp 369-404. -/
def qsegBox (q : Poly 3 D K) : Box.AABB D K :=
  let f := fun i => qsegRange (q 0 i) (q 1 i) ((polyCoeffs q).2.1 i) ((polyCoeffs q).2.2 i)
  ⟨fun i => (f i).1, fun i => (f i).2⟩

/-- `enclosedArea(QuadraticSegment2)`, quadratic_segment.hpp 891-902. -/
def enclosedArea (q : Poly 3 2 K) : K := 2 / 3 * cross (q 2 - q 0) (q 1 - q 0)

/-- `curvesLeft`, quadratic_segment.hpp 972-978. -/
def curvesLeft (q : Poly 3 2 K) : Bool := areCCW (q 0) (q 2) (q 1)

/-- `getBezierControlPoint`, quadratic_segment.hpp 515-523. -/
def bezierControl (q : Poly 3 D K) : Pt D K := fun i => 2 * q 2 i - (q 0 i + q 1 i) / 2

/-- The two halves made by the bisection of `intersect(QuadraticSegment, QuadraticSegment)`,
quadratic_segment.hpp 768-775. -/
def qsegLeft (q : Poly 3 D K) : Poly 3 D K := ![q 0, q 2, qsegAt q (1 / 4)]
def qsegRight (q : Poly 3 D K) : Poly 3 D K := ![q 2, q 1, qsegAt q (3 / 4)]

/-! ## Quadratic triangles -/

/-- The weights of `QuadraticTriangle::operator()`, quadratic_triangle.hpp 173-179. -/
def tri6W (r s : K) : Fin 6 → K :=
  let t := 1 - r - s
  ![t * (2 * t - 1), r * (2 * r - 1), s * (2 * s - 1), 4 * r * t, 4 * r * s, 4 * s * t]

/-- `QuadraticTriangle::operator()(r, s)`, quadratic_triangle.hpp 169-181. -/
def tri6At (v : Poly 6 D K) (r s : K) : Pt D K :=
  let w := tri6W r s
  fun i => w 0 * v 0 i + w 1 * v 1 i + w 2 * v 2 i + w 3 * v 3 i + w 4 * v 4 i + w 5 * v 5 i

/-- `jacobian(QuadraticTriangle, r, s)`, quadratic_triangle.hpp 187-198: its two columns. -/
def tri6Jac (v : Poly 6 D K) (r s : K) : Pt D K × Pt D K :=
  let rr := 4 * r
  let ss := 4 * s
  let tt := rr + ss - 3
  (fun i => tt * (v 0 i - v 3 i) + (rr - 1) * (v 1 i - v 3 i) + ss * (v 4 i - v 5 i),
   fun i => tt * (v 0 i - v 5 i) + (ss - 1) * (v 2 i - v 5 i) + rr * (v 4 i - v 3 i))

/-- `area(PlanarQuadraticPolygon)`, polygon.hpp 157-171, with the area of the triangle. -/
def tri6Area (v : Poly 6 2 K) : K :=
  (List.finRange 3).foldl (fun a i => a + enclosedArea (getEdge2 (m := 3) v i))
    (triArea (linearPolygon (m := 3) v))

/-- `QuadraticTriangle::isCCW`, quadratic_triangle.hpp 298-304. -/
def tri6IsCCW (v : Poly 6 2 K) : Bool := triIsCCW (linearPolygon (m := 3) v)

/-! ## Quadratic quadrilaterals -/

/-- The weights of `QuadraticQuadrilateral::operator()`, quadratic_quadrilateral.hpp 176-187. -/
def quad8W (r s : K) : Fin 8 → K :=
  let xi := 2 * r - 1
  let eta := 2 * s - 1
  ![1 / 4 * (1 - xi) * (1 - eta) * (-xi - eta - 1), 1 / 4 * (1 + xi) * (1 - eta) * (xi - eta - 1),
    1 / 4 * (1 + xi) * (1 + eta) * (xi + eta - 1), 1 / 4 * (1 - xi) * (1 + eta) * (-xi + eta - 1),
    1 / 2 * (1 - xi * xi) * (1 - eta), 1 / 2 * (1 - eta * eta) * (1 + xi),
    1 / 2 * (1 - xi * xi) * (1 + eta), 1 / 2 * (1 - eta * eta) * (1 - xi)]

/-- `QuadraticQuadrilateral::operator()(r, s)`, quadratic_quadrilateral.hpp 170-189. -/
def quad8At (v : Poly 8 D K) (r s : K) : Pt D K :=
  let w := quad8W r s
  fun i => w 0 * v 0 i + w 1 * v 1 i + w 2 * v 2 i + w 3 * v 3 i + w 4 * v 4 i + w 5 * v 5 i +
    w 6 * v 6 i + w 7 * v 7 i

/-- `jacobian(QuadraticQuadrilateral, r, s)`, quadratic_quadrilateral.hpp 195-220: its columns. -/
def quad8Jac (q : Poly 8 D K) (r s : K) : Pt D K × Pt D K :=
  let xi := 2 * r - 1
  let eta := 2 * s - 1
  let w0 := (eta - eta * eta) / 2
  let w1 := (eta + eta * eta) / 2
  let w2 := xi - xi * eta
  let w3 := xi + xi * eta
  let w4 := 1 - eta * eta
  let w5 := (xi - xi * xi) / 2
  let w6 := (xi + xi * xi) / 2
  let w7 := eta - xi * eta
  let w8 := eta + xi * eta
  let w9 := 1 - xi * xi
  (fun i => w0 * (q 0 i - q 1 i) + w1 * (q 2 i - q 3 i) + w2 * (q 0 i + q 1 i - 2 * q 4 i) +
      w3 * (q 2 i + q 3 i - 2 * q 6 i) + w4 * (q 5 i - q 7 i),
   fun i => w5 * (q 0 i - q 3 i) + w6 * (q 2 i - q 1 i) + w7 * (q 0 i + q 3 i - 2 * q 7 i) +
      w8 * (q 1 i + q 2 i - 2 * q 5 i) + w9 * (q 6 i - q 4 i))

/-- `area(PlanarQuadraticPolygon)`, polygon.hpp 157-171, with the area of the quadrilateral. -/
def quad8Area (v : Poly 8 2 K) : K :=
  (List.finRange 4).foldl (fun a i => a + enclosedArea (getEdge2 (m := 4) v i))
    (quadArea (linearPolygon (m := 4) v))

/-- `boundingBox(PlanarQuadraticPolygon)`, polygon.hpp 124-134, for `2 * (m + 1)` vertices. -/
def qpolyBox {m : Nat} (v : Poly (2 * (m + 1)) 2 K) : Box.AABB 2 K :=
  (List.finRange m).foldl (fun a i => Box.add a (qsegBox (getEdge2 v i.succ))) (qsegBox (getEdge2 v 0))

end

/-- `enclosedCentroid(QuadraticSegment2)`, quadratic_segment.hpp 908-966. Coinciding ends divide by
zero (`none`). -/
noncomputable def enclosedCentroid (q : Poly 3 2 ℝ) : Option (Pt 2 ℝ) :=
  let v12 := q 1 - q 0
  let v13 := q 2 - q 0
  let n := Real.sqrt (sqNorm v12)
  if n = 0 then none
  else
    let u1 : Pt 2 ℝ := fun i => v12 i / n
    let u2 : Pt 2 ℝ := ![-u1 1, u1 0]
    let p2ux := dot u1 v12
    let p3ux := dot u1 v13
    let p3uy := dot u2 v13
    let c0 := (3 * p2ux + 4 * p3ux) * (1 / 10)
    let c1 := (4 * p3uy) * (1 / 10)
    some fun i => (c0 * u1 i + c1 * u2 i) + q 0 i

/-- `centroid(PlanarQuadraticPolygon)`, polygon.hpp 193-208, from the area and centroid of the linear
polygon and the edges. Division by zero area is `none`. -/
noncomputable def quadraticCentroid (linArea : ℝ) (linCentroid : Pt 2 ℝ) (edges : List (Poly 3 2 ℝ)) :
    Option (Pt 2 ℝ) := do
  let s ← edges.foldlM (fun (s : ℝ × Pt 2 ℝ) e => do
    let c ← enclosedCentroid e
    some (s.1 + enclosedArea e, fun i => s.2 i + enclosedArea e * c i))
    (linArea, fun i => linArea * linCentroid i)
  if s.1 = 0 then none else some fun i => s.2 i / s.1

end Verif.Geom
