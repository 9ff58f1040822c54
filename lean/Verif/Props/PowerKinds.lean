import Verif.Props.Power
import Verif.Props.QuadMeasure

/-!
# C65: the measures that weight the faces

The area and the centroid used by `getPowers` are, for each of the four face types, the area and the
centre of mass of the face, as boundary integrals (`sweep`, `moment`).
-/

namespace Verif.Power

open Geom

theorem C65_tri (v : Poly 3 2 ℝ) :
    triKind.area v = sweepLine (v 0) (v 1) + sweepLine (v 1) (v 2) + sweepLine (v 2) (v 0) ∧
    ∃ c, triKind.centroid v = some c ∧ ∀ k, triKind.area v * c k =
      moment (straight (v 0) (v 1)) k + moment (straight (v 1) (v 2)) k + moment (straight (v 2) (v 0)) k := by
  have ha : triArea v = area2 (v 0) (v 1) (v 2) / 2 := (C28_area v).1
  refine ⟨?_, _, rfl, ?_⟩
  · show triArea v = _
    rw [ha]; unfold area2 sweepLine; ring
  · show ∀ k, triArea v * triCentroid v k = _
    refine Fin.forall_fin_two.2 ⟨?_, ?_⟩ <;>
    · rw [ha, moment_straight, moment_straight, moment_straight]
      simp only [area2, triCentroid, if_true, one_ne_zero, if_false]; ring

theorem C65_quad (v : Poly 4 2 ℝ) :
    quadKind.area v = sweepLine (v 0) (v 1) + sweepLine (v 1) (v 2) + sweepLine (v 2) (v 3) + sweepLine (v 3) (v 0) ∧
    (quadKind.area v = 0 → quadKind.centroid v = none) ∧
    (quadKind.area v ≠ 0 → ∃ c, quadKind.centroid v = some c ∧ ∀ k, quadKind.area v * c k =
      moment (straight (v 0) (v 1)) k + moment (straight (v 1) (v 2)) k + moment (straight (v 2) (v 3)) k +
      moment (straight (v 3) (v 0)) k) := by
  refine ⟨?_, fun h => if_pos h, fun h => ⟨_, if_neg h, ?_⟩⟩
  · show quadArea v = _
    unfold quadArea sweepLine; rw [cross_eq]; simp only [Pi.sub_apply]; ring
  · show ∀ k, quadArea v * quadCentroid v k = _
    refine Fin.forall_fin_two.2 ⟨?_, ?_⟩ <;>
    · rw [C29_centroid v h, moment_straight, moment_straight, moment_straight, moment_straight,
        (C28_area _).1, (C28_area _).1]
      simp [area2, triCentroid]; ring

theorem C65_tri6 (v : Poly 6 2 ℝ) :
    tri6Kind.area v = ∑ i, sweep (getEdge2 (m := 3) v i) ∧
    (v 0 ≠ v 1 → v 1 ≠ v 2 → v 2 ≠ v 0 → tri6Kind.area v ≠ 0 →
      ∃ c, tri6Kind.centroid v = some c ∧ ∀ k, tri6Kind.area v * c k = ∑ i, moment (getEdge2 (m := 3) v i) k) :=
  ⟨C68_tri6_area v, fun h0 h1 h2 h => C68_tri6_centroid v h0 h1 h2 h⟩

/-- The centroid of a curved quadrilateral whose corners span no area is `0 / 0`, even if the curved
face has a centroid. -/
theorem C65_quad8 (v : Poly 8 2 ℝ) :
    quad8Kind.area v = ∑ i, sweep (getEdge2 (m := 4) v i) ∧
    (quadArea (linearPolygon (m := 4) v) = 0 → quad8Kind.centroid v = none) ∧
    (v 0 ≠ v 1 → v 1 ≠ v 2 → v 2 ≠ v 3 → v 3 ≠ v 0 → quadArea (linearPolygon (m := 4) v) ≠ 0 →
      quad8Kind.area v ≠ 0 →
      ∃ c, quad8Kind.centroid v = some c ∧ ∀ k, quad8Kind.area v * c k = ∑ i, moment (getEdge2 (m := 4) v i) k) := by
  refine ⟨C68_quad8_area v, fun h => if_pos h, fun h0 h1 h2 h3 hl h => ?_⟩
  obtain ⟨c, hc, hm⟩ := C68_quad8_centroid v h0 h1 h2 h3 hl h
  exact ⟨c, (if_neg hl).trans hc, hm⟩

example : ∃ v : Poly 8 2 ℝ, v 0 ≠ v 1 ∧ v 1 ≠ v 2 ∧ v 2 ≠ v 3 ∧ v 3 ≠ v 0 ∧
    quadArea (linearPolygon (m := 4) v) ≠ 0 ∧ quad8Kind.area v ≠ 0 := by
  refine ⟨![![0, 0], ![1, 0], ![1, 1], ![0, 1], ![1/2, -1/4], ![1, 1/2], ![1/2, 1], ![0, 1/2]], ?_, ?_, ?_, ?_, ?_, ?_⟩
  · intro h; have := congrFun h 0; simp at this
  · intro h; have := congrFun h 1; simp at this
  · intro h; have := congrFun h 0; simp at this
  · intro h; have := congrFun h 1; simp at this
  · simp [quadArea, cross_eq, linearPolygon]
  · show quad8Area _ ≠ 0
    rw [quad8Area_eq]
    simp [quadArea, enclosedArea, cross_eq, linearPolygon, getEdge2]; norm_num

end Verif.Power
