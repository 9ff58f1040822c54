import Verif.Model.QSeg
import Verif.Props.Roots
import Verif.Props.Quadratic

/-!
# C73: a ray meets a quadratic segment exactly where the code says
-/

namespace Verif.Geom

open Verif.Roots

/-- A vector parallel to a unit vector is its projection times that vector. -/
theorem parallel_unit (w d : Pt 2 ℝ) (hd : sqNorm d = 1) (hc : cross w d = 0) (i : Fin 2) :
    w i = dot w d * d i := by
  rw [cross_eq] at hc
  unfold sqNorm at hd
  unfold dot
  rw [Fin.sum_univ_two] at hd ⊢
  fin_cases i
  · simp only [Fin.zero_eta, Fin.isValue]
    linear_combination -(w 0) * hd + d 1 * hc
  · simp only [Fin.mk_one, Fin.isValue]
    linear_combination -(w 1) * hd - d 0 * hc

/-- The polynomial that is solved is the distance of the curve from the line of the ray. -/
theorem cross_poly (q : Poly 3 2 ℝ) (o d : Pt 2 ℝ) (s : ℝ) :
    cross (polyCoeffs q).2.2 d * s ^ 2 + cross (polyCoeffs q).2.1 d * s + cross ((polyCoeffs q).1 - o) d =
      cross (qsegAt q s - o) d := by
  simp only [cross_eq, polyCoeffs, qsegAt, Pi.sub_apply]; ring

theorem sentinel_far : ¬ ((0 : ℝ) ≤ invalid ∧ invalid ≤ 1) := by
  unfold invalid; norm_num

/-- The buffer holds exactly the distances along the ray at which it meets the curve (a tangent
counts twice), at most two of them; a curve inside the line of the ray gives none. -/
theorem C73_intersect (q : Poly 3 2 ℝ) (o d : Pt 2 ℝ) (hd : sqNorm d = 1) :
    (qsegIntersect q o d).length ≤ 2 ∧
    ((∃ s, cross (qsegAt q s - o) d ≠ 0) → ∀ t, t ∈ qsegIntersect q o d ↔
      0 ≤ t ∧ ∃ s, 0 ≤ s ∧ s ≤ 1 ∧ ∀ i, o i + t * d i = qsegAt q s i) ∧
    ((∀ s, cross (qsegAt q s - o) d = 0) → qsegIntersect q o d = []) := by
  obtain ⟨hs, hc, -⟩ := C20_roots (cross (polyCoeffs q).2.2 d) (cross (polyCoeffs q).2.1 d)
    (cross ((polyCoeffs q).1 - o) d)
  have hat : ∀ s i, ((polyCoeffs q).1 - o) i + s * ((polyCoeffs q).2.1 i + s * (polyCoeffs q).2.2 i) =
      qsegAt q s i - o i := by
    intro s i; simp only [polyCoeffs, qsegAt, Pi.sub_apply]; ring
  have hat' : ∀ s, (fun i => ((polyCoeffs q).1 - o) i +
      s * ((polyCoeffs q).2.1 i + s * (polyCoeffs q).2.2 i)) = qsegAt q s - o := by
    intro s; funext i; rw [hat]; rfl
  refine ⟨?_, fun hne t => ?_, fun hz => ?_⟩
  · unfold qsegIntersect
    dsimp only
    simp only [List.flatMap_cons, List.flatMap_nil, List.append_nil, List.length_append]
    have h1 : ∀ s : ℝ, (if 0 ≤ s ∧ s ≤ 1 then
        if 0 ≤ dot (fun i => ((polyCoeffs q).1 - o) i + s * ((polyCoeffs q).2.1 i + s * (polyCoeffs q).2.2 i)) d
        then [dot (fun i => ((polyCoeffs q).1 - o) i + s * ((polyCoeffs q).2.1 i + s * (polyCoeffs q).2.2 i)) d]
        else [] else []).length ≤ 1 := by
      intro s; split_ifs <;> simp
    exact Nat.add_le_add (h1 _) (h1 _)
  · have hnz : cross (polyCoeffs q).2.2 d ≠ 0 ∨ cross (polyCoeffs q).2.1 d ≠ 0 ∨
        cross ((polyCoeffs q).1 - o) d ≠ 0 := by
      by_contra h
      push Not at h
      obtain ⟨s, hs⟩ := hne
      apply hs
      rw [← cross_poly, h.1, h.2.1, h.2.2]; ring
    have hc' := hc hnz
    unfold qsegIntersect
    dsimp only
    simp only [hat']
    rw [List.mem_flatMap]
    constructor
    · rintro ⟨s, hmem, ht⟩
      simp only [List.mem_cons, List.not_mem_nil, or_false] at hmem
      split_ifs at ht with h01 hr
      · rw [List.mem_singleton] at ht
        have hns : s ≠ invalid := by rintro rfl; exact sentinel_far h01
        have hroot := hs s hmem hns
        rw [cross_poly] at hroot
        refine ⟨ht ▸ hr, s, h01.1, h01.2, fun i => ?_⟩
        have := parallel_unit _ d hd hroot i
        rw [ht]
        rw [← this]
        simp
      · cases ht
      · cases ht
    · rintro ⟨ht, s, h0, h1, hp⟩
      have hw : qsegAt q s - o = fun i => t * d i := by
        funext i; rw [Pi.sub_apply, ← hp]; ring
      have hroot : cross (qsegAt q s - o) d = 0 := by
        rw [hw, cross_eq]; ring
      have hdot : dot (qsegAt q s - o) d = t := by
        rw [hw]
        unfold sqNorm at hd
        unfold dot
        rw [Fin.sum_univ_two] at hd ⊢
        linear_combination t * hd
      rw [← cross_poly] at hroot
      refine ⟨s, ?_, ?_⟩
      · simpa using hc' s hroot
      · rw [if_pos ⟨h0, h1⟩, hdot, if_pos ht]; simp
  · have e0 := cross_poly q o d 0
    have e1 := cross_poly q o d 1
    have e2 := cross_poly q o d (-1)
    rw [hz] at e0 e1 e2
    have hc0 : cross ((polyCoeffs q).1 - o) d = 0 := by linarith
    have ha0 : cross (polyCoeffs q).2.2 d = 0 := by linarith
    have hb0 : cross (polyCoeffs q).2.1 d = 0 := by linarith
    unfold qsegIntersect
    dsimp only
    rw [hc0, ha0, hb0]
    have := sentinel_far
    simp [solveQuadratic, this]

/-- The intersections of a ray with the boundary of a curved cell, edge by edge. -/
theorem C73_polygon {m : Nat} (v : Poly (2 * m) 2 ℝ) (o d : Pt 2 ℝ) (hd : sqNorm d = 1)
    (hne : ∀ i, ∃ s, cross (qsegAt (getEdge2 v i) s - o) d ≠ 0) :
    (qpolyIntersect v o d).length ≤ 2 * m ∧
    ∀ t, t ∈ qpolyIntersect v o d ↔
      0 ≤ t ∧ ∃ i s, 0 ≤ s ∧ s ≤ 1 ∧ ∀ k, o k + t * d k = qsegAt (getEdge2 v i) s k := by
  have e : qpolyIntersect v o d = (List.finRange m).flatMap fun i => qsegIntersect (getEdge2 v i) o d := by
    unfold qpolyIntersect
    rw [List.flatMap_eq_foldl]
  rw [e]
  constructor
  · rw [List.length_flatMap]
    have h : ∀ x ∈ (List.finRange m).map (fun i => (qsegIntersect (getEdge2 v i) o d).length), x ≤ 2 := by
      intro x hx
      obtain ⟨i, _, rfl⟩ := List.mem_map.1 hx
      exact (C73_intersect _ o d hd).1
    have := List.sum_le_card_nsmul _ _ h
    rw [List.length_map, List.length_finRange, smul_eq_mul] at this
    omega
  · intro t
    rw [List.mem_flatMap]
    constructor
    · rintro ⟨i, -, ht⟩
      obtain ⟨h0, s, h⟩ := ((C73_intersect _ o d hd).2.1 (hne i) t).1 ht
      exact ⟨h0, i, s, h⟩
    · rintro ⟨h0, i, s, h⟩
      exact ⟨i, List.mem_finRange i, ((C73_intersect _ o d hd).2.1 (hne i) t).2 ⟨h0, s, h⟩⟩

/-- Concrete: the arch from `(0,0)` over `(1,1)` to `(2,0)` and the ray upwards from `(1,-1)` meet at
distance 2; the hypotheses hold. -/
example : sqNorm (![0, 1] : Pt 2 ℝ) = 1 ∧
    (∃ s : ℝ, cross (qsegAt ![![0, 0], ![2, 0], ![1, 1]] s - ![1, -1]) ![0, 1] ≠ 0) ∧
    (2 : ℝ) ∈ qsegIntersect ![![0, 0], ![2, 0], ![1, 1]] ![1, -1] ![0, 1] := by
  have h1 : sqNorm (![0, 1] : Pt 2 ℝ) = 1 := by unfold sqNorm; rw [Fin.sum_univ_two]; simp
  have h2 : ∃ s, cross (qsegAt ![![0, 0], ![2, 0], ![1, 1]] s - ![1, -1]) ![(0 : ℝ), 1] ≠ 0 := by
    refine ⟨0, ?_⟩
    rw [cross_eq]; simp [qsegAt]
  refine ⟨h1, h2, ((C73_intersect _ _ _ h1).2.1 h2 2).2 ⟨by norm_num, 1 / 2, by norm_num, by norm_num, fun i => ?_⟩⟩
  fin_cases i <;> simp [qsegAt] <;> norm_num

end Verif.Geom
