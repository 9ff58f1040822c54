import Mathlib.Analysis.Convex.Topology
import Mathlib.Topology.Order.DenselyOrdered
import Mathlib.Topology.Connected.Basic
import Mathlib.Topology.MetricSpace.Pseudo.Defs
import Verif.Props.SveaSpec

/-! Lemmas on the shapes of the channel box (C119). -/

set_option linter.unusedSimpArgs false

namespace Verif.SveaL

open Verif.Svea Verif.SveaSpec

noncomputable section

/-! ### Numbers -/

theorem bw_eq : bw = width := by unfold bw width waterGap boxThickness pinPitch sla; norm_num

theorem off_eq : off0 = 69 / 100 ∧ off1 = 83 / 100 ∧ off2 = 133 / 100 := by
  unfold off0 off1 off2 waterGap boxThickness boxRadius; norm_num

theorem root_bounds : 1414 / 1000 < Real.sqrt 2 ∧ Real.sqrt 2 < 1415 / 1000 := by
  constructor
  · exact Real.lt_sqrt_of_sq_lt (by norm_num)
  · exact (Real.sqrt_lt' (by norm_num)).2 (by norm_num)

/-! ### The loops -/

/-- Half the height of a rounded square beyond the middles of the corners. -/
def edge (r x : ℝ) : ℝ := Real.sqrt (r ^ 2 - dent x ^ 2)

theorem edge_nonneg (r x : ℝ) : 0 ≤ edge r x := Real.sqrt_nonneg _

theorem dent_low {x : ℝ} (h : x < 133 / 100) : dent x = 133 / 100 - x := by
  unfold dent width
  rw [max_eq_left (a := 133 / 100 - x) (by linarith), max_eq_right (by linarith)]

theorem dent_mid {x : ℝ} (h : 133 / 100 ≤ x) (h' : x ≤ width - 133 / 100) : dent x = 0 :=
  max_eq_left (max_le (by linarith) (by linarith))

theorem dent_high {x : ℝ} (h : width - 133 / 100 ≤ x) : dent x = x - (width - 133 / 100) := by
  have : (133 / 100 : ℝ) < width - 133 / 100 := by unfold width; norm_num
  unfold dent
  rw [max_eq_right (a := 133 / 100 - x) (by linarith), max_eq_right (by linarith)]

theorem line_up (x a b : ℝ) (P : Pt) : ¬ (Curve.line (x, a) (x, b)).above P := by
  rintro ⟨⟨h1, h2⟩, -⟩
  simp only [min_self, max_self] at h1 h2
  linarith

theorem line_flat {a b y : ℝ} (h : a < b) (P : Pt) : ((Curve.line (a, y) (b, y)).above P ↔ (a ≤ P.1 ∧ P.1 < b) ∧ P.2 < y) ∧
    ((Curve.line (b, y) (a, y)).above P ↔ (a ≤ P.1 ∧ P.1 < b) ∧ P.2 < y) := by
  constructor
  · simp only [Curve.above, min_eq_left h.le, max_eq_right h.le, sub_self, mul_zero, add_zero]
  · simp only [Curve.above, min_eq_right h.le, max_eq_left h.le, sub_self, mul_zero, add_zero]

open Classical in
theorem inside8 (c1 c2 c3 c4 c5 c6 c7 c8 : Curve) (P : Pt) (h4 : ¬ c4.above P) (h8 : ¬ c8.above P) :
    P ∈ inside [c1, c2, c3, c4, c5, c6, c7, c8] ↔
      ¬ (c1.above P ↔ (c2.above P ↔ (c3.above P ↔ (c5.above P ↔ (c6.above P ↔ c7.above P))))) := by
  simp only [inside, Set.mem_ofPred_eq, List.countP_cons, List.countP_nil, h4, h8]
  by_cases k1 : c1.above P <;> by_cases k2 : c2.above P <;> by_cases k3 : c3.above P <;> by_cases k5 : c5.above P <;> by_cases k6 : c6.above P <;>
    by_cases k7 : c7.above P <;> simp [k1, k2, k3, k5, k6, k7] <;> decide

theorem rounded (r o : ℝ) (hr : 0 < r) (ho : o = 133 / 100 - r) (P : Pt) : P ∈ inside (roundedLoop o (133 / 100)) ↔ Rounded r P := by
  have hw : (133 / 100 : ℝ) < width - 133 / 100 := by unfold width; norm_num
  unfold roundedLoop
  rw [bw_eq]
  dsimp only
  rw [inside8 _ _ _ _ _ _ _ _ _ (line_up _ _ _ _) (line_up _ _ _ _), (line_flat hw P).1, (line_flat hw P).2]
  have a1 : (Curve.arc (o, 133 / 100) (133 / 100, 133 / 100) (133 / 100, o)).above P ↔ (o ≤ P.1 ∧ P.1 < 133 / 100) ∧ P.2 < 133 / 100 - edge r P.1 := by
    simp only [Curve.above]
    rw [min_eq_left (by linarith), max_eq_right (by linarith), if_pos (by linarith)]
    refine and_congr_right fun h => ?_
    unfold edge
    rw [dent_low h.2, ho]
    ring_nf
  have a3 : (Curve.arc (width - 133 / 100, o) (width - 133 / 100, 133 / 100) (width - o, 133 / 100)).above P ↔
      (width - 133 / 100 ≤ P.1 ∧ P.1 < width - o) ∧ P.2 < 133 / 100 - edge r P.1 := by
    simp only [Curve.above]
    rw [min_eq_left (by linarith), max_eq_right (by linarith), if_pos (by linarith)]
    refine and_congr_right fun h => ?_
    unfold edge
    rw [dent_high h.1, ho]
    ring_nf
  have a5 : (Curve.arc (width - o, width - 133 / 100) (width - 133 / 100, width - 133 / 100) (width - 133 / 100, width - o)).above P ↔
      (width - 133 / 100 ≤ P.1 ∧ P.1 < width - o) ∧ P.2 < width - 133 / 100 + edge r P.1 := by
    simp only [Curve.above]
    rw [min_eq_right (by linarith), max_eq_left (by linarith), if_neg (by linarith)]
    refine and_congr_right fun h => ?_
    unfold edge
    rw [dent_high h.1, ho]
    ring_nf
  have a7 : (Curve.arc (133 / 100, width - o) (133 / 100, width - 133 / 100) (o, width - 133 / 100)).above P ↔
      (o ≤ P.1 ∧ P.1 < 133 / 100) ∧ P.2 < width - 133 / 100 + edge r P.1 := by
    simp only [Curve.above]
    rw [min_eq_right (by linarith), max_eq_left (by linarith), if_neg (by linarith)]
    refine and_congr_right fun h => ?_
    unfold edge
    rw [dent_low h.2, ho]
    ring_nf
  rw [a1, a3, a5, a7]
  have hmid : 133 / 100 ≤ P.1 → P.1 < width - 133 / 100 → edge r P.1 = r := fun h h' => by
    unfold edge
    rw [dent_mid h h'.le]
    simpa using Real.sqrt_sq hr.le
  unfold Rounded
  change _ ↔ _ ∧ _ ∧ 133 / 100 - edge r P.1 ≤ P.2 ∧ P.2 < width - 133 / 100 + edge r P.1
  have he := edge_nonneg r P.1
  rcases lt_or_ge P.1 o with h1 | h1
  · have k1 : ¬ o ≤ P.1 := not_le.2 h1
    have k2 : ¬ 133 / 100 ≤ P.1 := by linarith
    have k3 : ¬ width - 133 / 100 ≤ P.1 := by linarith
    have k4 : ¬ 133 / 100 - r ≤ P.1 := by linarith
    simp [k1, k2, k3, k4]
  rcases lt_or_ge P.1 (133 / 100) with h2 | h2
  · have k2 : ¬ 133 / 100 ≤ P.1 := by linarith
    have k3 : ¬ width - 133 / 100 ≤ P.1 := by linarith
    have k4 : 133 / 100 - r ≤ P.1 := by linarith
    have k5 : P.1 < width - 133 / 100 + r := by linarith
    by_cases q1 : P.2 < 133 / 100 - edge r P.1 <;> by_cases q2 : P.2 < width - 133 / 100 + edge r P.1
    · simp [h1, h2, k2, k3, k4, k5, q1, q2]; linarith
    · linarith
    · simp [h1, h2, k2, k3, k4, k5, q1, q2, not_lt.1 q1]
    · simp [h1, h2, k2, k3, k4, k5, q1, q2]
  rcases lt_or_ge P.1 (width - 133 / 100) with h3 | h3
  · have k2 : ¬ P.1 < 133 / 100 := not_lt.2 h2
    have k3 : ¬ width - 133 / 100 ≤ P.1 := not_le.2 h3
    have k4 : 133 / 100 - r ≤ P.1 := by linarith
    have k5 : P.1 < width - 133 / 100 + r := by linarith
    have k6 : width - o = width - 133 / 100 + r := by linarith
    rw [hmid h2 h3, ← ho, k6]
    by_cases q1 : P.2 < o <;> by_cases q2 : P.2 < width - 133 / 100 + r
    · simp [h1, h2, h3, k2, k3, k4, k5, ← ho, q1, q2]
    · linarith
    · simp [h1, h2, h3, k2, k3, k4, k5, ← ho, q1, q2, not_lt.1 q1]
    · simp [h1, h2, h3, k2, k3, k4, k5, ← ho, q1, q2]
  rcases lt_or_ge P.1 (width - o) with h4 | h4
  · have k2 : ¬ P.1 < 133 / 100 := not_lt.2 h2
    have k3 : ¬ P.1 < width - 133 / 100 := not_lt.2 h3
    have k4 : 133 / 100 - r ≤ P.1 := by linarith
    have k5 : P.1 < width - 133 / 100 + r := by linarith
    by_cases q1 : P.2 < 133 / 100 - edge r P.1 <;> by_cases q2 : P.2 < width - 133 / 100 + edge r P.1
    · simp [h3, h4, k2, k3, k4, k5, q1, q2]; linarith
    · linarith
    · simp [h3, h4, k2, k3, k4, k5, q1, q2, not_lt.1 q1]
    · simp [h3, h4, k2, k3, k4, k5, q1, q2]
  · have k1 : ¬ P.1 < width - o := not_lt.2 h4
    have k2 : ¬ P.1 < 133 / 100 := not_lt.2 h2
    have k3 : ¬ P.1 < width - 133 / 100 := not_lt.2 h3
    have k5 : ¬ P.1 < width - 133 / 100 + r := by linarith
    simp [k1, k2, k3, k5]

theorem coolant_in (P : Pt) : P ∈ coolantSurf ↔ Rounded (5 / 10) P := by
  unfold coolantSurf
  rw [off_eq.2.1, off_eq.2.2]
  exact rounded _ _ (by norm_num) (by norm_num) P

theorem outer_in (P : Pt) : P ∈ outerSurf ↔ Rounded (64 / 100) P ∧ ¬ Rounded (5 / 10) P := by
  unfold outerSurf
  rw [Set.mem_sdiff, off_eq.1, off_eq.2.1, off_eq.2.2, rounded (64 / 100) _ (by norm_num) (by norm_num) P,
    rounded (5 / 10) _ (by norm_num) (by norm_num) P]

/-! ### The rectangles -/

theorem turned_in (t : ℝ) (S : Set Pt) (P : Pt) : P ∈ turned t S ↔
    (width / 2 + (Real.cos t * (P.1 - width / 2) + Real.sin t * (P.2 - width / 2)), width / 2 + (-Real.sin t * (P.1 - width / 2) + Real.cos t * (P.2 - width / 2))) ∈ S := by
  unfold turned
  rw [bw_eq]
  rfl

theorem square_in (h : ℝ) (P : Pt) : P ∈ turned (1 / 4 * Real.pi) (rectangle (width / 2 - h) (width / 2 - h) (2 * h) (2 * h)) ↔
    Diamond h (P.1 - width / 2) (P.2 - width / 2) := by
  rw [turned_in, show 1 / 4 * Real.pi = Real.pi / 4 by ring, Real.cos_pi_div_four, Real.sin_pi_div_four]
  have hs : Real.sqrt 2 / 2 = 1 / Real.sqrt 2 := by
    have h2 := Real.sq_sqrt (show (0 : ℝ) ≤ 2 by norm_num)
    have h0 : Real.sqrt 2 ≠ 0 := by positivity
    field_simp
    nlinarith
  rw [hs]
  unfold rectangle Diamond
  simp only [Set.mem_ofPred_eq]
  have e1 : 1 / Real.sqrt 2 * (P.1 - width / 2) + 1 / Real.sqrt 2 * (P.2 - width / 2) = (P.1 - width / 2 + (P.2 - width / 2)) / Real.sqrt 2 := by ring
  have e2 : -(1 / Real.sqrt 2) * (P.1 - width / 2) + 1 / Real.sqrt 2 * (P.2 - width / 2) = (P.2 - width / 2 - (P.1 - width / 2)) / Real.sqrt 2 := by ring
  rw [e1, e2]
  constructor
  · rintro ⟨h1, h2, h3, h4⟩; exact ⟨by linarith, by linarith, by linarith, by linarith⟩
  · rintro ⟨h1, h2, h3, h4⟩; exact ⟨by linarith, by linarith, by linarith, by linarith⟩

theorem rect0_eq : rect0 = rectangle (width / 2 - 7625 / 10000) (width / 2 - 7625 / 10000) (2 * (7625 / 10000)) (2 * (7625 / 10000)) := by
  unfold rect0
  rw [bw_eq]
  unfold fftf sth fftf
  congr 1 <;> ring

theorem rect1_eq : rect1 = rectangle (width / 2 - 7425 / 10000) (width / 2 - 7425 / 10000) (2 * (7425 / 10000)) (2 * (7425 / 10000)) := by
  unfold rect1
  rw [bw_eq]
  unfold fftf
  congr 1 <;> ring

theorem rect0_in (P : Pt) : P ∈ turned (1 / 4 * Real.pi) rect0 ↔ Diamond (7625 / 10000) (P.1 - width / 2) (P.2 - width / 2) := by
  rw [rect0_eq]; exact square_in _ _

theorem rect1_in (P : Pt) : P ∈ turned (1 / 4 * Real.pi) rect1 ↔ Diamond (7425 / 10000) (P.1 - width / 2) (P.2 - width / 2) := by
  rw [rect1_eq]; exact square_in _ _

theorem skinny_in (P : Pt) : P ∈ skinny ↔ -(6975 / 1000) ≤ P.1 - width / 2 ∧ P.1 - width / 2 < 83 / 100 ∧
    -(2 / 100) ≤ P.2 - width / 2 ∧ P.2 - width / 2 < 2 / 100 := by
  unfold skinny rectangle
  rw [bw_eq]
  unfold waterGap boxThickness wct width
  simp only [Set.mem_ofPred_eq]
  constructor
  · rintro ⟨h1, h2, h3, h4⟩; exact ⟨by linarith, by linarith, by linarith, by linarith⟩
  · rintro ⟨h1, h2, h3, h4⟩; exact ⟨by linarith, by linarith, by linarith, by linarith⟩

theorem thick_in (P : Pt) : P ∈ thick ↔ -(615 / 100) ≤ P.1 - width / 2 ∧ P.1 - width / 2 < -(282 / 100) ∧
    -(9 / 100) ≤ P.2 - width / 2 ∧ P.2 - width / 2 < 9 / 100 := by
  unfold thick rectangle
  rw [bw_eq]
  unfold waterGap boxThickness boxRadius pinPitch wct wt wl pinPitch width
  simp only [Set.mem_ofPred_eq]
  constructor
  · rintro ⟨h1, h2, h3, h4⟩; exact ⟨by linarith, by linarith, by linarith, by linarith⟩
  · rintro ⟨h1, h2, h3, h4⟩; exact ⟨by linarith, by linarith, by linarith, by linarith⟩

theorem hole_in (P : Pt) : P ∈ wingHole ↔ Hole (P.1 - width / 2) (P.2 - width / 2) := by
  unfold wingHole rectangle Hole
  rw [bw_eq]
  unfold waterGap boxThickness boxRadius pinPitch wct wt wl pinPitch width
  simp only [Set.mem_ofPred_eq]
  constructor
  · rintro ⟨h1, h2, h3, h4⟩; exact ⟨by linarith, by linarith, by linarith, by linarith⟩
  · rintro ⟨h1, h2, h3, h4⟩; exact ⟨by linarith, by linarith, by linarith, by linarith⟩

/-! ### The sheets -/

/-- The first cut. -/
def crossRing : Set Pt := turned (1 / 4 * Real.pi) rect0 \ turned (1 / 4 * Real.pi) rect1

/-- The second cut, the fuse and the third cut. -/
def thinSheet : Set Pt := skinny \ turned (1 / 4 * Real.pi) rect0
def wideSheet : Set Pt := thinSheet ∪ thick
def wingSheet : Set Pt := wideSheet \ wingHole

theorem crossRing_in (P : Pt) : P ∈ crossRing ↔ Diamond (7625 / 10000) (P.1 - width / 2) (P.2 - width / 2) ∧ ¬ Diamond (7425 / 10000) (P.1 - width / 2) (P.2 - width / 2) := by
  unfold crossRing
  rw [Set.mem_sdiff, rect0_in, rect1_in]

theorem wingSheet_in (P : Pt) : P ∈ wingSheet ↔ Wing (P.1 - width / 2) (P.2 - width / 2) := by
  unfold wingSheet wideSheet thinSheet Wing
  rw [Set.mem_sdiff, Set.mem_union, Set.mem_sdiff, rect0_in, skinny_in, thick_in, hole_in]
  simp only [and_assoc]

theorem wing1_in (P : Pt) : P ∈ turned (1 / 2 * (((0 : ℕ) : ℝ) + 1) * Real.pi) wingSheet ↔ Wing (P.2 - width / 2) (-(P.1 - width / 2)) := by
  rw [turned_in, wingSheet_in, show (1 / 2 * (((0 : ℕ) : ℝ) + 1) * Real.pi) = Real.pi / 2 by push_cast; ring, Real.cos_pi_div_two, Real.sin_pi_div_two]
  ring_nf

theorem wing2_in (P : Pt) : P ∈ turned (1 / 2 * (((1 : ℕ) : ℝ) + 1) * Real.pi) wingSheet ↔ Wing (-(P.1 - width / 2)) (-(P.2 - width / 2)) := by
  rw [turned_in, wingSheet_in, show (1 / 2 * (((1 : ℕ) : ℝ) + 1) * Real.pi) = Real.pi by push_cast; ring, Real.cos_pi, Real.sin_pi]
  ring_nf

theorem wing3_in (P : Pt) : P ∈ turned (1 / 2 * (((2 : ℕ) : ℝ) + 1) * Real.pi) wingSheet ↔ Wing (-(P.2 - width / 2)) (P.1 - width / 2) := by
  rw [turned_in, wingSheet_in, show (1 / 2 * (((2 : ℕ) : ℝ) + 1) * Real.pi) = Real.pi / 2 + Real.pi by push_cast; ring, Real.cos_add_pi, Real.sin_add_pi,
    Real.cos_pi_div_two, Real.sin_pi_div_two]
  ring_nf

end

end Verif.SveaL
