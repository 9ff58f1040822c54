import Verif.Props.FnrSpec

/-! The shapes that the programs for the Ford Nuclear Reactor draw. -/

namespace Verif.FnrL

open Verif.Fnr Verif.FnrSpec

theorem inside4 (a b c d : Curve) (P : Pt) : P ∈ inside [a, b, c, d] ↔ ((a.above P ↔ ¬ c.above P) ↔ (b.above P ↔ d.above P)) := by
  show Odd _ ↔ _
  by_cases h1 : a.above P <;> by_cases h2 : b.above P <;> by_cases h3 : c.above P <;> by_cases h4 : d.above P <;>
    simp [h1, h2, h3, h4] <;> decide

theorem curvature_eq : curvature = R := rfl

theorem R_pos : 0 < R := by unfold R inches; norm_num

theorem dome_le {a b : ℝ} (h : |a| ≤ |b|) : dome b ≤ dome a := by
  refine Real.sqrt_le_sqrt ?_
  have := sq_le_sq.2 h
  linarith

theorem dome_sq {a : ℝ} (h : |a| ≤ R) : dome a ^ 2 = R ^ 2 - a ^ 2 := by
  refine Real.sq_sqrt ?_
  have := sq_le_sq' (by linarith [abs_nonneg a, R_pos]) h
  rw [sq_abs] at this
  linarith

theorem dome_nonneg (a : ℝ) : 0 ≤ dome a := Real.sqrt_nonneg _

/-- The centre over a horizontal chord. -/
theorem center_eq {a b y : ℝ} (h : a < b) : circleCenter (a, y) (b, y) curvature = ((a + b) / 2, y - dome ((b - a) / 2)) := by
  have e1 : Real.sqrt ((a - b) ^ 2 + (y - y) ^ 2) = b - a := by
    rw [show (a - b) ^ 2 + (y - y) ^ 2 = (b - a) ^ 2 from by ring]
    exact Real.sqrt_sq (by linarith)
  have e2 : Real.sqrt ((b - a) ^ 2 + (y - y) ^ 2) = b - a := by
    rw [show (b - a) ^ 2 + (y - y) ^ 2 = (b - a) ^ 2 from by ring]
    exact Real.sqrt_sq (by linarith)
  have h0 : b - a ≠ 0 := by linarith
  unfold circleCenter
  dsimp only
  rw [e1, e2, curvature_eq, div_self h0]
  refine Prod.ext ?_ ?_
  · show (a + b) / 2 + _ * ((y - y) / (b - a)) = (a + b) / 2
    rw [sub_self, zero_div, mul_zero, add_zero]
  · show (y + y) / 2 + _ * -1 = y - dome ((b - a) / 2)
    unfold dome
    rw [show R * R - (b - a) / 2 * ((b - a) / 2) = R ^ 2 - ((b - a) / 2) ^ 2 from by ring]
    ring

theorem arc_above {a b y : ℝ} (h : a < b) (hr : (b - a) / 2 ≤ R) (P : Pt) :
    (arcOf (a, y) (b, y)).above P ↔ (a ≤ P.1 ∧ P.1 < b) ∧ P.2 < y - dome ((b - a) / 2) + dome (P.1 - (a + b) / 2) := by
  unfold arcOf
  rw [center_eq h]
  show (min a b ≤ P.1 ∧ P.1 < max a b) ∧ P.2 < y - dome ((b - a) / 2) +
    Real.sqrt ((a - (a + b) / 2) ^ 2 + (y - (y - dome ((b - a) / 2))) ^ 2 - (P.1 - (a + b) / 2) ^ 2) ↔ _
  rw [min_eq_left h.le, max_eq_right h.le]
  have e : (a - (a + b) / 2) ^ 2 + (y - (y - dome ((b - a) / 2))) ^ 2 = R ^ 2 := by
    have := dome_sq (a := (b - a) / 2) (by rw [abs_of_nonneg (by linarith)]; exact hr)
    rw [show y - (y - dome ((b - a) / 2)) = dome ((b - a) / 2) from by ring, this]
    ring
  rw [e]
  rfl

theorem line_upright {x y y' : ℝ} (P : Pt) : ¬ (Curve.line (x, y) (x, y')).above P := by
  rintro ⟨⟨h1, h2⟩, -⟩
  dsimp only at h1 h2
  rw [min_self] at h1
  rw [max_self] at h2
  exact absurd h2 (not_lt.2 h1)

/-! ### Plates -/

theorem plate_in (x0 y0 w T : ℝ) (hw : 0 < w) (hR : w / 2 ≤ R) (hT : 0 < T) (P : Pt) :
    P ∈ inside [arcOf (x0, y0) (x0 + w, y0), .line (x0 + w, y0) (x0 + w, y0 + T), arcOf (x0, y0 + T) (x0 + w, y0 + T), .line (x0, y0 + T) (x0, y0)] ↔
      -(w / 2) ≤ P.1 - (x0 + w / 2) ∧ P.1 - (x0 + w / 2) < w / 2 ∧ y0 ≤ P.2 - (dome (P.1 - (x0 + w / 2)) - dome (w / 2)) ∧
      P.2 - (dome (P.1 - (x0 + w / 2)) - dome (w / 2)) < y0 + T := by
  have e1 : (x0 + w - x0) / 2 = w / 2 := by ring
  have e2 : (x0 + (x0 + w)) / 2 = x0 + w / 2 := by ring
  rw [inside4, arc_above (by linarith) (by rw [e1]; exact hR), arc_above (by linarith) (by rw [e1]; exact hR), e1, e2]
  have n1 := line_upright (x := x0 + w) (y := y0) (y' := y0 + T) P
  have n2 := line_upright (x := x0) (y := y0 + T) (y' := y0) P
  generalize dome (P.1 - (x0 + w / 2)) = D
  generalize dome (w / 2) = D0
  constructor
  · intro h
    have h := h.2 (iff_of_false n1 n2)
    by_cases hx : x0 ≤ P.1 ∧ P.1 < x0 + w
    · by_cases hy : P.2 < y0 - D0 + D
      · exact absurd ⟨hx, by linarith⟩ (h.1 ⟨hx, hy⟩)
      · by_cases hz : P.2 < y0 + T - D0 + D
        · exact ⟨by linarith [hx.1], by linarith [hx.2], by linarith, by linarith⟩
        · exact absurd (h.2 fun q => hz q.2).2 hy
    · exact absurd (h.2 fun q => hx q.1).1 hx
  · rintro ⟨h1, h2, h3, h4⟩
    refine iff_of_true ?_ (iff_of_false n1 n2)
    refine iff_of_false ?_ (not_not.2 ⟨⟨by linarith, by linarith⟩, by linarith⟩)
    rintro ⟨-, h⟩
    linarith

/-! ### Meat -/

/-- The height of an arc of the radius of the plates. -/
noncomputable def arcHeight (s k r u : ℝ) : ℝ := r * k - dome (r * s) + dome u

theorem meat_in (m h r1 r2 s k : ℝ) (hs : 0 < s) (hk : 0 < k) (h1 : 0 < r1) (h12 : r1 < r2) (hR : r2 * s ≤ R) (P : Pt) :
    P ∈ inside [arcOf (m - r1 * s, h + r1 * k) (m + r1 * s, h + r1 * k), .line (m + r1 * s, h + r1 * k) (m + r2 * s, h + r2 * k),
      arcOf (m - r2 * s, h + r2 * k) (m + r2 * s, h + r2 * k), .line (m - r2 * s, h + r2 * k) (m - r1 * s, h + r1 * k)] ↔
      |P.1 - m| * k ≤ (P.2 - h) * s ∧ arcHeight s k r1 (P.1 - m) ≤ P.2 - h ∧ P.2 - h < arcHeight s k r2 (P.1 - m) := by
  have q1 : 0 < r1 * s := mul_pos h1 hs
  have q2 : r1 * s < r2 * s := mul_lt_mul_of_pos_right h12 hs
  have c1 : (m + r1 * s - (m - r1 * s)) / 2 = r1 * s := by ring
  have c2 : (m + r2 * s - (m - r2 * s)) / 2 = r2 * s := by ring
  have c3 : (m - r1 * s + (m + r1 * s)) / 2 = m := by ring
  have c4 : (m - r2 * s + (m + r2 * s)) / 2 = m := by ring
  rw [inside4, arc_above (by linarith) (by rw [c1]; linarith), arc_above (by linarith) (by rw [c2]; linarith), c1, c2, c3, c4]
  have hs0 : s ≠ 0 := hs.ne'
  have h0 : r2 - r1 ≠ 0 := by linarith
  have l1 : (Curve.line (m + r1 * s, h + r1 * k) (m + r2 * s, h + r2 * k)).above P ↔ (m + r1 * s ≤ P.1 ∧ P.1 < m + r2 * s) ∧ (P.2 - h) * s < (P.1 - m) * k := by
    show (min (m + r1 * s) (m + r2 * s) ≤ P.1 ∧ P.1 < max (m + r1 * s) (m + r2 * s)) ∧
      P.2 < h + r1 * k + (P.1 - (m + r1 * s)) / (m + r2 * s - (m + r1 * s)) * (h + r2 * k - (h + r1 * k)) ↔ _
    rw [min_eq_left (by linarith), max_eq_right (by linarith)]
    have e : h + r1 * k + (P.1 - (m + r1 * s)) / (m + r2 * s - (m + r1 * s)) * (h + r2 * k - (h + r1 * k)) = h + (P.1 - m) * k / s := by
      rw [show m + r2 * s - (m + r1 * s) = (r2 - r1) * s from by ring]
      field_simp
      ring
    rw [e]
    refine and_congr_right fun _ => ?_
    rw [← sub_lt_iff_lt_add', lt_div_iff₀ hs]
  have l2 : (Curve.line (m - r2 * s, h + r2 * k) (m - r1 * s, h + r1 * k)).above P ↔ (m - r2 * s ≤ P.1 ∧ P.1 < m - r1 * s) ∧ (P.2 - h) * s < (m - P.1) * k := by
    show (min (m - r2 * s) (m - r1 * s) ≤ P.1 ∧ P.1 < max (m - r2 * s) (m - r1 * s)) ∧
      P.2 < h + r2 * k + (P.1 - (m - r2 * s)) / (m - r1 * s - (m - r2 * s)) * (h + r1 * k - (h + r2 * k)) ↔ _
    rw [min_eq_left (by linarith), max_eq_right (by linarith)]
    have e : h + r2 * k + (P.1 - (m - r2 * s)) / (m - r1 * s - (m - r2 * s)) * (h + r1 * k - (h + r2 * k)) = h + (m - P.1) * k / s := by
      rw [show m - r1 * s - (m - r2 * s) = (r2 - r1) * s from by ring]
      field_simp
      ring
    rw [e]
    refine and_congr_right fun _ => ?_
    rw [← sub_lt_iff_lt_add', lt_div_iff₀ hs]
  rw [l1, l2]
  obtain ⟨x, y, rfl⟩ : ∃ x y, P = (m + x, h + y) := ⟨P.1 - m, P.2 - h, by simp⟩
  unfold arcHeight
  dsimp only
  rw [show m + x - m = x from by ring, show h + y - h = y from by ring, show m - (m + x) = -x from by ring]
  have d12 : dome (r2 * s) ≤ dome (r1 * s) := dome_le (by rw [abs_of_pos q1, abs_of_pos (by linarith)]; exact q2.le)
  have hk12 : r1 * k < r2 * k := mul_lt_mul_of_pos_right h12 hk
  rcases lt_or_ge x (-(r2 * s)) with hx | hx
  · -- left of everything
    have hx0 : |x| = -x := abs_of_neg (by linarith)
    have hd : dome x ≤ dome (r2 * s) := dome_le (by rw [hx0, abs_of_pos (by linarith)]; linarith)
    refine iff_of_false ?_ ?_
    · intro hh
      have := hh.2 (iff_of_false (fun q => by linarith [q.1.1]) (fun q => by linarith [q.1.1]))
      exact absurd (this.2 fun q => by linarith [q.1.1]).1.1 (by linarith)
    · rintro ⟨q3, -, q4⟩
      rw [hx0] at q3
      have : r2 * s * k < y * s := lt_of_lt_of_le (mul_lt_mul_of_pos_right (by linarith) hk) q3
      have : r2 * k < y := lt_of_mul_lt_mul_right (by linarith [mul_right_comm r2 s k]) hs.le
      linarith
  rcases lt_or_ge x (-(r1 * s)) with hx' | hx'
  · -- the left side
    have hx0 : |x| = -x := abs_of_neg (by linarith)
    have hd : dome (r2 * s) ≤ dome x := dome_le (by rw [hx0, abs_of_pos (by linarith)]; linarith)
    have hd' : dome x ≤ dome (r1 * s) := dome_le (by rw [hx0, abs_of_pos q1]; linarith)
    have n1 : ¬ ((m - r1 * s ≤ m + x ∧ m + x < m + r1 * s) ∧ h + y < h + r1 * k - dome (r1 * s) + dome x) := fun q => by linarith [q.1.1]
    have n2 : ¬ ((m + r1 * s ≤ m + x ∧ m + x < m + r2 * s) ∧ y * s < x * k) := fun q => by linarith [q.1.1]
    have y3 : (m - r2 * s ≤ m + x ∧ m + x < m + r2 * s) := ⟨by linarith, by linarith⟩
    have y4 : (m - r2 * s ≤ m + x ∧ m + x < m - r1 * s) := ⟨by linarith, by linarith⟩
    rw [iff_false_left n1, iff_false_left n2, and_iff_right y3, and_iff_right y4, not_not, hx0]
    have low : ¬ (y * s < -x * k) → r1 * k - dome (r1 * s) + dome x ≤ y := by
      intro q
      have : r1 * s * k ≤ y * s := le_trans (mul_le_mul_of_nonneg_right (by linarith) hk.le) (not_lt.1 q)
      have : r1 * k ≤ y := le_of_mul_le_mul_right (by linarith [mul_right_comm r1 s k]) hs
      linarith
    have up : y * s < -x * k → h + y < h + r2 * k - dome (r2 * s) + dome x := by
      intro q
      have : y * s < r2 * s * k := lt_of_lt_of_le q (mul_le_mul_of_nonneg_right (by linarith) hk.le)
      have : y < r2 * k := lt_of_mul_lt_mul_right (by linarith [mul_right_comm r2 s k]) hs.le
      linarith
    constructor
    · intro hh
      by_cases hl : y * s < -x * k
      · exact absurd hl (hh.1 (up hl))
      · exact ⟨not_lt.1 hl, low hl, by linarith [hh.2 hl]⟩
    · rintro ⟨q3, q4, q5⟩
      exact iff_of_true (by linarith) (not_lt.2 q3)
  rcases lt_or_ge x (r1 * s) with hx2 | hx2
  · -- the middle
    have hxa : |x| ≤ r1 * s := abs_le.2 ⟨hx', hx2.le⟩
    have hd' : dome (r1 * s) ≤ dome x := dome_le (by rw [abs_of_pos q1]; exact hxa)
    have n2 : ¬ ((m + r1 * s ≤ m + x ∧ m + x < m + r2 * s) ∧ y * s < x * k) := fun q => by linarith [q.1.1]
    have n4 : ¬ ((m - r2 * s ≤ m + x ∧ m + x < m - r1 * s) ∧ y * s < -x * k) := fun q => by linarith [q.1.2]
    have y1 : (m - r1 * s ≤ m + x ∧ m + x < m + r1 * s) := ⟨by linarith, by linarith⟩
    have y3 : (m - r2 * s ≤ m + x ∧ m + x < m + r2 * s) := ⟨by linarith, by linarith⟩
    rw [and_iff_right y1, and_iff_right y3]
    constructor
    · intro hh
      have hh := hh.2 (iff_of_false n2 n4)
      by_cases hl : h + y < h + r1 * k - dome (r1 * s) + dome x
      · exact absurd (by linarith) (hh.1 hl)
      · have hu : h + y < h + r2 * k - dome (r2 * s) + dome x := by
          by_contra hu
          exact hl (hh.2 hu)
        refine ⟨?_, by linarith, by linarith⟩
        have : |x| * k ≤ r1 * s * k := mul_le_mul_of_nonneg_right hxa hk.le
        have : r1 * k * s ≤ y * s := mul_le_mul_of_nonneg_right (by linarith) hs.le
        linarith [mul_right_comm r1 s k]
    · rintro ⟨-, q4, q5⟩
      exact iff_of_true (iff_of_false (by linarith) (not_not.2 (by linarith))) (iff_of_false n2 n4)
  rcases lt_or_ge x (r2 * s) with hx3 | hx3
  · -- the right side
    have hx0 : |x| = x := abs_of_pos (by linarith)
    have hd : dome (r2 * s) ≤ dome x := dome_le (by rw [hx0, abs_of_pos (by linarith)]; linarith)
    have hd' : dome x ≤ dome (r1 * s) := dome_le (by rw [hx0, abs_of_pos q1]; linarith)
    have n1 : ¬ ((m - r1 * s ≤ m + x ∧ m + x < m + r1 * s) ∧ h + y < h + r1 * k - dome (r1 * s) + dome x) := fun q => by linarith [q.1.2]
    have n4 : ¬ ((m - r2 * s ≤ m + x ∧ m + x < m - r1 * s) ∧ y * s < -x * k) := fun q => by linarith [q.1.2]
    have y3 : (m - r2 * s ≤ m + x ∧ m + x < m + r2 * s) := ⟨by linarith, by linarith⟩
    have y2 : (m + r1 * s ≤ m + x ∧ m + x < m + r2 * s) := ⟨by linarith, by linarith⟩
    rw [iff_false_left n1, iff_false_right n4, and_iff_right y3, and_iff_right y2, not_not, hx0]
    have low : ¬ (y * s < x * k) → r1 * k - dome (r1 * s) + dome x ≤ y := by
      intro q
      have : r1 * s * k ≤ y * s := le_trans (mul_le_mul_of_nonneg_right (by linarith) hk.le) (not_lt.1 q)
      have : r1 * k ≤ y := le_of_mul_le_mul_right (by linarith [mul_right_comm r1 s k]) hs
      linarith
    have up : y * s < x * k → h + y < h + r2 * k - dome (r2 * s) + dome x := by
      intro q
      have : y * s < r2 * s * k := lt_of_lt_of_le q (mul_le_mul_of_nonneg_right (by linarith) hk.le)
      have : y < r2 * k := lt_of_mul_lt_mul_right (by linarith [mul_right_comm r2 s k]) hs.le
      linarith
    constructor
    · intro hh
      by_cases hl : y * s < x * k
      · exact absurd hl (hh.1 (up hl))
      · exact ⟨not_lt.1 hl, low hl, by linarith [hh.2 hl]⟩
    · rintro ⟨q3, q4, q5⟩
      exact iff_of_true (by linarith) (not_lt.2 q3)
  · -- right of everything
    have hx0 : |x| = x := abs_of_pos (by linarith)
    have hd : dome x ≤ dome (r2 * s) := dome_le (by rw [hx0, abs_of_pos (by linarith)]; linarith)
    refine iff_of_false ?_ ?_
    · intro hh
      have := hh.2 (iff_of_false (fun q => by linarith [q.1.2]) (fun q => by linarith [q.1.2]))
      exact absurd (this.2 fun q => by linarith [q.1.2]).1.2 (by linarith)
    · rintro ⟨q3, -, q4⟩
      rw [hx0] at q3
      have : r2 * s * k ≤ y * s := le_trans (mul_le_mul_of_nonneg_right (by linarith) hk.le) q3
      have : r2 * k ≤ y := le_of_mul_le_mul_right (by linarith [mul_right_comm r2 s k]) hs
      linarith

end Verif.FnrL
