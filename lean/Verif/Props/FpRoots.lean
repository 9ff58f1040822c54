import Verif.Lemmas.FpRoots
import Mathlib.Data.Rat.Floor

/-! C122: the quadratic equation in floating-point arithmetic. -/

namespace Verif.FpRootsP

open Verif.Fp

variable {p : ℕ} (R : Rounding ℝ p)

theorem shift (a b c x : ℝ) : 4 * a * (a * x ^ 2 + b * x + c) = (2 * a * x + b) ^ 2 - (b ^ 2 - 4 * a * c) := by ring

theorem disc_of_root {a b c x : ℝ} (h : a * x ^ 2 + b * x + c = 0) : 0 ≤ b ^ 2 - 4 * a * c := by
  have := shift a b c x
  rw [h, mul_zero] at this
  have := sq_nonneg (2 * a * x + b)
  linarith

theorem disc_of_none {a b c : ℝ} (ha : a ≠ 0) (h : ∀ x, a * x ^ 2 + b * x + c ≠ 0) : b ^ 2 - 4 * a * c < 0 := by
  by_contra k
  push Not at k
  refine h ((-b + Real.sqrt (b ^ 2 - 4 * a * c)) / (2 * a)) ?_
  have s := Real.mul_self_sqrt k
  generalize Real.sqrt (b ^ 2 - 4 * a * c) = r at s
  field_simp
  linear_combination s

/-- A proper quadratic without a real root: both values are the sentinel.  The decision is exact. -/
theorem C122_none (hp : 2 ≤ p) (inv : ℝ) {a b c : ℝ} (ha : IsFp p a) (hb : IsFp p b) (hc : IsFp p c) (h0 : a ≠ 0)
    (h : ∀ x : ℝ, a * x ^ 2 + b * x + c ≠ 0) : solveQuadratic R inv a b c = (inv, inv) := by
  have hD := disc_of_none h0 h
  unfold solveQuadratic
  rw [if_neg h0]
  by_cases hb0 : b = 0
  · rw [if_pos hb0]
    dsimp only
    rw [if_pos]
    refine R.neg (by omega) ?_
    subst hb0
    have hac : 0 < a * c := by nlinarith
    have : -c / a = -(a * c) / a ^ 2 := by field_simp
    rw [this]
    exact div_neg_of_neg_of_pos (by linarith) (by positivity)
  · rw [if_neg hb0]
    dsimp only
    rw [if_pos ((disc_sign R hp ha hb hc).1.2 hD)]

/-- A proper quadratic with a real root: the values approximate the two roots (with multiplicity, in order), each with a relative error of at most
seven times `2 ^ -p`. -/
theorem C122_roots (hp : 8 ≤ p) (inv : ℝ) {a b c : ℝ} (ha : IsFp p a) (hb : IsFp p b) (hc : IsFp p c) (h0 : a ≠ 0)
    (h : ∃ x : ℝ, a * x ^ 2 + b * x + c = 0) :
    ∃ x1 x2, x1 ≤ x2 ∧ (∀ x, a * x ^ 2 + b * x + c = a * (x - x1) * (x - x2)) ∧
      (solveQuadratic R inv a b c).1 ≤ (solveQuadratic R inv a b c).2 ∧
      |(solveQuadratic R inv a b c).1 - x1| ≤ 7 / 2 ^ p * |x1| ∧ |(solveQuadratic R inv a b c).2 - x2| ≤ 7 / 2 ^ p * |x2| := by
  obtain ⟨x0, hx0⟩ := h
  have hD := disc_of_root hx0
  obtain ⟨le, fac⟩ := Roots.C20_factor a b c h0 ⟨x0, hx0⟩
  have hp1 : 1 ≤ p := by omega
  have hu0 : (0 : ℝ) < 1 / 2 ^ p := by positivity
  have hu1 : (1 : ℝ) / 2 ^ p ≤ 1 / 256 := u_le hp
  have e7 : (7 : ℝ) / 2 ^ p = 7 * (1 / 2 ^ p) := by ring
  refine ⟨_, _, le, fac, ?_⟩
  unfold solveQuadratic Roots.solveQuadratic
  rw [if_neg h0, if_neg h0]
  by_cases hb0 : b = 0
  · rw [if_pos hb0, if_pos hb0]
    dsimp only
    have hx : 0 ≤ -c / a := by
      subst hb0
      have : -c / a = x0 ^ 2 := by field_simp; linear_combination -hx0
      rw [this]; exact sq_nonneg _
    have hr : 0 ≤ R.rnd (-c / a) := R.ge_of_ge hx isFp_zero
    rw [if_neg (not_lt.2 hr), if_neg (not_lt.2 hx)]
    dsimp only
    have r1 := rel_u R hp1 (-c / a)
    rw [abs_of_nonneg hx] at r1
    have s := sqrt_near hr hx r1
    have s0 := Real.sqrt_nonneg (-c / a)
    rw [← abs_of_nonneg s0] at s
    rw [abs_of_nonneg s0] at s
    have s2 := rnd_near R hp1 (x := Real.sqrt (-c / a)) (y := Real.sqrt (R.rnd (-c / a))) (t := 1 / 2 ^ p) (by rw [abs_of_nonneg s0]; exact s)
    have f0 : 0 ≤ fsqrt R (R.rnd (-c / a)) := R.ge_of_ge (Real.sqrt_nonneg _) isFp_zero
    have s3 : |fsqrt R (R.rnd (-c / a)) - Real.sqrt (-c / a)| ≤ 7 / 2 ^ p * |Real.sqrt (-c / a)| := by
      refine le_trans s2 (mul_le_mul_of_nonneg_right ?_ (abs_nonneg _))
      rw [e7]
      generalize (1 : ℝ) / 2 ^ p = u at *
      nlinarith
    refine ⟨by linarith, ?_, s3⟩
    have e : -fsqrt R (R.rnd (-c / a)) - -Real.sqrt (-c / a) = -(fsqrt R (R.rnd (-c / a)) - Real.sqrt (-c / a)) := by ring
    rw [e, abs_neg, abs_neg]; exact s3
  · rw [if_neg hb0, if_neg hb0]
    dsimp only
    have hd : ¬ disc R a b c < 0 := by rw [(disc_sign R (by omega) ha hb hc).1, not_lt]; exact hD
    have hd' : ¬ Roots.disc a b c < 0 := by rw [Roots.disc_eq, not_lt]; exact hD
    rw [if_neg hd, if_neg hd']
    have q := quadQ_error R hp ha hb hc hD
    rw [← Roots.disc_eq] at q
    have hQ : -(b + Roots.copysign (Real.sqrt (Roots.disc a b c)) b) / 2 ≠ 0 := by
      have s0 := Real.sqrt_nonneg (Roots.disc a b c)
      unfold Roots.copysign
      rw [abs_of_nonneg s0]
      rcases lt_or_gt_of_ne hb0 with h | h
      · rw [if_pos h]; intro e; linarith
      · rw [if_neg (not_lt.2 h.le)]; intro e; linarith
    generalize -(b + Roots.copysign (Real.sqrt (Roots.disc a b c)) b) / 2 = Q at *
    generalize quadQ R b (disc R a b c) = q' at *
    have n := sort_near (t := 7 / 2 ^ p) (by rw [e7]; linarith) (by positivity) (inexact_a R hp (a := a) q) (inexact_c R hp (c := c) hQ q)
    refine ⟨?_, n.1, n.2⟩
    split
    · rename_i k; exact k.le
    · rename_i k; exact not_lt.1 k

/-- A double root: the two values are equal. -/
theorem C122_double (hp : 2 ≤ p) (inv : ℝ) {a b c x1 : ℝ} (ha : IsFp p a) (hb : IsFp p b) (hc : IsFp p c) (h0 : a ≠ 0)
    (h : ∀ x, a * x ^ 2 + b * x + c = a * (x - x1) * (x - x1)) : (solveQuadratic R inv a b c).1 = (solveQuadratic R inv a b c).2 := by
  have e0 := h 0
  have e1 := h 1
  have hbb : b = -2 * a * x1 := by nlinarith
  have hcc : c = a * x1 ^ 2 := by nlinarith
  have hD : b ^ 2 - 4 * a * c = 0 := by rw [hbb, hcc]; ring
  unfold solveQuadratic
  rw [if_neg h0]
  by_cases hb0 : b = 0
  · have hx : x1 = 0 := by
      rw [hb0] at hbb
      have : a * x1 = 0 := by linarith
      exact (mul_eq_zero.1 this).resolve_left h0
    rw [if_pos hb0]
    have hc0 : c = 0 := by rw [hcc, hx]; ring
    dsimp only
    have z : -c / a = 0 := by rw [hc0]; simp
    rw [z, R.zero, if_neg (lt_irrefl _)]
    unfold fsqrt
    rw [Real.sqrt_zero, R.zero]; simp
  · rw [if_neg hb0]
    have hz : disc R a b c = 0 := (disc_sign R hp ha hb hc).2.2 hD
    dsimp only
    rw [hz, if_neg (lt_irrefl _)]
    have hq : quadQ R b 0 = -b / 2 := by
      unfold quadQ fsqrt Fp.copysign
      rw [Real.sqrt_zero, R.zero]
      simp only [abs_zero, neg_zero, ite_self, add_zero]
      rw [R.id hb, R.id hb.neg.half]
    rw [hq]
    have : -b / 2 / a = c / (-b / 2) := by
      have : -b / 2 ≠ 0 := by intro q; apply hb0; linarith
      field_simp
      nlinarith
    rw [this, if_neg (lt_irrefl _)]

/-- A linear equation: the root has a relative error of at most `2 ^ -p`, the other value is the sentinel. -/
theorem C122_linear (hp : 1 ≤ p) (inv : ℝ) {b c : ℝ} (h0 : b ≠ 0) :
    (solveQuadratic R inv 0 b c).2 = inv ∧ ∃ x, b * x + c = 0 ∧ |(solveQuadratic R inv 0 b c).1 - x| ≤ 1 / 2 ^ p * |x| := by
  unfold solveQuadratic
  rw [if_pos rfl, if_neg h0]
  exact ⟨rfl, -c / b, by field_simp; ring, rel_u R hp _⟩

/-- An equation whose discriminant is one millionth of a millionth of a millionth of its terms: separate products would lose it. -/
example : IsFp 53 (2 ^ 30 : ℝ) ∧ IsFp 53 (2 ^ 31 + 2 : ℝ) ∧ IsFp 53 (2 ^ 30 + 2 : ℝ) ∧ (2 ^ 30 : ℝ) ≠ 0 ∧
    (∃ x : ℝ, 2 ^ 30 * x ^ 2 + (2 ^ 31 + 2) * x + (2 ^ 30 + 2) = 0) ∧ disc (ieee ℚ 53 (by norm_num)) (2 ^ 30) (2 ^ 31 + 2) (2 ^ 30 + 2) = 4 ∧
    rne 53 (rne 53 ((2 ^ 31 + 2) ^ 2) - rne 53 (4 * 2 ^ 30 * (2 ^ 30 + 2)) : ℚ) = 0 ∧ Nonempty (Rounding ℝ 53) :=
  ⟨⟨2 ^ 30, 0, by norm_num, by norm_num⟩, ⟨2 ^ 31 + 2, 0, by norm_num, by norm_num⟩, ⟨2 ^ 30 + 2, 0, by norm_num, by norm_num⟩, by norm_num,
    ⟨-1, by norm_num⟩, by decide +kernel, by decide +kernel, ⟨ieee ℝ 53 (by norm_num)⟩⟩

/-- An equation without roots, and one with a double root. -/
example : (∀ x : ℝ, 1 * x ^ 2 + 1 * x + 1 ≠ 0) ∧ (∀ x : ℝ, 1 * x ^ 2 + 2 * x + 1 = 1 * (x - -1) * (x - -1)) :=
  ⟨fun x h => by nlinarith [sq_nonneg (x + 1 / 2)], fun x => by ring⟩

end Verif.FpRootsP
