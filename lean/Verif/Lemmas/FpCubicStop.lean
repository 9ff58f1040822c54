import Verif.Lemmas.FpCubic

/-!
# Where the Newton loop of `solveCubic` may stop
-/

namespace Verif.FpCubicP

open Fp Fp.QLen

variable {p : ℕ} (R : Rounding ℝ p)

/-- The sizes of the terms of the slope. -/
def mag' (a b c x : ℝ) : ℝ := 3 * (|a| * |x| ^ 2) + 2 * (|b| * |x|) + |c|

/-- The computed slope. -/
theorem eval_slope (hp : 8 ≤ p) (f : CubicFused) (a b c d x : ℝ) :
    |(cubicEval R f a b c d x).2.2.1 - (3 * a * x ^ 2 + 2 * b * x + c)| ≤ 5 / 2 ^ p * mag' a b c x := by
  have u0 := unit_nonneg (K := ℝ) p
  have u1 := unit_256 hp
  obtain ⟨h1, k1, h2, k2⟩ := eval_low R hp f a b c d x
  have w0 := prod_le R (by omega : 1 ≤ p) f.q0 (le_refl |a * x|)
  have w1 := size (le_refl _) w0
  have v0 := Fp.rel_u R (by omega : 1 ≤ p) (prodIf R f.q0 (a * x) + (cubicEval R f a b c d x).1)
  have w2 := size (le_refl _) v0
  have w3 := horner R hp f.dq (R.rnd (prodIf R f.q0 (a * x) + (cubicEval R f a b c d x).1) * x) (cubicEval R f a b c d x).2.1
  rw [show (cubicEval R f a b c d x).2.2.1 = R.rnd (prodIf R f.dq (R.rnd (prodIf R f.q0 (a * x) + (cubicEval R f a b c d x).1) * x) + (cubicEval R f a b c d x).2.1) from rfl]
  generalize (cubicEval R f a b c d x).2.1 = c2 at *
  generalize (cubicEval R f a b c d x).1 = b1 at *
  have w5 := abs_add_le (prodIf R f.q0 (a * x)) b1
  generalize R.rnd (prodIf R f.dq (R.rnd (prodIf R f.q0 (a * x) + b1) * x) + c2) = dq at *
  generalize R.rnd (prodIf R f.q0 (a * x) + b1) = v at *
  generalize prodIf R f.q0 (a * x) = w at *
  rw [abs_mul] at w1 w0
  unfold mag'
  have X0 := abs_nonneg x
  have A0 : 0 ≤ |a| * |x| := by positivity
  have B0 := abs_nonneg b
  have s1 : |w| ≤ 101 / 100 * (|a| * |x|) := by
    have := mul_le_mul_of_nonneg_right u1 A0
    linarith
  have s2 : |w + b1| ≤ 203 / 100 * (|a| * |x|) + 102 / 100 * |b| := by linarith
  have s3 : |v| ≤ 205 / 100 * (|a| * |x|) + 103 / 100 * |b| := by
    have := mul_le_mul_of_nonneg_right u1 (abs_nonneg (w + b1))
    linarith
  have s4 : |v| * |x| ≤ 205 / 100 * (|a| * |x| ^ 2) + 103 / 100 * (|b| * |x|) := by
    have := mul_le_mul_of_nonneg_right s3 X0
    linear_combination this
  have n1 : 0 ≤ 1 / 2 ^ p * (|a| * |x| ^ 2) := by positivity
  have n2 : 0 ≤ 1 / 2 ^ p * (|b| * |x|) := by positivity
  have n3 : 0 ≤ 1 / 2 ^ p * |c| := by positivity
  have e1 : |v - (w + b1)| ≤ 1 / 2 ^ p * (203 / 100 * (|a| * |x|) + 102 / 100 * |b|) := v0.trans (mul_le_mul_of_nonneg_left s2 u0)
  have e2 : dq - (3 * a * x ^ 2 + 2 * b * x + c) = (dq - (v * x + c2)) + ((v - (w + b1)) * x + ((w - a * x) * x + ((b1 - (a * x + b)) * x + ((c2 - (b1 * x + c)) + (b1 - (a * x + b)) * x)))) := by ring
  rw [e2]
  refine (abs_add_le _ _).trans ?_
  have t1 := abs_add_le ((v - (w + b1)) * x) ((w - a * x) * x + ((b1 - (a * x + b)) * x + ((c2 - (b1 * x + c)) + (b1 - (a * x + b)) * x)))
  have t2 := abs_add_le ((w - a * x) * x) ((b1 - (a * x + b)) * x + ((c2 - (b1 * x + c)) + (b1 - (a * x + b)) * x))
  have t3 := abs_add_le ((b1 - (a * x + b)) * x) ((c2 - (b1 * x + c)) + (b1 - (a * x + b)) * x)
  have t4 := abs_add_le (c2 - (b1 * x + c)) ((b1 - (a * x + b)) * x)
  rw [abs_mul] at t1 t2 t3 t4
  have g1 := mul_le_mul_of_nonneg_right e1 X0
  have g2 := mul_le_mul_of_nonneg_right w0 X0
  have g3 := mul_le_mul_of_nonneg_right h1 X0
  have g4 : |dq - (v * x + c2)| ≤ 1 / 2 ^ p * (201 / 100 * (205 / 100 * (|a| * |x| ^ 2) + 103 / 100 * (|b| * |x|)) + 105 / 100 * ((|a| * |x| + |b|) * |x| + |c|)) := by
    refine w3.trans (mul_le_mul_of_nonneg_left ?_ u0)
    rw [abs_mul]
    linarith
  have e5 : (5 : ℝ) / 2 ^ p = 5 * (1 / 2 ^ p) := by ring
  rw [e5]
  linear_combination t1 + t2 + t3 + t4 + g1 + g2 + 2 * g3 + h2 + g4 + (15 - 2.03 - 1 - 4.02 - 2.1 - 2.01 * 2.05 - 1.05) * n1 + (10 - 1.02 - 2 - 2.1 - 2.01 * 1.03 - 1.05) * n2 + (5 - 1 - 1.05) * n3

/-- The reduced cubic before its least root: the value is at most the distance to the inflection times the slope, which is at least twice the square of the distance. -/
theorem reduced {m T y : ℝ} (hT : 0 ≤ T) (hy : y ≤ 0) (hg : y ^ 3 + m * y + T < 0) : 2 * y ^ 2 ≤ 3 * y ^ 2 + m ∧ -(y ^ 3 + m * y + T) ≤ -y * (3 * y ^ 2 + m) := by
  have h1 : y * (y ^ 2 + m) < 0 := by nlinarith
  have h2 : y < 0 := by
    rcases lt_or_eq_of_le hy with h | h
    · exact h
    · rw [h] at h1; simp at h1
  have h3 : 0 < y ^ 2 + m := by
    by_contra h
    have := mul_nonneg_of_nonpos_of_nonpos hy (not_lt.1 h)
    linarith
  exact ⟨by linarith, by nlinarith [mul_nonneg (sq_nonneg y) (neg_nonneg.2 hy)]⟩

/-- The same for the cubic and either direction. -/
theorem before {a b c d x s : ℝ} (ha : a ≠ 0) (hs : s = 1 ∨ s = -1)
    (hT : 0 ≤ s * ((a * (-b / (3 * a)) ^ 3 + b * (-b / (3 * a)) ^ 2 + c * (-b / (3 * a)) + d) / a)) (hx : s * x ≤ s * (-b / (3 * a)))
    (hg : s * ((a * x ^ 3 + b * x ^ 2 + c * x + d) / a) < 0) :
    2 * (x - -b / (3 * a)) ^ 2 ≤ (3 * a * x ^ 2 + 2 * b * x + c) / a ∧
    |a * x ^ 3 + b * x ^ 2 + c * x + d| ≤ |x - -b / (3 * a)| * |3 * a * x ^ 2 + 2 * b * x + c| := by
  obtain ⟨i, hi⟩ : ∃ i, i = -b / (3 * a) := ⟨_, rfl⟩
  rw [← hi] at hT hx ⊢
  have hb : b = -3 * a * i := by rw [hi]; field_simp
  obtain ⟨T, hTe⟩ : ∃ T, T = (a * i ^ 3 + b * i ^ 2 + c * i + d) / a := ⟨_, rfl⟩
  rw [← hTe] at hT
  obtain ⟨m, hm⟩ : ∃ m, m = c / a - 3 * i ^ 2 := ⟨_, rfl⟩
  have hP : (a * x ^ 3 + b * x ^ 2 + c * x + d) / a = (x - i) ^ 3 + m * (x - i) + T := by
    rw [hTe, hm, hb]; field_simp; ring
  have hS : (3 * a * x ^ 2 + 2 * b * x + c) / a = 3 * (x - i) ^ 2 + m := by
    rw [hm, hb]; field_simp; ring
  have key : 2 * (x - i) ^ 2 ≤ 3 * (x - i) ^ 2 + m ∧ |(x - i) ^ 3 + m * (x - i) + T| ≤ |x - i| * |3 * (x - i) ^ 2 + m| := by
    rw [hP] at hg
    rcases hs with rfl | rfl
    · rw [one_mul] at hT hg
      rw [one_mul, one_mul] at hx
      obtain ⟨k1, k2⟩ := reduced hT (by linarith : x - i ≤ 0) hg
      refine ⟨k1, ?_⟩
      rw [abs_of_neg hg, abs_of_nonpos (by linarith : x - i ≤ 0), abs_of_nonneg (by nlinarith [sq_nonneg (x - i)] : 0 ≤ 3 * (x - i) ^ 2 + m)]
      exact k2
    · have hg' : (-(x - i)) ^ 3 + m * (-(x - i)) + -T < 0 := by linear_combination hg
      obtain ⟨k1, k2⟩ := reduced (show 0 ≤ -T by linarith) (by linarith : -(x - i) ≤ 0) hg'
      rw [neg_sq] at k1 k2
      refine ⟨k1, ?_⟩
      rw [abs_of_pos (by linarith : 0 < (x - i) ^ 3 + m * (x - i) + T), abs_of_nonneg (by linarith : 0 ≤ x - i), abs_of_nonneg (by nlinarith [sq_nonneg (x - i)] : 0 ≤ 3 * (x - i) ^ 2 + m)]
      linear_combination k2
  rw [← hP, ← hS] at key
  refine ⟨key.1, ?_⟩
  have k2 := key.2
  rw [abs_div, abs_div, ← mul_div_assoc] at k2
  exact (div_le_div_iff_of_pos_right (abs_pos.2 ha)).1 k2

/-- A slope that is a rounding error of its terms, before the least root. -/
theorem flat (hp : 8 ≤ p) {a b c d x s : ℝ} (ha : a ≠ 0) (hs : s = 1 ∨ s = -1)
    (hT : 0 ≤ s * ((a * (-b / (3 * a)) ^ 3 + b * (-b / (3 * a)) ^ 2 + c * (-b / (3 * a)) + d) / a)) (hx : s * x ≤ s * (-b / (3 * a)))
    (hg : s * ((a * x ^ 3 + b * x ^ 2 + c * x + d) / a) < 0) (h : |3 * a * x ^ 2 + 2 * b * x + c| ≤ 5 / 2 ^ p * mag' a b c x) :
    |a * x ^ 3 + b * x ^ 2 + c * x + d| ≤ 15 / 2 ^ p * mag a b c d x := by
  have u0 := unit_nonneg (K := ℝ) p
  have u1 := unit_256 hp
  obtain ⟨k1, k2⟩ := before ha hs hT hx hg
  have a1 : 0 < |a| := abs_pos.2 ha
  obtain ⟨y, hy⟩ : ∃ y, y = x - -b / (3 * a) := ⟨_, rfl⟩
  rw [← hy] at k1 k2
  have hb : b = 3 * a * (y - x) := by rw [hy]; field_simp; ring
  obtain ⟨S, hS⟩ : ∃ S, S = 3 * a * x ^ 2 + 2 * b * x + c := ⟨_, rfl⟩
  rw [← hS] at h k1 k2
  have X0 := abs_nonneg x
  have Y0 := abs_nonneg y
  have e5 : (5 : ℝ) / 2 ^ p = 5 * (1 / 2 ^ p) := by ring
  have e15 : (15 : ℝ) / 2 ^ p = 15 * (1 / 2 ^ p) := by ring
  rw [e5] at h
  rw [e15]
  unfold mag' at h
  have bb : |b| ≤ 3 * (|a| * |x|) + 3 * (|a| * |y|) := by
    have : |b| = 3 * |a| * |y - x| := by rw [hb, abs_mul, abs_mul, abs_of_pos (by norm_num : (0 : ℝ) < 3)]
    rw [this]
    have := mul_le_mul_of_nonneg_left (abs_sub y x) (by positivity : 0 ≤ 3 * |a|)
    linarith
  have cc : |c| ≤ |S| + (3 * (|a| * |x| ^ 2) + 2 * (|b| * |x|)) := by
    have : c = S - (3 * a * x ^ 2 + 2 * b * x) := by rw [hS]; ring
    rw [this]
    refine (abs_sub _ _).trans (add_le_add_right ((abs_add_le _ _).trans ?_) _)
    rw [abs_mul, abs_mul, abs_mul, abs_mul, abs_pow, abs_of_pos (by norm_num : (0 : ℝ) < 3), abs_of_pos (by norm_num : (0 : ℝ) < 2)]
    linarith
  have q1 : 0 ≤ |a| * |x| ^ 2 := by positivity
  have q2 : 0 ≤ |b| * |x| := by positivity
  have S1 : |S| ≤ 5 / 256 * (3 * (|a| * |x| ^ 2) + 2 * (|b| * |x|) + |c|) := h.trans (mul_le_mul_of_nonneg_right (by linarith) (by positivity))
  have S2 : |S| ≤ 41 / 1000 * (3 * (|a| * |x| ^ 2) + 2 * (|b| * |x|)) := by linarith
  have S3 : |S| ≤ 41 / 1000 * (9 * (|a| * |x| ^ 2) + 6 * (|a| * |x| * |y|)) := by
    have := mul_le_mul_of_nonneg_right bb X0
    nlinarith
  have S4 : 2 * (|a| * |y| ^ 2) ≤ |S| := by
    have := k1.trans (le_abs_self _)
    rw [abs_div, le_div_iff₀ a1] at this
    rw [sq_abs]
    linarith
  have yx : |y| ≤ |x| := by
    by_contra hlt
    push Not at hlt
    have t1 : |a| * |x| ^ 2 ≤ |a| * |y| ^ 2 := mul_le_mul_of_nonneg_left (pow_le_pow_left₀ X0 hlt.le 2) a1.le
    have t2 : |a| * |x| * |y| ≤ |a| * |y| ^ 2 := by
      have := mul_le_mul_of_nonneg_left (mul_le_mul_of_nonneg_right hlt.le Y0) a1.le
      linear_combination this
    have t3 : 0 < |a| * |y| ^ 2 := mul_pos a1 (pow_pos (X0.trans_lt hlt) 2)
    linarith
  have k3 := k2.trans (mul_le_mul yx h (abs_nonneg S) X0)
  refine k3.trans ?_
  unfold mag
  have n2 : 0 ≤ 1 / 2 ^ p * (|b| * |x| ^ 2) := by positivity
  have n3 : 0 ≤ 1 / 2 ^ p * (|c| * |x|) := by positivity
  have n4 : 0 ≤ 1 / 2 ^ p * |d| := by positivity
  linear_combination 5 * n2 + 10 * n3 + 15 * n4

end Verif.FpCubicP
