import Verif.Model.FpCubic
import Verif.Lemmas.FpQLength
import Mathlib.Tactic.LinearCombination
import Mathlib.Tactic.Positivity

/-!
# Errors of the steps of `solveCubic` in floating-point arithmetic
-/

namespace Verif.FpCubicP

open Fp Fp.QLen

variable {p : ℕ} (R : Rounding ℝ p)

theorem unit_256 (hp : 8 ≤ p) : (1 : ℝ) / 2 ^ p ≤ 1 / 256 := by
  refine one_div_le_one_div_of_le (by norm_num) ?_
  calc (256 : ℝ) = 2 ^ 8 := by norm_num
    _ ≤ 2 ^ p := pow_le_pow_right₀ (by norm_num) hp

/-- One step of Horner's scheme. -/
theorem horner (hp : 8 ≤ p) (f : Bool) (z c : ℝ) : |R.rnd (prodIf R f z + c) - (z + c)| ≤ 1 / 2 ^ p * (201 / 100 * |z| + |c|) := by
  have u0 := unit_nonneg (K := ℝ) p
  have u1 := unit_256 hp
  have h1 := prod_le R (by omega) f (le_refl |z|)
  have h2 := Fp.rel_u R (by omega) (prodIf R f z + c)
  have h3 := size (le_refl |z|) h1
  have h4 := (abs_add_le (prodIf R f z) c).trans (add_le_add_left h3 |c|)
  have h5 := h2.trans (mul_le_mul_of_nonneg_left h4 u0)
  have h6 := tri h5 (show |prodIf R f z + c - (z + c)| ≤ 1 / 2 ^ p * |z| by rwa [add_sub_add_right_eq_sub])
  refine h6.trans ?_
  have z0 := mul_nonneg u0 (abs_nonneg z)
  have := mul_le_mul_of_nonneg_right u1 z0
  nlinarith

/-- The sizes of the terms of the cubic. -/
def mag (a b c d x : ℝ) : ℝ := |a| * |x| ^ 3 + |b| * |x| ^ 2 + |c| * |x| + |d|

/-- The first two values of the blocks `eval`. -/
theorem eval_low (hp : 8 ≤ p) (f : CubicFused) (a b c d x : ℝ) :
    |(cubicEval R f a b c d x).1 - (a * x + b)| ≤ 1 / 2 ^ p * (201 / 100 * (|a| * |x|) + |b|) ∧
    |(cubicEval R f a b c d x).1| ≤ 102 / 100 * (|a| * |x| + |b|) ∧
    |(cubicEval R f a b c d x).2.1 - ((cubicEval R f a b c d x).1 * x + c)| ≤ 1 / 2 ^ p * (21 / 10 * ((|a| * |x| + |b|) * |x|) + |c|) ∧
    |(cubicEval R f a b c d x).2.1| ≤ 105 / 100 * ((|a| * |x| + |b|) * |x| + |c|) := by
  have u0 := unit_nonneg (K := ℝ) p
  have u1 := unit_256 hp
  have h1 := horner R hp f.q0 (a * x) b
  have h2 := horner R hp f.c2 (R.rnd (prodIf R f.q0 (a * x) + b) * x) c
  unfold cubicEval
  dsimp only
  rw [abs_mul] at h1 h2
  generalize R.rnd (prodIf R f.q0 (a * x) + b) = b1 at *
  generalize R.rnd (prodIf R f.c2 (b1 * x) + c) = c2 at *
  have A0 : 0 ≤ |a| * |x| := by positivity
  have B0 := abs_nonneg b
  have C0 := abs_nonneg c
  have X0 := abs_nonneg x
  have k1 : |b1| ≤ 102 / 100 * (|a| * |x| + |b|) := by
    have t := abs_add_le (a * x) b
    rw [abs_mul] at t
    refine (size t h1).trans ?_
    have := mul_le_mul_of_nonneg_right u1 (show 0 ≤ 201 / 100 * (|a| * |x|) + |b| by positivity)
    linarith
  have k2 : |b1| * |x| ≤ 102 / 100 * ((|a| * |x| + |b|) * |x|) := by
    have := mul_le_mul_of_nonneg_right k1 X0
    linarith
  generalize |a| * |x| = A at *
  have AB0 : 0 ≤ (A + |b|) * |x| := by positivity
  have h2' := h2.trans (mul_le_mul_of_nonneg_left (show 201 / 100 * (|b1| * |x|) + |c| ≤ 21 / 10 * ((A + |b|) * |x|) + |c| by linarith) u0)
  refine ⟨h1, k1, h2', ?_⟩
  have t := abs_add_le (b1 * x) c
  rw [abs_mul] at t
  refine (size t h2').trans ?_
  have := mul_le_mul_of_nonneg_right u1 (show 0 ≤ 21 / 10 * ((A + |b|) * |x|) + |c| by positivity)
  linarith

/-- The value of the cubic from the values of the block. -/
theorem eval_res (hp : 8 ≤ p) (f : CubicFused) (a b c d x : ℝ) :
    |(cubicEval R f a b c d x).2.1 * x + d - (a * x ^ 3 + b * x ^ 2 + c * x + d)| ≤ 1 / 2 ^ p * (42 / 10 * (|a| * |x| ^ 3) + 32 / 10 * (|b| * |x| ^ 2) + |c| * |x|) := by
  obtain ⟨h1, -, h2, -⟩ := eval_low R hp f a b c d x
  generalize (cubicEval R f a b c d x).2.1 = c2 at *
  generalize (cubicEval R f a b c d x).1 = b1 at *
  have e : c2 * x + d - (a * x ^ 3 + b * x ^ 2 + c * x + d) = (c2 - (b1 * x + c)) * x + (b1 - (a * x + b)) * x ^ 2 := by ring
  rw [e]
  refine (abs_add_le _ _).trans ?_
  rw [abs_mul, abs_mul, abs_pow]
  have g1 := mul_le_mul_of_nonneg_right h1 (sq_nonneg |x|)
  have g2 := mul_le_mul_of_nonneg_right h2 (abs_nonneg x)
  have n1 : 0 ≤ 1 / 2 ^ p * (|a| * |x| ^ 3) := by positivity
  have n2 : 0 ≤ 1 / 2 ^ p * (|b| * |x| ^ 2) := by positivity
  refine (add_le_add g2 g1).trans ?_
  linear_combination (42 / 10 - 2.1 - 2.01) * n1 + (32 / 10 - 3.1) * n2

/-- The computed value of the cubic and the size of the computed slope. -/
theorem eval_high (hp : 8 ≤ p) (f : CubicFused) (a b c d x : ℝ) :
    |(cubicEval R f a b c d x).2.2.2 - (a * x ^ 3 + b * x ^ 2 + c * x + d)| ≤ 7 / 2 ^ p * mag a b c d x ∧
    |(cubicEval R f a b c d x).2.2.1| * |x| ≤ 33 / 10 * mag a b c d x := by
  have u0 := unit_nonneg (K := ℝ) p
  have u1 := unit_256 hp
  obtain ⟨h1, k1, h2, k2⟩ := eval_low R hp f a b c d x
  have h3 := eval_res R hp f a b c d x
  have h4 := horner R hp f.q ((cubicEval R f a b c d x).2.1 * x) d
  have w1 := size (le_refl _) (prod_le R (by omega : 1 ≤ p) f.q0 (le_refl |a * x|))
  have w2 := size (le_refl _) (Fp.rel_u R (by omega : 1 ≤ p) (prodIf R f.q0 (a * x) + (cubicEval R f a b c d x).1))
  have w3 := horner R hp f.dq (R.rnd (prodIf R f.q0 (a * x) + (cubicEval R f a b c d x).1) * x) (cubicEval R f a b c d x).2.1
  rw [show (cubicEval R f a b c d x).2.2.2 = R.rnd (prodIf R f.q ((cubicEval R f a b c d x).2.1 * x) + d) from rfl,
    show (cubicEval R f a b c d x).2.2.1 = R.rnd (prodIf R f.dq (R.rnd (prodIf R f.q0 (a * x) + (cubicEval R f a b c d x).1) * x) + (cubicEval R f a b c d x).2.1) from rfl]
  generalize (cubicEval R f a b c d x).2.1 = c2 at *
  generalize (cubicEval R f a b c d x).1 = b1 at *
  have w4 := size (abs_add_le _ _) w3
  have w5 := abs_add_le (prodIf R f.q0 (a * x)) b1
  generalize R.rnd (prodIf R f.q (c2 * x) + d) = q at *
  generalize R.rnd (prodIf R f.dq (R.rnd (prodIf R f.q0 (a * x) + b1) * x) + c2) = dq at *
  generalize R.rnd (prodIf R f.q0 (a * x) + b1) = v at *
  generalize prodIf R f.q0 (a * x) = w at *
  rw [abs_mul] at w1 w4 h4
  unfold mag
  have X0 := abs_nonneg x
  have n1 : 0 ≤ |a| * |x| ^ 3 := by positivity
  have n2 : 0 ≤ |b| * |x| ^ 2 := by positivity
  have n3 : 0 ≤ |c| * |x| := by positivity
  have n4 := abs_nonneg d
  have kc : |c2| * |x| ≤ 105 / 100 * (|a| * |x| ^ 3 + |b| * |x| ^ 2 + |c| * |x|) := by
    have := mul_le_mul_of_nonneg_right k2 X0
    linear_combination this
  constructor
  · have h5 := tri h4 h3
    refine h5.trans ?_
    have g := mul_le_mul_of_nonneg_left kc u0
    have m1 := mul_nonneg u0 n1
    have m2 := mul_nonneg u0 n2
    have m3 := mul_nonneg u0 n3
    have m4 := mul_nonneg u0 n4
    have e : (7 : ℝ) / 2 ^ p = 7 * (1 / 2 ^ p) := by ring
    rw [e]
    generalize (1 : ℝ) / 2 ^ p = t at *
    nlinarith
  · have A0 : 0 ≤ |a| * |x| := by positivity
    have B0 := abs_nonneg b
    have s1 : |w| ≤ 101 / 100 * (|a| * |x|) := by
      have := mul_le_mul_of_nonneg_right u1 A0
      linarith
    have s2 : |w + b1| ≤ 203 / 100 * (|a| * |x|) + 102 / 100 * |b| := by linarith
    have s3 : |v| ≤ 205 / 100 * (|a| * |x|) + 103 / 100 * |b| := by
      have := mul_le_mul_of_nonneg_right u1 (abs_nonneg (w + b1))
      linarith
    have s4 : |v| * |x| ≤ 205 / 100 * (|a| * |x| ^ 2) + 103 / 100 * (|b| * |x|) := by
      have := mul_le_mul_of_nonneg_right s3 X0
      linear_combination this
    have s5 : |dq| ≤ 102 / 100 * (|v| * |x|) + 102 / 100 * |c2| := by
      have v0 : 0 ≤ |v| * |x| := by positivity
      have := mul_le_mul_of_nonneg_right u1 (show 0 ≤ 201 / 100 * (|v| * |x|) + |c2| by positivity)
      have := abs_nonneg c2
      linarith
    have s6 := mul_le_mul_of_nonneg_right s5 X0
    have s7 := mul_le_mul_of_nonneg_right s4 X0
    nlinarith

/-- The coefficients `b'`, `c'`, `d'` are those of the cubic up to rounding errors of its terms at `x`, and up to its value there. -/
structure Perturbed (p : ℕ) (a b c d x b' c' d' : ℝ) : Prop where
  sq : |b' - b| * |x| ^ 2 ≤ |a * x ^ 3 + b * x ^ 2 + c * x + d| + 1 / 2 ^ p * (6 * (|a| * |x| ^ 3) + |b| * |x| ^ 2 + 3 * (|c| * |x|))
  lin : |c' - c| ≤ 1 / 2 ^ p * (3 * (|a| * |x| ^ 2) + 3 * (|b| * |x|) + 3 * |c|)
  const : |d' - d| ≤ |a * x ^ 3 + b * x ^ 2 + c * x + d| + 1 / 2 ^ p * (6 * (|a| * |x| ^ 3) + 4 * (|b| * |x| ^ 2) + |c| * |x| + |d|)

/-- Deflation from the leading coefficient. -/
theorem deflate_forward (hp : 8 ≤ p) (f : CubicFused) (a b c d x : ℝ) :
    Perturbed p a b c d x ((cubicEval R f a b c d x).1 - a * x) ((cubicEval R f a b c d x).2.1 - (cubicEval R f a b c d x).1 * x) (-(cubicEval R f a b c d x).2.1 * x) := by
  obtain ⟨h1, -, h2, -⟩ := eval_low R hp f a b c d x
  have h3 := eval_res R hp f a b c d x
  generalize (cubicEval R f a b c d x).2.1 = c2 at *
  generalize (cubicEval R f a b c d x).1 = b1 at *
  have u0 := unit_nonneg (K := ℝ) p
  have n1 : 0 ≤ 1 / 2 ^ p * (|a| * |x| ^ 3) := by positivity
  have n2 : 0 ≤ 1 / 2 ^ p * (|b| * |x| ^ 2) := by positivity
  have n3 : 0 ≤ 1 / 2 ^ p * (|c| * |x|) := by positivity
  have n4 : 0 ≤ 1 / 2 ^ p * |d| := by positivity
  have n5 : 0 ≤ 1 / 2 ^ p * (|a| * |x| ^ 2) := by positivity
  have n6 : 0 ≤ 1 / 2 ^ p * (|b| * |x|) := by positivity
  have n7 : 0 ≤ 1 / 2 ^ p * |c| := by positivity
  have P0 := abs_nonneg (a * x ^ 3 + b * x ^ 2 + c * x + d)
  refine ⟨?_, ?_, ?_⟩
  · rw [show b1 - a * x - b = b1 - (a * x + b) by ring]
    have := mul_le_mul_of_nonneg_right h1 (sq_nonneg |x|)
    linear_combination this + P0 + (6 - 2.01) * n1 + 3 * n3
  · rw [show c2 - b1 * x - c = c2 - (b1 * x + c) by ring]
    linear_combination h2 + (3 - 2.1) * n5 + (3 - 2.1) * n6 + 2 * n7
  · rw [show -c2 * x - d = -(c2 * x + d) by ring, abs_neg]
    have := size (le_refl |a * x ^ 3 + b * x ^ 2 + c * x + d|) h3
    linear_combination this + (6 - 4.2) * n1 + (4 - 3.2) * n2 + n4

/-- Deflation from the constant. -/
theorem deflate_backward (hp : 8 ≤ p) (a b c d x : ℝ) (h : R.rnd (R.rnd (|a| * x) * x) > |R.rnd (d / x)|) :
    Perturbed p a b c d x (R.rnd (R.rnd (R.rnd (-d / x) - c) / x) - a * x) (R.rnd (-d / x) - R.rnd (R.rnd (R.rnd (-d / x) - c) / x) * x) (-R.rnd (-d / x) * x) := by
  have hp1 : 1 ≤ p := by omega
  have u0 := unit_nonneg (K := ℝ) p
  have u1 := unit_256 hp
  have hx : x ≠ 0 := by
    rintro rfl
    rw [mul_zero, R.zero, div_zero, R.zero, abs_zero] at h
    exact lt_irrefl _ h
  have X0 := abs_nonneg x
  have X1 : 0 < |x| := abs_pos.2 hx
  have r1 := Fp.rel_u R hp1 (|a| * x)
  have r2 := Fp.rel_u R hp1 (R.rnd (|a| * x) * x)
  have r3 := Fp.rel_u R hp1 (d / x)
  have r4 := Fp.rel_u R hp1 (-d / x)
  have r5 := Fp.rel_u R hp1 (R.rnd (-d / x) - c)
  have r6 := Fp.rel_u R hp1 (R.rnd (R.rnd (-d / x) - c) / x)
  have h' := h.le.trans (le_abs_self _)
  generalize R.rnd (R.rnd (|a| * x) * x) = m2 at *
  generalize R.rnd (|a| * x) = m1 at *
  generalize R.rnd (R.rnd (R.rnd (-d / x) - c) / x) = b1 at *
  generalize R.rnd (R.rnd (-d / x) - c) = g at *
  generalize R.rnd (-d / x) = c2 at *
  have hd : d = d / x * x := by field_simp
  rw [neg_div] at r4
  rw [abs_neg] at r4
  generalize d / x = y at *
  generalize R.rnd y = y' at *
  have q0 : 0 ≤ |a| * |x| ^ 2 := by positivity
  -- the size of `d / x`
  have s1 : |m1| ≤ 257 / 256 * (|a| * |x|) := by
    have t := size (le_refl _) r1
    rw [abs_mul, abs_abs] at t
    have := mul_le_mul_of_nonneg_right u1 (show 0 ≤ |a| * |x| by positivity)
    linarith
  have s2 : |m2| ≤ 102 / 100 * (|a| * |x| ^ 2) := by
    have t := size (le_refl _) r2
    rw [abs_mul] at t
    have e1 := mul_le_mul_of_nonneg_right s1 X0
    have := mul_le_mul_of_nonneg_right u1 (show 0 ≤ |m1| * |x| by positivity)
    nlinarith
  have s3 : |y| ≤ 103 / 100 * (|a| * |x| ^ 2) := by
    rw [abs_sub_comm] at r3
    have t := size (le_refl _) r3
    have := mul_le_mul_of_nonneg_right u1 (abs_nonneg y)
    linarith
  have s4 : |c2| ≤ 104 / 100 * (|a| * |x| ^ 2) := by
    have t := size (le_refl _) r4
    rw [abs_neg] at t
    have := mul_le_mul_of_nonneg_right u1 (abs_nonneg y)
    linarith
  -- the errors
  have e1 : |c2 * x + d| ≤ 1 / 2 ^ p * (|y| * |x|) := by
    rw [hd, show c2 * x + y * x = (c2 - -y) * x by ring, abs_mul]
    have := mul_le_mul_of_nonneg_right r4 X0
    linarith
  have s5 : |c2 - c| ≤ 104 / 100 * (|a| * |x| ^ 2) + |c| := (abs_sub _ _).trans (by linarith)
  have e2 : |b1 * x - (c2 - c)| ≤ 1 / 2 ^ p * (201 / 100 * |c2 - c|) := by
    have t : |b1 * x - g| ≤ 1 / 2 ^ p * |g| := by
      have := mul_le_mul_of_nonneg_right r6 X0
      rw [← abs_mul, mul_assoc, ← abs_mul, sub_mul, div_mul_cancel₀ _ hx] at this
      exact this
    have t2 := size (le_refl _) r5
    have t3 := tri t r5
    refine t3.trans ?_
    have := mul_le_mul_of_nonneg_left t2 u0
    have := mul_le_mul_of_nonneg_right u1 (mul_nonneg u0 (abs_nonneg (c2 - c)))
    nlinarith [mul_nonneg u0 (abs_nonneg (c2 - c))]
  have e3 : |b1 * x - (c2 - c)| ≤ 1 / 2 ^ p * (21 / 10 * (|a| * |x| ^ 2) + 21 / 10 * |c|) := by
    refine e2.trans (mul_le_mul_of_nonneg_left ?_ u0)
    have := abs_nonneg c
    linarith
  have P0 := abs_nonneg (a * x ^ 3 + b * x ^ 2 + c * x + d)
  have n1 : 0 ≤ 1 / 2 ^ p * (|a| * |x| ^ 3) := by positivity
  have n2 : 0 ≤ 1 / 2 ^ p * (|b| * |x| ^ 2) := by positivity
  have n3 : 0 ≤ 1 / 2 ^ p * (|c| * |x|) := by positivity
  have n5 : 0 ≤ 1 / 2 ^ p * (|a| * |x| ^ 2) := by positivity
  have n6 : 0 ≤ 1 / 2 ^ p * (|b| * |x|) := by positivity
  have n7 : 0 ≤ 1 / 2 ^ p * |c| := by positivity
  refine ⟨?_, ?_, ?_⟩
  · have k : |b1 - a * x - b| * |x| ^ 2 = |(b1 * x - (c2 - c)) * x + (c2 * x + d) - (a * x ^ 3 + b * x ^ 2 + c * x + d)| := by
      rw [← abs_pow, ← abs_mul]
      congr 1
      ring
    rw [k]
    refine (abs_sub _ _).trans ?_
    have t := abs_add_le ((b1 * x - (c2 - c)) * x) (c2 * x + d)
    rw [abs_mul] at t
    have t2 := mul_le_mul_of_nonneg_right e3 X0
    have t3 := mul_le_mul_of_nonneg_left (mul_le_mul_of_nonneg_right s3 X0) u0
    linear_combination t + t2 + t3 + e1 + (6 - 2.1 - 1.03) * n1 + n2 + (3 - 2.1) * n3
  · rw [show c2 - b1 * x - c = -(b1 * x - (c2 - c)) by ring, abs_neg]
    linear_combination e3 + 0.9 * n5 + 3 * n6 + 0.9 * n7
  · rw [show -c2 * x - d = -(c2 * x + d) by ring, abs_neg]
    have : |y| * |x| = |d| := by rw [← abs_mul, ← hd]
    rw [this] at e1
    linear_combination e1 + P0 + 6 * n1 + 4 * n2 + n3

/-- The step of the loop, if it does not move on: the slope is zero, the step points back, or the value of the cubic is a rounding error of its terms. -/
theorem step_stops (hp : 8 ≤ p) (f : CubicFused) (a b c d x s : ℝ) (hs : s = 1 ∨ s = -1) (h : ¬ s * cubicStep R f a b c d x > s * x) :
    (cubicEval R f a b c d x).2.2.1 = 0 ∨ 0 ≤ s * ((cubicEval R f a b c d x).2.2.2 / (cubicEval R f a b c d x).2.2.1) ∨
      |a * x ^ 3 + b * x ^ 2 + c * x + d| ≤ 11 / 2 ^ p * mag a b c d x := by
  have hp1 : 1 ≤ p := by omega
  have u0 := unit_nonneg (K := ℝ) p
  have u1 := unit_256 hp
  obtain ⟨h1, h2⟩ := eval_high R hp f a b c d x
  unfold cubicStep at h
  generalize cubicEval R f a b c d x = v at *
  obtain ⟨b1, c2, dq, q⟩ := v
  dsimp only at *
  by_cases hdq : dq = 0
  · exact .inl hdq
  rw [if_neg hdq] at h
  by_cases hq : 0 ≤ s * (q / dq)
  · exact .inr (.inl hq)
  refine .inr (.inr ?_)
  push Not at hq h
  have r1 := Fp.rel_u R hp1 (q / dq)
  have r2 := Fp.rel_u R hp1 (R.rnd (q / dq) / (1 + 2 / 2 ^ p))
  have r3 := Fp.rel_u R hp1 (x - R.rnd (R.rnd (q / dq) / (1 + 2 / 2 ^ p)))
  have X0 := abs_nonneg x
  have e2 : (2 : ℝ) / 2 ^ p = 2 * (1 / 2 ^ p) := by ring
  have e11 : (11 : ℝ) / 2 ^ p = 11 * (1 / 2 ^ p) := by ring
  have e7 : (7 : ℝ) / 2 ^ p = 7 * (1 / 2 ^ p) := by ring
  rw [e2] at h r2 r3
  rw [e7] at h1
  rw [e11]
  have neg1 : s * R.rnd (q / dq) < 0 := by
    rcases hs with rfl | rfl
    · rw [one_mul] at *; exact R.neg hp1 hq
    · have := R.pos hp1 (show 0 < q / dq by linarith); linarith
  have neg2 : s * R.rnd (R.rnd (q / dq) / (1 + 2 * (1 / 2 ^ p))) < 0 := by
    have D0 : (0 : ℝ) < 1 + 2 * (1 / 2 ^ p) := by linarith
    rcases hs with rfl | rfl
    · rw [one_mul] at *; exact R.neg hp1 (div_neg_of_neg_of_pos neg1 D0)
    · have := R.pos hp1 (div_pos (show 0 < R.rnd (q / dq) by linarith) D0); linarith
  have big : 249 / 256 * |R.rnd (q / dq)| ≤ |R.rnd (R.rnd (q / dq) / (1 + 2 * (1 / 2 ^ p)))| := by
    rw [abs_sub_comm] at r2
    have t := size (le_refl _) r2
    have D0 : (0 : ℝ) < 1 + 2 * (1 / 2 ^ p) := by linarith
    rw [abs_div, abs_of_pos D0] at t
    have t2 : 254 / 256 * |R.rnd (q / dq)| ≤ |R.rnd (q / dq)| / (1 + 2 * (1 / 2 ^ p)) := by
      rw [le_div_iff₀ D0]
      have := mul_le_mul_of_nonneg_right u1 (abs_nonneg (R.rnd (q / dq)))
      linear_combination 254 / 128 * this + (1 - 254 / 256 - 254 / 128 / 256) * abs_nonneg (R.rnd (q / dq))
    have := mul_le_mul_of_nonneg_right u1 (show 0 ≤ |R.rnd (q / dq)| / (1 + 2 * (1 / 2 ^ p)) by positivity)
    nlinarith [abs_nonneg (R.rnd (q / dq))]
  generalize R.rnd (R.rnd (q / dq) / (1 + 2 * (1 / 2 ^ p))) = δ at *
  have t1 : 255 / 256 * |q / dq| ≤ |R.rnd (q / dq)| := by
    rw [abs_sub_comm] at r1
    have t := size (le_refl _) r1
    have := mul_le_mul_of_nonneg_right u1 (abs_nonneg (q / dq))
    linarith
  have t2 : |δ| ≤ 258 / 256 * (1 / 2 ^ p * |x|) := by
    have k : |δ| ≤ |R.rnd (x - δ) - (x - δ)| := by
      rcases hs with rfl | rfl
      · rw [abs_of_neg (by linarith : δ < 0)]
        have := neg_le_abs (R.rnd (x - δ) - (x - δ))
        linarith
      · rw [abs_of_pos (by linarith : 0 < δ)]
        have := le_abs_self (R.rnd (x - δ) - (x - δ))
        linarith
    have k2 := mul_le_mul_of_nonneg_left (abs_sub x δ) u0
    have := mul_le_mul_of_nonneg_right u1 (abs_nonneg δ)
    have := mul_nonneg u0 X0
    linarith
  have t3 : |q / dq| ≤ 105 / 100 * (1 / 2 ^ p * |x|) := by
    have := mul_nonneg u0 X0
    linarith
  have t4 : |q| ≤ 35 / 10 * (1 / 2 ^ p * mag a b c d x) := by
    rw [abs_div, div_le_iff₀ (abs_pos.2 hdq)] at t3
    have := mul_le_mul_of_nonneg_left h2 u0
    have m0 : 0 ≤ 1 / 2 ^ p * mag a b c d x := by unfold mag; positivity
    linear_combination t3 + 105 / 100 * this + (3.5 - 3.3 * 1.05) * m0
  rw [abs_sub_comm] at h1
  have := size t4 h1
  have m0 : 0 ≤ 1 / 2 ^ p * mag a b c d x := by unfold mag; positivity
  linarith

end Verif.FpCubicP
