import Verif.Model.FpRay
import Verif.Lemmas.FpTurn
import Verif.Lemmas.FpKahan
import Mathlib.Tactic.Linarith
import Mathlib.Tactic.LinearCombination
import Mathlib.Tactic.FieldSimp

/-! Helper lemmas for rays and segments in floating-point arithmetic. -/

set_option linter.unusedSectionVars false

namespace Verif.Fp

variable {K : Type} [Field K] [LinearOrder K] [IsStrictOrderedRing K] [FloorRing K] {p : ℕ} (R : Rounding K p)

/-- The exact cross product. -/
def exactCross (u v : P2 K) : K := u.1 * v.2 - u.2 * v.1

/-- Both coordinates are numbers of the format. -/
def IsFp2 (p : ℕ) (v : P2 K) : Prop := IsFp p v.1 ∧ IsFp p v.2

theorem sub_mem (u v : P2 K) : IsFp2 p (sub R u v) := ⟨R.mem _, R.mem _⟩

theorem cross_zero (hp : 2 ≤ p) {u v : P2 K} (hu : IsFp2 p u) (hv : IsFp2 p v) : cross R u v = 0 ↔ exactCross u v = 0 := by
  unfold cross exactCross
  rw [(det_sign R hp hu.1 hu.2 hv.1 hv.2).2.1, sub_eq_zero]

theorem cross_pos (hp : 2 ≤ p) {u v : P2 K} (hu : IsFp2 p u) (hv : IsFp2 p v) : 0 < cross R u v ↔ 0 < exactCross u v := by
  unfold cross exactCross
  rw [(det_sign R hp hu.1 hu.2 hv.1 hv.2).1, sub_pos]

theorem cross_neg (hp : 2 ≤ p) {u v : P2 K} (hu : IsFp2 p u) (hv : IsFp2 p v) : cross R u v < 0 ↔ exactCross u v < 0 := by
  unfold cross exactCross
  rw [(det_sign R hp hu.1 hu.2 hv.1 hv.2).2.2, sub_neg]

/-- The sign of a quotient of two cross products is exact. -/
theorem ratio_nonneg (hp : 2 ≤ p) {u v w x : P2 K} (hu : IsFp2 p u) (hv : IsFp2 p v) (hw : IsFp2 p w) (hx : IsFp2 p x) :
    0 ≤ R.rnd (cross R u v / cross R w x) ↔ 0 ≤ exactCross u v / exactCross w x := by
  rw [← not_lt, ← not_lt, not_iff_not, R.neg_iff (by omega), div_neg_iff, div_neg_iff, cross_pos R hp hu hv, cross_neg R hp hu hv, cross_pos R hp hw hx, cross_neg R hp hw hx]

/-- A quotient of two cross products has a relative error of nine roundings. -/
theorem ratio_error (hp : 5 ≤ p) {u v w x : P2 K} (hu : IsFp2 p u) (hv : IsFp2 p v) (hw : IsFp2 p w) (hx : IsFp2 p x) (h : exactCross w x ≠ 0) :
    |R.rnd (cross R u v / cross R w x) - exactCross u v / exactCross w x| ≤ 9 / 2 ^ p * |exactCross u v / exactCross w x| := by
  have e1 := det_error R (by omega) hu.1 hu.2 hv.1 hv.2
  have e2 := quot_error R hp (x := cross R u v) h (det_error R (by omega) hw.1 hw.2 hx.1 hx.2)
  change |cross R u v - exactCross u v| ≤ _ * |exactCross u v| at e1
  change |R.rnd (cross R u v / cross R w x) - _| ≤ _ at e2
  generalize exactCross w x = Z at *
  generalize exactCross u v = X at *
  generalize cross R u v = X' at *
  generalize R.rnd (X' / cross R w x) = q at *
  have hu0 : (0 : K) < 1 / 2 ^ p := by positivity
  have hu1 : (1 : K) / 2 ^ p ≤ 1 / 32 := by
    refine one_div_le_one_div_of_le (by norm_num) ?_
    calc (32 : K) = 2 ^ 5 := by norm_num
      _ ≤ 2 ^ p := pow_le_pow_right₀ (by norm_num) hp
  have s1 : (3 : K) / 2 ^ p = 3 * (1 / 2 ^ p) := by ring
  have s2 : (2 : K) / 2 ^ (2 * p) = 2 * (1 / 2 ^ p) ^ 2 := by rw [pow_mul']; ring
  have s3 : (5 : K) / 2 ^ p = 5 * (1 / 2 ^ p) := by ring
  have s4 : (9 : K) / 2 ^ p = 9 * (1 / 2 ^ p) := by ring
  rw [s1, s2] at e1
  rw [s3] at e2
  rw [s4]
  generalize (1 : K) / 2 ^ p = w at *
  have e3 : |X' / Z - X / Z| ≤ (3 * w + 2 * w ^ 2) * |X / Z| := by
    rw [← sub_div, abs_div, abs_div, ← mul_div_assoc]
    exact div_le_div_of_nonneg_right e1 (abs_nonneg _)
  generalize X' / Z = x1 at *
  generalize X / Z = x0 at *
  have a0 := abs_nonneg x0
  have e4 : |x1| ≤ (1 + (3 * w + 2 * w ^ 2)) * |x0| := by
    have := abs_sub_abs_le_abs_sub x1 x0
    linarith
  have e5 : |q - x0| ≤ |q - x1| + |x1 - x0| := abs_sub_le _ _ _
  have e6 : 5 * w * |x1| ≤ 5 * w * ((1 + (3 * w + 2 * w ^ 2)) * |x0|) := mul_le_mul_of_nonneg_left e4 (by linarith)
  have w2 : w ^ 2 ≤ w / 32 := by nlinarith
  have w3 : w ^ 3 ≤ w / 1024 := by
    have : w ^ 3 = w ^ 2 * w := by ring
    nlinarith
  have e7 : 5 * w * (1 + (3 * w + 2 * w ^ 2)) + (3 * w + 2 * w ^ 2) ≤ 9 * w := by
    have : 5 * w * (1 + (3 * w + 2 * w ^ 2)) + (3 * w + 2 * w ^ 2) = 8 * w + 17 * w ^ 2 + 10 * w ^ 3 := by ring
    linarith
  have e8 := mul_le_mul_of_nonneg_right e7 a0
  have e9 : (5 * w * (1 + (3 * w + 2 * w ^ 2)) + (3 * w + 2 * w ^ 2)) * |x0| = 5 * w * ((1 + (3 * w + 2 * w ^ 2)) * |x0|) + (3 * w + 2 * w ^ 2) * |x0| := by ring
  linarith

end Verif.Fp
