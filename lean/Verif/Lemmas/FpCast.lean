import Verif.Model.FpQuad
import Verif.Lemmas.Fp
import Mathlib.Algebra.Order.Archimedean.Real.Basic
import Mathlib.Data.Rat.Floor

/-! Rounding a rational number gives the same result as rounding it as a real number. -/

namespace Verif.Fp

variable {p : ℕ}

theorem log_cast {q : ℚ} (hq : 0 < q) : Int.log 2 (q : ℝ) = Int.log 2 q := by
  have hr : (0 : ℝ) < q := by exact_mod_cast hq
  refine le_antisymm ?_ ?_
  · rw [← Int.zpow_le_iff_le_log (by norm_num) hq]
    have := Int.zpow_log_le_self (b := 2) (by norm_num) hr
    have e : ((2 : ℕ) : ℝ) ^ Int.log 2 (q : ℝ) = ((((2 : ℕ) : ℚ) ^ Int.log 2 (q : ℝ) : ℚ) : ℝ) := by push_cast; rfl
    rw [e] at this
    exact Rat.cast_le.1 this
  · rw [← Int.zpow_le_iff_le_log (by norm_num) hr]
    have := Int.zpow_log_le_self (b := 2) (by norm_num) hq
    have e : ((2 : ℕ) : ℝ) ^ Int.log 2 q = ((((2 : ℕ) : ℚ) ^ Int.log 2 q : ℚ) : ℝ) := by push_cast; rfl
    rw [e]
    exact Rat.cast_le.2 this

theorem roundEven_cast (t : ℚ) : roundEven (t : ℝ) = roundEven t := by
  unfold roundEven
  rw [Rat.floor_cast]
  have h1 : ((t : ℝ) - (⌊t⌋ : ℤ) < 1 / 2) = (t - (⌊t⌋ : ℤ) < 1 / 2) := by
    apply propext
    constructor <;> intro h
    · have : (((t - (⌊t⌋ : ℤ) : ℚ)) : ℝ) < ((1 / 2 : ℚ) : ℝ) := by push_cast; exact h
      exact_mod_cast this
    · have : (((t - (⌊t⌋ : ℤ) : ℚ)) : ℝ) < ((1 / 2 : ℚ) : ℝ) := by exact_mod_cast h
      push_cast at this; exact this
  have h2 : (1 / 2 < (t : ℝ) - (⌊t⌋ : ℤ)) = (1 / 2 < t - (⌊t⌋ : ℤ)) := by
    apply propext
    constructor <;> intro h
    · have : ((1 / 2 : ℚ) : ℝ) < (((t - (⌊t⌋ : ℤ) : ℚ)) : ℝ) := by push_cast; exact h
      exact_mod_cast this
    · have : ((1 / 2 : ℚ) : ℝ) < (((t - (⌊t⌋ : ℤ) : ℚ)) : ℝ) := by exact_mod_cast h
      push_cast at this; exact this
  simp only [h1, h2]

theorem rne_cast (q : ℚ) : rne p (q : ℝ) = ((rne p q : ℚ) : ℝ) := by
  unfold rne
  by_cases h : q = 0
  · subst h; simp
  · have hr : (q : ℝ) ≠ 0 := by exact_mod_cast h
    rw [if_neg h, if_neg hr]
    have e : |(q : ℝ)| = ((|q| : ℚ) : ℝ) := by push_cast; rfl
    rw [e, log_cast (abs_pos.2 h)]
    have e2 : (q : ℝ) / 2 ^ (Int.log 2 |q| - p + 1) = ((q / 2 ^ (Int.log 2 |q| - p + 1) : ℚ) : ℝ) := by push_cast; rfl
    rw [e2, roundEven_cast]
    push_cast
    rfl

theorem rnd_cast (hp : 1 ≤ p) (q : ℚ) : (ieee ℝ p hp).rnd (q : ℝ) = (((ieee ℚ p hp).rnd q : ℚ) : ℝ) := rne_cast q

theorem prodIf_cast (hp : 1 ≤ p) (f : Bool) (q : ℚ) : prodIf (ieee ℝ p hp) f (q : ℝ) = ((prodIf (ieee ℚ p hp) f q : ℚ) : ℝ) := by
  unfold prodIf
  cases f
  · exact rnd_cast hp q
  · rfl

theorem cross_cast (hp : 1 ≤ p) (u v : P2 ℚ) : cross (ieee ℝ p hp) ((u.1 : ℝ), (u.2 : ℝ)) ((v.1 : ℝ), (v.2 : ℝ)) = ((cross (ieee ℚ p hp) u v : ℚ) : ℝ) := by
  unfold cross det2x2 fma
  simp only [← Rat.cast_mul, ← Rat.cast_neg, ← Rat.cast_add, rnd_cast]

theorem sub_cast (hp : 1 ≤ p) (u v : P2 ℚ) : sub (ieee ℝ p hp) ((u.1 : ℝ), (u.2 : ℝ)) ((v.1 : ℝ), (v.2 : ℝ)) =
    (((sub (ieee ℚ p hp) u v).1 : ℝ), ((sub (ieee ℚ p hp) u v).2 : ℝ)) := by
  unfold sub
  simp only [← Rat.cast_sub, rnd_cast]

theorem qCoeffs_cast (hp : 1 ≤ p) (f : Bool) (a b c : ℚ) : qCoeffs (ieee ℝ p hp) f (a : ℝ) b c =
    (((qCoeffs (ieee ℚ p hp) f a b c).1 : ℝ), ((qCoeffs (ieee ℚ p hp) f a b c).2 : ℝ)) := by
  unfold qCoeffs
  have e3 : (3 : ℝ) = ((3 : ℚ) : ℝ) := by norm_num
  have e2 : (-2 : ℝ) = ((-2 : ℚ) : ℝ) := by norm_num
  rw [e3, e2]
  simp only [← Rat.cast_sub, rnd_cast, ← Rat.cast_mul, ← Rat.cast_add, prodIf_cast]

end Verif.Fp
