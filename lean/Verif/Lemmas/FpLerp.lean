import Verif.Model.FpLerp
import Verif.Lemmas.FpGrid

/-! Linear interpolation in floating-point arithmetic. -/

set_option linter.unusedSectionVars false

namespace Verif.Fp

variable {K : Type} [Field K] [LinearOrder K] [IsStrictOrderedRing K] [FloorRing K] {p : ℕ}

/-- The difference of two numbers of which neither is more than twice the other is exact (Sterbenz). -/
theorem IsFp.sub_exact (hp : 1 ≤ p) {x y : K} (hx : IsFp p x) (hy : IsFp p y) (h1 : y ≤ 2 * x) (h2 : x ≤ 2 * y) : IsFp p (x - y) := by
  have key : ∀ {x y : K}, IsFp p x → IsFp p y → y ≤ x → x ≤ 2 * y → IsFp p (x - y) := by
    rintro x y ⟨m, k, hm, rfl⟩ ⟨n, l, hn, rfl⟩ h1 h2
    have tk := two_pos' (K := K) k
    have tl := two_pos' (K := K) l
    have hmK : |(m : K)| < 2 ^ p := by exact_mod_cast hm
    have hnK : |(n : K)| < 2 ^ p := by exact_mod_cast hn
    rcases le_total k l with c | c
    · -- everything is a multiple of the smaller unit
      obtain ⟨j, hj⟩ := Int.eq_ofNat_of_zero_le (sub_nonneg.2 c)
      have e : (2 : K) ^ l = 2 ^ j * 2 ^ k := by
        rw [← zpow_natCast, ← hj, ← zpow_add₀ (by norm_num)]; congr 1; ring
      have e2 : (m : K) * 2 ^ k - n * 2 ^ l = ((m - n * 2 ^ j : ℤ) : K) * 2 ^ k := by rw [e]; push_cast; ring
      have n0 : (0 : K) ≤ n * 2 ^ l := by linarith
      have b : (m : K) * 2 ^ k - n * 2 ^ l ≤ m * 2 ^ k := by linarith
      rw [e2]
      refine isFp_int hp ?_ _
      have b1 : ((m - n * 2 ^ j : ℤ) : K) * 2 ^ k ≤ m * 2 ^ k := by rw [← e2]; exact b
      have b2 : ((m - n * 2 ^ j : ℤ) : K) ≤ m := le_of_mul_le_mul_right b1 tk
      have b3 : (0 : K) * 2 ^ k ≤ ((m - n * 2 ^ j : ℤ) : K) * 2 ^ k := by rw [← e2, zero_mul]; linarith
      have b4 : (0 : K) ≤ ((m - n * 2 ^ j : ℤ) : K) := le_of_mul_le_mul_right b3 tk
      have b5 : m - n * 2 ^ j ≤ m := by exact_mod_cast b2
      have b6 : 0 ≤ m - n * 2 ^ j := by exact_mod_cast b4
      rw [abs_of_nonneg b6]
      exact b5.trans ((le_abs_self m).trans hm.le)
    · obtain ⟨j, hj⟩ := Int.eq_ofNat_of_zero_le (sub_nonneg.2 c)
      have e : (2 : K) ^ k = 2 ^ j * 2 ^ l := by
        rw [← zpow_natCast, ← hj, ← zpow_add₀ (by norm_num)]; congr 1; ring
      have e2 : (m : K) * 2 ^ k - n * 2 ^ l = ((m * 2 ^ j - n : ℤ) : K) * 2 ^ l := by rw [e]; push_cast; ring
      have b : (m : K) * 2 ^ k - n * 2 ^ l ≤ n * 2 ^ l := by linarith
      rw [e2]
      refine isFp_int hp ?_ _
      have b1 : ((m * 2 ^ j - n : ℤ) : K) * 2 ^ l ≤ n * 2 ^ l := by rw [← e2]; exact b
      have b2 : ((m * 2 ^ j - n : ℤ) : K) ≤ n := le_of_mul_le_mul_right b1 tl
      have b3 : (0 : K) * 2 ^ l ≤ ((m * 2 ^ j - n : ℤ) : K) * 2 ^ l := by rw [← e2, zero_mul]; linarith
      have b4 : (0 : K) ≤ ((m * 2 ^ j - n : ℤ) : K) := le_of_mul_le_mul_right b3 tl
      have b5 : m * 2 ^ j - n ≤ n := by exact_mod_cast b2
      have b6 : 0 ≤ m * 2 ^ j - n := by exact_mod_cast b4
      rw [abs_of_nonneg b6]
      exact b5.trans ((le_abs_self n).trans hn.le)
  rcases le_total y x with c | c
  · exact key hx hy c h2
  · have := (key hy hx c h1).neg
    rwa [neg_sub] at this

variable (R : Rounding K p)

theorem lerp_zero (fused : Bool) {a b : K} (ha : IsFp p a) : lerp R fused a b 0 = a := by
  unfold lerp mulAdd
  split <;> simp [R.zero, R.id ha]

theorem lerp_mono (fused : Bool) {a b r s : K} (h : a ≤ b) (hr : r ≤ s) : lerp R fused a b r ≤ lerp R fused a b s := by
  have d0 : 0 ≤ R.rnd (b - a) := R.ge_of_ge (by linarith) isFp_zero
  have m := mul_le_mul_of_nonneg_right hr d0
  unfold lerp mulAdd
  split
  · exact R.mono (by linarith)
  · exact R.mono (by linarith [R.mono m])

theorem lerp_anti (fused : Bool) {a b r s : K} (h : b ≤ a) (hr : r ≤ s) : lerp R fused a b s ≤ lerp R fused a b r := by
  have d0 : R.rnd (b - a) ≤ 0 := R.le_of_le (by linarith) isFp_zero
  have m := mul_le_mul_of_nonpos_right hr d0
  unfold lerp mulAdd
  split
  · exact R.mono (by linarith)
  · exact R.mono (by linarith [R.mono m])

theorem lerp_one (fused : Bool) (a b : K) : lerp R fused a b 1 = R.rnd (a + R.rnd (b - a)) := by
  unfold lerp mulAdd
  split <;> simp [R.id (R.mem _)]

end Verif.Fp
