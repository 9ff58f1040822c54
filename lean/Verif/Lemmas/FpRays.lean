import Verif.Model.FpRays
import Verif.Lemmas.FpBox
import Verif.Lemmas.FpArea

/-! Modular rays in floating-point arithmetic. -/

set_option linter.unusedSectionVars false

namespace Verif.Fp

variable {K : Type} [Field K] [LinearOrder K] [IsStrictOrderedRing K] [FloorRing K] {p : ℕ} (R : Rounding K p)

/-- A few errors, linearly. -/
theorem off_three {x y : K} (x0 : 0 ≤ x) (hp : 3 ≤ p) (h : Off (1 / 2 ^ p) 3 x y) : |y - x| ≤ 4 / 2 ^ p * x := by
  have u0 := unit_nonneg (K := K) p
  have u8 : (1 : K) / 2 ^ p ≤ 1 / 8 := by
    rw [div_le_div_iff_of_pos_left (by norm_num) (by positivity) (by norm_num)]
    calc (8 : K) = 2 ^ 3 := by norm_num
      _ ≤ 2 ^ p := pow_le_pow_right₀ (by norm_num) hp
  rw [show (4 : K) / 2 ^ p = 4 * (1 / 2 ^ p) by ring]
  obtain ⟨h1, h2⟩ := h
  generalize (1 : K) / 2 ^ p = u at *
  have a : (1 + u) ^ 3 ≤ 1 + 4 * u := by nlinarith [mul_nonneg u0 u0, mul_nonneg u0 (mul_nonneg u0 u0)]
  have b : 1 - 4 * u ≤ (1 - u) ^ 3 := by nlinarith [mul_nonneg u0 u0, mul_nonneg u0 (mul_nonneg u0 u0)]
  have a' := mul_le_mul_of_nonneg_left a x0
  have b' := mul_le_mul_of_nonneg_left b x0
  rw [abs_le]
  constructor <;> nlinarith

/-- The spacing of `n` rays on an edge from `lo` to `hi`. -/
def spacing (lo hi : K) (n : ℕ) : K := R.rnd (R.rnd (hi - lo) / n)

theorem spacing_off (hp : 1 ≤ p) {lo hi : K} (h : lo ≤ hi) {n : ℕ} (n0 : 0 < n) : Off (1 / 2 ^ p) 2 ((hi - lo) / n) (spacing R lo hi n) := by
  have w0 := sub_nonneg.2 h
  have a := (Off.refl (1 / 2 ^ p) (hi - lo)).rnd R hp w0
  have b : Off (1 / 2 ^ p) 1 ((hi - lo) / n) (R.rnd (hi - lo) / n) := by
    obtain ⟨a1, a2⟩ := a
    have nK : (0 : K) < n := by exact_mod_cast n0
    exact ⟨by rw [div_mul_eq_mul_div]; exact div_le_div_of_nonneg_right a1 nK.le, by rw [div_mul_eq_mul_div]; exact div_le_div_of_nonneg_right a2 nK.le⟩
  exact b.rnd R hp (div_nonneg w0 (Nat.cast_nonneg n))

/-- The distance from the end of the edge to ray `k`, before and after rounding. -/
theorem offset_off (hp : 1 ≤ p) {lo hi : K} (h : lo ≤ hi) {n k : ℕ} (n0 : 0 < n) :
    Off (1 / 2 ^ p) 3 ((hi - lo) / n * (k + 1 / 2)) (spacing R lo hi n * (k + 1 / 2)) ∧
    Off (1 / 2 ^ p) 3 ((hi - lo) / n * (k + 1 / 2)) (R.rnd (spacing R lo hi n * (k + 1 / 2))) := by
  have u0 := unit_nonneg (K := K) p
  have u1 := unit_le (K := K) p
  have w0 : 0 ≤ (hi - lo) / n := div_nonneg (sub_nonneg.2 h) (Nat.cast_nonneg n)
  have k0 : (0 : K) ≤ (k : K) + 1 / 2 := by positivity
  have a := (spacing_off R hp h n0).mul u0 u1 w0 k0 (Off.refl (1 / 2 ^ p) ((k : K) + 1 / 2))
  exact ⟨a.weaken u0 u1 (mul_nonneg w0 k0) (by norm_num), a.rnd R hp (mul_nonneg w0 k0)⟩

/-- Such a distance is in the edge. -/
theorem offset_le (hp : 3 ≤ p) {lo hi m : K} (h : lo ≤ hi) {n k : ℕ} (hk : k < n) (hn : 8 * n ≤ 2 ^ p)
    (hm : Off (1 / 2 ^ p) 3 ((hi - lo) / n * (k + 1 / 2)) m) : 0 ≤ m ∧ m ≤ hi - lo ∧ |m - (hi - lo) / n * (k + 1 / 2)| ≤ 4 / 2 ^ p * (hi - lo) := by
  have n0 : (0 : K) < n := by exact_mod_cast (by omega : 0 < n)
  have w0 := sub_nonneg.2 h
  have k0 : (0 : K) ≤ (k : K) + 1 / 2 := by positivity
  have x0 : 0 ≤ (hi - lo) / n * (k + 1 / 2) := mul_nonneg (div_nonneg w0 n0.le) k0
  have e := off_three x0 hp hm
  have kn : (k : K) + 1 / 2 ≤ n - 1 / 2 := by
    have : (k : K) + 1 ≤ n := by exact_mod_cast hk
    linarith
  have f : (hi - lo) / n * (k + 1 / 2) ≤ (hi - lo) - (hi - lo) / n / 2 := by
    have := mul_le_mul_of_nonneg_left kn (div_nonneg w0 n0.le)
    rw [mul_sub, div_mul_cancel₀ _ n0.ne'] at this
    linarith
  have v0 : 0 ≤ (hi - lo) / n / 2 := by positivity
  have g : 4 / 2 ^ p * (hi - lo) ≤ (hi - lo) / n / 2 := by
    have : (4 : K) / 2 ^ p ≤ 1 / n / 2 := by
      rw [div_div, div_le_div_iff₀ (by positivity) (by positivity)]
      have : ((8 * n : ℕ) : K) ≤ ((2 ^ p : ℕ) : K) := by exact_mod_cast hn
      push_cast at this
      linarith
    calc 4 / 2 ^ p * (hi - lo) ≤ 1 / n / 2 * (hi - lo) := mul_le_mul_of_nonneg_right this w0
      _ = _ := by ring
  have q0 : (0 : K) ≤ 4 / 2 ^ p := by positivity
  have e' := e.trans (mul_le_mul_of_nonneg_left f q0)
  obtain ⟨-, e2⟩ := abs_le.1 e'
  refine ⟨hm.nonneg (unit_nonneg p) (unit_le p) x0, ?_, e.trans (mul_le_mul_of_nonneg_left (f.trans (by linarith)) q0)⟩
  have : 4 / 2 ^ p * (hi - lo - (hi - lo) / n / 2) ≤ 4 / 2 ^ p * (hi - lo) := mul_le_mul_of_nonneg_left (by linarith) q0
  linarith

/-- The size of the numbers on an edge. -/
def size (lo hi : K) : K := max |lo| |hi|

theorem size_le {lo hi z : K} (h1 : lo ≤ z) (h2 : z ≤ hi) : |z| ≤ size lo hi := by
  unfold size
  rw [abs_le]
  constructor
  · have := neg_abs_le lo
    have := le_max_left |lo| |hi|
    linarith
  · have := le_abs_self hi
    have := le_max_right |lo| |hi|
    linarith

/-- A ray counted from the upper end. -/
theorem down_spec (hp : 3 ≤ p) (fused : Bool) {lo hi : K} (h : lo ≤ hi) (f0 : IsFp p lo) (f1 : IsFp p hi) {n k : ℕ} (hk : k < n) (hn : 8 * n ≤ 2 ^ p) :
    lo ≤ mulSub R fused hi (spacing R lo hi n) (k + 1 / 2) ∧ mulSub R fused hi (spacing R lo hi n) (k + 1 / 2) ≤ hi ∧
    |mulSub R fused hi (spacing R lo hi n) (k + 1 / 2) - (hi - (hi - lo) / n * (k + 1 / 2))| ≤ (size lo hi + 4 * (hi - lo)) / 2 ^ p := by
  have hp1 : 1 ≤ p := by omega
  obtain ⟨m, e, o⟩ : ∃ m, mulSub R fused hi (spacing R lo hi n) (k + 1 / 2) = R.rnd (hi - m) ∧ Off (1 / 2 ^ p) 3 ((hi - lo) / n * (k + 1 / 2)) m := by
    have := offset_off R hp1 h (k := k) (by omega : 0 < n)
    unfold mulSub
    cases fused
    · exact ⟨_, rfl, this.2⟩
    · exact ⟨_, rfl, this.1⟩
  obtain ⟨m0, m1, me⟩ := offset_le hp h hk hn o
  rw [e]
  refine ⟨R.ge_of_ge (by linarith) f0, R.le_of_le (by linarith) f1, ?_⟩
  have r := (rel_u R hp1 (hi - m)).trans (mul_le_mul_of_nonneg_left (size_le (lo := lo) (by linarith) (by linarith : hi - m ≤ hi)) (unit_nonneg p))
  have t := abs_add_le (R.rnd (hi - m) - (hi - m)) ((hi - m) - (hi - (hi - lo) / n * (k + 1 / 2)))
  rw [sub_add_sub_cancel, show (hi - m) - (hi - (hi - lo) / n * (k + 1 / 2)) = -(m - (hi - lo) / n * (k + 1 / 2)) by ring, abs_neg] at t
  refine t.trans ((add_le_add r me).trans (le_of_eq (by ring)))

/-- A ray counted from the lower end. -/
theorem up_spec (hp : 3 ≤ p) (fused : Bool) {lo hi : K} (h : lo ≤ hi) (f0 : IsFp p lo) (f1 : IsFp p hi) {n k : ℕ} (hk : k < n) (hn : 8 * n ≤ 2 ^ p) :
    lo ≤ mulAdd R fused lo (spacing R lo hi n) (k + 1 / 2) ∧ mulAdd R fused lo (spacing R lo hi n) (k + 1 / 2) ≤ hi ∧
    |mulAdd R fused lo (spacing R lo hi n) (k + 1 / 2) - (lo + (hi - lo) / n * (k + 1 / 2))| ≤ (size lo hi + 4 * (hi - lo)) / 2 ^ p := by
  have hp1 : 1 ≤ p := by omega
  obtain ⟨m, e, o⟩ : ∃ m, mulAdd R fused lo (spacing R lo hi n) (k + 1 / 2) = R.rnd (lo + m) ∧ Off (1 / 2 ^ p) 3 ((hi - lo) / n * (k + 1 / 2)) m := by
    have := offset_off R hp1 h (k := k) (by omega : 0 < n)
    unfold mulAdd
    cases fused
    · exact ⟨_, rfl, this.2⟩
    · exact ⟨_, rfl, this.1⟩
  obtain ⟨m0, m1, me⟩ := offset_le hp h hk hn o
  rw [e]
  refine ⟨R.ge_of_ge (by linarith) f0, R.le_of_le (by linarith) f1, ?_⟩
  have r := (rel_u R hp1 (lo + m)).trans (mul_le_mul_of_nonneg_left (size_le (lo := lo) (hi := hi) (by linarith) (by linarith)) (unit_nonneg p))
  have t := abs_add_le (R.rnd (lo + m) - (lo + m)) ((lo + m) - (lo + (hi - lo) / n * (k + 1 / 2)))
  rw [sub_add_sub_cancel, show (lo + m) - (lo + (hi - lo) / n * (k + 1 / 2)) = m - (hi - lo) / n * (k + 1 / 2) by ring] at t
  refine t.trans ((add_le_add r me).trans (le_of_eq (by ring)))

/-- The half integers are exact. -/
theorem half_exact (hp : 1 ≤ p) {i : ℕ} (hi : 2 * i + 1 ≤ 2 ^ p) : R.rnd (R.rnd (i : K) + 1 / 2) = (i : K) + 1 / 2 := by
  rw [R.id (isFp_nat hp (by omega)), R.id]
  have := (isFp_nat (K := K) hp hi).half
  push_cast at this
  rwa [add_div, mul_div_cancel_left₀ _ (by norm_num : (2 : K) ≠ 0)] at this

theorem half_sub (hp : 1 ≤ p) {i n : ℕ} (h : n ≤ i) (hi : 2 * i + 1 ≤ 2 ^ p) : R.rnd (((i : K) + 1 / 2) - R.rnd (n : K)) = ((i - n : ℕ) : K) + 1 / 2 := by
  obtain ⟨k, rfl⟩ := Nat.exists_eq_add_of_le h
  have := half_exact R hp (i := k) (by omega)
  rw [R.id (isFp_nat hp (by omega))] at this
  rw [R.id (isFp_nat (n := n) hp (by omega)), Nat.add_sub_cancel_left, show (((n + k : ℕ) : K) + 1 / 2) - n = k + 1 / 2 by push_cast; ring, this]

end Verif.Fp
