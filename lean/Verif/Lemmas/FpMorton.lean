import Verif.Model.FpMorton
import Verif.Lemmas.FpTurn
import Mathlib.Data.Nat.Log

/-! Morton codes of floating-point coordinates. -/

set_option linter.unusedSectionVars false

namespace Verif.Fp

variable {K : Type} [Field K] [LinearOrder K] [IsStrictOrderedRing K] [FloorRing K] {p : ℕ}

/-- A number from `2 ^ e` on is a multiple of `2 ^ (e - p + 1)`. -/
theorem IsFp.mult {w : K} (hw : IsFp p w) {e : ℤ} (h : 2 ^ e ≤ |w|) : ∃ j : ℤ, w = j * 2 ^ (e - p + 1) := by
  obtain ⟨m, k, hm, rfl⟩ := hw
  rcases lt_or_ge k (e - p + 1) with c | c
  · exfalso
    have hk := two_pos' (K := K) k
    rw [abs_mul, abs_of_pos hk] at h
    have h1 : |(m : K)| < 2 ^ p := by exact_mod_cast hm
    have h2 : |(m : K)| * 2 ^ k < 2 ^ p * 2 ^ k := mul_lt_mul_of_pos_right h1 hk
    have h3 : (2 : K) ^ p * 2 ^ k ≤ 2 ^ e := by
      rw [← zpow_natCast, ← zpow_add₀ (by norm_num)]
      exact zpow_le_zpow_right₀ (by norm_num) (by omega)
    linarith
  · refine ⟨m * 2 ^ (k - (e - p + 1)).toNat, ?_⟩
    push_cast
    rw [← zpow_natCast, Int.toNat_of_nonneg (by omega), mul_assoc, ← zpow_add₀ (by norm_num)]
    congr 2; ring

/-- Below a multiple of `2 ^ (e - p + 1)` that is more than `2 ^ e` there is no number for the length `2 ^ (e - p + 1)`. -/
theorem IsFp.gap {w k : K} {e : ℤ} (hw : IsFp p w) (h : w < k) (hk : ∃ j : ℤ, k = j * 2 ^ (e - p + 1)) (h2 : 2 ^ e + 2 ^ (e - p + 1) ≤ k) :
    w ≤ k - 2 ^ (e - p + 1) := by
  rcases lt_or_ge w (2 ^ e) with c | c
  · linarith
  · obtain ⟨i, rfl⟩ := hw.mult (e := e) (c.trans (le_abs_self _))
    obtain ⟨j, rfl⟩ := hk
    have t := two_pos' (K := K) (e - p + 1)
    have : i < j := by
      have := (mul_lt_mul_iff_left₀ t).1 h
      exact_mod_cast this
    have : (i : K) + 1 ≤ j := by exact_mod_cast this
    nlinarith

variable (R : Rounding K p)

/-- A value that is nearer to `k` than to the next number below rounds to `k` or more. -/
theorem Rounding.up {k z g : K} (hk : IsFp p k) (gap : ∀ w, IsFp p w → w < k → w ≤ k - g) (h : 2 * (k - z) < g) : k ≤ R.rnd z := by
  rcases le_or_gt k z with c | c
  · exact R.ge_of_ge c hk
  · by_contra q
    push Not at q
    have g1 := gap _ (R.mem z) q
    have n := R.nearest z k hk
    rw [abs_of_neg (by linarith : z - k < 0)] at n
    have := (abs_le.1 n).2
    linarith

/-- The pairs of a precision and a number of bits for which no digit is lost. -/
def Fits (p n : ℕ) : Prop := 1 ≤ n ∧ n + 1 ≤ p ∧ 4 * (2 ^ (n + p - 1) % (2 ^ n - 1)) < 2 ^ n

theorem restore_up {n k : ℕ} (f : Fits p n) (k1 : 1 ≤ k) (hk : k ≤ 2 ^ n - 1) :
    (k : K) ≤ R.rnd (R.rnd ((k : K) / ((2 ^ n - 1 : ℕ) : K)) * ((2 ^ n - 1 : ℕ) : K)) := by
  obtain ⟨n1, np, hD⟩ := f
  have hp : 1 ≤ p := by omega
  have hN : 2 ≤ 2 ^ n := by
    calc 2 = 2 ^ 1 := rfl
      _ ≤ 2 ^ n := Nat.pow_le_pow_right (by norm_num) n1
  have hM1 : 1 ≤ 2 ^ n - 1 := by omega
  have eM : ((2 ^ n - 1 : ℕ) : K) = 2 ^ n - 1 := by rw [Nat.cast_sub (by omega)]; push_cast; rfl
  have hMK : (0 : K) < ((2 ^ n - 1 : ℕ) : K) := by exact_mod_cast hM1
  have hkp : k ≤ 2 ^ p := by
    have : 2 ^ n ≤ 2 ^ p := Nat.pow_le_pow_right (by norm_num) (by omega)
    omega
  have hkf : IsFp p (k : K) := isFp_nat hp hkp
  obtain ⟨e, he1, he2⟩ : ∃ e, 2 ^ e ≤ k ∧ k < 2 ^ (e + 1) :=
    ⟨Nat.log 2 k, Nat.pow_log_le_self 2 (by omega), Nat.lt_pow_succ_log_self (by norm_num) k⟩
  have hen : e + 1 ≤ n := by
    by_contra c
    have : 2 ^ n ≤ 2 ^ e := Nat.pow_le_pow_right (by norm_num) (by omega)
    omega
  have he1K : (2 : K) ^ (e : ℤ) ≤ k := by rw [zpow_natCast]; exact_mod_cast he1
  -- the unit in the last place of the quotient
  set t : K := 2 ^ ((e : ℤ) - n - p + 1) with ht
  have t0 : 0 < t := two_pos' _
  have tN : t * 2 ^ n = 2 ^ ((e : ℤ) - p + 1) := by
    rw [ht, ← zpow_natCast, ← zpow_add₀ (by norm_num)]; congr 1; ring
  have tP : t * 2 ^ n * 2 ^ p = 2 * 2 ^ (e : ℤ) := by
    rw [tN, ← zpow_natCast (2 : K) p, ← zpow_add₀ (by norm_num), show (e : ℤ) - p + 1 + p = 1 + e by ring, zpow_add₀ (by norm_num), zpow_one]
  set M : K := ((2 ^ n - 1 : ℕ) : K) with hM
  have NM : (2 : K) ^ n = M + 1 := by rw [eM]; ring
  have hmul : (k : K) / M * M = k := by field_simp
  rcases he1.lt_or_eq with c | c
  · -- not a power of two
    have hx : |(k : K) / M| ≤ 2 ^ p * t := by
      rw [abs_of_nonneg (by positivity), div_le_iff₀ hMK]
      have h1 : (k : K) + 1 ≤ 2 * 2 ^ (e : ℤ) := by
        rw [zpow_natCast]
        have : k + 1 ≤ 2 * 2 ^ e := by rw [pow_succ] at he2; omega
        exact_mod_cast this
      have h2 : 2 * (2 : K) ^ (e : ℤ) ≤ 2 ^ n := by
        rw [zpow_natCast]
        have : 2 * 2 ^ e ≤ 2 ^ n := by rw [mul_comm, ← pow_succ]; exact Nat.pow_le_pow_right (by norm_num) hen
        exact_mod_cast this
      -- 2 ^ p * t * M = 2 * 2 ^ e - 2 ^ p * t
      have h3 : 2 ^ p * t * M = 2 * 2 ^ (e : ℤ) - 2 ^ p * t := by rw [← tP, NM]; ring
      have h4 : 2 ^ p * t ≤ 1 := by
        have : 2 ^ p * t * 2 ^ n ≤ 1 * 2 ^ n := by rw [one_mul]; calc _ = t * 2 ^ n * 2 ^ p := by ring
          _ ≤ _ := by rw [tP]; exact h2
        exact le_of_mul_le_mul_right this (by positivity)
      rw [h3]; linarith
    have er := R.err hp hx
    have er2 : (k : K) / M - R.rnd ((k : K) / M) ≤ t / 2 := (le_abs_self _).trans er
    refine R.up hkf (g := t * 2 ^ n) (fun w hw hlt => ?_) ?_
    · rw [tN]
      refine hw.gap hlt ⟨k * 2 ^ ((p : ℤ) - 1 - e).toNat, ?_⟩ ?_
      · push_cast
        rw [← zpow_natCast, Int.toNat_of_nonneg (by omega), mul_assoc, ← zpow_add₀ (by norm_num), show (p : ℤ) - 1 - e + (e - p + 1) = 0 by ring]
        simp
      · have h1 : (2 : K) ^ ((e : ℤ) - p + 1) ≤ 1 := by
          calc (2 : K) ^ ((e : ℤ) - p + 1) ≤ 2 ^ (0 : ℤ) := zpow_le_zpow_right₀ (by norm_num) (by omega)
            _ = 1 := zpow_zero _
        have h2 : (2 : K) ^ (e : ℤ) + 1 ≤ k := by rw [zpow_natCast]; exact_mod_cast c
        linarith
    · have : (k : K) - R.rnd ((k : K) / M) * M ≤ t / 2 * M := by
        calc _ = ((k : K) / M - R.rnd ((k : K) / M)) * M := by rw [sub_mul, hmul]
          _ ≤ _ := mul_le_mul_of_nonneg_right er2 hMK.le
      rw [NM]
      nlinarith
  · -- a power of two
    have hkK : (k : K) = 2 ^ (e : ℤ) := by rw [zpow_natCast, ← c]; push_cast; rfl
    set Q := 2 ^ (n + p - 1) / (2 ^ n - 1) with hQ
    set D := 2 ^ (n + p - 1) % (2 ^ n - 1) with hDd
    have hQD : (2 ^ n - 1) * Q + D = 2 ^ (n + p - 1) := Nat.div_add_mod _ _
    have hQp : Q ≤ 2 ^ p := by
      have h1 : 2 ^ (n + p - 1) = 2 ^ (n - 1) * 2 ^ p := by rw [← pow_add]; congr 1; omega
      have h2 : 2 ^ (n - 1) ≤ 2 ^ n - 1 := by
        have : 2 ^ n = 2 * 2 ^ (n - 1) := by rw [← pow_succ']; congr 1; omega
        have : 1 ≤ 2 ^ (n - 1) := Nat.one_le_two_pow
        omega
      by_contra q
      push Not at q
      have h3 : (2 ^ n - 1) * (2 ^ p + 1) ≤ (2 ^ n - 1) * Q := Nat.mul_le_mul_left _ q
      have h4 : 2 ^ (n - 1) * 2 ^ p ≤ (2 ^ n - 1) * 2 ^ p := Nat.mul_le_mul_right _ h2
      rw [Nat.mul_add, mul_one] at h3
      omega
    have hf : IsFp p ((Q : K) * t) := by
      have := isFp_int (K := K) hp (n := Q) (by rw [abs_of_nonneg (by positivity)]; exact_mod_cast hQp) ((e : ℤ) - n - p + 1)
      simpa [ht] using this
    have hQK : M * Q + D = 2 ^ n * 2 ^ p / 2 := by
      have h1 : 2 * ((2 ^ n - 1) * Q + D) = 2 ^ n * 2 ^ p := by
        rw [hQD, ← pow_succ', ← pow_add]; congr 1; omega
      have h2 : (2 : K) * (M * Q + D) = 2 ^ n * 2 ^ p := by
        rw [hM]; exact_mod_cast h1
      linarith
    have hkt : (k : K) = (M * Q + D) * t := by rw [hQK, hkK]; linarith
    have nr := R.nearest ((k : K) / M) _ hf
    have d1 : (k : K) / M - Q * t = D * t / M := by rw [hkt]; field_simp; ring
    have dn : 0 ≤ (D : K) * t / M := div_nonneg (mul_nonneg (Nat.cast_nonneg _) t0.le) hMK.le
    rw [d1, abs_of_nonneg dn] at nr
    have er2 := (le_abs_self _).trans nr
    have hDK : 4 * (D : K) < 2 ^ n := by exact_mod_cast hD
    have half : t * 2 ^ n / 2 = 2 ^ ((e : ℤ) - 1 - p + 1) := by
      rw [tN, show (e : ℤ) - 1 - p + 1 = (e - p + 1) - 1 by ring, zpow_sub_one₀ (by norm_num)]; ring
    refine R.up hkf (g := t * 2 ^ n / 2) (fun w hw hlt => ?_) ?_
    · rw [half]
      refine hw.gap hlt ⟨2 ^ p, ?_⟩ ?_
      · push_cast
        rw [hkK, ← zpow_natCast, ← zpow_add₀ (by norm_num)]; congr 1; ring
      · rw [hkK]
        have h1 : (2 : K) ^ ((e : ℤ) - 1 - p + 1) ≤ 2 ^ ((e : ℤ) - 1) := zpow_le_zpow_right₀ (by norm_num) (by omega)
        have h2 : (2 : K) ^ (e : ℤ) = 2 * 2 ^ ((e : ℤ) - 1) := by rw [← zpow_one_add₀ (by norm_num)]; congr 1; ring
        linarith
    · have : (k : K) - R.rnd ((k : K) / M) * M ≤ D * t := by
        calc _ = ((k : K) / M - R.rnd ((k : K) / M)) * M := by rw [sub_mul, hmul]
          _ ≤ D * t / M * M := mul_le_mul_of_nonneg_right er2 hMK.le
          _ = _ := by field_simp
      nlinarith

theorem fits_lt {n : ℕ} (f : Fits p n) : 2 ^ n - 1 < 2 ^ p ∧ 0 < 2 ^ n - 1 ∧ 1 ≤ p := by
  obtain ⟨n1, np, -⟩ := f
  have h1 : 2 ^ n ≤ 2 ^ p := Nat.pow_le_pow_right (by norm_num) (by omega)
  have h2 : 2 ^ 1 ≤ 2 ^ n := Nat.pow_le_pow_right (by norm_num) n1
  omega

/-- The value that is cut off differs from `k` by less than one. -/
theorem restore_floor {n k : ℕ} (f : Fits p n) (hk : k ≤ 2 ^ n - 1) :
    ⌊R.rnd (R.rnd ((k : K) / ((2 ^ n - 1 : ℕ) : K)) * ((2 ^ n - 1 : ℕ) : K))⌋ = k := by
  obtain ⟨M1, M0, hp⟩ := fits_lt f
  have hMK : (0 : K) < ((2 ^ n - 1 : ℕ) : K) := by exact_mod_cast M0
  rcases Nat.eq_zero_or_pos k with rfl | k1
  · simp [R.zero]
  have lo := restore_up R f k1 hk
  rw [Int.floor_eq_iff]
  refine ⟨by exact_mod_cast lo, ?_⟩
  have r := (abs_le.1 (rel_u R hp ((k : K) / ((2 ^ n - 1 : ℕ) : K)))).2
  rw [abs_of_nonneg (by positivity)] at r
  have hz : R.rnd ((k : K) / ((2 ^ n - 1 : ℕ) : K)) * ((2 ^ n - 1 : ℕ) : K) ≤ k + 1 / 2 := by
    have e : (k : K) / ((2 ^ n - 1 : ℕ) : K) * ((2 ^ n - 1 : ℕ) : K) = k := by field_simp
    have h1 := mul_le_mul_of_nonneg_right r hMK.le
    rw [sub_mul, mul_assoc, e] at h1
    have h2 : (k : K) * 2 ≤ 2 ^ p := by
      have : k * 2 ≤ 2 ^ p := by
        have : 2 ^ (n + 1) ≤ 2 ^ p := Nat.pow_le_pow_right (by norm_num) f.2.1
        rw [pow_succ] at this; omega
      exact_mod_cast this
    have h3 : 1 / 2 ^ p * (k : K) ≤ 1 / 2 := by
      rw [div_mul_eq_mul_div, one_mul, div_le_div_iff₀ (by positivity) (by norm_num)]; linarith
    linarith
  have hf : IsFp p ((k : K) + 1 / 2) := by
    have := isFp_int (K := K) hp (n := 2 * k + 1) (by
      rw [abs_of_nonneg (by positivity)]
      have : 2 ^ (n + 1) ≤ 2 ^ p := Nat.pow_le_pow_right (by norm_num) f.2.1
      rw [pow_succ] at this
      have : 2 * k + 1 ≤ 2 ^ p := by omega
      exact_mod_cast this) (-1)
    have e : (((2 * k + 1 : ℕ) : ℤ) : K) * 2 ^ (-1 : ℤ) = (k : K) + 1 / 2 := by push_cast; rw [zpow_neg_one]; field_simp
    rw [← e]; exact_mod_cast this
  have := R.le_of_le hz hf
  push_cast
  linarith

/-- What is known of a coordinate that is made an integer. -/
theorem quantise_spec {w n : ℕ} (f : Fits p n) {mx : BitVec w} (hm : mx.toNat = 2 ^ n - 1) {x : K} (h0 : 0 ≤ x) (h1 : x ≤ 1) :
    ∃ a, quantise R mx x = some a ∧ a ≤ mx ∧ (a.toNat : ℤ) = ⌊R.rnd (x * mx.toNat)⌋ := by
  obtain ⟨M1, M0, hp⟩ := fits_lt f
  have hMf : IsFp p (mx.toNat : K) := isFp_nat hp (by omega)
  have hM0 : (0 : K) ≤ mx.toNat := Nat.cast_nonneg _
  have b0 : 0 ≤ R.rnd (x * mx.toNat) := R.ge_of_ge (mul_nonneg h0 hM0) isFp_zero
  have b1 : R.rnd (x * mx.toNat) ≤ mx.toNat := R.le_of_le (by nlinarith) hMf
  have l0 : 0 ≤ ⌊R.rnd (x * mx.toNat)⌋ := Int.floor_nonneg.2 b0
  have l1 : ⌊R.rnd (x * mx.toNat)⌋ ≤ mx.toNat := by
    have := Int.floor_le_floor b1
    simpa using this
  have lt : mx.toNat < 2 ^ w := mx.isLt
  refine ⟨BitVec.ofNat w ⌊R.rnd (x * mx.toNat)⌋.toNat, ?_, ?_, ?_⟩
  · unfold quantise toU ofU
    rw [R.id hMf, if_pos]
    refine ⟨by linarith, lt_of_le_of_lt b1 ?_⟩
    exact_mod_cast lt
  · change (BitVec.ofNat w ⌊R.rnd (x * mx.toNat)⌋.toNat).toNat ≤ mx.toNat
    rw [BitVec.toNat_ofNat, Nat.mod_eq_of_lt (by omega)]; omega
  · rw [BitVec.toNat_ofNat, Nat.mod_eq_of_lt (by omega)]; omega

/-- Bounds for the integer. -/
theorem quantise_near {n : ℕ} (f : Fits p n) {a M : ℕ} (hM : M = 2 ^ n - 1) {x : K} (h0 : 0 ≤ x) (h1 : x ≤ 1) (ha : (a : ℤ) = ⌊R.rnd (x * M)⌋) :
    x * M < a + 1 ∧ (a : K) ≤ x * M * (1 + 1 / 2 ^ p) := by
  obtain ⟨M1, M0, hp⟩ := fits_lt f
  have hM0 : (0 : K) ≤ M := Nat.cast_nonneg _
  have hx : 0 ≤ x * M := mul_nonneg h0 hM0
  have l := Int.floor_le (R.rnd (x * M))
  have g := Int.lt_floor_add_one (R.rnd (x * M))
  rw [← ha] at l g
  push_cast at l g
  have aM : a ≤ M := by
    have b1 : R.rnd (x * M) ≤ M := R.le_of_le (by nlinarith) (isFp_nat hp (by omega))
    have : (a : K) ≤ M := l.trans b1
    exact_mod_cast this
  constructor
  · by_contra c
    push Not at c
    have hf : IsFp p ((a + 1 : ℕ) : K) := isFp_nat hp (by omega)
    push_cast at hf
    have := R.ge_of_ge c hf
    linarith
  · have r := (abs_le.1 (rel_u R hp (x * M))).2
    rw [abs_of_nonneg hx] at r
    linarith

/-- The product with the reciprocal does not get above one. -/
theorem scaled_le (hp1 : 1 ≤ p) {L x : K} (hL : 0 < L) (hx : x ≤ L) (h0 : 0 ≤ x) : 0 ≤ R.rnd (x * R.rnd (1 / L)) ∧ R.rnd (x * R.rnd (1 / L)) ≤ 1 := by
  have i0 : 0 < 1 / L := by positivity
  have r0 : 0 < R.rnd (1 / L) := R.pos hp1 i0
  refine ⟨R.ge_of_ge (mul_nonneg h0 r0.le) isFp_zero, ?_⟩
  -- the power of two above the reciprocal
  have l1 := Int.lt_zpow_succ_log_self (b := 2) (by norm_num) (1 / L)
  have l0 := Int.zpow_log_le_self (b := 2) (by norm_num) i0
  push_cast at l1 l0
  generalize Int.log 2 (1 / L) = e at l1 l0
  have er := R.err hp1 (x := 1 / L) (k := e + 1 - p) (by
    rw [abs_of_pos i0, ← zpow_natCast, ← zpow_add₀ (by norm_num), show (p : ℤ) + (e + 1 - p) = e + 1 by ring]; exact l1.le)
  have t0 := two_pos' (K := K) (e + 1 - p)
  have hz : L * R.rnd (1 / L) ≤ 1 + L * (2 ^ (e + 1 - p) / 2) := by
    have h1 : R.rnd (1 / L) ≤ 1 / L + 2 ^ (e + 1 - p) / 2 := by linarith [(abs_le.1 er).1]
    have h2 := mul_le_mul_of_nonneg_left h1 hL.le
    have h3 : L * (1 / L) = 1 := by field_simp
    rw [mul_add, h3] at h2
    exact h2
  have e2 : (2 : K) ^ (e + 1 - p) = 2 * 2 ^ e / 2 ^ p := by
    rw [zpow_sub₀ (by norm_num), zpow_add_one₀ (by norm_num), zpow_natCast]; ring
  have hz2 : L * R.rnd (1 / L) < 1 + 1 / 2 ^ p := by
    rcases l0.lt_or_eq with c | c
    · have hl : L * 2 ^ e < 1 := by
        have := mul_lt_mul_of_pos_left c hL
        have h3 : L * (1 / L) = 1 := by field_simp
        rwa [h3] at this
      have : L * (2 ^ (e + 1 - p) / 2) < 1 / 2 ^ p := by
        rw [e2, show L * (2 * 2 ^ e / 2 ^ p / 2) = L * 2 ^ e * (1 / 2 ^ p) by ring]
        have : (0 : K) < 1 / 2 ^ p := by positivity
        nlinarith
      linarith
    · rw [← c, R.id (isFp_pow hp1 e), c]
      have h3 : L * (1 / L) = 1 := by field_simp
      rw [h3]
      have : (0 : K) < 1 / 2 ^ p := by positivity
      linarith
  have hz3 : x * R.rnd (1 / L) < 1 + 1 / 2 ^ p := lt_of_le_of_lt (mul_le_mul_of_nonneg_right hx r0.le) hz2
  generalize x * R.rnd (1 / L) = z at hz3
  by_contra q
  push Not at q
  have one : IsFp p (1 : K) := by simpa using isFp_pow (K := K) hp1 0
  have w := R.mem z
  have n := R.nearest z 1 one
  have zc : 1 < z := by
    by_contra c
    push Not at c
    have := R.le_of_le c one
    linarith
  rw [abs_of_pos (by linarith : 0 < z - 1)] at n
  obtain ⟨j, hj⟩ := w.mult (e := 0) (by rw [zpow_zero]; exact q.le.trans (le_abs_self _))
  have e3 : (2 : K) ^ ((0 : ℤ) - p + 1) = 2 / 2 ^ p := by
    rw [zero_sub, zpow_add_one₀ (by norm_num), zpow_neg, zpow_natCast]; field_simp
  have P0 : (0 : K) < 2 ^ p := by positivity
  rw [hj, e3] at q
  have hjp : (2 : K) ^ p < j * 2 := by
    have := mul_lt_mul_of_pos_right q P0
    rw [show (j : K) * (2 / 2 ^ p) * 2 ^ p = j * 2 by field_simp, one_mul] at this
    exact this
  have hj2 : (2 : ℤ) ^ p + 2 ≤ j * 2 := by
    have h1 : (2 : ℤ) ^ p < j * 2 := by exact_mod_cast hjp
    obtain ⟨c, rfl⟩ : ∃ c, p = c + 1 := ⟨p - 1, by omega⟩
    rw [pow_succ] at h1 ⊢
    omega
  have hj3 : (2 : K) ^ p + 2 ≤ j * 2 := by exact_mod_cast hj2
  have hw : 1 + 2 / 2 ^ p ≤ R.rnd z := by
    rw [hj, e3]
    have := div_le_div_of_nonneg_right hj3 P0.le
    rw [show ((2 : K) ^ p + 2) / 2 ^ p = 1 + 2 / 2 ^ p by field_simp, show (j : K) * 2 / 2 ^ p = j * (2 / 2 ^ p) by ring] at this
    exact this
  have := (abs_le.1 n).1
  have e4 : (2 : K) / 2 ^ p = 2 * (1 / 2 ^ p) := by ring
  rw [e4] at hw
  linarith

end Verif.Fp
