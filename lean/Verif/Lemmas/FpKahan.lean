import Verif.Lemmas.Fp
import Verif.Model.FpGeom

/-! Kahan's algorithm for determinants of order two. -/

namespace Verif.Fp

set_option linter.unusedSectionVars false

variable {K : Type} [Field K] [LinearOrder K] [IsStrictOrderedRing K] [FloorRing K] {p : ℕ} (R : Rounding K p)

theorem pow_gt (hp : 1 ≤ p) : (2 : K) ≤ 2 ^ p := by
  calc (2 : K) = 2 ^ 1 := by norm_num
    _ ≤ 2 ^ p := pow_le_pow_right₀ (by norm_num) hp

/-- The common part of two cases. -/
theorem kahan_near (hp : 1 ≤ p) {P Q g : ℤ} {w : K} (hw : ∃ W : ℤ, w = W * 2 ^ g) (he : |(Q : K) * 2 ^ g - w| ≤ 2 ^ p * 2 ^ g / 2) :
    IsFp p ((P : K) * 2 ^ g - w) ∨ |w - (Q : K) * 2 ^ g| ≤ |(P : K) * 2 ^ g - Q * 2 ^ g| := by
  obtain ⟨W, rfl⟩ := hw
  by_cases h : |((P - W : ℤ) : K) * 2 ^ g| ≤ 2 ^ p * 2 ^ g
  · left
    have := Rounding.small hp h
    have e : (P : K) * 2 ^ g - W * 2 ^ g = ((P - W : ℤ) : K) * 2 ^ g := by push_cast; ring
    rwa [e]
  · right
    push Not at h
    have e : ((P - W : ℤ) : K) * 2 ^ g = (P * 2 ^ g - Q * 2 ^ g) - (W * 2 ^ g - Q * 2 ^ g) := by push_cast; ring
    rw [e] at h
    rw [abs_sub_comm] at he
    have := abs_sub (P * 2 ^ g - Q * 2 ^ g : K) (W * 2 ^ g - Q * 2 ^ g)
    linarith

theorem kahan_core (hp : 1 ≤ p) {P Q g1 g2 : ℤ} (hP : |(P : K)| ≤ (2 ^ p - 1) ^ 2) (hQ : |(Q : K)| ≤ (2 ^ p - 1) ^ 2) :
    IsFp p ((P : K) * 2 ^ g1 - R.rnd (Q * 2 ^ g2)) ∨
      |R.rnd ((Q : K) * 2 ^ g2) - Q * 2 ^ g2| ≤ |(P : K) * 2 ^ g1 - Q * 2 ^ g2| := by
  have M2 := pow_gt (K := K) hp
  have G1 := two_pos' (K := K) g1
  have G2 := two_pos' (K := K) g2
  rcases le_or_gt g2 g1 with h | h
  · obtain ⟨d, rfl⟩ : ∃ d : ℕ, g1 = d + g2 := ⟨(g1 - g2).toNat, by omega⟩
    have e : (P : K) * 2 ^ ((d : ℤ) + g2) = ((P * 2 ^ d : ℤ) : K) * 2 ^ g2 := by
      rw [zpow_add₀ (by norm_num)]; push_cast; rw [zpow_natCast]; ring
    rw [e]
    refine kahan_near hp (R.mult hp) ?_
    have : |(Q : K) * 2 ^ g2| ≤ 2 ^ p * 2 ^ (p + g2) := by
      rw [abs_mul, abs_of_pos G2, zpow_add₀ (by norm_num), zpow_natCast]
      nlinarith
    have := R.err hp this
    rwa [zpow_add₀ (by norm_num), zpow_natCast] at this
  · obtain ⟨d, rfl⟩ : ∃ d : ℕ, g2 = d + g1 := ⟨(g2 - g1).toNat, by omega⟩
    have e : (Q : K) * 2 ^ ((d : ℤ) + g1) = ((Q * 2 ^ d : ℤ) : K) * 2 ^ g1 := by
      rw [zpow_add₀ (by norm_num)]; push_cast; rw [zpow_natCast]; ring
    rw [e]
    generalize Q * 2 ^ d = Q'
    by_cases c1 : |(Q' : K) * 2 ^ g1| ≤ 2 ^ p * 2 ^ (p + g1)
    · refine kahan_near hp (R.mult hp) ?_
      have := R.err hp c1
      rwa [zpow_add₀ (by norm_num), zpow_natCast] at this
    · right
      push Not at c1
      have e1 : (2 : K) ^ ((p : ℤ) + g1) = 2 ^ p * 2 ^ g1 := by rw [zpow_add₀ (by norm_num), zpow_natCast]
      rw [e1] at c1
      have hP' : |(P : K) * 2 ^ g1| ≤ (2 ^ p - 1) ^ 2 * 2 ^ g1 := by
        rw [abs_mul, abs_of_pos G1]; exact mul_le_mul_of_nonneg_right hP G1.le
      rw [abs_sub_comm, abs_sub_comm (P * 2 ^ g1 : K)]
      have tri := abs_sub_abs_le_abs_sub (Q' * 2 ^ g1 : K) (P * 2 ^ g1)
      refine le_trans ?_ tri
      by_cases c2 : |(Q' : K) * 2 ^ g1| ≤ 2 ^ p * 2 ^ (p + 1 + g1)
      · have := R.err hp c2
        have e2 : (2 : K) ^ ((p : ℤ) + 1 + g1) = 2 * (2 ^ p * 2 ^ g1) := by
          rw [zpow_add₀ (by norm_num), zpow_add₀ (by norm_num), zpow_natCast, zpow_one]; ring
        rw [e2] at this
        nlinarith
      · push Not at c2
        have e2 : (2 : K) ^ ((p : ℤ) + 1 + g1) = 2 * (2 ^ p * 2 ^ g1) := by
          rw [zpow_add₀ (by norm_num), zpow_add₀ (by norm_num), zpow_natCast, zpow_one]; ring
        rw [e2] at c2
        have := R.rel hp ((Q' : K) * 2 ^ g1)
        have h2 : |(Q' : K) * 2 ^ g1| / 2 ^ p ≤ |(Q' : K) * 2 ^ g1| / 2 := div_le_div_of_nonneg_left (abs_nonneg _) (by norm_num) M2
        nlinarith

theorem int_bound {A : ℤ} (h : |A| < 2 ^ p) : |(A : K)| ≤ 2 ^ p - 1 := by
  have : |A| ≤ 2 ^ p - 1 := by omega
  exact_mod_cast this

theorem prod_bound (hp : 1 ≤ p) {A B : ℤ} (hA : |A| < 2 ^ p) (hB : |B| < 2 ^ p) : |((A * B : ℤ) : K)| ≤ (2 ^ p - 1) ^ 2 := by
  have a := int_bound (K := K) hA
  have b := int_bound (K := K) hB
  have := pow_gt (K := K) hp
  push_cast
  rw [abs_mul, sq]
  exact mul_le_mul a b (abs_nonneg _) (by linarith)

/-- The error of a product is a floating-point number. -/
theorem prod_err (hp : 1 ≤ p) {b c : K} (hb : IsFp p b) (hc : IsFp p c) : IsFp p (R.rnd (b * c) - b * c) := by
  obtain ⟨B, k, hB, rfl⟩ := hb
  obtain ⟨C, l, hC, rfl⟩ := hc
  have e : (B : K) * 2 ^ k * (C * 2 ^ l) = ((B * C : ℤ) : K) * 2 ^ (k + l) := by
    rw [zpow_add₀ (by norm_num)]; push_cast; ring
  rw [e]
  have G2 := two_pos' (K := K) (k + l)
  have M2 := pow_gt (K := K) hp
  have hQ := prod_bound (K := K) hp hB hC
  generalize B * C = Q at *
  generalize k + l = g at *
  have : |(Q : K) * 2 ^ g| ≤ 2 ^ p * 2 ^ (p + g) := by
    rw [abs_mul, abs_of_pos G2, zpow_add₀ (by norm_num), zpow_natCast]
    nlinarith
  have := R.err hp this
  rw [zpow_add₀ (by norm_num), zpow_natCast, abs_sub_comm] at this
  obtain ⟨W, hW⟩ := R.mult (K := K) hp (n := Q) (k := g)
  rw [hW] at this ⊢
  have e : (W : K) * 2 ^ g - Q * 2 ^ g = ((W - Q : ℤ) : K) * 2 ^ g := by push_cast; ring
  rw [e] at this ⊢
  exact Rounding.small hp (by nlinarith)

theorem kahan (hp : 1 ≤ p) {a b c d : K} (ha : IsFp p a) (hb : IsFp p b) (hc : IsFp p c) (hd : IsFp p d) :
    IsFp p (a * d - R.rnd (b * c)) ∨ |R.rnd (b * c) - b * c| ≤ |a * d - b * c| := by
  obtain ⟨A, i, hA, rfl⟩ := ha
  obtain ⟨B, k, hB, rfl⟩ := hb
  obtain ⟨C, l, hC, rfl⟩ := hc
  obtain ⟨D, j, hD, rfl⟩ := hd
  have e1 : (A : K) * 2 ^ i * (D * 2 ^ j) = ((A * D : ℤ) : K) * 2 ^ (i + j) := by
    rw [zpow_add₀ (by norm_num)]; push_cast; ring
  have e2 : (B : K) * 2 ^ k * (C * 2 ^ l) = ((B * C : ℤ) : K) * 2 ^ (k + l) := by
    rw [zpow_add₀ (by norm_num)]; push_cast; ring
  rw [e1, e2]
  exact kahan_core R hp (prod_bound hp hA hD) (prod_bound hp hB hC)

/-- The determinant is the rounding of a number near the exact value. -/
theorem det_spec (hp : 1 ≤ p) {a b c d : K} (ha : IsFp p a) (hb : IsFp p b) (hc : IsFp p c) (hd : IsFp p d) :
    ∃ y, det2x2 R a b c d = R.rnd y ∧ |y - (a * d - b * c)| ≤ 2 * |a * d - b * c| / 2 ^ p := by
  have he : fma R (-b) c (R.rnd (b * c)) = R.rnd (b * c) - b * c := by
    unfold fma
    have : -b * c + R.rnd (b * c) = R.rnd (b * c) - b * c := by ring
    rw [this, R.id (prod_err R hp hb hc)]
  refine ⟨fma R a d (-R.rnd (b * c)) + (R.rnd (b * c) - b * c), by unfold det2x2; dsimp only; rw [he], ?_⟩
  unfold fma
  rw [← sub_eq_add_neg]
  rcases kahan R hp ha hb hc hd with h | h
  · rw [R.id h]
    have : a * d - R.rnd (b * c) + (R.rnd (b * c) - b * c) - (a * d - b * c) = 0 := by ring
    rw [this, abs_zero]; positivity
  · have r := R.rel hp (a * d - R.rnd (b * c))
    have e : R.rnd (a * d - R.rnd (b * c)) + (R.rnd (b * c) - b * c) - (a * d - b * c) =
        -((a * d - R.rnd (b * c)) - R.rnd (a * d - R.rnd (b * c))) := by ring
    rw [e, abs_neg]
    refine r.trans ?_
    have t : |a * d - R.rnd (b * c)| ≤ 2 * |a * d - b * c| := by
      have : a * d - R.rnd (b * c) = (a * d - b * c) - (R.rnd (b * c) - b * c) := by ring
      rw [this]
      have := abs_sub (a * d - b * c) (R.rnd (b * c) - b * c)
      linarith
    exact div_le_div_of_nonneg_right t (by positivity)

/-- A number close to `x` has its sign. -/
theorem sign_near {x y t : K} (ht : t < 1) (h : |y - x| ≤ t * |x|) : (0 < y ↔ 0 < x) ∧ (y = 0 ↔ x = 0) ∧ (y < 0 ↔ x < 0) := by
  rw [abs_le] at h
  rcases lt_trichotomy x 0 with c | c | c
  · rw [abs_of_neg c] at h
    have : y < 0 := by nlinarith [h.1, h.2]
    exact ⟨⟨fun q => absurd q this.not_gt, fun q => absurd q c.not_gt⟩, ⟨fun q => absurd q this.ne, fun q => absurd q c.ne⟩, ⟨fun _ => c, fun _ => this⟩⟩
  · subst c
    simp only [abs_zero, mul_zero, sub_zero, neg_zero] at h
    have : y = 0 := le_antisymm h.2 h.1
    simp [this]
  · rw [abs_of_pos c] at h
    have : 0 < y := by nlinarith [h.1, h.2]
    exact ⟨⟨fun _ => c, fun _ => this⟩, ⟨fun q => absurd q this.ne', fun q => absurd q c.ne'⟩, ⟨fun q => absurd q this.not_gt, fun q => absurd q c.not_gt⟩⟩

theorem det_sign (hp : 2 ≤ p) {a b c d : K} (ha : IsFp p a) (hb : IsFp p b) (hc : IsFp p c) (hd : IsFp p d) :
    (0 < det2x2 R a b c d ↔ b * c < a * d) ∧ (det2x2 R a b c d = 0 ↔ a * d = b * c) ∧ (det2x2 R a b c d < 0 ↔ a * d < b * c) := by
  obtain ⟨y, e, h⟩ := det_spec R (by omega) ha hb hc hd
  have M : (4 : K) ≤ 2 ^ p := by
    calc (4 : K) = 2 ^ 2 := by norm_num
      _ ≤ 2 ^ p := pow_le_pow_right₀ (by norm_num) hp
  have t : 2 / 2 ^ p < (1 : K) := by rw [div_lt_one (by positivity)]; linarith
  obtain ⟨h1, h2, h3⟩ := sign_near (x := a * d - b * c) (y := y) (t := 2 / 2 ^ p) t (by rwa [div_mul_eq_mul_div])
  rw [e, R.pos_iff (by omega), R.neg_iff (by omega), R.zero_iff (by omega), h1, h2, h3, sub_pos, sub_eq_zero, sub_neg]
  exact ⟨Iff.rfl, Iff.rfl, Iff.rfl⟩

theorem det_error (hp : 1 ≤ p) {a b c d : K} (ha : IsFp p a) (hb : IsFp p b) (hc : IsFp p c) (hd : IsFp p d) :
    |det2x2 R a b c d - (a * d - b * c)| ≤ (3 / 2 ^ p + 2 / 2 ^ (2 * p)) * |a * d - b * c| := by
  obtain ⟨y, e, h⟩ := det_spec R hp ha hb hc hd
  rw [e]
  generalize a * d - b * c = x at *
  have r := R.rel hp y
  have M := pow_gt (K := K) hp
  have ty : |y| ≤ |x| + 2 * |x| / 2 ^ p := by
    have := abs_sub_abs_le_abs_sub y x; linarith
  have t1 : |R.rnd y - x| ≤ |y - R.rnd y| + |y - x| := by
    have : R.rnd y - x = -(y - R.rnd y) + (y - x) := by ring
    rw [this]; exact (abs_add_le _ _).trans (by rw [abs_neg])
  have t2 : |y| / 2 ^ p ≤ (|x| + 2 * |x| / 2 ^ p) / 2 ^ p := div_le_div_of_nonneg_right ty (by positivity)
  refine (t1.trans (add_le_add (r.trans t2) h)).trans (le_of_eq ?_)
  rw [two_mul p, pow_add]
  field_simp; ring

end Verif.Fp
