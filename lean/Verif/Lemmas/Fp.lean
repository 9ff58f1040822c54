import Verif.Model.Fp
import Mathlib.Algebra.Order.Round
import Mathlib.Tactic.Ring
import Mathlib.Tactic.Linarith
import Mathlib.Tactic.Positivity
import Mathlib.Tactic.NormNum
import Mathlib.Tactic.Push
import Mathlib.Tactic.FieldSimp

/-! Lemmas on floating-point numbers. -/

namespace Verif.Fp

set_option linter.unusedSectionVars false

variable {K : Type} [Field K] [LinearOrder K] [IsStrictOrderedRing K] {p : ℕ}

theorem two_pos' (k : ℤ) : (0 : K) < 2 ^ k := zpow_pos (by norm_num) k

theorem IsFp.neg {x : K} (h : IsFp p x) : IsFp p (-x) := by
  obtain ⟨m, k, hm, rfl⟩ := h
  exact ⟨-m, k, by rwa [abs_neg], by push_cast; ring⟩

theorem isFp_zero : IsFp p (0 : K) := ⟨0, 0, by simp, by simp⟩

theorem IsFp.scale {x : K} (h : IsFp p x) (j : ℤ) : IsFp p (x * 2 ^ j) := by
  obtain ⟨m, k, hm, rfl⟩ := h
  refine ⟨m, k + j, hm, ?_⟩
  rw [zpow_add₀ (by norm_num : (2 : K) ≠ 0)]; ring

theorem IsFp.half {x : K} (h : IsFp p x) : IsFp p (x / 2) := by
  have := h.scale (-1)
  rwa [zpow_neg_one, ← div_eq_mul_inv] at this

theorem IsFp.double {x : K} (h : IsFp p x) : IsFp p (2 * x) := by
  have := h.scale 1
  rwa [zpow_one, mul_comm] at this

/-- Integers with at most `p` digits, scaled. -/
theorem isFp_int (hp : 1 ≤ p) {n : ℤ} (h : |n| ≤ 2 ^ p) (k : ℤ) : IsFp p ((n : K) * 2 ^ k) := by
  rcases h.lt_or_eq with h | h
  · exact ⟨n, k, h, rfl⟩
  · obtain ⟨q, rfl⟩ : ∃ q, p = q + 1 := ⟨p - 1, by omega⟩
    have e : (2 : ℤ) ^ (q + 1) = 2 ^ q * 2 := pow_succ 2 q
    have pq : (0 : ℤ) < 2 ^ q := by positivity
    have : ∃ s : ℤ, n = s * 2 ∧ |s| = 2 ^ q := by
      rcases abs_choice n with h' | h'
      · exact ⟨2 ^ q, by rw [← e, ← h, h'], abs_of_pos pq⟩
      · exact ⟨-2 ^ q, by rw [neg_mul, ← e, ← h, h', neg_neg], by rw [abs_neg]; exact abs_of_pos pq⟩
    obtain ⟨s, rfl, hs⟩ := this
    refine ⟨s, k + 1, by rw [hs, e]; linarith, ?_⟩
    rw [zpow_add₀ (by norm_num : (2 : K) ≠ 0), zpow_one]; push_cast; ring

theorem isFp_pow (hp : 1 ≤ p) (k : ℤ) : IsFp p ((2 : K) ^ k) := by
  have := isFp_int (K := K) hp (n := 1) (by simpa using one_le_pow₀ (by norm_num)) k
  simpa using this

theorem isFp_nat (hp : 1 ≤ p) {n : ℕ} (h : n ≤ 2 ^ p) : IsFp p (n : K) := by
  have := isFp_int (K := K) hp (n := n) (by rw [abs_of_nonneg (by positivity)]; exact_mod_cast h) 0
  simpa using this

variable (R : Rounding K p)

theorem Rounding.id {x : K} (h : IsFp p x) : R.rnd x = x := by
  have := R.nearest x x h
  rw [sub_self, abs_zero] at this
  have := abs_eq_zero.1 (le_antisymm this (abs_nonneg _))
  linarith

theorem Rounding.mono {x y : K} (h : x ≤ y) : R.rnd x ≤ R.rnd y := by
  rcases h.lt_or_eq with h | rfl
  · by_contra c
    push Not at c
    have a := R.nearest x _ (R.mem y)
    have b := R.nearest y _ (R.mem x)
    have ha := abs_le.1 (le_of_eq (rfl : |x - R.rnd x| = _))
    rcases abs_cases (x - R.rnd x) with ⟨a1, a2⟩ | ⟨a1, a2⟩ <;> rcases abs_cases (x - R.rnd y) with ⟨a3, a4⟩ | ⟨a3, a4⟩ <;>
      rcases abs_cases (y - R.rnd x) with ⟨a5, a6⟩ | ⟨a5, a6⟩ <;> rcases abs_cases (y - R.rnd y) with ⟨a7, a8⟩ | ⟨a7, a8⟩ <;>
      rw [a1, a3] at a <;> rw [a5, a7] at b <;> linarith
  · exact le_rfl

theorem Rounding.le_of_le {x y : K} (h : x ≤ y) (hy : IsFp p y) : R.rnd x ≤ y := by
  have := R.mono h
  rwa [R.id hy] at this

theorem Rounding.ge_of_ge {x y : K} (h : y ≤ x) (hy : IsFp p y) : y ≤ R.rnd x := by
  have := R.mono h
  rwa [R.id hy] at this

theorem Rounding.abs_le_of {x y : K} (h : |x| ≤ y) (hy : IsFp p y) : |R.rnd x| ≤ y :=
  abs_le.2 ⟨R.ge_of_ge (abs_le.1 h).1 hy.neg, R.le_of_le (abs_le.1 h).2 hy⟩

theorem Rounding.abs_ge_of {x y : K} (h : y ≤ |x|) (hy : IsFp p y) : y ≤ |R.rnd x| := by
  rcases abs_cases x with ⟨a, b⟩ | ⟨a, b⟩
  · rw [a] at h; exact (R.ge_of_ge h hy).trans (le_abs_self _)
  · rw [a] at h
    have := R.le_of_le (x := x) (y := -y) (by linarith) hy.neg
    exact le_trans (by linarith) (neg_le_abs _)

variable [FloorRing K]

/-- The error of a number below `2 ^ (p + k)` is at most half of `2 ^ k`. -/
theorem Rounding.err (hp : 1 ≤ p) {x : K} {k : ℤ} (h : |x| ≤ 2 ^ p * 2 ^ k) : |x - R.rnd x| ≤ 2 ^ k / 2 := by
  have tk := two_pos' (K := K) k
  have ht : |x / 2 ^ k| ≤ 2 ^ p := by rw [abs_div, abs_of_pos tk, div_le_iff₀ tk]; exact h
  have hn : |round (x / 2 ^ k)| ≤ (2 : ℤ) ^ p := by
    have b := abs_sub_round (x / 2 ^ k)
    generalize round (x / 2 ^ k) = r at b
    rw [abs_le] at ht b ⊢
    have u : (r : K) < ((2 ^ p + 1 : ℤ) : K) := by push_cast; linarith
    have l : ((-2 ^ p - 1 : ℤ) : K) < r := by push_cast; linarith
    have u' : r < 2 ^ p + 1 := by exact_mod_cast u
    have l' : -2 ^ p - 1 < r := by exact_mod_cast l
    omega
  have a := R.nearest x _ (isFp_int hp hn k)
  refine a.trans ?_
  have b := abs_sub_round (x / 2 ^ k)
  have : x - (round (x / 2 ^ k) : K) * 2 ^ k = (x / 2 ^ k - round (x / 2 ^ k)) * 2 ^ k := by field_simp
  rw [this, abs_mul, abs_of_pos tk]
  nlinarith

/-- The relative error. -/
theorem Rounding.rel (hp : 1 ≤ p) (x : K) : |x - R.rnd x| ≤ |x| / 2 ^ p := by
  rcases eq_or_ne x 0 with rfl | h
  · rw [R.id isFp_zero]; simp
  · have h0 : 0 < |x| := abs_pos.2 h
    have l1 := Int.zpow_log_le_self (b := 2) (by norm_num) h0
    have l2 := Int.lt_zpow_succ_log_self (b := 2) (by norm_num) |x|
    push_cast at l1 l2
    have e : (2 : K) ^ p * 2 ^ (Int.log 2 |x| + 1 - p) = 2 ^ (Int.log 2 |x| + 1) := by
      rw [← zpow_natCast, ← zpow_add₀ (by norm_num)]; congr 1; ring
    have := R.err hp (x := x) (k := Int.log 2 |x| + 1 - p) (by rw [e]; exact l2.le)
    refine this.trans ?_
    rw [le_div_iff₀ (by positivity), div_mul_eq_mul_div, mul_comm, e, zpow_add₀ (by norm_num)]
    rw [zpow_one]; linarith

theorem Rounding.pos (hp : 1 ≤ p) {x : K} (h : 0 < x) : 0 < R.rnd x := by
  have l1 := Int.zpow_log_le_self (b := 2) (by norm_num) h
  push_cast at l1
  exact lt_of_lt_of_le (two_pos' _) (R.ge_of_ge l1 (isFp_pow hp _))

theorem Rounding.neg (hp : 1 ≤ p) {x : K} (h : x < 0) : R.rnd x < 0 := by
  have l1 := Int.zpow_log_le_self (b := 2) (by norm_num) (neg_pos.2 h)
  push_cast at l1
  have := R.le_of_le (x := x) (y := -2 ^ Int.log 2 (-x)) (by linarith) (isFp_pow hp _).neg
  exact lt_of_le_of_lt this (neg_lt_zero.2 (two_pos' _))

theorem Rounding.zero : R.rnd 0 = 0 := R.id isFp_zero

theorem Rounding.pos_iff (hp : 1 ≤ p) {x : K} : 0 < R.rnd x ↔ 0 < x := by
  constructor
  · intro h
    by_contra c
    have := R.le_of_le (not_lt.1 c) isFp_zero
    exact absurd h (not_lt.2 this)
  · exact R.pos hp

theorem Rounding.neg_iff (hp : 1 ≤ p) {x : K} : R.rnd x < 0 ↔ x < 0 := by
  constructor
  · intro h
    by_contra c
    have := R.ge_of_ge (not_lt.1 c) isFp_zero
    exact absurd h (not_lt.2 this)
  · exact R.neg hp

theorem Rounding.zero_iff (hp : 1 ≤ p) {x : K} : R.rnd x = 0 ↔ x = 0 := by
  constructor
  · intro h
    rcases lt_trichotomy x 0 with c | c | c
    · exact absurd h (R.neg hp c).ne
    · exact c
    · exact absurd h (R.pos hp c).ne'
  · rintro rfl; exact R.zero

/-- Rounding keeps multiples of a power of two. -/
theorem Rounding.mult (hp : 1 ≤ p) {n k : ℤ} : ∃ n' : ℤ, R.rnd ((n : K) * 2 ^ k) = n' * 2 ^ k := by
  by_cases h : |n| ≤ 2 ^ p
  · exact ⟨n, R.id (isFp_int hp h k)⟩
  · push Not at h
    have hk := two_pos' (K := K) k
    have : (2 : K) ^ p * 2 ^ k ≤ |(n : K) * 2 ^ k| := by
      rw [abs_mul, abs_of_pos hk]
      have : ((2 : ℤ) ^ p : K) ≤ ((|n| : ℤ) : K) := by exact_mod_cast h.le
      push_cast at this
      exact mul_le_mul_of_nonneg_right this hk.le
    have hf : IsFp p ((2 : K) ^ p * 2 ^ k) := by
      rw [← zpow_natCast, ← zpow_add₀ (by norm_num)]; exact isFp_pow hp _
    have g := R.abs_ge_of this hf
    obtain ⟨m, j, hm, e⟩ := R.mem ((n : K) * 2 ^ k)
    rw [e] at g ⊢
    have hj := two_pos' (K := K) j
    rw [abs_mul, abs_of_pos hj] at g
    have hm' : |(m : K)| < 2 ^ p := by exact_mod_cast hm
    have : (2 : K) ^ k < 2 ^ j := by
      by_contra c
      push Not at c
      have p0 : (0 : K) < 2 ^ p := by positivity
      nlinarith [abs_nonneg (m : K)]
    have lt : k < j := (zpow_lt_zpow_iff_right₀ (by norm_num)).1 this
    obtain ⟨d, rfl⟩ : ∃ d : ℕ, j = d + k := ⟨(j - k).toNat, by omega⟩
    refine ⟨m * 2 ^ d, ?_⟩
    rw [zpow_add₀ (by norm_num)]; push_cast; rw [zpow_natCast]; ring

/-- A multiple of a power of two whose rounding is small is a floating-point number. -/
theorem Rounding.small (hp : 1 ≤ p) {n k : ℤ} (h : |(n : K) * 2 ^ k| ≤ 2 ^ p * 2 ^ k) : IsFp p ((n : K) * 2 ^ k) := by
  have hk := two_pos' (K := K) k
  refine isFp_int hp ?_ k
  rw [abs_mul, abs_of_pos hk] at h
  have := le_of_mul_le_mul_right h hk
  exact_mod_cast this

/-! ### The rounding of IEEE 754 -/

omit [IsStrictOrderedRing K] in
theorem roundEven_cases (t : K) : (roundEven t = ⌊t⌋ ∧ t - ⌊t⌋ ≤ 1 / 2) ∨ (roundEven t = ⌊t⌋ + 1 ∧ 1 / 2 ≤ t - ⌊t⌋) := by
  unfold roundEven
  split
  · rename_i h; exact .inl ⟨rfl, h.le⟩
  · rename_i h
    split
    · rename_i h'; exact .inr ⟨rfl, h'.le⟩
    · rename_i h'
      split
      · exact .inl ⟨rfl, not_lt.1 h'⟩
      · exact .inr ⟨rfl, not_lt.1 h⟩

theorem roundEven_nearest (t : K) (j : ℤ) : |t - roundEven t| ≤ |t - j| := by
  have f0 := Int.floor_le t
  have f1 := Int.lt_floor_add_one t
  have hj : j ≤ ⌊t⌋ ∨ ⌊t⌋ + 1 ≤ j := by omega
  have hj' : (j : K) ≤ ⌊t⌋ ∨ (⌊t⌋ : K) + 1 ≤ j := by
    rcases hj with h | h
    · left; exact_mod_cast h
    · right; exact_mod_cast h
  rcases roundEven_cases t with ⟨e, h⟩ | ⟨e, h⟩
  · rw [e, abs_of_nonneg (by linarith)]
    rcases hj' with g | g
    · rw [abs_of_nonneg (by linarith)]; linarith
    · rw [abs_of_nonpos (by linarith)]; linarith
  · rw [e]; push_cast
    rw [abs_of_nonpos (by linarith)]
    rcases hj' with g | g
    · rw [abs_of_nonneg (by linarith)]; linarith
    · rw [abs_of_nonpos (by linarith)]; linarith

theorem rne_mem (hp : 1 ≤ p) (x : K) : IsFp p (rne p x) := by
  unfold rne
  split
  · exact isFp_zero
  · rename_i h
    refine isFp_int hp ?_ _
    have h0 : 0 < |x| := abs_pos.2 h
    have l2 := Int.lt_zpow_succ_log_self (b := 2) (by norm_num) |x|
    push_cast at l2
    have tk := two_pos' (K := K) (Int.log 2 |x| - p + 1)
    have ht : |x / 2 ^ (Int.log 2 |x| - p + 1)| ≤ 2 ^ p := by
      rw [abs_div, abs_of_pos tk, div_le_iff₀ tk, ← zpow_natCast, ← zpow_add₀ (by norm_num)]
      refine l2.le.trans (le_of_eq ?_); congr 1; ring
    generalize x / 2 ^ (Int.log 2 |x| - p + 1) = t at ht
    rw [abs_le] at ht
    have g1 : (-2 ^ p : ℤ) ≤ ⌊t⌋ := Int.le_floor.2 (by push_cast; exact ht.1)
    rcases roundEven_cases t with ⟨e, h⟩ | ⟨e, h⟩
    · rw [e, abs_le]
      refine ⟨g1, ?_⟩
      have : (⌊t⌋ : K) ≤ 2 ^ p := (Int.floor_le t).trans ht.2
      exact_mod_cast this
    · rw [e, abs_le]
      refine ⟨by linarith, ?_⟩
      have : (⌊t⌋ : K) < 2 ^ p := by linarith
      have : ⌊t⌋ < 2 ^ p := by exact_mod_cast this
      omega

theorem rne_nearest (hp : 1 ≤ p) (x y : K) (hy : IsFp p y) : |x - rne p x| ≤ |x - y| := by
  unfold rne
  split
  · rename_i h; rw [h]; simp
  · rename_i h
    have h0 : 0 < |x| := abs_pos.2 h
    have l1 := Int.zpow_log_le_self (b := 2) (by norm_num) h0
    push_cast at l1
    generalize Int.log 2 |x| = e at l1
    have tk := two_pos' (K := K) (e - p + 1)
    have main : ∀ j : ℤ, |x - roundEven (x / 2 ^ (e - p + 1)) * 2 ^ (e - p + 1)| ≤ |x - j * 2 ^ (e - p + 1)| := by
      intro j
      have := roundEven_nearest (x / 2 ^ (e - p + 1)) j
      have f : ∀ z : K, |x - z * 2 ^ (e - p + 1)| = |x / 2 ^ (e - p + 1) - z| * 2 ^ (e - p + 1) := by
        intro z
        rw [← abs_of_pos tk, ← abs_mul, abs_of_pos tk]; congr 1; field_simp
      rw [f, f]
      exact mul_le_mul_of_nonneg_right this tk.le
    obtain ⟨m, k, hm, rfl⟩ := hy
    by_cases c : e - p + 1 ≤ k
    · obtain ⟨d, rfl⟩ : ∃ d : ℕ, k = d + (e - p + 1) := ⟨(k - (e - p + 1)).toNat, by omega⟩
      have := main (m * 2 ^ d)
      refine this.trans (le_of_eq ?_)
      rw [zpow_add₀ (by norm_num : (2 : K) ≠ 0) d]; push_cast; rw [zpow_natCast]; ring_nf
    · have small : |(m : K) * 2 ^ k| ≤ 2 ^ e := by
        have hk := two_pos' (K := K) k
        rw [abs_mul, abs_of_pos hk]
        have hm' : |(m : K)| ≤ 2 ^ p := by exact_mod_cast hm.le
        refine (mul_le_mul_of_nonneg_right hm' hk.le).trans ?_
        rw [← zpow_natCast, ← zpow_add₀ (by norm_num)]
        exact zpow_le_zpow_right₀ (by norm_num) (by omega)
      have ee : (2 : K) ^ e = ((2 ^ (p - 1) : ℤ) : K) * 2 ^ (e - p + 1) := by
        push_cast
        rw [← zpow_natCast, ← zpow_add₀ (by norm_num)]
        congr 1; omega
      rw [abs_le] at small
      rcases abs_cases x with ⟨a, b⟩ | ⟨a, b⟩
      · refine (main (2 ^ (p - 1))).trans ?_
        rw [← ee, abs_of_nonneg (by linarith), abs_of_nonneg (by linarith)]; linarith
      · refine (main (-2 ^ (p - 1))).trans ?_
        have : ((-2 ^ (p - 1) : ℤ) : K) * 2 ^ (e - p + 1) = -2 ^ e := by rw [ee]; push_cast; ring
        rw [this, abs_of_nonpos (by linarith), abs_of_nonpos (by linarith)]; linarith

/-- The rounding of IEEE 754 is a rounding to nearest. -/
def ieee (K : Type) [Field K] [LinearOrder K] [IsStrictOrderedRing K] [FloorRing K] (p : ℕ) (hp : 1 ≤ p) : Rounding K p :=
  ⟨rne p, rne_mem hp, rne_nearest hp⟩

end Verif.Fp
