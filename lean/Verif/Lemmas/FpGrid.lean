import Verif.Model.FpGrid
import Verif.Lemmas.FpMorton

/-! Regular grids in floating-point arithmetic. -/

set_option linter.unusedSectionVars false

namespace Verif.Fp

open Verif.Grid (Axis clampInt)

variable {K : Type} [Field K] [LinearOrder K] [IsStrictOrderedRing K] [FloorRing K] {p : ℕ}

/-- The relative distance of two numbers is at least `2 ^ -p`. -/
theorem IsFp.apart (hp : 1 ≤ p) {y v : K} (hy : IsFp p y) (hv : IsFp p v) (h : y < v) (h0 : 0 < v) : v / 2 ^ p ≤ v - y := by
  have l0 := Int.zpow_log_le_self (b := 2) (by norm_num) h0
  have l1 := Int.lt_zpow_succ_log_self (b := 2) (by norm_num) v
  push_cast at l0 l1
  generalize Int.log 2 v = e at l0 l1
  have P0 : (0 : K) < 2 ^ p := by positivity
  have t0 := two_pos' (K := K) (e - p + 1)
  have e1 : (2 : K) ^ (e - p + 1) * 2 ^ p = 2 ^ (e + 1) := by
    rw [← zpow_natCast (2 : K) p, ← zpow_add₀ (by norm_num)]; congr 1; ring
  obtain ⟨j, hj⟩ := hv.mult (e := e) (l0.trans (le_abs_self _))
  rcases l0.lt_or_eq with c | c
  · -- not a power of two
    have i : (2 : K) ^ e = (2 ^ (p - 1) : ℕ) * 2 ^ (e - p + 1) := by
      push_cast
      rw [← zpow_natCast, ← zpow_add₀ (by norm_num)]; congr 1; push_cast [Nat.cast_sub hp]; ring
    have hj1 : (2 : K) ^ e + 2 ^ (e - p + 1) ≤ v := by
      rw [hj, i] at c
      have c1 := (mul_lt_mul_iff_left₀ t0).1 c
      have c2 : ((2 ^ (p - 1) : ℕ) : ℤ) < j := by exact_mod_cast c1
      have c3 : (((2 ^ (p - 1) : ℕ) : ℤ) : K) + 1 ≤ j := by exact_mod_cast c2
      rw [hj, i]
      push_cast at c3 ⊢
      nlinarith
    have := hy.gap h ⟨j, hj⟩ hj1
    rw [div_le_iff₀ P0]
    nlinarith
  · -- a power of two
    have t1 := two_pos' (K := K) (e - 1 - p + 1)
    have e2 : (2 : K) ^ (e - 1 - p + 1) * 2 ^ p = 2 ^ e := by
      rw [← zpow_natCast (2 : K) p, ← zpow_add₀ (by norm_num)]; congr 1; ring
    have hj1 : (2 : K) ^ (e - 1) + 2 ^ (e - 1 - p + 1) ≤ v := by
      have h1 : (2 : K) ^ (e - 1 - p + 1) ≤ 2 ^ (e - 1) := zpow_le_zpow_right₀ (by norm_num) (by omega)
      have h2 : (2 : K) ^ e = 2 * 2 ^ (e - 1) := by rw [← zpow_one_add₀ (by norm_num)]; congr 1; ring
      linarith
    have := hy.gap (e := e - 1) h ⟨2 ^ p, by rw [← c]; push_cast; rw [← zpow_natCast, ← zpow_add₀ (by norm_num)]; congr 1; ring⟩ hj1
    rw [div_le_iff₀ P0]
    nlinarith

variable (R : Rounding K p)

/-- A value that is below an integer by the relative distance `2 ^ -p` does not round to it. -/
theorem Rounding.below (hp : 1 ≤ p) {i : ℕ} (hi : i ≤ 2 ^ p) (i0 : 1 ≤ i) {z : K} (h : (i : K) / 2 ^ p ≤ i - z) : R.rnd z < i := by
  have hif : IsFp p (i : K) := isFp_nat hp hi
  have P0 : (0 : K) < 2 ^ p := by positivity
  have iK : (0 : K) < i := by exact_mod_cast i0
  have hz : z < i := by
    have : 0 < (i : K) / 2 ^ p := by positivity
    linarith
  obtain ⟨e, he1, he2⟩ : ∃ e, 2 ^ e ≤ i ∧ i < 2 ^ (e + 1) :=
    ⟨Nat.log 2 i, Nat.pow_log_le_self 2 (by omega), Nat.lt_pow_succ_log_self (by norm_num) i⟩
  have h2 : (2 : K) ^ (e : ℤ) ≤ i := by rw [zpow_natCast]; exact_mod_cast he1
  -- the next number below
  obtain ⟨g, g0, gi, gf⟩ : ∃ g : K, 0 < g ∧ g < 2 * (i / 2 ^ p) ∧ IsFp p ((i : K) - g) := by
    rcases he1.lt_or_eq with c | c
    · refine ⟨2 ^ ((e : ℤ) - p + 1), two_pos' _, ?_, ?_⟩
      · have : (2 : K) ^ ((e : ℤ) - p + 1) = 2 * (2 ^ (e : ℤ) / 2 ^ p) := by
          rw [zpow_add_one₀ (by norm_num), zpow_sub₀ (by norm_num), zpow_natCast (2 : K) p]; ring
        rw [this]
        refine mul_lt_mul_of_pos_left (div_lt_div_of_pos_right ?_ P0) (by norm_num)
        rw [zpow_natCast]; exact_mod_cast c
      · obtain ⟨j, hj⟩ := hif.mult (e := e) (h2.trans (le_abs_self _))
        rw [hj, show (j : K) * 2 ^ ((e : ℤ) - p + 1) - 2 ^ ((e : ℤ) - p + 1) = ((j - 1 : ℤ) : K) * 2 ^ ((e : ℤ) - p + 1) by push_cast; ring]
        have t0 := two_pos' (K := K) ((e : ℤ) - p + 1)
        refine isFp_int hp ?_ _
        have j1 : (0 : K) < j := by
          by_contra q
          push Not at q
          have := mul_nonpos_of_nonpos_of_nonneg q t0.le
          linarith
        have j2 : 0 < j := by exact_mod_cast j1
        have e1 : (2 : K) ^ ((e : ℤ) - p + 1) * 2 ^ p = 2 * 2 ^ (e : ℤ) := by
          rw [← zpow_natCast (2 : K) p, ← zpow_add₀ (by norm_num), show (e : ℤ) - p + 1 + p = 1 + e by ring, zpow_add₀ (by norm_num), zpow_one]
        have j3 : (j : K) < 2 ^ p := by
          have : (i : K) < 2 * 2 ^ (e : ℤ) := by
            rw [zpow_natCast]
            rw [pow_succ] at he2
            have : i < 2 * 2 ^ e := by omega
            exact_mod_cast this
          rw [hj, ← e1, mul_comm] at this
          exact lt_of_mul_lt_mul_left this t0.le
        have j4 : j < 2 ^ p := by exact_mod_cast j3
        rw [abs_of_nonneg (by omega)]; omega
    · refine ⟨2 ^ ((e : ℤ) - p), two_pos' _, ?_, ?_⟩
      · rw [zpow_sub₀ (by norm_num), ← c, zpow_natCast, zpow_natCast]
        push_cast
        have : (0 : K) < 2 ^ e / 2 ^ p := by positivity
        linarith
      · have : (i : K) - 2 ^ ((e : ℤ) - p) = ((2 ^ p - 1 : ℤ) : K) * 2 ^ ((e : ℤ) - p) := by
          rw [← c]; push_cast
          rw [sub_mul, one_mul, ← zpow_natCast (2 : K) p, ← zpow_add₀ (by norm_num), show (p : ℤ) + (e - p) = e by ring, zpow_natCast]
        rw [this]
        refine isFp_int hp ?_ _
        have : (1 : ℤ) ≤ 2 ^ p := one_le_pow₀ (by norm_num)
        rw [abs_of_nonneg (by omega)]; omega
  by_contra q
  push Not at q
  have n := R.nearest z _ gf
  rcases le_or_gt z (i - g) with c | c
  · have := R.le_of_le c gf
    linarith
  · rw [abs_of_pos (by linarith : 0 < z - (i - g))] at n
    have := (abs_le.1 n).1
    linarith

/-- The quotient of two numbers is at least an integer exactly when it should be, if the product is a number. -/
theorem quot_exact (hp : 1 ≤ p) {i : ℕ} (hi : i ≤ 2 ^ p) {y d : K} (hy : IsFp p y) (d0 : 0 < d) (hid : IsFp p ((i : K) * d)) :
    (i : K) ≤ R.rnd (y / d) ↔ (i : K) * d ≤ y := by
  constructor
  · intro h
    by_contra c
    push Not at c
    rcases Nat.eq_zero_or_pos i with rfl | i0
    · simp only [Nat.cast_zero, zero_mul] at c h
      have := R.neg hp (div_neg_of_neg_of_pos c d0)
      linarith
    · have iK : (0 : K) < i := by exact_mod_cast i0
      have a := hy.apart hp hid c (by positivity)
      have := R.below hp hi i0 (z := y / d) (by
        rw [show (i : K) - y / d = ((i : K) * d - y) / d by field_simp, le_div_iff₀ d0]
        refine le_trans (le_of_eq ?_) a
        ring)
      linarith
  · intro h
    refine R.ge_of_ge ?_ (isFp_nat hp hi)
    rwa [le_div_iff₀ d0]

theorem mulAdd_mono (fused : Bool) {a b c c' : K} (b0 : 0 ≤ b) (h : c ≤ c') : mulAdd R fused a b c ≤ mulAdd R fused a b c' := by
  have h1 := mul_le_mul_of_nonneg_left h b0
  unfold mulAdd
  split
  · exact R.mono (by linarith)
  · exact R.mono (by linarith [R.mono h1])

theorem mulAdd_error (hp : 1 ≤ p) (fused : Bool) {a b c : K} : |mulAdd R fused a b c - (a + b * c)| ≤ 3 / 2 ^ p * (|a| + |b * c|) := by
  have hu : (0 : K) < 1 / 2 ^ p := by positivity
  have u1 : (1 : K) / 2 ^ p ≤ 1 := by rw [div_le_one (by positivity)]; exact one_le_pow₀ (by norm_num)
  have a0 := abs_nonneg a
  have b0 := abs_nonneg (b * c)
  rw [show (3 : K) / 2 ^ p = 3 * (1 / 2 ^ p) by ring]
  unfold mulAdd
  split
  · refine (rel_u R hp _).trans ?_
    have := abs_add_le a (b * c)
    have := mul_le_mul_of_nonneg_left this hu.le
    nlinarith
  · have r1 := rel_u R hp (b * c)
    have r2 := rel_u R hp (a + R.rnd (b * c))
    have t1 := abs_add_le (R.rnd (a + R.rnd (b * c)) - (a + R.rnd (b * c))) (R.rnd (b * c) - b * c)
    rw [show R.rnd (a + R.rnd (b * c)) - (a + R.rnd (b * c)) + (R.rnd (b * c) - b * c) = R.rnd (a + R.rnd (b * c)) - (a + b * c) by ring] at t1
    have t2 := abs_add_le a (R.rnd (b * c))
    have t3 := abs_add_le (R.rnd (b * c) - b * c) (b * c)
    rw [sub_add_cancel] at t3
    generalize (1 : K) / 2 ^ p = u at *
    have t4 : |a + R.rnd (b * c)| ≤ |a| + 2 * |b * c| := by nlinarith
    have t5 := mul_le_mul_of_nonneg_left t4 hu.le
    nlinarith

/-- The quotient of the location. -/
theorem quot_near (hp : 2 ≤ p) (g : Axis K) (d0 : 0 < g.dx) {x : K} (hx : g.min ≤ x) :
    (x - g.min) / g.dx * (1 - 2 / 2 ^ p) ≤ R.rnd (R.rnd (x - g.min) / g.dx) ∧ R.rnd (R.rnd (x - g.min) / g.dx) ≤ (x - g.min) / g.dx * (1 + 3 / 2 ^ p) := by
  have hp1 : 1 ≤ p := by omega
  have hu : (0 : K) < 1 / 2 ^ p := by positivity
  have u4 : (1 : K) / 2 ^ p ≤ 1 / 4 := by
    refine one_div_le_one_div_of_le (by norm_num) ?_
    calc (4 : K) = 2 ^ 2 := by norm_num
      _ ≤ 2 ^ p := pow_le_pow_right₀ (by norm_num) hp
  have r1 := rel_u R hp1 (x - g.min)
  have r2 := rel_u R hp1 (R.rnd (x - g.min) / g.dx)
  rw [abs_of_nonneg (by linarith : 0 ≤ x - g.min)] at r1
  have y0 : 0 ≤ R.rnd (x - g.min) := R.ge_of_ge (by linarith) isFp_zero
  rw [abs_of_nonneg (div_nonneg y0 d0.le)] at r2
  rw [show (2 : K) / 2 ^ p = 2 * (1 / 2 ^ p) by ring, show (3 : K) / 2 ^ p = 3 * (1 / 2 ^ p) by ring]
  have t0 : 0 ≤ (x - g.min) / g.dx := div_nonneg (by linarith) d0.le
  have r3 : R.rnd (x - g.min) / g.dx ≤ (x - g.min) / g.dx * (1 + 1 / 2 ^ p) := by
    rw [div_mul_eq_mul_div]
    refine div_le_div_of_nonneg_right ?_ d0.le
    linarith [(abs_le.1 r1).2]
  have r4 : (x - g.min) / g.dx * (1 - 1 / 2 ^ p) ≤ R.rnd (x - g.min) / g.dx := by
    rw [div_mul_eq_mul_div]
    refine div_le_div_of_nonneg_right ?_ d0.le
    linarith [(abs_le.1 r1).1]
  obtain ⟨r5, r6⟩ := abs_le.1 r2
  generalize R.rnd (R.rnd (x - g.min) / g.dx) = q at *
  generalize R.rnd (x - g.min) / g.dx = y at *
  generalize (x - g.min) / g.dx = t at *
  generalize (1 : K) / 2 ^ p = u at *
  constructor
  · have : t * (1 - u) * (1 - u) ≤ y * (1 - u) := mul_le_mul_of_nonneg_right r4 (by linarith)
    nlinarith [mul_nonneg t0 (mul_nonneg hu.le hu.le)]
  · have : y * (1 + u) ≤ t * (1 + u) * (1 + u) := mul_le_mul_of_nonneg_right r3 (by linarith)
    have h2 : t * u * u ≤ t * u * 1 := mul_le_mul_of_nonneg_left (by linarith) (mul_nonneg t0 hu.le)
    nlinarith

theorem floor_mono (g : Axis K) (d0 : 0 < g.dx) {x y : K} (h : x ≤ y) : gridFloor R g x ≤ gridFloor R g y := by
  unfold gridFloor
  exact Int.floor_le_floor (R.mono (div_le_div_of_nonneg_right (R.mono (by linarith)) d0.le))

theorem floor_neg (hp : 1 ≤ p) (g : Axis K) (d0 : 0 < g.dx) {x : K} : gridFloor R g x < 0 ↔ x < g.min := by
  unfold gridFloor
  rw [Int.floor_lt, Int.cast_zero, R.neg_iff hp, div_neg_iff]
  constructor
  · rintro (⟨a, b⟩ | ⟨a, b⟩)
    · linarith
    · have := (R.neg_iff hp).1 a
      linarith
  · intro h
    exact .inr ⟨R.neg hp (by linarith), d0⟩

end Verif.Fp
