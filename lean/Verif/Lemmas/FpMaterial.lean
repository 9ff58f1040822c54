import Verif.Model.FpMaterial
import Verif.Lemmas.FpXSec
import Mathlib.Data.Rat.Floor

/-! Material compositions in floating-point arithmetic. -/

set_option linter.unusedSectionVars false

namespace Verif.Fp

open Verif.Str (Byte)
open Verif.Phys (Material addNuclide)

/-- A quotient, when there are not too many errors: one more than the sum. -/
theorem Off.div' {u : ℚ} (u0 : 0 ≤ u) (u1 : u ≤ 1 / 2) {k l : ℕ} (hl : l * u ≤ 1 / 2) {x y x' y' : ℚ} (x0 : 0 ≤ x) (y0 : 0 < y) (h : Off u k x x') (g : Off u l y y') :
    Off u (k + l + 1) (x / y) (x' / y') := by
  have a0 : 0 < 1 - u := by linarith
  have b0 : 0 < 1 + u := by linarith
  have y0' : 0 < y' := lt_of_lt_of_le (mul_pos y0 (pow_pos a0 l)) g.1
  have x0' : 0 ≤ x' := h.nonneg u0 (by linarith) x0
  have lt1 : ((1 - u) * (1 + u)) ^ l ≤ 1 := pow_le_one₀ (by positivity) (by nlinarith)
  have ge1 : 1 ≤ ((1 - u) * (1 + u)) ^ l * (1 + u) := by
    have b : 1 + (l : ℚ) * (-(u * u)) ≤ (1 + -(u * u)) ^ l := one_add_mul_le_pow (by nlinarith) l
    have e : (1 - u) * (1 + u) = 1 + -(u * u) := by ring
    rw [e]
    have h1 : (1 + (l : ℚ) * (-(u * u))) * (1 + u) ≤ (1 + -(u * u)) ^ l * (1 + u) := mul_le_mul_of_nonneg_right b b0.le
    have h2 : (l : ℚ) * (u * u) ≤ 1 / 2 * u := by
      rw [← mul_assoc]
      exact mul_le_mul_of_nonneg_right hl u0
    have h3 : (l : ℚ) * (u * u) * (1 + u) ≤ 1 / 2 * u * (1 + u) := mul_le_mul_of_nonneg_right h2 b0.le
    nlinarith
  constructor
  · rw [le_div_iff₀ y0', div_mul_eq_mul_div, div_mul_eq_mul_div, div_le_iff₀ y0]
    have t1 : x * (1 - u) ^ (k + l + 1) * y' ≤ x * (1 - u) ^ (k + l) * (y * (1 + u) ^ l) := by
      refine mul_le_mul ?_ g.2 y0'.le (by positivity)
      refine mul_le_mul_of_nonneg_left ?_ x0
      exact pow_le_pow_of_le_one a0.le (by linarith) (by omega)
    have t2 : x * (1 - u) ^ (k + l) * (y * (1 + u) ^ l) = x * (1 - u) ^ k * y * ((1 - u) * (1 + u)) ^ l := by
      rw [pow_add, mul_pow]; ring
    have t3 : x * (1 - u) ^ k * y * ((1 - u) * (1 + u)) ^ l ≤ x * (1 - u) ^ k * y * 1 := mul_le_mul_of_nonneg_left lt1 (by positivity)
    have t4 : x * (1 - u) ^ k * y ≤ x' * y := mul_le_mul_of_nonneg_right h.1 y0.le
    linarith
  · rw [div_le_iff₀ y0', div_mul_eq_mul_div, div_mul_eq_mul_div, le_div_iff₀ y0]
    have t1 : x * (1 + u) ^ (k + l + 1) * (y * (1 - u) ^ l) ≤ x * (1 + u) ^ (k + l + 1) * y' := mul_le_mul_of_nonneg_left g.1 (by positivity)
    have t2 : x * (1 + u) ^ (k + l + 1) * (y * (1 - u) ^ l) = x * (1 + u) ^ k * y * (((1 - u) * (1 + u)) ^ l * (1 + u)) := by
      rw [pow_succ, pow_add, mul_pow]; ring
    have t3 : x * (1 + u) ^ k * y * 1 ≤ x * (1 + u) ^ k * y * (((1 - u) * (1 + u)) ^ l * (1 + u)) := mul_le_mul_of_nonneg_left ge1 (by positivity)
    have t4 : x' * y ≤ x * (1 + u) ^ k * y := mul_le_mul_of_nonneg_right h.2 y0.le
    linarith

/-- Errors in units of a finer precision. -/
theorem Off.coarsen {u v : ℚ} (u0 : 0 ≤ u) (uv : u ≤ v) (v1 : v ≤ 1) {k : ℕ} {x y : ℚ} (x0 : 0 ≤ x) (h : Off u k x y) : Off v k x y :=
  ⟨(mul_le_mul_of_nonneg_left (pow_le_pow_left₀ (by linarith) (by linarith) k) x0).trans h.1,
    h.2.trans (mul_le_mul_of_nonneg_left (pow_le_pow_left₀ (by linarith) (by linarith) k) x0)⟩

variable {p : ℕ} (D : Rounding ℚ 53) (R : Rounding ℚ p)

section
variable (hp : 1 ≤ p) (h53 : p ≤ 53)
include hp h53

/-- A rounding to double counts as one to `Float`. -/
theorem Off.rndD {k : ℕ} {x y : ℚ} (x0 : 0 ≤ x) (h : Off (1 / 2 ^ p) k x y) : Off (1 / 2 ^ p) (k + 1) x (D.rnd y) := by
  have u0 := unit_nonneg (K := ℚ) p
  have u1 := unit_le (K := ℚ) p
  have y0 := h.nonneg u0 u1 x0
  have uv : (1 : ℚ) / 2 ^ 53 ≤ 1 / 2 ^ p := one_div_le_one_div_of_le (by positivity) (pow_le_pow_right₀ (by norm_num) h53)
  have g : Off (1 / 2 ^ p) 1 y (D.rnd y) := (Off.rnd D (by norm_num) y0 (Off.refl _ y)).coarsen (unit_nonneg 53) uv u1 y0
  constructor
  · have := mul_le_mul_of_nonneg_right h.1 (by linarith : (0 : ℚ) ≤ 1 - 1 / 2 ^ p)
    rw [pow_succ, ← mul_assoc]
    have := g.1
    rw [pow_one] at this
    linarith
  · have := mul_le_mul_of_nonneg_right h.2 (by linarith : (0 : ℚ) ≤ 1 + 1 / 2 ^ p)
    rw [pow_succ, ← mul_assoc]
    have := g.2
    rw [pow_one] at this
    linarith

theorem lit_off {x : ℚ} (x0 : 0 ≤ x) : Off (1 / 2 ^ p) 2 x (lit D R x) := Off.rnd R hp x0 (Off.rndD D hp h53 x0 (Off.refl _ x))

theorem litPercent_off {x : ℚ} (x0 : 0 ≤ x) : Off (1 / 2 ^ p) 3 (x / 100) (litPercent D R x) := by
  have h : Off (1 / 2 ^ p) 1 x (D.rnd x) := Off.rndD D hp h53 x0 (Off.refl _ x)
  have h' : Off (1 / 2 ^ p) 1 (x / 100) (D.rnd x / 100) := by
    have := h.mul (unit_nonneg p) (unit_le p) x0 (by norm_num : (0 : ℚ) ≤ 1 / 100) (Off.refl _ (1 / 100 : ℚ))
    rwa [mul_one_div, mul_one_div] at this
  exact Off.rnd R hp (by positivity) (Off.rndD D hp h53 (by positivity) h')

theorem litMul_off {l w : ℚ} (l0 : 0 ≤ l) (w0 : 0 ≤ w) : Off (1 / 2 ^ p) 3 (l * w) (litMul D R l w) := by
  have h : Off (1 / 2 ^ p) 1 l (D.rnd l) := Off.rndD D hp h53 l0 (Off.refl _ l)
  have h' : Off (1 / 2 ^ p) 1 (l * w) (D.rnd l * w) := h.mul (unit_nonneg p) (unit_le p) l0 w0 (Off.refl _ w)
  exact Off.rnd R hp (by positivity) (Off.rndD D hp h53 (by positivity) h')

theorem numDensity_off {j k : ℕ} (hk : k * (1 / 2 ^ p : ℚ) ≤ 1 / 2) {x y d m m' : ℚ} (x0 : 0 ≤ x) (d0 : 0 ≤ d) (m0 : 0 < m) (hx : Off (1 / 2 ^ p) j x y)
    (h : Off (1 / 2 ^ p) k m m') : Off (1 / 2 ^ p) (j + k + 6) (x * d * Phys.nAvo / m) (numDensity D R y d m') := by
  have u0 := unit_nonneg (K := ℚ) p
  have u1 := unit_le (K := ℚ) p
  have n0 : (0 : ℚ) ≤ Phys.nAvo := by unfold Phys.nAvo; norm_num
  have h1 : Off (1 / 2 ^ p) (j + 1) (x * d) (R.rnd (y * d)) := Off.rnd R hp (by positivity) (hx.mul u0 u1 x0 d0 (Off.refl _ d))
  have h2 := Off.rnd R hp (by positivity) (h1.mul u0 u1 (by positivity) n0 (lit_off D R hp h53 n0))
  have h3 := Off.rnd R hp (by positivity) (h2.div' u0 (unit_half hp) hk (by positivity) m0 h)
  unfold numDensity
  rwa [show j + 1 + 2 + 1 + k + 1 + 1 = j + k + 6 by ring] at h3

end

/-- `1 - s` when `s` is at most one half. -/
theorem Off.one_sub {u : ℚ} (u0 : 0 ≤ u) (u1 : u ≤ 1 / 64) {S s : ℚ} (S0 : 0 ≤ S) (S1 : S ≤ 1 / 2) (h : Off u 5 S s) : Off u 6 (1 - S) (1 - s) := by
  have c0 : 0 ≤ 1 - S := by linarith
  have cS : S ≤ 1 - S := by linarith
  have hi := h.2
  have lo := h.1
  have a : (1 + u) ^ 5 - 1 ≤ 1 - (1 - u) ^ 6 := by
    have : (1 - (1 - u) ^ 6) - ((1 + u) ^ 5 - 1) = u * (1 - 25 * u + 10 * u ^ 2 - 20 * u ^ 3 + 5 * u ^ 4 - u ^ 5) := by ring
    have : 0 ≤ 1 - 25 * u + 10 * u ^ 2 - 20 * u ^ 3 + 5 * u ^ 4 - u ^ 5 := by
      have u2 : 0 ≤ u ^ 2 := by positivity
      have u4 : 0 ≤ u ^ 4 := by positivity
      have h3 : u ^ 3 ≤ u ^ 2 * (1 / 64) := by
        rw [pow_succ]; exact mul_le_mul_of_nonneg_left u1 u2
      have h5 : u ^ 5 ≤ u ^ 4 * (1 / 64) := by
        rw [pow_succ]; exact mul_le_mul_of_nonneg_left u1 u4
      linarith
    nlinarith
  have b : 0 ≤ (1 + u) ^ 5 - 1 := by
    have : 1 ≤ (1 + u) ^ 5 := one_le_pow₀ (by linarith)
    linarith
  have c : 1 - (1 - u) ^ 5 ≤ (1 + u) ^ 6 - 1 := by
    have h1 := pow_symm u0 (by linarith) 5
    have h2 : (1 + u) ^ 5 ≤ (1 + u) ^ 6 := pow_le_pow_right₀ (by linarith) (by norm_num)
    linarith
  have d : 0 ≤ 1 - (1 - u) ^ 5 := by
    have : (1 - u) ^ 5 ≤ 1 := pow_le_one₀ (by linarith) (by linarith)
    linarith
  constructor
  · have h1 : ((1 + u) ^ 5 - 1) * S ≤ (1 - (1 - u) ^ 6) * (1 - S) := mul_le_mul a cS S0 (b.trans a)
    linarith
  · have h1 : (1 - (1 - u) ^ 5) * S ≤ ((1 + u) ^ 6 - 1) * (1 - S) := mul_le_mul c cS S0 (d.trans c)
    linarith

theorem unit_small {q : ℕ} (h : q ≤ p) : (1 : ℚ) / 2 ^ p ≤ 1 / 2 ^ q := one_div_le_one_div_of_le (by positivity) (pow_le_pow_right₀ (by norm_num) h)

/-- Errors of `n` units are small in a precision of eight bits. -/
theorem few (h8 : 8 ≤ p) {n : ℕ} (hn : n ≤ 64) : (n : ℚ) * (1 / 2 ^ p) ≤ 1 / 2 := by
  have h := unit_small h8
  have n1 : (n : ℚ) ≤ 64 := by exact_mod_cast hn
  calc (n : ℚ) * (1 / 2 ^ p) ≤ 64 * (1 / 2 ^ 8) := mul_le_mul n1 h (by positivity) (by norm_num)
    _ ≤ 1 / 2 := by norm_num

theorem wtU238_off (hp : 8 ≤ p) (h53 : p ≤ 53) (fused : Bool) {w : ℚ} (w0 : 0 ≤ w) (w1 : 1.0135 * w ≤ 1 / 2) :
    Off (1 / 2 ^ p) 7 (1 - (0.0089 * w + w + 0.0046 * w)) (wtU238 D R fused w) := by
  have hp1 : 1 ≤ p := by omega
  have u0 := unit_nonneg (K := ℚ) p
  have u1 := unit_le (K := ℚ) p
  have a0 : (0 : ℚ) ≤ 0.0089 * w := by positivity
  have b0 : (0 : ℚ) ≤ 0.0046 * w := by positivity
  have p1 : Off (1 / 2 ^ p) 3 (0.0089 * w) (D.rnd 0.0089 * w) :=
    ((Off.rndD D hp1 h53 (by norm_num) (Off.refl _ (0.0089 : ℚ))).mul u0 u1 (by norm_num) w0 (Off.refl _ w)).weaken u0 u1 a0 (by omega)
  have p2 : Off (1 / 2 ^ p) 4 (0.0046 * w) (D.rnd 0.0046 * w) :=
    ((Off.rndD D hp1 h53 (by norm_num) (Off.refl _ (0.0046 : ℚ))).mul u0 u1 (by norm_num) w0 (Off.refl _ w)).weaken u0 u1 b0 (by omega)
  have q1 := litMul_off D R hp1 h53 (by norm_num : (0 : ℚ) ≤ 0.0089) w0
  have q2 := (litMul_off D R hp1 h53 (by norm_num : (0 : ℚ) ≤ 0.0046) w0).weaken u0 u1 b0 (by omega : 3 ≤ 4)
  have ww := (Off.refl (1 / 2 ^ p) w).weaken u0 u1 w0 (by omega : 0 ≤ 3)
  have s1 : Off (1 / 2 ^ p) 4 (0.0089 * w + w) (if fused then R.rnd (D.rnd 0.0089 * w + w) else R.rnd (litMul D R 0.0089 w + w)) := by
    split
    · exact Off.rnd R hp1 (by positivity) (p1.add u0 u1 ww)
    · exact Off.rnd R hp1 (by positivity) (q1.add u0 u1 ww)
  unfold wtU238
  dsimp only
  generalize (if fused then R.rnd (D.rnd 0.0089 * w + w) else R.rnd (litMul D R 0.0089 w + w)) = s at s1
  have s2 : Off (1 / 2 ^ p) 5 (0.0089 * w + w + 0.0046 * w) (if fused then R.rnd (D.rnd 0.0046 * w + s) else R.rnd (s + litMul D R 0.0046 w)) := by
    split
    · have := Off.rnd R hp1 (by positivity) (p2.add u0 u1 s1)
      rwa [add_comm (0.0046 * w)] at this
    · exact Off.rnd R hp1 (by positivity) (s1.add u0 u1 q2)
  refine Off.rnd R hp1 (by linarith) (Off.one_sub u0 ?_ (by positivity) (by linarith) s2)
  exact (unit_small (by omega : 6 ≤ p)).trans (by norm_num)

theorem massGd_off (hp : 1 ≤ p) (h53 : p ≤ 53) :
    Off (1 / 2 ^ p) 12 (Phys.abGd152 * Phys.mGd152 + Phys.abGd154 * Phys.mGd154 + Phys.abGd155 * Phys.mGd155 + Phys.abGd156 * Phys.mGd156 +
      Phys.abGd157 * Phys.mGd157 + Phys.abGd158 * Phys.mGd158 + Phys.abGd160 * Phys.mGd160) (massGd D R) := by
  have u0 := unit_nonneg (K := ℚ) p
  have u1 := unit_le (K := ℚ) p
  have pr : ∀ {a m : ℚ}, 0 ≤ a → 0 ≤ m → Off (1 / 2 ^ p) 6 (a / 100 * m) (R.rnd (litPercent D R a * lit D R m)) := fun {a m} a0 m0 =>
    Off.rnd R hp (by positivity) ((litPercent_off D R hp h53 a0).mul u0 u1 (by positivity) m0 (lit_off D R hp h53 m0))
  have sm : ∀ {k : ℕ} {x y x' y' : ℚ}, 0 ≤ x → 0 ≤ y → 6 ≤ k → Off (1 / 2 ^ p) k x x' → Off (1 / 2 ^ p) 6 y y' →
      Off (1 / 2 ^ p) (k + 1) (x + y) (R.rnd (x' + y')) := fun x0 y0 hk h g => Off.rnd R hp (add_nonneg x0 y0) (h.add u0 u1 (g.weaken u0 u1 y0 hk))
  unfold massGd
  have m2 : (0 : ℚ) ≤ Phys.mGd152 := by unfold Phys.mGd152; norm_num
  have m4 : (0 : ℚ) ≤ Phys.mGd154 := by unfold Phys.mGd154; norm_num
  have m5 : (0 : ℚ) ≤ Phys.mGd155 := by unfold Phys.mGd155; norm_num
  have m6 : (0 : ℚ) ≤ Phys.mGd156 := by unfold Phys.mGd156; norm_num
  have m7 : (0 : ℚ) ≤ Phys.mGd157 := by unfold Phys.mGd157; norm_num
  have m8 : (0 : ℚ) ≤ Phys.mGd158 := by unfold Phys.mGd158; norm_num
  have m0 : (0 : ℚ) ≤ Phys.mGd160 := by unfold Phys.mGd160; norm_num
  unfold Phys.abGd152 Phys.abGd154 Phys.abGd155 Phys.abGd156 Phys.abGd157 Phys.abGd158 Phys.abGd160
  exact sm (by positivity) (by positivity) (by norm_num) (sm (by positivity) (by positivity) (by norm_num) (sm (by positivity) (by positivity) (by norm_num)
    (sm (by positivity) (by positivity) (by norm_num) (sm (by positivity) (by positivity) (by norm_num) (sm (by positivity) (by positivity) le_rfl
    (pr (by norm_num) m2) (pr (by norm_num) m4)) (pr (by norm_num) m5)) (pr (by norm_num) m6)) (pr (by norm_num) m7)) (pr (by norm_num) m8))
    (pr (by norm_num) m0)

end Verif.Fp
