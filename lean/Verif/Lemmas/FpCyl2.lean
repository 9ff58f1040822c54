import Verif.Model.FpCyl2
import Verif.Lemmas.FpCylMesh

/-! The equivalent radii of quadratic cylindrical pin meshes, in floating-point arithmetic. -/

set_option linter.unusedSectionVars false

namespace Verif.FpCyl

open Verif.Fp Verif.Pin Verif.PinArea Verif.PropsPinArea Verif.PropsPinAccept

variable {p : ℕ}

/-- `x'` is `x` up to `a` units, at a scale `W`; `x` is at most `X` at that scale. -/
def Ap (u W X a x x' : ℝ) : Prop := |x| ≤ X * W ∧ |x' - x| ≤ a * u * W

section
variable {u W V X Y a b x x' y y' : ℝ}

theorem Ap.mono (u0 : 0 ≤ u) (W0 : 0 ≤ W) {X2 a2 : ℝ} (hX : X ≤ X2) (ha : a ≤ a2) (h : Ap u W X a x x') : Ap u W X2 a2 x x' :=
  ⟨h.1.trans (mul_le_mul_of_nonneg_right hX W0), h.2.trans (mul_le_mul_of_nonneg_right (mul_le_mul_of_nonneg_right ha u0) W0)⟩

theorem Ap.size (h : Ap u W X a x x') : |x'| ≤ (X + a * u) * W := by
  have t := abs_sub_abs_le_abs_sub x' x
  have := h.1
  have := h.2
  linarith

theorem Ap.add (h : Ap u W X a x x') (g : Ap u W Y b y y') : Ap u W (X + Y) (a + b) (x + y) (x' + y') := by
  refine ⟨(abs_add_le _ _).trans (by linarith [h.1, g.1]), ?_⟩
  have e : x' + y' - (x + y) = (x' - x) + (y' - y) := by ring
  rw [e]
  exact (abs_add_le _ _).trans (by linarith [h.2, g.2])

theorem Ap.sub (h : Ap u W X a x x') (g : Ap u W Y b y y') : Ap u W (X + Y) (a + b) (x - y) (x' - y') := by
  refine ⟨(abs_sub _ _).trans (by linarith [h.1, g.1]), ?_⟩
  have e : x' - y' - (x - y) = (x' - x) - (y' - y) := by ring
  rw [e]
  exact (abs_sub _ _).trans (by linarith [h.2, g.2])

theorem Ap.mul (u0 : 0 ≤ u) (W0 : 0 ≤ W) (a0 : 0 ≤ a) (X0 : 0 ≤ X) (h : Ap u W X a x x') (g : Ap u V Y b y y') :
    Ap u (W * V) (X * Y) (a * (Y + b * u) + X * b) (x * y) (x' * y') := by
  refine ⟨?_, ?_⟩
  · rw [abs_mul]
    calc |x| * |y| ≤ X * W * (Y * V) := mul_le_mul h.1 g.1 (abs_nonneg _) (by positivity)
      _ = _ := by ring
  · have e : x' * y' - x * y = (x' - x) * y' + x * (y' - y) := by ring
    rw [e]
    refine (abs_add_le _ _).trans ?_
    rw [abs_mul, abs_mul]
    have h1 : |x' - x| * |y'| ≤ a * u * W * ((Y + b * u) * V) := mul_le_mul h.2 g.size (abs_nonneg _) (by positivity)
    have h2 : |x| * |y' - y| ≤ X * W * (b * u * V) := mul_le_mul h.1 g.2 (abs_nonneg _) (by positivity)
    calc _ ≤ a * u * W * ((Y + b * u) * V) + X * W * (b * u * V) := add_le_add h1 h2
      _ = _ := by ring

theorem Ap.scale {k : ℝ} (k0 : 0 ≤ k) (h : Ap u W X a x x') : Ap u W (k * X) (k * a) (k * x) (k * x') := by
  refine ⟨?_, ?_⟩
  · rw [abs_mul, abs_of_nonneg k0, mul_assoc]; exact mul_le_mul_of_nonneg_left h.1 k0
  · rw [← mul_sub, abs_mul, abs_of_nonneg k0]
    calc k * |x' - x| ≤ k * (a * u * W) := mul_le_mul_of_nonneg_left h.2 k0
      _ = _ := by ring

theorem Ap.div (u0 : 0 ≤ u) (W0 : 0 < W) (V0 : 0 < V) (a0 : 0 ≤ a) (b0 : 0 ≤ b) (X0 : 0 ≤ X) (hb : b * u < 1) (h : Ap u (W * V) X a x x') (hy : y = V) (g : |y' - y| ≤ b * u * V) :
    Ap u W X ((a + X * b) / (1 - b * u)) (x / y) (x' / y') := by
  subst hy
  have d0 : y * (1 - b * u) ≤ y' := by have := (abs_le.1 g).1; linarith
  have y0' : 0 < y' := lt_of_lt_of_le (mul_pos V0 (by linarith)) d0
  have q : |x / y| ≤ X * W := by
    rw [abs_div, abs_of_pos V0, div_le_iff₀ V0]; linarith [h.1]
  refine ⟨q, ?_⟩
  have e : x' / y' - x / y = ((x' - x) - x / y * (y' - y)) / y' := by field_simp; ring
  rw [e, abs_div, abs_of_pos y0', div_le_iff₀ y0']
  have t := abs_sub (x' - x) (x / y * (y' - y))
  rw [abs_mul] at t
  have h1 : |x / y| * |y' - y| ≤ X * W * (b * u * y) := mul_le_mul q g (abs_nonneg _) (by positivity)
  have h2 := h.2
  calc _ ≤ a * u * (W * y) + X * W * (b * u * y) := by linarith
    _ = (a + X * b) / (1 - b * u) * u * W * (y * (1 - b * u)) := by
      have n0 : 1 - b * u ≠ 0 := by linarith
      have e2 : (a + X * b) / (1 - b * u) * u * W * (y * (1 - b * u)) = (a + X * b) / (1 - b * u) * (1 - b * u) * u * W * y := by ring
      rw [e2, div_mul_cancel₀ _ n0]; ring
    _ ≤ _ := mul_le_mul_of_nonneg_left d0 (by have : 0 < 1 - b * u := by linarith
                                              positivity)

end

theorem Ap.rnd (R : Rounding ℝ p) (hp : 1 ≤ p) {W X a x x' : ℝ} (h : Ap (1 / 2 ^ p) W X a x x') : Ap (1 / 2 ^ p) W X (a + X + a * (1 / 2 ^ p)) x (R.rnd x') := by
  refine ⟨h.1, ?_⟩
  have r := Fp.rel_u R hp x'
  have t := abs_sub_le (R.rnd x') x' x
  have s := mul_le_mul_of_nonneg_left h.size (unit_nonneg (K := ℝ) p)
  have := h.2
  calc _ ≤ 1 / 2 ^ p * ((X + a * (1 / 2 ^ p)) * W) + a * (1 / 2 ^ p) * W := by linarith
    _ = _ := by ring

theorem Ap.prod (R : Rounding ℝ p) (hp : 1 ≤ p) (f : Bool) {W X a x x' : ℝ} (W0 : 0 ≤ W) (X0 : 0 ≤ X) (a0 : 0 ≤ a) (h : Ap (1 / 2 ^ p) W X a x x') :
    Ap (1 / 2 ^ p) W X (a + X + a * (1 / 2 ^ p)) x (prodFp R f x') := by
  unfold prodFp
  split
  · have u0 := unit_nonneg (K := ℝ) p
    exact h.mono u0 W0 le_rfl (by nlinarith [mul_nonneg a0 u0])
  · exact h.rnd R hp

/-! ### The half angle -/

section
variable {k : ℕ} (hk : 3 ≤ k)
include hk

theorem gamma_facts : 0 < Real.pi / (2 ^ k : ℕ) ∧ Real.pi / (2 ^ k : ℕ) ≤ 393 / 1000 ∧ 0 < Real.sin (Real.pi / (2 ^ k : ℕ)) ∧
    Real.sin (Real.pi / (2 ^ k : ℕ)) ≤ Real.pi / (2 ^ k : ℕ) ∧ Real.pi / (2 ^ k : ℕ) ≤ 105 / 100 * Real.sin (Real.pi / (2 ^ k : ℕ)) ∧
    92 / 100 ≤ Real.cos (Real.pi / (2 ^ k : ℕ)) ∧ Real.cos (Real.pi / (2 ^ k : ℕ)) ≤ 1 := by
  have pi0 := Real.pi_pos
  have pi4 := Real.pi_lt_d4
  have h8 : (8 : ℝ) ≤ ((2 ^ k : ℕ) : ℝ) := by
    have : 8 ≤ 2 ^ k := by
      calc 8 = 2 ^ 3 := rfl
        _ ≤ 2 ^ k := Nat.pow_le_pow_right (by decide) hk
    exact_mod_cast this
  have g0 : 0 < Real.pi / ((2 ^ k : ℕ) : ℝ) := by positivity
  have g1 : Real.pi / ((2 ^ k : ℕ) : ℝ) ≤ 393 / 1000 := by rw [div_le_iff₀ (by linarith)]; linarith
  generalize Real.pi / ((2 ^ k : ℕ) : ℝ) = g at *
  have s := Real.sin_gt_sub_cube g0
  have g2 : g ^ 2 ≤ (393 / 1000) ^ 2 := pow_le_pow_left₀ g0.le g1 2
  have g3 : g ^ 3 ≤ g * (393 / 1000) ^ 2 := by rw [pow_succ']; exact mul_le_mul_of_nonneg_left g2 g0.le
  refine ⟨g0, g1, by nlinarith, Real.sin_le g0.le, by nlinarith, ?_, Real.cos_le_one _⟩
  have := Real.one_sub_sq_div_two_le_cos (x := g)
  nlinarith

/-- The excess of the middles of the parabolas. -/
theorem factor2_facts : 0 ≤ factor2 (2 ^ k) - Real.cos (Real.pi / (2 ^ k : ℕ)) ∧ factor2 (2 ^ k) - Real.cos (Real.pi / (2 ^ k : ℕ)) ≤ 1 / 10 ∧
    factor2 (2 ^ k) ≤ 104 / 100 ∧
    Real.pi / (2 ^ k : ℕ) - Real.sin (Real.pi / (2 ^ k : ℕ)) * Real.cos (Real.pi / (2 ^ k : ℕ)) = 4 / 3 * Real.sin (Real.pi / (2 ^ k : ℕ)) * (factor2 (2 ^ k) - Real.cos (Real.pi / (2 ^ k : ℕ))) := by
  obtain ⟨g0, g1, s0, sg, gs, c0, c1⟩ := gamma_facts hk
  have e : factor2 (2 ^ k) = Real.cos (Real.pi / (2 ^ k : ℕ)) / 4 + 3 / 4 * (Real.pi / (2 ^ k : ℕ) / Real.sin (Real.pi / (2 ^ k : ℕ))) := by
    unfold factor2; field_simp
  generalize Real.pi / ((2 ^ k : ℕ) : ℝ) = g at *
  generalize Real.sin g = s at *
  generalize Real.cos g = c at *
  have q1 : 1 ≤ g / s := by rwa [le_div_iff₀ s0, one_mul]
  have q2 : g / s ≤ 105 / 100 := by rwa [div_le_iff₀ s0]
  have q3 : g / s * s = g := div_mul_cancel₀ _ s0.ne'
  rw [e]
  refine ⟨by linarith, by linarith, by linarith, ?_⟩
  generalize g / s = q at *
  rw [← q3]; ring

end

section
variable {m : FpLibm ℝ p} (hm : Good m) (hp : 10 ≤ p) {k : ℕ}
include hm hp

theorem gammaFp_eq : gammaFp m (2 ^ k) = thetaFp m (2 ^ (k + 1)) := by
  have e : ∀ j : ℕ, thetaFp m (2 ^ j) = 2 * m.pi / ((2 ^ j : ℕ) : ℝ) := by
    intro j
    have hk : IsFp p (((2 ^ j : ℕ) : ℝ)) := by
      have := isFp_pow (K := ℝ) (p := p) (by omega) j
      push_cast
      exact_mod_cast this
    have f1 : IsFp p (2 * m.pi / ((2 ^ j : ℕ) : ℝ)) := by
      have := hm.pi_fp.double.scale (-(j : ℤ))
      rw [zpow_neg, zpow_natCast, ← div_eq_mul_inv] at this
      push_cast
      exact this
    unfold thetaFp
    rw [m.R.id hm.pi_fp.double, m.R.id hk, m.R.id f1]
  have h : thetaFp m (2 ^ k) / 2 = thetaFp m (2 ^ (k + 1)) := by
    rw [e, e]; push_cast; rw [pow_succ]; field_simp
  unfold gammaFp
  rw [h]
  exact m.R.id (theta_off hm (by omega)).2

theorem gamma_off : Off (1 / 2 ^ p) 2 (Real.pi / (2 ^ k : ℕ)) (gammaFp m (2 ^ k)) ∧ IsFp p (gammaFp m (2 ^ k)) := by
  rw [gammaFp_eq hm hp]
  have := theta_off hm (by omega : 6 ≤ p) (k := k + 1)
  have e : 2 * Real.pi / ((2 ^ (k + 1) : ℕ) : ℝ) = Real.pi / (2 ^ k : ℕ) := by push_cast; rw [pow_succ]; field_simp
  rwa [e] at this

/-- `sin_gamma`, `cos_gamma` and `sincos_gamma`. -/
theorem trig_ap (hk : 3 ≤ k) : Ap (1 / 2 ^ p) (Real.sin (Real.pi / (2 ^ k : ℕ))) 1 (51 / 10) (Real.sin (Real.pi / (2 ^ k : ℕ))) (m.sin (gammaFp m (2 ^ k))) ∧
    Ap (1 / 2 ^ p) 1 1 3 (Real.cos (Real.pi / (2 ^ k : ℕ))) (m.cos (gammaFp m (2 ^ k))) ∧
    Ap (1 / 2 ^ p) (Real.sin (Real.pi / (2 ^ k : ℕ))) 1 (93 / 10) (Real.sin (Real.pi / (2 ^ k : ℕ)) * Real.cos (Real.pi / (2 ^ k : ℕ))) (sincosFp m (2 ^ k)) := by
  have u0 := unit_nonneg (K := ℝ) p
  have us := unit_small hm hp
  obtain ⟨g0, g1, s0, sg, gs, c0, c1⟩ := gamma_facts hk
  have hs : Ap (1 / 2 ^ p) (Real.sin (Real.pi / (2 ^ k : ℕ))) 1 (51 / 10) (Real.sin (Real.pi / (2 ^ k : ℕ))) (m.sin (gammaFp m (2 ^ k))) := by
    obtain ⟨h, -⟩ := sinTheta_off hm (by omega : 6 ≤ p) (k := k + 1) (by omega)
    have e : 2 * Real.pi / ((2 ^ (k + 1) : ℕ) : ℝ) = Real.pi / (2 ^ k : ℕ) := by push_cast; rw [pow_succ]; field_simp
    rw [e, ← gammaFp_eq hm hp] at h
    refine ⟨by rw [abs_of_pos s0, one_mul], ?_⟩
    generalize Real.sin (Real.pi / ((2 ^ k : ℕ) : ℝ)) = s at *
    generalize m.sin (gammaFp m (2 ^ k)) = t at *
    set u : ℝ := 1 / 2 ^ p
    have uu : u ^ 2 ≤ u * (1 / 1024) := by rw [sq]; exact mul_le_mul_of_nonneg_left us u0
    have q2 : 1 - 51 / 10 * u ≤ (1 - u) ^ 5 := by
      have := one_add_mul_le_pow (a := -u) (by linarith) 5
      rw [← sub_eq_add_neg] at this
      push_cast at this
      linarith
    have q1 : (1 + u) ^ 5 ≤ 1 + 51 / 10 * u := by
      have e : (1 + u) ^ 5 = 1 + 5 * u + u ^ 2 * (10 + 10 * u + 5 * u ^ 2 + u ^ 3) := by ring
      have b : 10 + 10 * u + 5 * u ^ 2 + u ^ 3 ≤ 20 := by
        have : u ^ 2 ≤ 1 := by nlinarith
        have : u ^ 3 ≤ 1 := pow_le_one₀ u0 (by linarith)
        linarith
      have b0 : 0 ≤ 10 + 10 * u + 5 * u ^ 2 + u ^ 3 := by positivity
      have := mul_le_mul uu b b0 (by positivity)
      rw [e]; linarith
    have b1 := mul_le_mul_of_nonneg_left q1 s0.le
    have b2 := mul_le_mul_of_nonneg_left q2 s0.le
    rw [abs_le]
    constructor <;> linarith [h.1, h.2]
  have hc : Ap (1 / 2 ^ p) 1 1 3 (Real.cos (Real.pi / (2 ^ k : ℕ))) (m.cos (gammaFp m (2 ^ k))) := by
    obtain ⟨h, hfp⟩ := gamma_off hm hp (k := k)
    have a := hm.cos _ hfp
    have b := Real.abs_cos_sub_cos_le (gammaFp m (2 ^ k)) (Real.pi / (2 ^ k : ℕ))
    have c := Real.abs_cos_le_one (gammaFp m (2 ^ k))
    refine ⟨by rw [abs_of_nonneg (by linarith)]; linarith, ?_⟩
    have d := abs_sub_le (m.cos (gammaFp m (2 ^ k))) (Real.cos (gammaFp m (2 ^ k))) (Real.cos (Real.pi / (2 ^ k : ℕ)))
    have e2 : (2 : ℝ) / 2 ^ p = 2 * (1 / 2 ^ p) := by ring
    rw [e2] at a
    generalize Real.pi / ((2 ^ k : ℕ) : ℝ) = g at *
    generalize m.cos (gammaFp m (2 ^ k)) = t at *
    generalize gammaFp m (2 ^ k) = g' at *
    set u : ℝ := 1 / 2 ^ p
    have h1 : |g' - g| ≤ 21 / 10 * u * g := by
      have q1 : (1 + u) ^ 2 ≤ 1 + 21 / 10 * u := by nlinarith
      have q2 : 1 - 21 / 10 * u ≤ (1 - u) ^ 2 := by nlinarith
      have b1 := mul_le_mul_of_nonneg_left q1 g0.le
      have b2 := mul_le_mul_of_nonneg_left q2 g0.le
      rw [abs_le]
      constructor <;> linarith [h.1, h.2]
    have h2 : 21 / 10 * u * g ≤ 21 / 10 * u * (393 / 1000) := mul_le_mul_of_nonneg_left g1 (by positivity)
    have h3 : 2 * u * |Real.cos g'| ≤ 2 * u * 1 := mul_le_mul_of_nonneg_left c (by positivity)
    linarith
  refine ⟨hs, hc, ?_⟩
  have := (hs.mul u0 s0.le (by norm_num) (by norm_num) hc).rnd m.R (by omega)
  rw [mul_one, one_mul] at this
  unfold sincosFp
  refine this.mono u0 s0.le le_rfl ?_
  have uu : (1 : ℝ) / 2 ^ p * (1 / 2 ^ p) ≤ 1 / 1024 * (1 / 2 ^ p) := mul_le_mul_of_nonneg_right us u0
  nlinarith

end

end Verif.FpCyl
