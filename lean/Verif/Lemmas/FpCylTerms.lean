import Verif.Lemmas.FpCyl

/-! The terms of the ring radii, the angles and the points, in floating-point arithmetic. -/

set_option linter.unusedSectionVars false

namespace Verif.FpCyl

open Verif.Fp Verif.Pin Verif.PinArea

variable {p : ℕ}

/-- What the functions of the library promise: the square root is the exact one before it is rounded; sines and cosines of floating-point numbers are
floating-point numbers within one unit in the last place; the constant `pi` has at most two roundings. -/
structure Good (m : FpLibm ℝ p) : Prop where
  sqrt : ∀ x, m.sqrt x = √x
  sin_fp : ∀ x, IsFp p x → IsFp p (m.sin x)
  sin : ∀ x, IsFp p x → |m.sin x - Real.sin x| ≤ 2 / 2 ^ p * |Real.sin x|
  cos_fp : ∀ x, IsFp p x → IsFp p (m.cos x)
  cos : ∀ x, IsFp p x → |m.cos x - Real.cos x| ≤ 2 / 2 ^ p * |Real.cos x|
  pi_fp : IsFp p m.pi
  pi : Off (1 / 2 ^ p) 2 Real.pi m.pi

section
variable {m : FpLibm ℝ p} (hm : Good m) (hp : 6 ≤ p)
include hm hp

theorem region_off (r : ℝ) (q : Option ℝ) (hq : ∀ x, q = some x → IsFp p x ∧ 0 < x) (hr : IsFp p r) (h : q.getD 0 < r) :
    ∃ d, 0 ≤ d ∧ r ^ 2 * (1 - 1 / 2 ^ p) - q.getD 0 ^ 2 * (1 + 1 / 2 ^ p) ≤ d ∧ d ≤ r ^ 2 * (1 + 1 / 2 ^ p) - q.getD 0 ^ 2 * (1 - 1 / 2 ^ p) ∧
      Off (1 / 2 ^ p) 4 (Real.pi * d) (regionFp m r q) := by
  have u0 := unit_nonneg (K := ℝ) p
  have u1 := unit_le (K := ℝ) p
  have pi0 := Real.pi_pos
  cases q with
  | none =>
    have h : 0 < r := h
    refine ⟨r ^ 2, by positivity, ?_, ?_, ?_⟩
    · simp only [Option.getD_none]
      nlinarith [sq_nonneg r]
    · simp only [Option.getD_none]
      nlinarith [sq_nonneg r]
    · have h1 := (hm.pi.mul u0 u1 pi0.le h.le (Off.refl _ r)).rnd m.R (by omega) (by positivity)
      have h2 := (h1.mul u0 u1 (by positivity) h.le (Off.refl _ r)).rnd m.R (by omega) (by positivity)
      rw [sq, ← mul_assoc]
      exact h2
  | some q =>
    obtain ⟨hq1, hq0⟩ := hq q rfl
    simp only [Option.getD_some] at h ⊢
    have hr0 : 0 < r := hq0.trans h
    have ap := hq1.apart (by omega) hr h hr0
    have a1 : Off (1 / 2 ^ p) 1 (r * r) (prodFp m.R m.fuse1 (r * r)) := prodFp_off m.R (by omega) _ (by positivity) (Off.refl _ _)
    have a2 : Off (1 / 2 ^ p) 1 (q * q) (prodFp m.R m.fuse2 (q * q)) := prodFp_off m.R (by omega) _ (by positivity) (Off.refl _ _)
    unfold Off at a1 a2
    rw [pow_one, pow_one, ← sq] at a1 a2
    have ap' : q ≤ r * (1 - 1 / 2 ^ p) := by
      have : r / 2 ^ p = r * (1 / 2 ^ p) := by ring
      rw [this] at ap
      linarith
    set u : ℝ := 1 / 2 ^ p with hu
    have hd : q ^ 2 * (1 + u) ≤ r ^ 2 * (1 - u) := by
      have h1 : q ^ 2 ≤ (r * (1 - u)) ^ 2 := pow_le_pow_left₀ hq0.le ap' 2
      calc q ^ 2 * (1 + u) ≤ (r * (1 - u)) ^ 2 * (1 + u) := mul_le_mul_of_nonneg_right h1 (by linarith)
        _ = r ^ 2 * (1 - u) * (1 - u * u) := by ring
        _ ≤ r ^ 2 * (1 - u) * 1 := mul_le_mul_of_nonneg_left (by nlinarith) (mul_nonneg (sq_nonneg r) (by linarith))
        _ = _ := mul_one _
    have d1 : r ^ 2 * (1 - u) - q ^ 2 * (1 + u) ≤ prodFp m.R m.fuse1 (r ^ 2) - prodFp m.R m.fuse2 (q ^ 2) := by linarith [a1.1, a2.2]
    have d2 : prodFp m.R m.fuse1 (r ^ 2) - prodFp m.R m.fuse2 (q ^ 2) ≤ r ^ 2 * (1 + u) - q ^ 2 * (1 - u) := by linarith [a1.2, a2.1]
    have d0 : 0 ≤ prodFp m.R m.fuse1 (r ^ 2) - prodFp m.R m.fuse2 (q ^ 2) := by linarith
    refine ⟨_, d0, d1, d2, ?_⟩
    show Off u 4 _ (m.R.rnd (m.pi * m.R.rnd (prodFp m.R m.fuse1 (r * r) - prodFp m.R m.fuse2 (q * q))))
    rw [← sq, ← sq]
    exact (hm.pi.mul u0 u1 pi0.le d0 ((Off.refl _ _).rnd m.R (by omega) d0)).rnd m.R (by omega) (by positivity)

theorem ringArea_off (r : ℝ) (q : Option ℝ) (n : ℕ) (hq : ∀ x, q = some x → IsFp p x ∧ 0 < x) (hr : IsFp p r) (h : q.getD 0 < r) (hn : 0 < n) (hn' : n ≤ 2 ^ p) :
    ∃ d, 0 ≤ d ∧ r ^ 2 * (1 - 1 / 2 ^ p) - q.getD 0 ^ 2 * (1 + 1 / 2 ^ p) ≤ d ∧ d ≤ r ^ 2 * (1 + 1 / 2 ^ p) - q.getD 0 ^ 2 * (1 - 1 / 2 ^ p) ∧
      Off (1 / 2 ^ p) 5 (Real.pi * d / n) (m.R.rnd (regionFp m r q / m.R.rnd (n : ℝ))) := by
  have u0 := unit_nonneg (K := ℝ) p
  have u1 := unit_le (K := ℝ) p
  have pi0 := Real.pi_pos
  have hn0 : (0 : ℝ) < n := by exact_mod_cast hn
  obtain ⟨d, d0, d1, d2, hd⟩ := region_off hm hp r q hq hr h
  refine ⟨d, d0, d1, d2, ?_⟩
  rw [m.R.id (isFp_nat (by omega) hn')]
  have := hd.mul u0 u1 (by positivity) (by positivity : (0 : ℝ) ≤ 1 / n) (Off.refl _ _)
  rw [mul_one_div, mul_one_div] at this
  exact this.rnd m.R (by omega) (by positivity)

theorem few_le {k : ℕ} (hk : k ≤ 32) : (k : ℝ) * (1 / 2 ^ p) ≤ 1 / 2 := by
  rw [mul_one_div, div_le_div_iff₀ (by positivity) (by norm_num)]
  have h1 : (64 : ℝ) ≤ 2 ^ p := by
    calc (64 : ℝ) = 2 ^ 6 := by norm_num
      _ ≤ 2 ^ p := pow_le_pow_right₀ (by norm_num) hp
  have h2 : (k : ℝ) ≤ 32 := by exact_mod_cast hk
  linarith

/-- The term of a ring of `ring_radii`. -/
noncomputable def radiusTerm (m : FpLibm ℝ p) (q : Option ℝ) (r : ℝ) (n : ℕ) : ℝ := m.R.rnd (m.R.rnd (regionFp m r q / m.R.rnd (n : ℝ)) / m.pi)

theorem radiusTerm_ok : IncOk p 1 9 (radiusTerm m) := by
  intro q r n hq hr h hn hn'
  have u0 := unit_nonneg (K := ℝ) p
  have u1 := unit_le (K := ℝ) p
  have pi0 := Real.pi_pos
  obtain ⟨d, d0, d1, d2, hd⟩ := ringArea_off hm hp r q n hq hr h hn hn'
  refine ⟨d, d0, d1, d2, ?_⟩
  have := (off_div u0 (Fp.unit_half (by omega)) (few_le hm hp (by norm_num)) (by positivity) pi0 hd hm.pi).rnd m.R (by omega) (by positivity)
  have e : 1 * d / n = Real.pi * d / n / Real.pi := by field_simp
  rw [e]
  exact this

theorem theta_off {k : ℕ} : Off (1 / 2 ^ p) 2 (2 * Real.pi / (2 ^ k : ℕ)) (thetaFp m (2 ^ k)) ∧ IsFp p (thetaFp m (2 ^ k)) := by
  have u0 := unit_nonneg (K := ℝ) p
  have u1 := unit_le (K := ℝ) p
  have pi0 := Real.pi_pos
  have hk : IsFp p (((2 ^ k : ℕ) : ℝ)) := by
    have := isFp_pow (K := ℝ) (p := p) (by omega) k
    push_cast
    exact_mod_cast this
  have f1 : IsFp p (2 * m.pi / ((2 ^ k : ℕ) : ℝ)) := by
    have := hm.pi_fp.double.scale (-(k : ℤ))
    rw [zpow_neg, zpow_natCast, ← div_eq_mul_inv] at this
    push_cast
    exact this
  have e : thetaFp m (2 ^ k) = 2 * m.pi / ((2 ^ k : ℕ) : ℝ) := by
    unfold thetaFp
    rw [m.R.id hm.pi_fp.double, m.R.id hk, m.R.id f1]
  rw [e]
  refine ⟨?_, f1⟩
  have := hm.pi.mul u0 u1 pi0.le (by positivity : (0 : ℝ) ≤ 2 / ((2 ^ k : ℕ) : ℝ)) (Off.refl _ _)
  have e1 : ∀ x : ℝ, 2 * x / ((2 ^ k : ℕ) : ℝ) = x * (2 / ((2 ^ k : ℕ) : ℝ)) := fun x => by ring
  rw [e1, e1]
  exact this

end

/-- Sines of nearby angles. -/
theorem sin_mul_le {x l : ℝ} (x0 : 0 ≤ x) (hl : 0 ≤ l) (hl1 : l ≤ 1) (hx : x ≤ Real.pi) : l * Real.sin x ≤ Real.sin (l * x) := by
  have := strictConcaveOn_sin_Icc.concaveOn.2 (show (0 : ℝ) ∈ Set.Icc 0 Real.pi from ⟨le_rfl, Real.pi_pos.le⟩) (show x ∈ Set.Icc 0 Real.pi from ⟨x0, hx⟩)
    (sub_nonneg.2 hl1) hl (by ring)
  simpa using this

theorem sin_off {u : ℝ} (u0 : 0 ≤ u) (u1 : u ≤ 1) {k : ℕ} {x y : ℝ} (x0 : 0 < x) (hx : x ≤ Real.pi / 2) (hy : y ≤ Real.pi / 2) (h : Off u k x y) :
    Off u k (Real.sin x) (Real.sin y) := by
  have pi0 := Real.pi_pos
  have y0 : 0 ≤ y := h.nonneg u0 u1 x0.le
  have s0 : 0 ≤ Real.sin x := Real.sin_nonneg_of_nonneg_of_le_pi x0.le (by linarith)
  have t0 : 0 ≤ Real.sin y := Real.sin_nonneg_of_nonneg_of_le_pi y0 (by linarith)
  rcases le_total y x with hyx | hxy
  · constructor
    · have hl : (1 - u) ^ k ≤ y / x := by rw [le_div_iff₀ x0, mul_comm]; exact h.1
      have := sin_mul_le x0.le (div_nonneg y0 x0.le) ((div_le_one x0).2 hyx) (by linarith : x ≤ Real.pi)
      rw [div_mul_cancel₀ _ x0.ne'] at this
      rw [mul_comm]
      exact (mul_le_mul_of_nonneg_right hl s0).trans this
    · have := Real.sin_le_sin_of_le_of_le_pi_div_two (by linarith) hx hyx
      exact this.trans (le_mul_of_one_le_right s0 (one_le_pow₀ (by linarith)))
  · have y1 : 0 < y := x0.trans_le hxy
    constructor
    · have := Real.sin_le_sin_of_le_of_le_pi_div_two (by linarith) hy hxy
      exact (mul_le_of_le_one_right s0 (pow_le_one₀ (by linarith) (by linarith))).trans this
    · have := sin_mul_le y0 (div_nonneg x0.le y0) ((div_le_one y1).2 hxy) (by linarith : y ≤ Real.pi)
      rw [div_mul_cancel₀ _ y1.ne'] at this
      have hl : y ≤ x * (1 + u) ^ k := h.2
      have h1 : Real.sin y ≤ y / x * Real.sin x := by
        have h2 := mul_le_mul_of_nonneg_left this (div_nonneg y0 x0.le)
        have e : y / x * (x / y * Real.sin y) = Real.sin y := by field_simp
        rwa [e] at h2
      refine h1.trans ?_
      rw [mul_comm]
      refine mul_le_mul_of_nonneg_left ?_ s0
      rw [div_le_iff₀ x0, mul_comm]
      exact hl

section
variable {m : FpLibm ℝ p} (hm : Good m) (hp : 6 ≤ p)
include hm hp

theorem two_units {x y : ℝ} (x0 : 0 ≤ x) (h : |y - x| ≤ 2 / 2 ^ p * |x|) : Off (1 / 2 ^ p) 3 x y := by
  have u0 := unit_nonneg (K := ℝ) p
  have u1 := unit_quarter (p := p) (by omega)
  have e : (2 : ℝ) / 2 ^ p = 2 * (1 / 2 ^ p) := by ring
  rw [abs_of_nonneg x0, e] at h
  set u : ℝ := 1 / 2 ^ p
  have p1 : (1 - u) ^ 3 ≤ 1 - 2 * u := by nlinarith [sq_nonneg u, mul_nonneg u0 (sq_nonneg u)]
  have p2 : 1 + 2 * u ≤ (1 + u) ^ 3 := by nlinarith [sq_nonneg u, mul_nonneg u0 (sq_nonneg u)]
  obtain ⟨h1, h2⟩ := abs_le.1 h
  have a1 := mul_le_mul_of_nonneg_left p1 x0
  have a2 := mul_le_mul_of_nonneg_left p2 x0
  exact ⟨by nlinarith, by nlinarith⟩

theorem sinTheta_off {k : ℕ} (hk : 3 ≤ k) : Off (1 / 2 ^ p) 5 (Real.sin (2 * Real.pi / (2 ^ k : ℕ))) (m.sin (thetaFp m (2 ^ k))) ∧ 0 < Real.sin (2 * Real.pi / (2 ^ k : ℕ)) := by
  have u0 := unit_nonneg (K := ℝ) p
  have u1 := unit_le (K := ℝ) p
  have pi0 := Real.pi_pos
  obtain ⟨h1, h2⟩ := theta_off hm hp (k := k)
  have h8 : (8 : ℝ) ≤ ((2 ^ k : ℕ) : ℝ) := by
    have : 8 ≤ 2 ^ k := by
      calc 8 = 2 ^ 3 := rfl
        _ ≤ 2 ^ k := Nat.pow_le_pow_right (by decide) hk
    exact_mod_cast this
  have x0 : 0 < 2 * Real.pi / ((2 ^ k : ℕ) : ℝ) := by positivity
  have xq : 2 * Real.pi / ((2 ^ k : ℕ) : ℝ) ≤ Real.pi / 4 := by
    rw [div_le_div_iff₀ (by linarith) (by norm_num)]
    nlinarith
  have yq : thetaFp m (2 ^ k) ≤ Real.pi / 2 := by
    have q := unit_quarter (p := p) (by omega)
    have p2 : (1 + (1 : ℝ) / 2 ^ p) ^ 2 ≤ 2 := by nlinarith
    have := mul_le_mul_of_nonneg_left p2 x0.le
    linarith [h1.2]
  have s := sin_off u0 u1 x0 (by linarith) yq h1
  have s0 : 0 < Real.sin (2 * Real.pi / ((2 ^ k : ℕ) : ℝ)) := Real.sin_pos_of_pos_of_lt_pi x0 (by linarith)
  have s1 := s.nonneg u0 u1 s0.le
  exact ⟨off_trans u0 u1 s0.le s (two_units hm hp s1 (hm.sin _ h2)), s0⟩

/-- The term of a ring of `eq_radii`. -/
noncomputable def eqTerm (m : FpLibm ℝ p) (na : ℕ) (q : Option ℝ) (r : ℝ) (n : ℕ) : ℝ := eqTermFp m na (m.R.rnd (regionFp m r q / m.R.rnd (n : ℝ)))

theorem eqTerm_ok {k : ℕ} (hk : 3 ≤ k) : IncOk p (2 * Real.pi / (Real.sin (2 * Real.pi / (2 ^ k : ℕ)) * (2 ^ k : ℕ))) 12 (eqTerm m (2 ^ k)) := by
  intro q r n hq hr h hn hn'
  have u0 := unit_nonneg (K := ℝ) p
  have u1 := unit_le (K := ℝ) p
  have pi0 := Real.pi_pos
  obtain ⟨d, d0, d1, d2, hd⟩ := ringArea_off hm hp r q n hq hr h hn hn'
  refine ⟨d, d0, d1, d2, ?_⟩
  obtain ⟨hs, s0⟩ := sinTheta_off hm hp hk
  have hk' : IsFp p (((2 ^ k : ℕ) : ℝ)) := by
    have := isFp_pow (K := ℝ) (p := p) (by omega) k
    push_cast
    exact_mod_cast this
  have k0 : (0 : ℝ) < ((2 ^ k : ℕ) : ℝ) := by positivity
  have f1 : IsFp p (m.sin (thetaFp m (2 ^ k)) * ((2 ^ k : ℕ) : ℝ)) := by
    have := (hm.sin_fp _ (theta_off hm hp (k := k)).2).scale (k : ℤ)
    rw [zpow_natCast] at this
    push_cast
    exact this
  unfold eqTerm eqTermFp
  rw [m.R.id (m.R.mem _).double, m.R.id hk', m.R.id f1]
  have g := hs.mul u0 u1 s0.le k0.le (Off.refl _ ((2 ^ k : ℕ) : ℝ))
  have hd2 := (Off.refl (1 / 2 ^ p) (2 : ℝ)).mul u0 u1 (by norm_num) (by positivity) hd
  have := (off_div u0 (Fp.unit_half (by omega)) (few_le hm hp (by norm_num)) (by positivity) (mul_pos s0 k0) hd2 g).rnd m.R (by omega) (by positivity)
  have e : 2 * Real.pi / (Real.sin (2 * Real.pi / (2 ^ k : ℕ)) * (2 ^ k : ℕ)) * d / n = 2 * (Real.pi * d / n) / (Real.sin (2 * Real.pi / (2 ^ k : ℕ)) * (2 ^ k : ℕ)) := by ring
  rw [e]
  exact this

end

end Verif.FpCyl
