import Verif.Lemmas.FpCyl2

/-! One step of the equivalent radii of quadratic cylindrical pin meshes, in floating-point arithmetic. -/

set_option linter.unusedSectionVars false

namespace Verif.FpCyl

open Verif.Fp Verif.Pin Verif.PinArea Verif.PropsPinArea Verif.PropsPinAccept

variable {p : ℕ}

section
variable {m : FpLibm ℝ p} (hm : Good m) (hp : 10 ≤ p) {k : ℕ} (hk : 3 ≤ k) (g : EqFused)
include hm hp hk

/-- `a_edge_im1`, at the scale of the ring `l`. -/
theorem edge_ap {l r l1 e1 κ : ℝ} (l0 : 0 < l) (r0 : 0 ≤ r) (hr : l1 = r * l) (κ0 : 0 ≤ κ) (κ1 : κ * (1 / 2 ^ p) ≤ 1 / 10) (he : |e1 - factor2 (2 ^ k) * l1| ≤ κ * (1 / 2 ^ p) * l1) :
    Ap (1 / 2 ^ p) (l * l * Real.sin (Real.pi / (2 ^ k : ℕ))) (14 / 100 * r ^ 2) (r ^ 2 * (4 / 3 * κ + 9))
      (4 / 3 * (Real.sin (Real.pi / (2 ^ k : ℕ)) * l1 * ((factor2 (2 ^ k) - Real.cos (Real.pi / (2 ^ k : ℕ))) * l1))) (edgeFp m g (2 ^ k) l1 e1) := by
  have u0 := unit_nonneg (K := ℝ) p
  have us := unit_small hm hp
  obtain ⟨g0, g1, s0, sg, gs, c0, c1⟩ := gamma_facts hk
  obtain ⟨f0, f1, f2, -⟩ := factor2_facts hk
  obtain ⟨hs, hc, -⟩ := trig_ap hm hp hk
  generalize Real.sin (Real.pi / ((2 ^ k : ℕ) : ℝ)) = s at *
  generalize Real.cos (Real.pi / ((2 ^ k : ℕ) : ℝ)) = c at *
  unfold edgeFp
  generalize m.sin (gammaFp m (2 ^ k)) = s' at *
  generalize m.cos (gammaFp m (2 ^ k)) = c' at *
  generalize factor2 (2 ^ k) = f at *
  have l1n : 0 ≤ l1 := by rw [hr]; positivity
  have ku : 0 ≤ κ * (1 / 2 ^ p) := by positivity
  have A0 : Ap (1 / 2 ^ p) l r 0 l1 l1 := ⟨by rw [abs_of_nonneg l1n, hr], by simp⟩
  have P1 := ((A0.mul u0 l0.le le_rfl r0 hs).rnd m.R (by omega)).mono u0 (by positivity) (X2 := r) (a2 := 62 / 10 * r) (by linarith) (by nlinarith)
  have P2 := (A0.mul u0 l0.le le_rfl r0 hc).prod m.R (by omega) g.edge (by positivity) (by positivity) (by positivity)
  rw [mul_one] at P2
  have P2 := P2.mono u0 l0.le (X2 := r) (a2 := 41 / 10 * r) (by linarith) (by nlinarith)
  have P3 : Ap (1 / 2 ^ p) l (104 / 100 * r) (κ * r) (f * l1) e1 := by
    refine ⟨?_, he.trans (le_of_eq (by rw [hr]; ring))⟩
    rw [abs_of_nonneg (by have : 0 ≤ f := by linarith
                          positivity), hr]
    have : 0 ≤ r * l := by positivity
    nlinarith
  have P4 : Ap (1 / 2 ^ p) l (1 / 10 * r) (κ * r + 41 / 10 * r) ((f - c) * l1) (e1 - prodFp m.R g.edge (l1 * c')) := by
    have := (P3.sub P2).2
    refine ⟨?_, ?_⟩
    · rw [abs_of_nonneg (by positivity), hr]
      have : 0 ≤ r * l := by positivity
      nlinarith
    · have e : (f - c) * l1 = f * l1 - l1 * c := by ring
      rw [e]; exact this
  have kr : κ * (1 / 2 ^ p) * r ≤ 1 / 10 * r := mul_le_mul_of_nonneg_right κ1 r0
  have ur : (1 : ℝ) / 2 ^ p * r ≤ 1 / 1024 * r := mul_le_mul_of_nonneg_right us r0
  have P5 := (P4.rnd m.R (by omega)).mono u0 l0.le le_rfl (a2 := (κ + 44 / 10) * r) (by nlinarith)
  have P6 := P1.mul u0 (by positivity) (by positivity) r0 P5
  have rr : 0 ≤ r ^ 2 := by positivity
  have kr2 : κ * (1 / 2 ^ p) * r ^ 2 ≤ 1 / 10 * r ^ 2 := mul_le_mul_of_nonneg_right κ1 rr
  have ur2 : (1 : ℝ) / 2 ^ p * r ^ 2 ≤ 1 / 1024 * r ^ 2 := mul_le_mul_of_nonneg_right us rr
  have P6 := P6.mono u0 (by positivity) (X2 := 1 / 10 * r ^ 2) (a2 := r ^ 2 * (κ + 58 / 10)) (by nlinarith) (by nlinarith)
  have P7 := (P6.rnd m.R (by omega)).mono u0 (by positivity) le_rfl (a2 := r ^ 2 * (κ + 61 / 10)) (by nlinarith)
  have P8 := ((P7.scale (k := 4 / 3) (by norm_num)).rnd m.R (by omega)).mono u0 (by positivity) (X2 := 14 / 100 * r ^ 2) (a2 := r ^ 2 * (4 / 3 * κ + 9)) (by nlinarith) (by nlinarith)
  have e1 : ∀ x : ℝ, x / (3 / 4) = 4 / 3 * x := fun x => by ring
  have e2 : l * s * l = l * l * s := by ring
  have e3 : l1 * s * ((f - c) * l1) = s * l1 * ((f - c) * l1) := by ring
  rw [e2, e3] at P8
  rw [e1]
  exact P8

/-- `a_quad`. -/
theorem quad_ap {l l1 : ℝ} (l0 : 0 < l) (h1 : l1 ^ 2 ≤ l ^ 2 * (1 + 72 / 10 * (1 / 2 ^ p))) :
    |quadFp m g (2 ^ k) l1 l - (l ^ 2 - l1 ^ 2) * (Real.sin (Real.pi / (2 ^ k : ℕ)) * Real.cos (Real.pi / (2 ^ k : ℕ)))| ≤ 14 * (1 / 2 ^ p) * (l * l * Real.sin (Real.pi / (2 ^ k : ℕ))) := by
  have u0 := unit_nonneg (K := ℝ) p
  have us := unit_small hm hp
  obtain ⟨g0, g1, s0, sg, gs, c0, c1⟩ := gamma_facts hk
  obtain ⟨-, -, hsc⟩ := trig_ap hm hp hk
  generalize Real.sin (Real.pi / ((2 ^ k : ℕ) : ℝ)) = s at *
  generalize Real.cos (Real.pi / ((2 ^ k : ℕ) : ℝ)) = c at *
  unfold quadFp
  generalize sincosFp m (2 ^ k) = sc at *
  have ll : 0 ≤ l * l := by positivity
  have b1 : l1 * l1 ≤ 101 / 100 * (l * l) := by
    have : l ^ 2 * (1 / 2 ^ p) ≤ l ^ 2 * (1 / 1024) := mul_le_mul_of_nonneg_left us (sq_nonneg l)
    nlinarith
  have n1 : 0 ≤ l1 * l1 := mul_self_nonneg l1
  have Q1 : Ap (1 / 2 ^ p) (l * l) 1 0 (l * l) (l * l) := ⟨by rw [abs_of_nonneg ll, one_mul], by simp⟩
  have Q2 : Ap (1 / 2 ^ p) (l * l) (101 / 100) 0 (l1 * l1) (l1 * l1) := ⟨by rw [abs_of_nonneg n1]; exact b1, by simp⟩
  have Q1 := Q1.prod m.R (by omega) g.sq ll (by norm_num) le_rfl
  have Q2 := Q2.prod m.R (by omega) g.sq1 ll (by norm_num) le_rfl
  have Q3 := Q1.sub Q2
  have Q4 : Ap (1 / 2 ^ p) (l * l) (101 / 100) (202 / 100) (l * l - l1 * l1) (prodFp m.R g.sq (l * l) - prodFp m.R g.sq1 (l1 * l1)) := by
    refine ⟨?_, (Q3.mono u0 ll le_rfl (by norm_num)).2⟩
    rw [abs_le]; constructor <;> linarith
  have Q5 := (Q4.rnd m.R (by omega)).mono u0 ll le_rfl (a2 := 31 / 10) (by linarith)
  have Q6 := ((Q5.mul u0 ll (by norm_num) (by norm_num) hsc).prod m.R (by omega) g.quad (by positivity) (by norm_num) (by positivity)).2
  have e : (l * l - l1 * l1) * (s * c) = (l ^ 2 - l1 ^ 2) * (s * c) := by ring
  rw [e] at Q6
  refine Q6.trans (mul_le_mul_of_nonneg_right (mul_le_mul_of_nonneg_right ?_ u0) (by positivity))
  have uu : (1 : ℝ) / 2 ^ p * (1 / 2 ^ p) ≤ 1 / 1024 * (1 / 2 ^ p) := mul_le_mul_of_nonneg_right us u0
  nlinarith

/-- `a_ring`. -/
theorem ring_ap {l l1 a : ℝ} (l0 : 0 < l) (ha : |a - Real.pi * (l ^ 2 - l1 ^ 2)| ≤ 72 / 10 * (1 / 2 ^ p) * (Real.pi * l ^ 2)) (h1 : l1 ^ 2 ≤ l ^ 2 * (1 + 72 / 10 * (1 / 2 ^ p))) :
    |m.R.rnd (a / m.R.rnd ((2 ^ k : ℕ) : ℝ)) - Real.pi / (2 ^ k : ℕ) * (l ^ 2 - l1 ^ 2)| ≤ 88 / 10 * (1 / 2 ^ p) * (l * l * Real.sin (Real.pi / (2 ^ k : ℕ))) := by
  have u0 := unit_nonneg (K := ℝ) p
  have us := unit_small hm hp
  have pi0 := Real.pi_pos
  obtain ⟨g0, g1, s0, sg, gs, c0, c1⟩ := gamma_facts hk
  have hk' : IsFp p (((2 ^ k : ℕ) : ℝ)) := by
    have := isFp_pow (K := ℝ) (p := p) (by omega) k
    push_cast
    exact_mod_cast this
  rw [m.R.id hk']
  have k0 : (0 : ℝ) < ((2 ^ k : ℕ) : ℝ) := by positivity
  have ll : 0 ≤ l ^ 2 := sq_nonneg l
  have b1 : l1 ^ 2 ≤ 101 / 100 * l ^ 2 := by
    have : l ^ 2 * (1 / 2 ^ p) ≤ l ^ 2 * (1 / 1024) := mul_le_mul_of_nonneg_left us ll
    nlinarith
  have A : Ap (1 / 2 ^ p) (Real.pi / (2 ^ k : ℕ) * l ^ 2) (101 / 100) (72 / 10) (Real.pi / (2 ^ k : ℕ) * (l ^ 2 - l1 ^ 2)) (a / (2 ^ k : ℕ)) := by
    refine ⟨?_, ?_⟩
    · rw [abs_mul, abs_of_pos g0, mul_left_comm]
      refine mul_le_mul_of_nonneg_left ?_ g0.le
      have := sq_nonneg l1
      rw [abs_le]; constructor <;> linarith
    · have e : a / ((2 ^ k : ℕ) : ℝ) - Real.pi / (2 ^ k : ℕ) * (l ^ 2 - l1 ^ 2) = (a - Real.pi * (l ^ 2 - l1 ^ 2)) / (2 ^ k : ℕ) := by ring
      rw [e, abs_div, abs_of_pos k0, div_le_iff₀ k0]
      refine ha.trans (le_of_eq ?_)
      field_simp
  have B := (A.rnd m.R (by omega)).2
  refine B.trans ?_
  have h2 : Real.pi / (2 ^ k : ℕ) * l ^ 2 ≤ 105 / 100 * (l * l * Real.sin (Real.pi / (2 ^ k : ℕ))) := by
    have := mul_le_mul_of_nonneg_right gs ll
    calc _ ≤ _ := this
      _ = _ := by ring
  calc (72 / 10 + 101 / 100 + 72 / 10 * (1 / 2 ^ p)) * (1 / 2 ^ p) * (Real.pi / (2 ^ k : ℕ) * l ^ 2)
      ≤ (83 / 10 * (1 / 2 ^ p)) * (105 / 100 * (l * l * Real.sin (Real.pi / (2 ^ k : ℕ)))) :=
        mul_le_mul (mul_le_mul_of_nonneg_right (by linarith) u0) h2 (by positivity) (by positivity)
    _ ≤ _ := by
      have : 0 ≤ 1 / 2 ^ p * (l * l * Real.sin (Real.pi / (2 ^ k : ℕ))) := by positivity
      nlinarith

/-- The end of a step. -/
theorem finish_ap {l t κ : ℝ} (l0 : 0 < l) (κ0 : 0 ≤ κ) (κ1 : κ * (1 / 2 ^ p) ≤ 1 / 10)
    (ht : |t - 4 / 3 * (Real.sin (Real.pi / (2 ^ k : ℕ)) * l ^ 2 * (factor2 (2 ^ k) - Real.cos (Real.pi / (2 ^ k : ℕ))))| ≤ (4 / 3 * κ + 34) * (1 / 2 ^ p) * (l * l * Real.sin (Real.pi / (2 ^ k : ℕ)))) :
    |eqFinish m g (2 ^ k) t l - factor2 (2 ^ k) * l| ≤ (κ + 36) * (1 / 2 ^ p) * l := by
  have u0 := unit_nonneg (K := ℝ) p
  have us := unit_small hm hp
  obtain ⟨g0, g1, s0, sg, gs, c0, c1⟩ := gamma_facts hk
  obtain ⟨f0, f1, f2, -⟩ := factor2_facts hk
  obtain ⟨hs, hc, -⟩ := trig_ap hm hp hk
  generalize Real.sin (Real.pi / ((2 ^ k : ℕ) : ℝ)) = s at *
  generalize Real.cos (Real.pi / ((2 ^ k : ℕ) : ℝ)) = c at *
  unfold eqFinish
  generalize m.sin (gammaFp m (2 ^ k)) = s' at *
  generalize m.cos (gammaFp m (2 ^ k)) = c' at *
  generalize factor2 (2 ^ k) = f at *
  have uu : (1 : ℝ) / 2 ^ p * (1 / 2 ^ p) ≤ 1 / 1024 * (1 / 2 ^ p) := mul_le_mul_of_nonneg_right us u0
  have ku : 0 ≤ κ * (1 / 2 ^ p) := by positivity
  have A0 : Ap (1 / 2 ^ p) l 1 0 l l := ⟨by rw [abs_of_pos l0, one_mul], by simp⟩
  have T : Ap (1 / 2 ^ p) (l * (l * s)) (14 / 100) (4 / 3 * κ + 34) (4 / 3 * (s * l ^ 2 * (f - c))) t := by
    refine ⟨?_, ht.trans (le_of_eq (by ring))⟩
    rw [abs_of_nonneg (by positivity)]
    have : 0 ≤ l * (l * s) := by positivity
    nlinarith
  have T1 := ((T.scale (k := 3 / 4) (by norm_num)).rnd m.R (by omega)).mono u0 (by positivity) (X2 := 11 / 100) (a2 := κ + 26) (by norm_num) (by nlinarith)
  have e1 : 3 / 4 * (4 / 3 * (s * l ^ 2 * (f - c))) = s * l ^ 2 * (f - c) := by ring
  rw [e1] at T1
  have D := ((A0.mul u0 l0.le le_rfl zero_le_one hs).rnd m.R (by omega)).mono u0 (by positivity) (X2 := 1) (a2 := 62 / 10) (by norm_num) (by linarith)
  have Q := Ap.div u0 l0 (mul_pos l0 s0) (by positivity) (by norm_num) (by norm_num) (by linarith) T1 rfl D.2
  have e2 : s * l ^ 2 * (f - c) / (l * s) = (f - c) * l := by field_simp
  rw [e2] at Q
  have Q1 := Q.mono u0 l0.le le_rfl (a2 := κ + 28) (by
    rw [div_le_iff₀ (by linarith)]
    nlinarith)
  have Q2 := (Q1.rnd m.R (by omega)).mono u0 l0.le le_rfl (a2 := κ + 29) (by nlinarith)
  have C := (A0.mul u0 l0.le le_rfl zero_le_one hc).prod m.R (by omega) g.last (by positivity) (by norm_num) (by norm_num)
  rw [mul_one] at C
  have C := C.mono u0 l0.le (X2 := 1) (a2 := 41 / 10) (by norm_num) (by linarith)
  have E : Ap (1 / 2 ^ p) l (104 / 100) (κ + 331 / 10) (f * l) (m.R.rnd (m.R.rnd (3 / 4 * t) / m.R.rnd (l * s')) + prodFp m.R g.last (l * c')) := by
    have := (Q2.add C).2
    have e : (f - c) * l + l * c = f * l := by ring
    rw [e] at this
    refine ⟨?_, this.trans (le_of_eq (by ring))⟩
    rw [abs_of_nonneg (by have : 0 ≤ f := by linarith
                          positivity)]
    exact mul_le_mul_of_nonneg_right f2 l0.le
  exact ((E.rnd m.R (by omega)).mono u0 l0.le le_rfl (a2 := κ + 36) (by nlinarith)).2

/-- A step. -/
theorem step_ap {l l1 e1 a κ : ℝ} (l0 : 0 < l) (l10 : 0 ≤ l1) (ha : |a - Real.pi * (l ^ 2 - l1 ^ 2)| ≤ 72 / 10 * (1 / 2 ^ p) * (Real.pi * l ^ 2))
    (h1 : l1 ^ 2 ≤ l ^ 2 * (1 + 72 / 10 * (1 / 2 ^ p))) (κ0 : 0 ≤ κ) (κ1 : κ * (1 / 2 ^ p) ≤ 1 / 10) (he : |e1 - factor2 (2 ^ k) * l1| ≤ κ * (1 / 2 ^ p) * l1) :
    |eqStep2Fp m g (2 ^ k) l1 e1 l a - factor2 (2 ^ k) * l| ≤ (κ + 36) * (1 / 2 ^ p) * l := by
  have u0 := unit_nonneg (K := ℝ) p
  have us := unit_small hm hp
  obtain ⟨g0, g1, s0, sg, gs, c0, c1⟩ := gamma_facts hk
  obtain ⟨f0, f1, f2, f3⟩ := factor2_facts hk
  have hr : l1 = l1 / l * l := by field_simp
  have E := edge_ap hm hp hk g l0 (div_nonneg l10 l0.le) hr κ0 κ1 he
  have Q := quad_ap hm hp hk g l0 h1
  have A := ring_ap hm hp hk l0 ha h1
  unfold eqStep2Fp
  refine finish_ap hm hp hk g l0 κ0 κ1 ?_
  have r2 : (l1 / l) ^ 2 ≤ 1 + 72 / 10 * (1 / 2 ^ p) := by
    rw [div_pow, div_le_iff₀ (by positivity)]; linarith
  have r0 : 0 ≤ (l1 / l) ^ 2 := sq_nonneg _
  generalize (l1 / l) ^ 2 = ρ at *
  generalize edgeFp m g (2 ^ k) l1 e1 = ed at *
  generalize quadFp m g (2 ^ k) l1 l = qu at *
  generalize m.R.rnd (a / m.R.rnd ((2 ^ k : ℕ) : ℝ)) = ra at *
  generalize Real.sin (Real.pi / ((2 ^ k : ℕ) : ℝ)) = s at *
  generalize Real.cos (Real.pi / ((2 ^ k : ℕ) : ℝ)) = c at *
  generalize Real.pi / ((2 ^ k : ℕ) : ℝ) = γ at *
  generalize factor2 (2 ^ k) = f at *
  have W0 : 0 ≤ l * l * s := by positivity
  have b1 : l1 ^ 2 ≤ 101 / 100 * l ^ 2 := by
    have : l ^ 2 * (1 / 2 ^ p) ≤ l ^ 2 * (1 / 1024) := mul_le_mul_of_nonneg_left us (sq_nonneg l)
    nlinarith
  have hD : |l ^ 2 - l1 ^ 2| ≤ 101 / 100 * l ^ 2 := by
    have := sq_nonneg l1
    have := sq_nonneg l
    rw [abs_le]; constructor <;> linarith
  have S : Ap (1 / 2 ^ p) (l * l * s) (14 / 100) (228 / 10) ((γ - s * c) * (l ^ 2 - l1 ^ 2)) (ra - qu) := by
    refine ⟨?_, ?_⟩
    · rw [f3, abs_mul, abs_of_nonneg (by positivity)]
      have h2 : 4 / 3 * s * (f - c) ≤ 4 / 3 * s * (1 / 10) := mul_le_mul_of_nonneg_left f1 (by positivity)
      have h3 := mul_le_mul h2 hD (abs_nonneg _) (by positivity)
      refine h3.trans ?_
      nlinarith
    · have e : ra - qu - (γ - s * c) * (l ^ 2 - l1 ^ 2) = (ra - γ * (l ^ 2 - l1 ^ 2)) - (qu - (l ^ 2 - l1 ^ 2) * (s * c)) := by ring
      rw [e]
      refine (abs_sub _ _).trans ?_
      linarith
  have S1 := (S.rnd m.R (by omega)).mono u0 W0 le_rfl (a2 := 23) (by linarith)
  have hκ : ρ * κ ≤ κ + 72 / 100 := by nlinarith
  have hρ : ρ ≤ 101 / 100 := by linarith
  have κu : 0 ≤ κ * (1 / 2 ^ p) := by positivity
  have X : Ap (1 / 2 ^ p) (l * l * s) (14 / 100) (4 / 3 * κ + 331 / 10) (4 / 3 * (s * l ^ 2 * (f - c))) (m.R.rnd (ra - qu) + ed) := by
    have h2 := (S1.add E).2
    refine ⟨?_, ?_⟩
    · rw [abs_of_nonneg (by positivity)]
      nlinarith
    · have e : (γ - s * c) * (l ^ 2 - l1 ^ 2) + 4 / 3 * (s * l1 * ((f - c) * l1)) = 4 / 3 * (s * l ^ 2 * (f - c)) := by rw [f3]; ring
      rw [e] at h2
      refine h2.trans (mul_le_mul_of_nonneg_right (mul_le_mul_of_nonneg_right ?_ u0) W0)
      linarith
  exact ((X.rnd m.R (by omega)).mono u0 W0 le_rfl (a2 := 4 / 3 * κ + 34) (by nlinarith)).2

/-- The first ring is a step from nothing. -/
theorem first_eq {l a : ℝ} : eqFirst2Fp m g (2 ^ k) l a = eqStep2Fp m { g with quad := g.tri, sq := false } (2 ^ k) 0 0 l a := by
  have R0 := m.R.zero
  have pr0 : ∀ f, prodFp m.R f 0 = 0 := fun f => by unfold prodFp; split; rfl; exact R0
  have e1 : edgeFp m { g with quad := g.tri, sq := false } (2 ^ k) 0 0 = 0 := by
    unfold edgeFp; simp [R0]
  have e2 : quadFp m { g with quad := g.tri, sq := false } (2 ^ k) 0 l = prodFp m.R g.tri (m.R.rnd (l * l) * sincosFp m (2 ^ k)) := by
    unfold quadFp
    have : prodFp m.R false (l * l) = m.R.rnd (l * l) := rfl
    simp only [mul_zero, pr0, sub_zero, this, m.R.id (m.R.mem _)]
  unfold eqFirst2Fp eqStep2Fp
  rw [e1, e2, add_zero, m.R.id (m.R.mem _)]
  rfl

/-- A ring of `ring_radii`, compared with the area it adds. -/
theorem radius_local {l1 a : ℝ} (_l10 : 0 ≤ l1) (a0 : 0 ≤ a) (h0 : 0 < a + l1) :
    0 < m.R.rnd (m.sqrt (m.R.rnd (m.R.rnd (a / m.pi) + prodFp m.R m.fuse3 (l1 * l1)))) ∧
    |a - Real.pi * (m.R.rnd (m.sqrt (m.R.rnd (m.R.rnd (a / m.pi) + prodFp m.R m.fuse3 (l1 * l1)))) ^ 2 - l1 ^ 2)| ≤
      72 / 10 * (1 / 2 ^ p) * (Real.pi * m.R.rnd (m.sqrt (m.R.rnd (m.R.rnd (a / m.pi) + prodFp m.R m.fuse3 (l1 * l1)))) ^ 2) ∧
    l1 ^ 2 ≤ m.R.rnd (m.sqrt (m.R.rnd (m.R.rnd (a / m.pi) + prodFp m.R m.fuse3 (l1 * l1)))) ^ 2 * (1 + 72 / 10 * (1 / 2 ^ p)) := by
  have u0 := unit_nonneg (K := ℝ) p
  have u1 := unit_le (K := ℝ) p
  have us := unit_small hm hp
  have pi0 := Real.pi_pos
  rw [hm.sqrt]
  have ap0 : 0 ≤ a / Real.pi := by positivity
  have hg : Off (1 / 2 ^ p) 4 (a / Real.pi) (m.R.rnd (a / m.pi)) :=
    (off_div u0 (Fp.unit_half (by omega)) (few_le hm (by omega) (by norm_num)) a0 pi0 (Off.refl _ a) hm.pi).rnd m.R (by omega) ap0
  obtain ⟨n0, hoff⟩ := fLoop_step m.R (by omega : 1 ≤ p) m.fuse3 (k := 3) (c := 4) le_rfl (sq_nonneg l1) ap0 ((Off.refl _ (l1 ^ 2)).weaken u0 u1 (sq_nonneg l1) (by omega)) hg
  generalize m.R.rnd √(m.R.rnd (m.R.rnd (a / m.pi) + prodFp m.R m.fuse3 (l1 * l1))) = l at *
  set u : ℝ := 1 / 2 ^ p
  have X0 : 0 < l1 ^ 2 + a / Real.pi := by
    rcases a0.lt_or_eq with h | h
    · have := div_pos h pi0; nlinarith [sq_nonneg l1]
    · rw [← h, zero_add] at h0; rw [← h, zero_div, add_zero]; positivity
  have hX : a = Real.pi * (l1 ^ 2 + a / Real.pi) - Real.pi * l1 ^ 2 := by field_simp; ring
  have hX1 : l1 ^ 2 ≤ l1 ^ 2 + a / Real.pi := by linarith
  generalize l1 ^ 2 + a / Real.pi = X at *
  have q2 : 1 - 7 * u ≤ (1 - u) ^ 7 := by
    have := one_add_mul_le_pow (a := -u) (by linarith) 7
    rw [← sub_eq_add_neg] at this
    push_cast at this
    linarith
  have q1 : (1 + u) ^ 7 ≤ 1 + 71 / 10 * u := by
    have uu : u ^ 2 ≤ u * (1 / 1024) := by rw [sq]; exact mul_le_mul_of_nonneg_left us u0
    have e : (1 + u) ^ 7 = 1 + 7 * u + u ^ 2 * (21 + 35 * u + 35 * u ^ 2 + 21 * u ^ 3 + 7 * u ^ 4 + u ^ 5) := by ring
    have b : 21 + 35 * u + 35 * u ^ 2 + 21 * u ^ 3 + 7 * u ^ 4 + u ^ 5 ≤ 22 := by
      have h2 : u ^ 2 ≤ (1 / 1024) ^ 2 := pow_le_pow_left₀ u0 us 2
      have h3 : u ^ 3 ≤ (1 / 1024) ^ 3 := pow_le_pow_left₀ u0 us 3
      have h4 : u ^ 4 ≤ (1 / 1024) ^ 4 := pow_le_pow_left₀ u0 us 4
      have h5 : u ^ 5 ≤ (1 / 1024) ^ 5 := pow_le_pow_left₀ u0 us 5
      norm_num at h2 h3 h4 h5
      linarith
    have b0 : 0 ≤ 21 + 35 * u + 35 * u ^ 2 + 21 * u ^ 3 + 7 * u ^ 4 + u ^ 5 := by positivity
    have := mul_le_mul uu b b0 (by positivity)
    rw [e]; linarith
  have b1 := mul_le_mul_of_nonneg_left q1 X0.le
  have b2 := mul_le_mul_of_nonneg_left q2 X0.le
  have h1 : X * (1 - u) ^ 7 ≤ l ^ 2 := hoff.1
  have h2 : l ^ 2 ≤ X * (1 + u) ^ 7 := hoff.2
  have Xu : 0 ≤ X * u := by positivity
  have Xs : X * u ≤ X * (1 / 1024) := mul_le_mul_of_nonneg_left us X0.le
  have l2 : X * (9 / 10) ≤ l ^ 2 := by nlinarith
  have lp : 0 < l := by
    rcases n0.lt_or_eq with h | h
    · exact h
    · rw [← h] at l2; norm_num at l2; linarith
  have Xl : X * u ≤ 101 / 100 * (l ^ 2 * u) := by
    have : X * (100 / 101) ≤ l ^ 2 := by nlinarith
    have := mul_le_mul_of_nonneg_right this u0
    nlinarith
  refine ⟨lp, ?_, by nlinarith⟩
  have e : a - Real.pi * (l ^ 2 - l1 ^ 2) = Real.pi * (X - l ^ 2) := by rw [hX]; ring
  rw [e, abs_mul, abs_of_pos pi0]
  have : |X - l ^ 2| ≤ 72 / 10 * u * l ^ 2 := by
    rw [abs_le]; constructor <;> nlinarith
  calc Real.pi * |X - l ^ 2| ≤ Real.pi * (72 / 10 * u * l ^ 2) := mul_le_mul_of_nonneg_left this pi0.le
    _ = _ := by ring

/-- The rings after the first. -/
theorem loop_ap (as : List ℝ) : ∀ (l1 e1 κ : ℝ), (∀ a ∈ as, 0 ≤ a) → 0 < l1 → 0 ≤ κ → (κ + 36 * as.length) * (1 / 2 ^ p) ≤ 1 / 10 → |e1 - factor2 (2 ^ k) * l1| ≤ κ * (1 / 2 ^ p) * l1 →
    (eqLoop2Fp m g (2 ^ k) l1 e1 (radiiLoopFp m l1 as) as).length = as.length ∧
    ∀ (j : ℕ) (e l : ℝ), (eqLoop2Fp m g (2 ^ k) l1 e1 (radiiLoopFp m l1 as) as)[j]? = some e → (radiiLoopFp m l1 as)[j]? = some l →
      0 < l ∧ |e - factor2 (2 ^ k) * l| ≤ (κ + 36 * (j + 1)) * (1 / 2 ^ p) * l := by
  have u0 := unit_nonneg (K := ℝ) p
  induction as with
  | nil => intro l1 e1 κ _ _ _ _ _; exact ⟨rfl, by intro j e l h; simp [radiiLoopFp, eqLoop2Fp] at h⟩
  | cons a as ih =>
    intro l1 e1 κ ha l10 κ0 κ1 he
    rw [List.length_cons] at κ1
    push_cast at κ1
    have n0 : (0 : ℝ) ≤ as.length := Nat.cast_nonneg _
    have nu : 0 ≤ (as.length : ℝ) * (1 / 2 ^ p) := by positivity
    have a0 := ha a (by simp)
    obtain ⟨h1, h2, h3⟩ := radius_local hm hp hk l10.le a0 (by linarith)
    simp only [radiiLoopFp, eqLoop2Fp]
    generalize m.R.rnd (m.sqrt (m.R.rnd (m.R.rnd (a / m.pi) + prodFp m.R m.fuse3 (l1 * l1)))) = l at *
    have st := step_ap hm hp hk g h1 l10.le h2 h3 κ0 (by nlinarith) he
    generalize eqStep2Fp m g (2 ^ k) l1 e1 l a = e at *
    obtain ⟨i1, i2⟩ := ih l e (κ + 36) (fun a h => ha a (by simp [h])) h1 (by linarith) (le_trans (le_of_eq (by ring)) κ1) st
    refine ⟨by simp [i1], ?_⟩
    intro j e' l' hj hl
    cases j with
    | zero =>
      simp only [List.getElem?_cons_zero, Option.some.injEq] at hj hl
      subst hj hl
      refine ⟨h1, st.trans (le_of_eq (by push_cast; ring))⟩
    | succ j =>
      simp only [List.getElem?_cons_succ] at hj hl
      obtain ⟨c, d⟩ := i2 j e' l' hj hl
      exact ⟨c, d.trans (le_of_eq (by push_cast; ring))⟩

/-- All rings. -/
theorem eqRadii2_ap (as : List ℝ) (ha : ∀ a ∈ as, 0 ≤ a) (h0 : 0 < as.headD 0) (hN : 36 * (as.length : ℝ) * (1 / 2 ^ p) ≤ 1 / 10) :
    (eqRadii2Fp m g (2 ^ k) (ringRadiiFp m as) as).length = as.length ∧
    ∀ (j : ℕ) (e l : ℝ), (eqRadii2Fp m g (2 ^ k) (ringRadiiFp m as) as)[j]? = some e → (ringRadiiFp m as)[j]? = some l →
      0 < l ∧ |e - factor2 (2 ^ k) * l| ≤ 36 * (j + 1) * (1 / 2 ^ p) * l := by
  have u0 := unit_nonneg (K := ℝ) p
  cases as with
  | nil => exact ⟨rfl, by intro j e l h; simp [ringRadiiFp, eqRadii2Fp] at h⟩
  | cons a as =>
    rw [List.headD_cons] at h0
    rw [List.length_cons] at hN
    push_cast at hN
    have n0 : (0 : ℝ) ≤ as.length := Nat.cast_nonneg _
    have nu : 0 ≤ (as.length : ℝ) * (1 / 2 ^ p) := by positivity
    obtain ⟨h1, h2, h3⟩ := radius_local hm hp hk le_rfl h0.le (by linarith : 0 < a + 0)
    rw [prodFp_zero, add_zero, m.R.id (m.R.mem _)] at h1 h2 h3
    simp only [ringRadiiFp, eqRadii2Fp, first_eq hm hp hk]
    generalize m.R.rnd (m.sqrt (m.R.rnd (a / m.pi))) = l at *
    have st := step_ap hm hp hk { g with quad := g.tri, sq := false } h1 le_rfl h2 h3 (e1 := 0) le_rfl (by linarith) (by simp)
    generalize eqStep2Fp m { g with quad := g.tri, sq := false } (2 ^ k) 0 0 l a = e at *
    obtain ⟨i1, i2⟩ := loop_ap hm hp hk g as l e (0 + 36) (fun a h => ha a (by simp [h])) h1 (by norm_num) (le_trans (le_of_eq (by ring)) hN) st
    refine ⟨by simp [i1], ?_⟩
    intro j e' l' hj hl
    cases j with
    | zero =>
      simp only [List.getElem?_cons_zero, Option.some.injEq] at hj hl
      subst hj hl
      refine ⟨h1, st.trans (le_of_eq (by push_cast; ring))⟩
    | succ j =>
      simp only [List.getElem?_cons_succ] at hj hl
      obtain ⟨c, d⟩ := i2 j e' l' hj hl
      exact ⟨c, d.trans (le_of_eq (by push_cast; ring))⟩

end

end Verif.FpCyl
