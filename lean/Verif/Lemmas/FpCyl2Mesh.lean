import Verif.Lemmas.FpCyl2Step

/-! The vertices of quadratic cylindrical pin meshes, in floating-point arithmetic. -/

set_option linter.unusedSectionVars false

namespace Verif.FpCyl

open Verif.Fp Verif.Pin Verif.PinArea Verif.PropsPinArea Verif.PropsPinAccept

variable {p : ℕ}

theorem forall₂_append {α β : Type} {r : α → β → Prop} {a c : List α} {b d : List β} (h1 : List.Forall₂ r a b) (h2 : List.Forall₂ r c d) : List.Forall₂ r (a ++ c) (b ++ d) := by
  induction h1 with
  | nil => exact h2
  | cons h _ ih => exact .cons h ih

theorem forall₂_flatMap {α β γ : Type} {r : β → γ → Prop} {f : α → List β} {g : α → List γ} (l : List α) (h : ∀ x ∈ l, List.Forall₂ r (f x) (g x)) :
    List.Forall₂ r (l.flatMap f) (l.flatMap g) := by
  induction l with
  | nil => exact .nil
  | cons x l ih =>
    rw [List.flatMap_cons, List.flatMap_cons]
    exact forall₂_append (h x (by simp)) (ih fun y hy => h y (by simp [hy]))

theorem forall₂_last {α β : Type} {r : α → β → Prop} {a : List α} {b : List β} (h : List.Forall₂ r a b) : ∀ {x : α} {y : β}, r x y → r (a.getLastD x) (b.getLastD y) := by
  induction h with
  | nil => intro x y h; exact h
  | cons h _ ih => intro x y _; rw [List.getLastD_cons, List.getLastD_cons]; exact ih h

/-- A radius and the exact one. -/
def Rad (p : ℕ) (h κ x X : ℝ) : Prop := IsFp p x ∧ 0 ≤ X ∧ X ≤ h ∧ |x - X| ≤ κ * (1 / 2 ^ p) * h

section
variable {m : FpLibm ℝ p} (hm : Good m) (hp : 10 ≤ p) {k : ℕ} (hk : 3 ≤ k) {pitch : ℝ} (h0 : 0 < pitch) (ht : m.eps + 22 * (1 / 2 ^ p) ≤ 2 / ((2 ^ (k + 1) : ℕ) : ℝ)) (hs : 22 * (1 / 2 ^ p) < m.eps)
  {κ κr : ℝ} (κr0 : 0 ≤ κr) (κκ : κr + 40 ≤ κ) (κ1 : κ * (1 / 2 ^ p) ≤ 1 / 2)
include hm hp hk ht hs

theorem half_trig : m.eps + 22 * (1 / 2 ^ p) ≤ 2 / ((2 ^ k : ℕ) : ℝ) := by
  refine ht.trans (div_le_div_of_nonneg_left (by norm_num) (by positivity) ?_)
  push_cast
  exact pow_le_pow_right₀ (by norm_num) (by omega)

theorem angle2_eq (s : ℕ) : angle2Fp m (2 ^ k) s = angleFp m (2 ^ k) s := by
  unfold angle2Fp angleFp; rw [mul_comm]

theorem angleGamma_eq (s : ℕ) : angleGammaFp m (2 ^ k) s = angleFp m (2 ^ (k + 1)) s := by
  unfold angleGammaFp angleFp; rw [mul_comm, gammaFp_eq hm hp]

theorem gamma_theta : gamma (realLibm 0) (2 ^ k) = theta (realLibm 0) (2 ^ (k + 1)) := by
  show 2 * Real.pi / ((2 ^ k : ℕ) : ℝ) / 2 = 2 * Real.pi / ((2 ^ (k + 1) : ℕ) : ℝ)
  push_cast; rw [pow_succ]; field_simp

theorem theta_trig {s : ℕ} (hsn : s < 2 ^ k) :
    |(snapTrigFp m (angle2Fp m (2 ^ k) s)).1 - Real.cos (s * theta (realLibm 0) (2 ^ k))| ≤ 22 * (1 / 2 ^ p) ∧
    |(snapTrigFp m (angle2Fp m (2 ^ k) s)).2 - Real.sin (s * theta (realLibm 0) (2 ^ k))| ≤ 22 * (1 / 2 ^ p) ∧
    IsFp p (snapTrigFp m (angle2Fp m (2 ^ k) s)).1 ∧ IsFp p (snapTrigFp m (angle2Fp m (2 ^ k) s)).2 := by
  rw [angle2_eq hm hp hk ht hs, mul_comm]
  exact trig_close hm hp hk (half_trig hm hp hk ht hs) hs hsn

theorem gamma_trig {s : ℕ} (hsn : s < 2 * 2 ^ k) :
    |(snapTrigFp m (angleGammaFp m (2 ^ k) s)).1 - Real.cos (s * gamma (realLibm 0) (2 ^ k))| ≤ 22 * (1 / 2 ^ p) ∧
    |(snapTrigFp m (angleGammaFp m (2 ^ k) s)).2 - Real.sin (s * gamma (realLibm 0) (2 ^ k))| ≤ 22 * (1 / 2 ^ p) := by
  rw [angleGamma_eq hm hp hk ht hs, mul_comm (s : ℝ), gamma_theta hm hp hk ht hs]
  obtain ⟨h1, h2, -, -⟩ := trig_close hm hp (by omega : 3 ≤ k + 1) ht hs (s := s) (by rw [pow_succ]; omega)
  exact ⟨h1, h2⟩

include h0 κr0 κκ κ1

theorem tri2_close {r R : ℝ} (h : Rad p (pitch / 2) κr r R) :
    List.Forall₂ (Close ((κ + 47) * (1 / 2 ^ p) * (pitch / 2))) (triPoints2Fp m (2 ^ k) r) (triPoints2 (realLibm 0) (2 ^ k) R) := by
  have u0 := unit_nonneg (K := ℝ) p
  obtain ⟨hfp, R0, Rh, hr⟩ := h
  unfold triPoints2Fp triPoints2
  refine forall₂_flatMap _ fun s hsn => ?_
  have hsn := List.mem_range.1 hsn
  have hle := na_le hm hp hk (half_trig hm hp hk ht hs) hs
  obtain ⟨h1, h2⟩ := angle_trig hm hp (s := s) (k := k) (by omega) (by omega)
  rw [← angle2_eq hm hp hk ht hs, mul_comm] at h1 h2
  dsimp only
  show List.Forall₂ _ _ (if s % 2 = 0 then [(R / 2 * Real.cos ((s : ℝ) * theta (realLibm 0) (2 ^ k)), R / 2 * Real.sin ((s : ℝ) * theta (realLibm 0) (2 ^ k)))]
    else [(R / 2 * Real.cos ((s : ℝ) * theta (realLibm 0) (2 ^ k)) / 2, R / 2 * Real.sin ((s : ℝ) * theta (realLibm 0) (2 ^ k)) / 2),
      (R / 2 * Real.cos ((s : ℝ) * theta (realLibm 0) (2 ^ k)), R / 2 * Real.sin ((s : ℝ) * theta (realLibm 0) (2 ^ k))),
      (3 * (R / 2) * Real.cos ((s : ℝ) * theta (realLibm 0) (2 ^ k)) / 2, 3 * (R / 2) * Real.sin ((s : ℝ) * theta (realLibm 0) (2 ^ k)) / 2)])
  have c1 := Real.abs_cos_le_one ((s : ℝ) * theta (realLibm 0) (2 ^ k))
  have s1 := Real.abs_sin_le_one ((s : ℝ) * theta (realLibm 0) (2 ^ k))
  generalize Real.cos ((s : ℝ) * theta (realLibm 0) (2 ^ k)) = c at *
  generalize Real.sin ((s : ℝ) * theta (realLibm 0) (2 ^ k)) = sn at *
  generalize m.cos (angle2Fp m (2 ^ k) s) = c' at *
  generalize m.sin (angle2Fp m (2 ^ k) s) = s' at *
  rw [m.R.id hfp.half, m.R.id (m.R.mem _).half, m.R.id (m.R.mem _).half, m.R.id (m.R.mem _).half, m.R.id (m.R.mem _).half]
  have uh : 0 ≤ 1 / 2 ^ p * (pitch / 2) := by positivity
  have κu : κr * (1 / 2 ^ p) ≤ 1 / 2 := (mul_le_mul_of_nonneg_right (by linarith) u0).trans κ1
  have hh : |r / 2 - R / 2| ≤ κr * (1 / 2 ^ p) * (pitch / 2) := by
    rw [← sub_div, abs_div, abs_of_pos (by norm_num : (0 : ℝ) < 2)]
    have := abs_nonneg (r - R)
    linarith
  have B : (κr + 47) * (1 / 2 ^ p) * (pitch / 2) ≤ (κ + 47) * (1 / 2 ^ p) * (pitch / 2) := by nlinarith
  have half : ∀ {c c'}, |c| ≤ 1 → |c' - c| ≤ 22 * (1 / 2 ^ p) → |m.R.rnd (r / 2 * c') - R / 2 * c| ≤ (κ + 47) * (1 / 2 ^ p) * (pitch / 2) := fun hc hc' =>
    (mul_close m.R hp (by linarith) (by linarith) (by linarith) hh hc hc').trans B
  have quarter : ∀ {c c'}, |c| ≤ 1 → |c' - c| ≤ 22 * (1 / 2 ^ p) → |m.R.rnd (r / 2 * c') / 2 - R / 2 * c / 2| ≤ (κ + 47) * (1 / 2 ^ p) * (pitch / 2) := fun {c c'} hc hc' => by
    have := half hc hc'
    rw [← sub_div, abs_div, abs_of_pos (by norm_num : (0 : ℝ) < 2)]
    have := abs_nonneg (m.R.rnd (r / 2 * c') - R / 2 * c)
    linarith
  have h3 : |m.R.rnd (3 * (r / 2)) - 3 * (R / 2)| ≤ (κr + 2) * (1 / 2 ^ p) * (3 * (pitch / 2) / 2) := by
    have q := Fp.rel_u m.R (by omega) (3 * (r / 2))
    have t := abs_sub_le (m.R.rnd (3 * (r / 2))) (3 * (r / 2)) (3 * (R / 2))
    have e : 3 * (r / 2) - 3 * (R / 2) = 3 / 2 * (r - R) := by ring
    rw [e, abs_mul, abs_of_pos (by norm_num : (0 : ℝ) < 3 / 2)] at t
    have b : |3 * (r / 2)| ≤ 3 / 2 * (2 * (pitch / 2)) := by
      have e : 3 * (r / 2) = 3 / 2 * r := by ring
      rw [e, abs_mul, abs_of_pos (by norm_num : (0 : ℝ) < 3 / 2)]
      have t2 := abs_sub_abs_le_abs_sub r R
      rw [abs_of_nonneg R0] at t2
      have : κr * (1 / 2 ^ p) * (pitch / 2) ≤ 1 / 2 * (pitch / 2) := mul_le_mul_of_nonneg_right κu (by linarith)
      linarith
    have := mul_le_mul_of_nonneg_left b u0
    nlinarith
  have B3 : (κr + 2 + 47) * (1 / 2 ^ p) * (3 * (pitch / 2) / 2) / 2 ≤ (κ + 47) * (1 / 2 ^ p) * (pitch / 2) := by
    have : 0 ≤ κr * (1 / 2 ^ p * (pitch / 2)) := by positivity
    nlinarith
  have quarters : ∀ {c c'}, |c| ≤ 1 → |c' - c| ≤ 22 * (1 / 2 ^ p) → |m.R.rnd (m.R.rnd (3 * (r / 2)) * c') / 2 - 3 * (R / 2) * c / 2| ≤ (κ + 47) * (1 / 2 ^ p) * (pitch / 2) := fun {c c'} hc hc' => by
    have κ2 : (κr + 2) * (1 / 2 ^ p) ≤ 1 := (mul_le_mul_of_nonneg_right (by linarith) u0).trans (κ1.trans (by norm_num))
    have := mul_close m.R hp (by linarith : 0 ≤ 3 * (R / 2)) (h := 3 * (pitch / 2) / 2) (by linarith) κ2 h3 hc hc'
    rw [← sub_div, abs_div, abs_of_pos (by norm_num : (0 : ℝ) < 2)]
    linarith
  split
  · exact .cons ⟨half c1 h1, half s1 h2⟩ .nil
  · exact .cons ⟨quarter c1 h1, quarter s1 h2⟩ (.cons ⟨half c1 h1, half s1 h2⟩ (.cons ⟨quarters c1 h1, quarters s1 h2⟩ .nil))

theorem ring2_close {r R e E : ℝ} (h : Rad p (pitch / 2) κr r R) (g : Rad p (pitch / 2) κ e E) :
    List.Forall₂ (Close ((κ + 47) * (1 / 2 ^ p) * (pitch / 2))) (ringPoints2Fp m (2 ^ k) r e) (ringPoints2 (realLibm 0) (2 ^ k) R E) := by
  have u0 := unit_nonneg (K := ℝ) p
  have uh : 0 ≤ 1 / 2 ^ p * (pitch / 2) := by positivity
  have h : Rad p (pitch / 2) κ r R := ⟨h.1, h.2.1, h.2.2.1, h.2.2.2.trans (by nlinarith)⟩
  unfold ringPoints2Fp ringPoints2
  rw [List.forall₂_map_left_iff, List.forall₂_map_right_iff, List.forall₂_same]
  intro s hsn
  obtain ⟨h1, h2⟩ := gamma_trig hm hp hk ht hs (List.mem_range.1 hsn)
  rw [snapTrig_zero]
  have key : ∀ {x X}, Rad p (pitch / 2) κ x X → Close ((κ + 47) * (1 / 2 ^ p) * (pitch / 2)) (polarFp m x (snapTrigFp m (angleGammaFp m (2 ^ k) s)))
      (polar X (Real.cos (s * gamma (realLibm 0) (2 ^ k)), Real.sin (s * gamma (realLibm 0) (2 ^ k)))) := fun h =>
    ⟨mul_close m.R hp h.2.1 h.2.2.1 (by linarith) h.2.2.2 (Real.abs_cos_le_one _) h1, mul_close m.R hp h.2.1 h.2.2.1 (by linarith) h.2.2.2 (Real.abs_sin_le_one _) h2⟩
  split
  · exact key h
  · exact key g

theorem between2_close {r R q Q : ℝ} (h : Rad p (pitch / 2) κr r R) (g : Rad p (pitch / 2) κr q Q) :
    List.Forall₂ (Close ((κ + 47) * (1 / 2 ^ p) * (pitch / 2))) (betweenPoints2Fp m (2 ^ k) q r) (betweenPoints2 (realLibm 0) (2 ^ k) Q R) := by
  have u0 := unit_nonneg (K := ℝ) p
  have uh : 0 ≤ 1 / 2 ^ p * (pitch / 2) := by positivity
  obtain ⟨-, R0, Rh, hr⟩ := h
  obtain ⟨-, Q0, Qh, hq⟩ := g
  have κu : κr * (1 / 2 ^ p) ≤ 1 / 2 := (mul_le_mul_of_nonneg_right (by linarith) u0).trans κ1
  have hκ : κr * (1 / 2 ^ p) * (pitch / 2) ≤ 1 / 2 * (pitch / 2) := mul_le_mul_of_nonneg_right κu (by linarith)
  have hb : |m.R.rnd (r + q) / 2 - (R + Q) / 2| ≤ (κr + 2) * (1 / 2 ^ p) * (pitch / 2) := by
    have t := Fp.rel_u m.R (by omega) (r + q)
    obtain ⟨a1, a2⟩ := abs_le.1 hr
    obtain ⟨b1, b2⟩ := abs_le.1 hq
    have b : |r + q| ≤ 4 * (pitch / 2) := by rw [abs_le]; constructor <;> linarith
    have b := mul_le_mul_of_nonneg_left b u0
    obtain ⟨c1, c2⟩ := abs_le.1 t
    rw [abs_le]; constructor <;> linarith
  unfold betweenPoints2Fp betweenPoints2
  rw [List.forall₂_map_left_iff, List.forall₂_map_right_iff, List.forall₂_same]
  intro s hsn
  obtain ⟨h1, h2, -, -⟩ := theta_trig hm hp hk ht hs (List.mem_range.1 hsn)
  rw [snapTrig_zero, m.R.id (m.R.mem _).half]
  have κ2 : (κr + 2) * (1 / 2 ^ p) ≤ 1 := (mul_le_mul_of_nonneg_right (by linarith) u0).trans (κ1.trans (by norm_num))
  have B : (κr + 2 + 47) * (1 / 2 ^ p) * (pitch / 2) ≤ (κ + 47) * (1 / 2 ^ p) * (pitch / 2) := by nlinarith
  exact ⟨(mul_close m.R hp (by linarith) (by linarith) κ2 hb (Real.abs_cos_le_one _) h1).trans B, (mul_close m.R hp (by linarith) (by linarith) κ2 hb (Real.abs_sin_le_one _) h2).trans B⟩

theorem rings2_close {rs Rs : List ℝ} (h : List.Forall₂ (Rad p (pitch / 2) κr) rs Rs) : ∀ {es Es : List ℝ} {q Q : ℝ}, List.Forall₂ (Rad p (pitch / 2) κ) es Es → Rad p (pitch / 2) κr q Q →
    List.Forall₂ (Close ((κ + 47) * (1 / 2 ^ p) * (pitch / 2))) (rings2Fp m (2 ^ k) q rs es) (rings2 (realLibm 0) (2 ^ k) Q Rs Es) := by
  induction h with
  | nil => intro es Es q Q _ _; exact .nil
  | cons h _ ih =>
    intro es Es q Q g hq
    cases g with
    | nil => exact .nil
    | cons g gs =>
      simp only [rings2Fp, rings2]
      exact forall₂_append (forall₂_append (between2_close hm hp hk h0 ht hs κr0 κκ κ1 h hq) (ring2_close hm hp hk h0 ht hs κr0 κκ κ1 h g)) (ih gs h)

theorem before2_close {r R : ℝ} (h : Rad p (pitch / 2) κr r R) :
    List.Forall₂ (Close ((κ + 47) * (1 / 2 ^ p) * (pitch / 2))) (beforePoints2Fp m (2 ^ k) pitch r) (beforePoints2 (realLibm 0) (2 ^ k) pitch R) := by
  have u0 := unit_nonneg (K := ℝ) p
  have us := unit_small hm hp
  have uh : 0 ≤ 1 / 2 ^ p * (pitch / 2) := by positivity
  obtain ⟨-, R0, Rh, hr⟩ := h
  have κu : κr * (1 / 2 ^ p) ≤ 1 / 2 := (mul_le_mul_of_nonneg_right (by linarith) u0).trans κ1
  unfold beforePoints2Fp beforePoints2
  rw [List.forall₂_map_left_iff, List.forall₂_map_right_iff, List.forall₂_same]
  intro s hsn
  obtain ⟨h1, h2, f1, f2⟩ := theta_trig hm hp hk ht hs (List.mem_range.1 hsn)
  dsimp only
  rw [snapTrig_zero, boundaryRadius_eq h0, m.R.id (m.R.mem _).half]
  unfold rbd
  generalize (s : ℝ) * theta (realLibm 0) (2 ^ k) = x at *
  set cs := snapTrigFp m (angle2Fp m (2 ^ k) s) with hcs
  have hM := max_large x
  have hMM := max_close h1 h2
  have hrb := boundary_off hm hp h0 f1 f2
  have hb : abs (boundaryRadiusFp m pitch cs - pitch / 2 / max |Real.cos x| |Real.sin x|) ≤ 49 * (1 / 2 ^ p) * (pitch / 2) := by
    change Off _ 1 _ (boundaryRadiusFp m pitch cs) at hrb
    generalize max |Real.cos x| |Real.sin x| = M at *
    generalize max |cs.1| |cs.2| = M' at *
    generalize boundaryRadiusFp m pitch cs = rb at *
    have hh : 0 < pitch / 2 := by linarith
    generalize pitch / 2 = hf at *
    obtain ⟨m1, m2⟩ := abs_le.1 hMM
    have M0 : 0 < M := by linarith
    have M1 : 678 / 1000 ≤ M' := by linarith
    have M1' : 0 < M' := by linarith
    have e : hf / M' - hf / M = hf * (M - M') / (M' * M) := by field_simp
    have d : |hf / M' - hf / M| ≤ 47 * (1 / 2 ^ p) * hf := by
      rw [e, abs_div, abs_mul, abs_of_pos hh, abs_of_pos (mul_pos M1' M0), div_le_iff₀ (mul_pos M1' M0), abs_sub_comm]
      have h3 : 678 / 1000 * (7 / 10) ≤ M' * M := mul_le_mul M1 hM (by norm_num) M1'.le
      have h4 : hf * |M' - M| ≤ hf * (22 * (1 / 2 ^ p)) := mul_le_mul_of_nonneg_left hMM hh.le
      have h5 := mul_le_mul_of_nonneg_left h3 (by positivity : 0 ≤ 47 * (1 / 2 ^ p) * hf)
      nlinarith
    have q : hf / M' ≤ 3 / 2 * hf := by
      rw [div_le_iff₀ M1']
      nlinarith
    unfold Off at hrb
    rw [pow_one, pow_one] at hrb
    have q2 := mul_le_mul_of_nonneg_left q u0
    obtain ⟨d1, d2⟩ := abs_le.1 d
    rw [abs_le]; constructor <;> nlinarith
  have rb1 : pitch / 2 / max |Real.cos x| |Real.sin x| ≤ 10 / 7 * (pitch / 2) := by
    rw [div_le_iff₀ (by linarith)]
    nlinarith
  have rb0 : 0 ≤ pitch / 2 / max |Real.cos x| |Real.sin x| := div_nonneg (by linarith) (by linarith)
  generalize pitch / 2 / max |Real.cos x| |Real.sin x| = rb at *
  generalize boundaryRadiusFp m pitch cs = rb' at *
  have hκ : κr * (1 / 2 ^ p) * (pitch / 2) ≤ 1 / 2 * (pitch / 2) := mul_le_mul_of_nonneg_right κu (by linarith)
  have hu : 49 * (1 / 2 ^ p) * (pitch / 2) ≤ 1 / 20 * (pitch / 2) := mul_le_mul_of_nonneg_right (by linarith) (by linarith)
  have hsum : |m.R.rnd (rb' + r) / 2 - (rb + R) / 2| ≤ (2 / 5 * κr + 22) * (1 / 2 ^ p) * (5 / 4 * (pitch / 2)) := by
    have t := Fp.rel_u m.R (by omega) (rb' + r)
    obtain ⟨a1, a2⟩ := abs_le.1 hr
    obtain ⟨b1, b2⟩ := abs_le.1 hb
    have b : |rb' + r| ≤ 3 * (pitch / 2) := by rw [abs_le]; constructor <;> linarith
    have b := mul_le_mul_of_nonneg_left b u0
    obtain ⟨c1, c2⟩ := abs_le.1 t
    rw [abs_le]; constructor <;> linarith
  have κ2 : (2 / 5 * κr + 22) * (1 / 2 ^ p) ≤ 1 := (mul_le_mul_of_nonneg_right (by linarith) u0).trans (κ1.trans (by norm_num))
  have B : (2 / 5 * κr + 22 + 47) * (1 / 2 ^ p) * (5 / 4 * (pitch / 2)) ≤ (κ + 47) * (1 / 2 ^ p) * (pitch / 2) := by
    have : 0 ≤ κr * (1 / 2 ^ p * (pitch / 2)) := by positivity
    nlinarith
  exact ⟨(mul_close m.R hp (by linarith) (by linarith) κ2 hsum (Real.abs_cos_le_one _) h1).trans B, (mul_close m.R hp (by linarith) (by linarith) κ2 hsum (Real.abs_sin_le_one _) h2).trans B⟩

omit κ1 in
theorem bd2_close : List.Forall₂ (Close ((κ + 47) * (1 / 2 ^ p) * (pitch / 2))) (boundaryPoints2Fp m (2 ^ k) pitch) (boundaryPoints2 (realLibm 0) (2 ^ k) pitch) := by
  have h := bd_close hm hp (by omega : 3 ≤ k + 1) h0 ht hs
  have e1 : boundaryPoints2Fp m (2 ^ k) pitch = boundaryPoints1Fp m (2 ^ (k + 1)) pitch := by
    unfold boundaryPoints2Fp boundaryPoints1Fp angleFp
    rw [gammaFp_eq hm hp, ← pow_succ']
  have e2 : boundaryPoints2 (realLibm 0) (2 ^ k) pitch = boundaryPoints1 (realLibm 0) (2 ^ (k + 1)) pitch := by
    unfold boundaryPoints2 boundaryPoints1
    rw [gamma_theta hm hp hk ht hs, ← pow_succ']
  rw [e1, e2]
  refine h.imp fun a b hab => hab.mono ?_
  have : 0 ≤ (1 / 2 ^ p) * (pitch / 2) := by positivity
  nlinarith

/-- All points before the shift. -/
theorem points2_close {F X E Y : List ℝ} (h : List.Forall₂ (Rad p (pitch / 2) κr) F X) (g : List.Forall₂ (Rad p (pitch / 2) κ) E Y) :
    List.Forall₂ (Close ((κ + 47) * (1 / 2 ^ p) * (pitch / 2))) (points2Fp m (2 ^ k) pitch F E) (points2 (realLibm 0) (2 ^ k) pitch X Y) := by
  have u0 := unit_nonneg (K := ℝ) p
  have zero : ∀ {κ : ℝ}, 0 ≤ κ → Rad p (pitch / 2) κ 0 0 := fun h => ⟨isFp_zero, le_rfl, by linarith, by rw [sub_self, abs_zero]; positivity⟩
  have head : ∀ {κ : ℝ} {A B : List ℝ}, 0 ≤ κ → List.Forall₂ (Rad p (pitch / 2) κ) A B → Rad p (pitch / 2) κ (A.headD 0) (B.headD 0) := by
    intro κ A B h0 h
    cases h with
    | nil => exact zero h0
    | cons h _ => exact h
  have tail : ∀ {κ : ℝ} {A B : List ℝ}, List.Forall₂ (Rad p (pitch / 2) κ) A B → List.Forall₂ (Rad p (pitch / 2) κ) A.tail B.tail := by
    intro κ A B h
    cases h with
    | nil => exact .nil
    | cons _ h => exact h
  have κ0 : 0 ≤ κ := by linarith
  unfold points2Fp points2
  refine forall₂_append (forall₂_append (forall₂_append (forall₂_append (forall₂_append ?_ ?_) ?_) ?_) ?_) ?_
  · refine .cons ⟨?_, ?_⟩ .nil <;> · rw [sub_self, abs_zero]; positivity
  · exact tri2_close hm hp hk h0 ht hs κr0 κκ κ1 (head κr0 h)
  · exact ring2_close hm hp hk h0 ht hs κr0 κκ κ1 (head κr0 h) (head κ0 g)
  · exact rings2_close hm hp hk h0 ht hs κr0 κκ κ1 (tail h) (tail g) (head κr0 h)
  · exact before2_close hm hp hk h0 ht hs κr0 κκ κ1 (forall₂_last h (zero κr0))
  · exact bd2_close hm hp hk h0 ht hs κr0 κκ

end

end Verif.FpCyl
