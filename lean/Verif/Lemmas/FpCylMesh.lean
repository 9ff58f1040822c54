import Verif.Lemmas.FpCylPoints

/-! The vertices of cylindrical pin meshes, in floating-point arithmetic. -/

set_option linter.unusedSectionVars false

namespace Verif.FpCyl

open Verif.Fp Verif.Pin Verif.PinArea Verif.PropsPinArea Verif.PropsPinAccept

variable {p : ℕ}

/-- Both coordinates are within a bound of those of another point. -/
def Close (B : ℝ) (v q : ℝ × ℝ) : Prop := |v.1 - q.1| ≤ B ∧ |v.2 - q.2| ≤ B

theorem Close.mono {B B' : ℝ} (h : B ≤ B') {v q : ℝ × ℝ} (c : Close B v q) : Close B' v q := ⟨c.1.trans h, c.2.trans h⟩

/-- The product of a radius and a cosine. -/
theorem mul_close (R : Rounding ℝ p) (hp : 10 ≤ p) {E e c c' h κ : ℝ} (E0 : 0 ≤ E) (Eh : E ≤ h) (κ0 : κ * (1 / 2 ^ p) ≤ 1) (he : |e - E| ≤ κ * (1 / 2 ^ p) * h)
    (hc : |c| ≤ 1) (hc' : |c' - c| ≤ 22 * (1 / 2 ^ p)) : |R.rnd (e * c') - E * c| ≤ (κ + 47) * (1 / 2 ^ p) * h := by
  have u0 := unit_nonneg (K := ℝ) p
  have us : (1 : ℝ) / 2 ^ p ≤ 1 / 1024 := by
    refine one_div_le_one_div_of_le (by norm_num) ?_
    calc (1024 : ℝ) = 2 ^ 10 := by norm_num
      _ ≤ 2 ^ p := pow_le_pow_right₀ (by norm_num) hp
  have r := Fp.rel_u R (by omega) (e * c')
  set u : ℝ := 1 / 2 ^ p
  have h0 : 0 ≤ h := E0.trans Eh
  have he2 : |e| ≤ 2 * h := by
    have t := abs_sub_abs_le_abs_sub e E
    rw [abs_of_nonneg E0] at t
    have : κ * u * h ≤ 1 * h := mul_le_mul_of_nonneg_right κ0 h0
    linarith
  have hc2 : |c'| ≤ 103 / 100 := by
    have t := abs_sub_abs_le_abs_sub c' c
    linarith
  have a1 : |e * c'| ≤ 2 * h * (103 / 100) := by
    rw [abs_mul]
    exact mul_le_mul he2 hc2 (abs_nonneg _) (by linarith)
  have a2 : |e * (c' - c)| ≤ 2 * h * (22 * u) := by
    rw [abs_mul]
    exact mul_le_mul he2 hc' (abs_nonneg _) (by linarith)
  have a3 : |(e - E) * c| ≤ κ * u * h := by
    rw [abs_mul]
    exact (mul_le_of_le_one_right (abs_nonneg _) hc).trans he
  have e1 : R.rnd (e * c') - E * c = (R.rnd (e * c') - e * c') + (e * (c' - c) + (e - E) * c) := by ring
  rw [e1]
  have t1 := abs_add_le (R.rnd (e * c') - e * c') (e * (c' - c) + (e - E) * c)
  have t2 := abs_add_le (e * (c' - c)) ((e - E) * c)
  have a4 : u * |e * c'| ≤ u * (2 * h * (103 / 100)) := mul_le_mul_of_nonneg_left a1 u0
  have uh : 0 ≤ u * h := mul_nonneg u0 h0
  nlinarith

theorem min_off {u : ℝ} (u0 : 0 ≤ u) (u1 : u ≤ 1) {k : ℕ} {a b a' b' : ℝ} (h : Off u k a a') (g : Off u k b b') : Off u k (min a b) (if b' < a' then b' else a') := by
  have l0 : 0 ≤ (1 - u) ^ k := pow_nonneg (by linarith) k
  have l1 : 0 ≤ (1 + u) ^ k := pow_nonneg (by linarith) k
  constructor
  · split
    · exact (mul_le_mul_of_nonneg_right (min_le_right a b) l0).trans g.1
    · exact (mul_le_mul_of_nonneg_right (min_le_left a b) l0).trans h.1
  · rcases min_cases a b with ⟨e, -⟩ | ⟨e, -⟩
    · rw [e]
      split
      · rename_i hlt; exact hlt.le.trans h.2
      · exact h.2
    · rw [e]
      split
      · exact g.2
      · rename_i hlt; exact (not_lt.1 hlt).trans g.2

section
variable {m : FpLibm ℝ p} (hm : Good m) (hp : 10 ≤ p)
include hm hp

theorem snap_fp {x : ℝ} (h : IsFp p x) : IsFp p (snapFp m x) := by
  unfold snapFp
  split
  · exact isFp_zero
  · exact h

theorem side_off {pitch c : ℝ} (h0 : 0 < pitch) (hc : IsFp p c) : Off (1 / 2 ^ p) 1 (pitch / 2 / |c|) (sideFp m pitch c) := by
  have u0 := unit_nonneg (K := ℝ) p
  have r := Fp.rel_u m.R (by omega) (pitch / (2 * c))
  have e : pitch / 2 / |c| = |pitch / (2 * c)| := by rw [abs_div, abs_mul, abs_of_pos h0, abs_of_pos (by norm_num : (0 : ℝ) < 2)]; field_simp
  unfold sideFp
  rw [m.R.id hc.double, e]
  unfold Off
  rw [pow_one, pow_one]
  have t := abs_abs_sub_abs_le (m.R.rnd (pitch / (2 * c))) (pitch / (2 * c))
  obtain ⟨t1, t2⟩ := abs_le.1 (t.trans r)
  constructor <;> linarith

/-- The distance of the boundary. -/
theorem boundary_off {pitch c s : ℝ} (h0 : 0 < pitch) (hc : IsFp p c) (hs : IsFp p s) :
    Off (1 / 2 ^ p) 1 (pitch / 2 / max |c| |s|) (boundaryRadiusFp m pitch (c, s)) := by
  have u0 := unit_nonneg (K := ℝ) p
  have u1 := unit_le (K := ℝ) p
  unfold boundaryRadiusFp
  dsimp only
  by_cases c0 : c = 0
  · rw [if_pos c0, c0, abs_zero, max_eq_right (abs_nonneg _)]
    exact side_off hm hp h0 hs
  · rw [if_neg c0]
    by_cases s0 : s = 0
    · rw [if_pos s0, s0, abs_zero, max_eq_left (abs_nonneg _)]
      exact side_off hm hp h0 hc
    · rw [if_neg s0]
      have := min_off u0 u1 (side_off hm hp h0 hc) (side_off hm hp h0 hs)
      have e : min (pitch / 2 / |c|) (pitch / 2 / |s|) = pitch / 2 / max |c| |s| := by
        have c1 := abs_pos.2 c0
        have s1 := abs_pos.2 s0
        rcases le_total |c| |s| with h | h
        · rw [max_eq_right h, min_eq_right (div_le_div_of_nonneg_left (by linarith) c1 h)]
        · rw [max_eq_left h, min_eq_left (div_le_div_of_nonneg_left (by linarith) s1 h)]
      rwa [e] at this

omit hm in
/-- A coordinate of a boundary point: `M` and `M'` are the larger ones of the exact and the rounded cosine and sine. -/
theorem boundary_coord (R : Rounding ℝ p) {h c c' M M' rb : ℝ} (h0 : 0 ≤ h) (hM : 7 / 10 ≤ M) (hcM : |c| ≤ M) (hcM' : |c'| ≤ M') (hc : |c' - c| ≤ 22 * (1 / 2 ^ p))
    (hMM : |M' - M| ≤ 22 * (1 / 2 ^ p)) (hrb : Off (1 / 2 ^ p) 1 (h / M') rb) : |R.rnd (rb * c') - h / M * c| ≤ 70 * (1 / 2 ^ p) * h := by
  have u0 := unit_nonneg (K := ℝ) p
  have us : (1 : ℝ) / 2 ^ p ≤ 1 / 1024 := by
    refine one_div_le_one_div_of_le (by norm_num) ?_
    calc (1024 : ℝ) = 2 ^ 10 := by norm_num
      _ ≤ 2 ^ p := pow_le_pow_right₀ (by norm_num) hp
  have r := Fp.rel_u R (by omega) (rb * c')
  set u : ℝ := 1 / 2 ^ p
  obtain ⟨m1, m2⟩ := abs_le.1 hMM
  have M0 : 0 < M := by linarith
  have M1 : 67 / 100 ≤ M' := by linarith
  have M1' : 0 < M' := by linarith
  unfold Off at hrb
  rw [pow_one, pow_one] at hrb
  have q0 : 0 ≤ h / M' := div_nonneg h0 M1'.le
  have rb1 : |rb - h / M'| ≤ u * (h / M') := by rw [abs_le]; constructor <;> linarith [hrb.1, hrb.2]
  have hq : h / M' * M' = h := div_mul_cancel₀ _ M1'.ne'
  have a1 : |(rb - h / M') * c'| ≤ u * h := by
    rw [abs_mul]
    calc |rb - h / M'| * |c'| ≤ u * (h / M') * M' := mul_le_mul rb1 hcM' (abs_nonneg _) (by positivity)
      _ = u * h := by rw [mul_assoc, hq]
  have a2 : |h / M' * c' - h / M * c| ≤ 66 * u * h := by
    have e : h / M' * c' - h / M * c = h / M' * ((c' - c) - c / M * (M' - M)) := by field_simp; ring
    have b1 : |c / M| ≤ 1 := by rw [abs_div, abs_of_pos M0, div_le_one M0]; exact hcM
    have b2 : |(c' - c) - c / M * (M' - M)| ≤ 44 * u := by
      have t := abs_sub (c' - c) (c / M * (M' - M))
      have b3 : |c / M * (M' - M)| ≤ 22 * u := by
        rw [abs_mul]
        calc |c / M| * |M' - M| ≤ 1 * (22 * u) := mul_le_mul b1 hMM (abs_nonneg _) (by norm_num)
          _ = _ := one_mul _
      linarith
    have b4 : h / M' ≤ h * (3 / 2) := by
      rw [div_le_iff₀ M1']
      have : 1 ≤ 3 / 2 * M' := by linarith
      have := mul_le_mul_of_nonneg_left this h0
      linarith
    rw [e, abs_mul, abs_of_nonneg q0]
    calc h / M' * |(c' - c) - c / M * (M' - M)| ≤ h * (3 / 2) * (44 * u) := mul_le_mul b4 b2 (abs_nonneg _) (by positivity)
      _ = 66 * u * h := by ring
  have a3 : |rb * c'| ≤ 2 * h := by
    have t := abs_add_le ((rb - h / M') * c') (h / M' * c')
    have e : (rb - h / M') * c' + h / M' * c' = rb * c' := by ring
    rw [e] at t
    have : |h / M' * c'| ≤ h := by
      rw [abs_mul, abs_of_nonneg q0]
      calc h / M' * |c'| ≤ h / M' * M' := mul_le_mul_of_nonneg_left hcM' q0
        _ = h := hq
    nlinarith
  have a4 : u * |rb * c'| ≤ u * (2 * h) := mul_le_mul_of_nonneg_left a3 u0
  have e1 : R.rnd (rb * c') - h / M * c = (R.rnd (rb * c') - rb * c') + ((rb - h / M') * c' + (h / M' * c' - h / M * c)) := by ring
  rw [e1]
  have t1 := abs_add_le (R.rnd (rb * c') - rb * c') ((rb - h / M') * c' + (h / M' * c' - h / M * c))
  have t2 := abs_add_le ((rb - h / M') * c') (h / M' * c' - h / M * c)
  have uh : 0 ≤ u * h := mul_nonneg u0 h0
  nlinarith

end

theorem max_large (x : ℝ) : 7 / 10 ≤ max |Real.cos x| |Real.sin x| := by
  by_contra hc
  push Not at hc
  obtain ⟨h1, h2⟩ := max_lt_iff.1 hc
  have e := Real.sin_sq_add_cos_sq x
  rw [← sq_abs (Real.sin x), ← sq_abs (Real.cos x)] at e
  have := abs_nonneg (Real.sin x)
  have := abs_nonneg (Real.cos x)
  nlinarith

theorem max_close {a b a' b' d : ℝ} (h1 : |a' - a| ≤ d) (h2 : |b' - b| ≤ d) : abs (max |a'| |b'| - max |a| |b|) ≤ d := by
  have t1 := (abs_abs_sub_abs_le a' a).trans h1
  have t2 := (abs_abs_sub_abs_le b' b).trans h2
  exact (abs_max_sub_max_le_max _ _ _ _).trans (max_le t1 t2)

/-- The tolerance fits a pin and the precision: see `C142_vertices`. -/
structure Fits (p : ℕ) (eps pitch : ℝ) (radii : List ℝ) (na N : ℕ) : Prop where
  trig : eps + 22 / 2 ^ p ≤ 2 / na
  snap : 22 / 2 ^ p < eps
  side : 2 * eps ≤ pitch / (2 * na)
  away : ∀ r ∈ radii, factor1 na * r + 2 * eps ≤ pitch / 2
  few : (4 * N + 40) / 2 ^ p * pitch < eps

section
variable {m : FpLibm ℝ p} (hm : Good m) (hp : 10 ≤ p) {k : ℕ} (hk : 3 ≤ k) {pitch : ℝ} (h0 : 0 < pitch) (ht : m.eps + 22 * (1 / 2 ^ p) ≤ 2 / ((2 ^ k : ℕ) : ℝ)) (hs : 22 * (1 / 2 ^ p) < m.eps)
include hm hp hk ht hs

theorem na_le : 2 ^ k ≤ 2 ^ p := by
  have u0 := unit_nonneg (K := ℝ) p
  have k0 : (0 : ℝ) < ((2 ^ k : ℕ) : ℝ) := by positivity
  have h1 : 44 * (1 / 2 ^ p) ≤ 2 / ((2 ^ k : ℕ) : ℝ) := by linarith
  rw [mul_one_div, div_le_div_iff₀ (by positivity) k0] at h1
  have h2 : ((2 ^ k : ℕ) : ℝ) ≤ ((2 ^ p : ℕ) : ℝ) := by
    push_cast at h1 ⊢
    have : (0 : ℝ) < 2 ^ k := by positivity
    linarith
  exact_mod_cast h2

/-- The cosines and sines after the tests. -/
theorem trig_close {s : ℕ} (hsn : s < 2 ^ k) :
    |(snapTrigFp m (angleFp m (2 ^ k) s)).1 - Real.cos (theta (realLibm 0) (2 ^ k) * s)| ≤ 22 * (1 / 2 ^ p) ∧
    |(snapTrigFp m (angleFp m (2 ^ k) s)).2 - Real.sin (theta (realLibm 0) (2 ^ k) * s)| ≤ 22 * (1 / 2 ^ p) ∧
    IsFp p (snapTrigFp m (angleFp m (2 ^ k) s)).1 ∧ IsFp p (snapTrigFp m (angleFp m (2 ^ k) s)).2 := by
  have hle := na_le hm hp hk ht hs
  obtain ⟨h1, h2⟩ := angle_trig hm hp hsn (by omega)
  have n0 : 0 < 2 ^ k := by positivity
  have n2 : 2 ^ k % 2 = 0 := by
    obtain ⟨j, rfl⟩ : ∃ j, k = j + 1 := ⟨k - 1, by omega⟩
    rw [pow_succ]; omega
  have f1 : Real.cos (theta (realLibm 0) (2 ^ k) * s) ≠ 0 → 2 / ((2 ^ k : ℕ) : ℝ) ≤ |Real.cos (theta (realLibm 0) (2 ^ k) * s)| := by
    rw [theta_eq]; exact cos_far n0 n2 _
  have f2 : Real.sin (theta (realLibm 0) (2 ^ k) * s) ≠ 0 → 2 / ((2 ^ k : ℕ) : ℝ) ≤ |Real.sin (theta (realLibm 0) (2 ^ k) * s)| := by
    rw [theta_eq]; exact sin_far n0 _
  have fp : IsFp p (angleFp m (2 ^ k) s) := m.R.mem _
  exact ⟨(snap_close hm hp h1 f1 hs ht).1, (snap_close hm hp h2 f2 hs ht).1, snap_fp hm hp (hm.cos_fp _ fp), snap_fp hm hp (hm.sin_fp _ fp)⟩

theorem ring_close {E e κ : ℝ} (E0 : 0 ≤ E) (Eh : E ≤ pitch / 2) (κ0 : κ * (1 / 2 ^ p) ≤ 1) (he : |e - E| ≤ κ * (1 / 2 ^ p) * (pitch / 2)) :
    List.Forall₂ (Close ((κ + 47) * (1 / 2 ^ p) * (pitch / 2))) (ringPoints1Fp m (2 ^ k) e) (ringPoints1 (realLibm 0) (2 ^ k) E) := by
  unfold ringPoints1Fp ringPoints1
  rw [List.forall₂_map_left_iff, List.forall₂_map_right_iff, List.forall₂_same]
  intro s hsn
  obtain ⟨h1, h2, -, -⟩ := trig_close hm hp hk ht hs (List.mem_range.1 hsn)
  rw [snapTrig_zero]
  exact ⟨mul_close m.R hp E0 Eh κ0 he (Real.abs_cos_le_one _) h1, mul_close m.R hp E0 Eh κ0 he (Real.abs_sin_le_one _) h2⟩

theorem tri_close {E e κ : ℝ} (E0 : 0 ≤ E) (Eh : E / 2 ≤ pitch / 2) (κ0 : κ * (1 / 2 ^ p) ≤ 1) (he : |m.R.rnd (e / 2) - E / 2| ≤ κ * (1 / 2 ^ p) * (pitch / 2)) :
    List.Forall₂ (Close ((κ + 47) * (1 / 2 ^ p) * (pitch / 2))) (triPoints1Fp m (2 ^ k) e) (triPoints1 (realLibm 0) (2 ^ k) E) := by
  unfold triPoints1Fp triPoints1
  rw [List.forall₂_map_left_iff, List.forall₂_map_right_iff, List.forall₂_same]
  intro s hsn
  have hsn := List.mem_range.1 hsn
  have hle := na_le hm hp hk ht hs
  obtain ⟨h1, h2⟩ := angle_trig hm hp (s := 2 * s + 1) (k := k) (by omega) (by omega)
  rw [angleTri hm hp (by omega)]
  have e1 : ((2 * s + 1 : ℕ) : ℝ) = 2 * (s : ℝ) + 1 := by push_cast; ring
  rw [e1] at h1 h2
  exact ⟨mul_close m.R hp (by linarith) Eh κ0 he (Real.abs_cos_le_one _) h1, mul_close m.R hp (by linarith) Eh κ0 he (Real.abs_sin_le_one _) h2⟩

include h0 in
theorem bd_close : List.Forall₂ (Close (70 * (1 / 2 ^ p) * (pitch / 2))) (boundaryPoints1Fp m (2 ^ k) pitch) (boundaryPoints1 (realLibm 0) (2 ^ k) pitch) := by
  unfold boundaryPoints1Fp boundaryPoints1
  rw [List.forall₂_map_left_iff, List.forall₂_map_right_iff, List.forall₂_same]
  intro s hsn
  obtain ⟨h1, h2, f1, f2⟩ := trig_close hm hp hk ht hs (List.mem_range.1 hsn)
  rw [snapTrig_zero, boundaryRadius_eq h0]
  unfold rbd
  generalize theta (realLibm 0) (2 ^ k) * s = x at *
  set cs := snapTrigFp m (angleFp m (2 ^ k) s) with hcs
  have hM := max_large x
  have hMM := max_close h1 h2
  have hrb := boundary_off hm hp h0 f1 f2
  exact ⟨boundary_coord hp m.R (by linarith) hM (le_max_left _ _) (le_max_left _ _) h1 hMM hrb,
    boundary_coord hp m.R (by linarith) hM (le_max_right _ _) (le_max_right _ _) h2 hMM hrb⟩

include h0 in
/-- All points before the shift. -/
theorem points_close {κ : ℝ} (κ1 : 23 ≤ κ) (κ0 : κ * (1 / 2 ^ p) ≤ 1) {F X : List ℝ}
    (h : List.Forall₂ (fun e E => 0 ≤ E ∧ E ≤ pitch / 2 ∧ |e - E| ≤ κ * (1 / 2 ^ p) * (pitch / 2) ∧ |m.R.rnd (e / 2) - E / 2| ≤ κ * (1 / 2 ^ p) * (pitch / 2)) F X) :
    List.Forall₂ (Close ((κ + 47) * (1 / 2 ^ p) * (pitch / 2))) (points1Fp m (2 ^ k) pitch F) (points1 (realLibm 0) (2 ^ k) pitch X) := by
  have u0 := unit_nonneg (K := ℝ) p
  have app : ∀ {r : ℝ × ℝ → ℝ × ℝ → Prop} {a b c d : List (ℝ × ℝ)}, List.Forall₂ r a b → List.Forall₂ r c d → List.Forall₂ r (a ++ c) (b ++ d) := by
    intro r a b c d h1 h2
    induction h1 with
    | nil => exact h2
    | cons h _ ih => exact .cons h ih
  unfold points1Fp points1
  refine app (app (app ?_ ?_) ?_) ?_
  · refine .cons ⟨?_, ?_⟩ .nil <;> · rw [sub_self, abs_zero]; positivity
  · cases h with
    | nil =>
      refine tri_close hm hp hk ht hs le_rfl (by simp; linarith) κ0 ?_
      rw [List.headD_nil, zero_div, m.R.zero, sub_self, abs_zero]; positivity
    | cons h _ =>
      exact tri_close hm hp hk ht hs h.1 (by simp only [List.headD_cons]; linarith [h.1, h.2.1]) κ0 h.2.2.2
  · induction h with
    | nil => exact .nil
    | cons h _ ih =>
      rw [List.flatMap_cons, List.flatMap_cons]
      exact app (ring_close hm hp hk ht hs h.1 h.2.1 κ0 h.2.2.1) ih
  · refine (bd_close hm hp hk h0 ht hs).imp fun a b hab => hab.mono ?_
    have : 0 ≤ (1 / 2 ^ p) * (pitch / 2) := by positivity
    nlinarith

end

/-- A coordinate after the shift. -/
theorem shift_coord (m : FpLibm ℝ p) (hp : 10 ≤ p) {pitch v q B : ℝ} (h0 : 0 < pitch) (hfp : IsFp p pitch) (hq : |q| ≤ pitch / 2) (hB : B ≤ pitch / 2) (hv : |v - q| ≤ B)
    (hk : q + pitch / 2 ≠ 0 → 2 * m.eps ≤ |q + pitch / 2|) (he : B + 2 * (1 / 2 ^ p) * pitch < m.eps) :
    |snapFp m (m.R.rnd (v + m.R.rnd (pitch / 2))) - (q + pitch / 2)| ≤ B + 2 * (1 / 2 ^ p) * pitch ∧
      (snapFp m (m.R.rnd (v + m.R.rnd (pitch / 2))) = 0 ↔ q + pitch / 2 = 0) := by
  have u0 := unit_nonneg (K := ℝ) p
  rw [m.R.id hfp.half]
  have r := Fp.rel_u m.R (by omega) (v + pitch / 2)
  have B0 : 0 ≤ B := (abs_nonneg _).trans hv
  set u : ℝ := 1 / 2 ^ p
  have hvb : |v + pitch / 2| ≤ 2 * pitch := by
    obtain ⟨a1, a2⟩ := abs_le.1 hq
    obtain ⟨b1, b2⟩ := abs_le.1 hv
    rw [abs_le]; constructor <;> linarith
  have r2 : |m.R.rnd (v + pitch / 2) - (q + pitch / 2)| ≤ B + 2 * u * pitch := by
    have t := abs_sub_le (m.R.rnd (v + pitch / 2)) (v + pitch / 2) (q + pitch / 2)
    have e : v + pitch / 2 - (q + pitch / 2) = v - q := by ring
    rw [e] at t
    have := mul_le_mul_of_nonneg_left hvb u0
    linarith
  unfold snapFp
  by_cases hz : q + pitch / 2 = 0
  · rw [hz, sub_zero] at r2 ⊢
    rw [if_pos (by linarith)]
    refine ⟨?_, by simp⟩
    rw [abs_zero]
    positivity
  · have hk := hk hz
    have t := abs_sub_abs_le_abs_sub (q + pitch / 2) (m.R.rnd (v + pitch / 2))
    rw [abs_sub_comm] at t
    have e0 : 0 ≤ 2 * u * pitch := by positivity
    rw [if_neg (by linarith)]
    refine ⟨r2, ?_⟩
    constructor
    · intro hc
      rw [hc, abs_zero] at t
      rw [hc] at r2
      exfalso
      linarith
    · intro hc; exact absurd hc hz

end Verif.FpCyl
