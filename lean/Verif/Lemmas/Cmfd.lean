import Verif.Model.Cmfd
import Mathlib.Analysis.SpecialFunctions.Trigonometric.DerivHyp
import Mathlib.Analysis.Calculus.Deriv.MeanValue
import Mathlib.Algebra.BigOperators.Fin
import Mathlib.LinearAlgebra.Matrix.ToLinearEquiv

/-! # Lemmas about the model of cmfd.cpp -/

namespace Verif.Cmfd

open Matrix

/-! ## The function `coth z - 1/z` -/

theorem sinh_lt_mul_cosh {z : ℝ} (hz : 0 < z) : Real.sinh z < z * Real.cosh z := by
  have hd : ∀ x : ℝ, HasDerivAt (fun x => x * Real.cosh x - Real.sinh x) (x * Real.sinh x) x := by
    intro x
    refine (((hasDerivAt_id x).mul (Real.hasDerivAt_cosh x)).sub (Real.hasDerivAt_sinh x)).congr_deriv ?_
    simp
  have hm : StrictMonoOn (fun x => x * Real.cosh x - Real.sinh x) (Set.Ici 0) := by
    refine strictMonoOn_of_deriv_pos (convex_Ici 0) (fun x _ => (hd x).continuousAt.continuousWithinAt) ?_
    intro x hx
    rw [interior_Ici, Set.mem_Ioi] at hx
    rw [(hd x).deriv]
    exact mul_pos hx (Real.sinh_pos_iff.2 hx)
  have := hm (Set.mem_Ici.2 le_rfl) (Set.mem_Ici.2 hz.le) hz
  simp only [zero_mul, Real.sinh_zero, sub_zero] at this
  linarith

theorem beta_neg (h mu : ℝ) : beta h (-mu) = - beta h mu := by
  unfold beta
  have e : h / (2 * -mu) = -(h / (2 * mu)) := by rw [mul_neg, div_neg]
  simp only [e, Real.tanh_neg, div_neg]
  ring

theorem beta_pos {h mu : ℝ} (hh : 0 < h) (hm : 0 < mu) : 0 < beta h mu := by
  unfold beta
  have hz : 0 < h / (2 * mu) := by positivity
  generalize h / (2 * mu) = z at hz
  have hs := Real.sinh_pos_iff.2 hz
  have hc := Real.cosh_pos z
  dsimp only
  rw [Real.tanh_eq_sinh_div_cosh, one_div_div, sub_pos, div_lt_div_iff₀ hz hs]
  have := sinh_lt_mul_cosh hz
  linarith

theorem beta_lt_one {h mu : ℝ} (hh : 0 < h) (hm : 0 < mu) : beta h mu < 1 := by
  unfold beta
  have hz : 0 < h / (2 * mu) := by positivity
  generalize h / (2 * mu) = z at hz
  have hs := Real.sinh_pos_iff.2 hz
  dsimp only
  rw [Real.tanh_eq_sinh_div_cosh, one_div_div, sub_lt_iff_lt_add, div_lt_iff₀ hs]
  have e1 : Real.cosh z = Real.sinh z + Real.exp (-z) := by rw [← Real.cosh_sub_sinh]; ring
  have h1 : z < Real.exp z * Real.sinh z := by
    have h2 := (Real.self_lt_sinh_iff).2 hz
    have h3 := Real.one_lt_exp_iff.2 hz
    nlinarith
  have h4 : z * Real.exp (-z) < Real.sinh z := by
    have := Real.exp_pos (-z)
    calc z * Real.exp (-z) < (Real.exp z * Real.sinh z) * Real.exp (-z) := by
          exact mul_lt_mul_of_pos_right h1 this
      _ = Real.sinh z := by
          rw [mul_comm (Real.exp z), mul_assoc, ← Real.exp_add]; simp
  have h5 : Real.exp (-z) < Real.sinh z / z := by rw [lt_div_iff₀ hz]; linarith
  rw [e1]
  have : (1 + 1 / z) * Real.sinh z = Real.sinh z + Real.sinh z / z := by ring
  linarith

theorem beta_double {h mu : ℝ} (hh : 0 < h) (hm : 0 < mu) : beta h mu < beta (2 * h) mu := by
  unfold beta
  have e : 2 * h / (2 * mu) = 2 * (h / (2 * mu)) := by ring
  rw [e]
  have hz : 0 < h / (2 * mu) := by positivity
  generalize h / (2 * mu) = z at hz
  have hs := Real.sinh_pos_iff.2 hz
  have hc := Real.cosh_pos z
  have h2 : 0 < 2 * z := by linarith
  have hs2 := (Real.self_lt_sinh_iff).2 h2
  rw [Real.sinh_two_mul] at hs2
  dsimp only
  rw [Real.tanh_eq_sinh_div_cosh, Real.tanh_eq_sinh_div_cosh, one_div_div, one_div_div, Real.sinh_two_mul, Real.cosh_two_mul]
  have key : Real.cosh z / Real.sinh z - (Real.cosh z ^ 2 + Real.sinh z ^ 2) / (2 * Real.sinh z * Real.cosh z) =
      1 / (2 * Real.sinh z * Real.cosh z) := by
    have := Real.cosh_sq z
    field_simp
    rw [this]; ring
  have k2 : 1 / (2 * Real.sinh z * Real.cosh z) < 1 / (2 * z) := one_div_lt_one_div_of_lt h2 hs2
  have k3 : 1 / z - 1 / (2 * z) = 1 / (2 * z) := by field_simp; norm_num
  linarith

theorem beta_ne {h mu : ℝ} (hh : 0 < h) (hm : mu ≠ 0) : beta h mu * mu > 0 := by
  rcases lt_or_gt_of_ne hm with h0 | h0
  · have := beta_pos hh (neg_pos.2 h0)
    rw [beta_neg] at this
    nlinarith
  · exact mul_pos (beta_pos hh h0) h0

/-! ## The band matrices -/

/-- The shift by one cell, with the phase `ph` across the boundary. -/
def shift {m : Nat} (ph : ℂ) : Mat m := fun i j => if j = i + 1 then (if i = Fin.last m then ph else 1) else 0

/-- Zero except on the diagonal, above it and in the lower left corner. -/
def Banded {m : Nat} (A : Mat m) : Prop := ∀ i j, j ≠ i → j ≠ i + 1 → A i j = 0

theorem fold_spec {m : Nat} (d u : ℂ) (l : List (Fin m)) (A : Mat m) (a b : Fin (m + 1)) :
    l.foldl (fun A i => set (set A i.castSucc i.succ u) i.succ i.succ d) A a b =
      if ∃ i ∈ l, a = i.castSucc ∧ b = i.succ then u
      else if ∃ i ∈ l, a = i.succ ∧ b = i.succ then d else A a b := by
  classical
  induction l generalizing A with
  | nil => simp
  | cons i l ih =>
    rw [List.foldl_cons, ih]
    by_cases h1 : ∃ i ∈ l, a = i.castSucc ∧ b = i.succ
    · rw [if_pos h1, if_pos]
      obtain ⟨k, hk, h⟩ := h1
      exact ⟨k, List.mem_cons_of_mem _ hk, h⟩
    · rw [if_neg h1]
      by_cases h2 : a = i.castSucc ∧ b = i.succ
      · rw [if_pos (⟨i, List.mem_cons_self, h2⟩ : ∃ k ∈ i :: l, a = k.castSucc ∧ b = k.succ)]
        have h3 : ¬ ∃ k ∈ l, a = k.succ ∧ b = k.succ := by
          rintro ⟨k, -, ha, hb⟩
          have : a = b := ha.trans hb.symm
          rw [h2.1, h2.2] at this
          exact absurd (congrArg Fin.val this) (by simp)
        rw [if_neg h3]
        unfold set
        rw [if_neg, if_pos h2]
        rintro ⟨ha, hb⟩
        have : a = b := ha.trans hb.symm
        rw [h2.1, h2.2] at this
        exact absurd (congrArg Fin.val this) (by simp)
      · have h3 : ¬ ∃ k ∈ i :: l, a = k.castSucc ∧ b = k.succ := by
          rintro ⟨k, hk, h⟩
          rcases List.mem_cons.1 hk with rfl | hk
          · exact h2 h
          · exact h1 ⟨k, hk, h⟩
        rw [if_neg h3]
        by_cases h4 : ∃ k ∈ l, a = k.succ ∧ b = k.succ
        · rw [if_pos h4, if_pos]
          obtain ⟨k, hk, h⟩ := h4
          exact ⟨k, List.mem_cons_of_mem _ hk, h⟩
        · rw [if_neg h4]
          unfold set
          by_cases h5 : a = i.succ ∧ b = i.succ
          · rw [if_pos h5, if_pos ⟨i, List.mem_cons_self, h5⟩]
          · rw [if_neg h5, if_neg h2, if_neg]
            rintro ⟨k, hk, h⟩
            rcases List.mem_cons.1 hk with rfl | hk
            · exact h5 h
            · exact h4 ⟨k, hk, h⟩

theorem fillBand_eq {m : Nat} (A : Mat (m + 1)) (hA : Banded A) (d u : ℂ) (ad : ℝ) :
    fillBand A d u ad = d • (1 : Mat (m + 1)) + u • shift (Complex.exp (Complex.I * ad)) := by
  funext a b
  refine (fold_spec d u _ _ a b).trans ?_
  simp only [List.mem_finRange, true_and, Matrix.add_apply, Matrix.smul_apply, smul_eq_mul]
  by_cases h1 : ∃ i : Fin (m + 1), a = i.castSucc ∧ b = i.succ
  · rw [if_pos h1]
    obtain ⟨i, rfl, rfl⟩ := h1
    have e : i.castSucc + 1 = i.succ := Fin.coeSucc_eq_succ
    rw [Matrix.one_apply_ne (by rw [← Fin.val_ne_iff]; simp)]
    unfold shift
    rw [if_pos e.symm, if_neg (Fin.castSucc_lt_last i).ne]
    ring
  · rw [if_neg h1]
    have hns : a ≠ Fin.last (m + 1) → b ≠ a + 1 := by
      intro ha hb
      obtain ⟨i, rfl⟩ := Fin.exists_castSucc_eq.2 ha
      exact h1 ⟨i, rfl, by rw [hb, Fin.coeSucc_eq_succ]⟩
    by_cases h2 : ∃ i : Fin (m + 1), a = i.succ ∧ b = i.succ
    · rw [if_pos h2]
      obtain ⟨i, rfl, rfl⟩ := h2
      rw [Matrix.one_apply_eq]
      unfold shift
      rw [if_neg]
      · ring
      · intro h
        by_cases hl : i.succ = Fin.last (m + 1)
        · rw [hl, Fin.last_add_one] at h
          exact absurd (hl.trans h) (Fin.succ_ne_zero _)
        · exact hns hl h
    · rw [if_neg h2]
      unfold set
      by_cases h3 : a = Fin.last (m + 1) ∧ b = 0
      · rw [if_pos h3]
        obtain ⟨rfl, rfl⟩ := h3
        unfold shift
        rw [Matrix.one_apply_ne (Fin.last_pos).ne', if_pos (Fin.last_add_one _).symm, if_pos rfl]
        ring
      · rw [if_neg h3]
        by_cases h4 : a = 0 ∧ b = 0
        · rw [if_pos h4]
          obtain ⟨rfl, rfl⟩ := h4
          unfold shift
          rw [Matrix.one_apply_eq, if_neg (hns (Fin.last_pos).ne)]
          ring
        · rw [if_neg h4]
          have hd : b ≠ a := by
            rintro rfl
            by_cases hb : b = 0
            · exact h4 ⟨hb, hb⟩
            · obtain ⟨i, rfl⟩ := Fin.exists_succ_eq.2 hb
              exact h2 ⟨i, rfl, rfl⟩
          have hs : b ≠ a + 1 := by
            by_cases hl : a = Fin.last (m + 1)
            · rintro rfl
              rw [hl, Fin.last_add_one] at h3
              exact h3 ⟨rfl, rfl⟩
            · exact hns hl
          rw [hA a b hd hs, Matrix.one_apply_ne hd.symm]
          unfold shift
          rw [if_neg hs]
          ring

theorem banded_band {m : Nat} (d u ph : ℂ) : Banded (d • (1 : Mat m) + u • shift ph) := by
  intro i j h1 h2
  rw [Matrix.add_apply, Matrix.smul_apply, Matrix.smul_apply, Matrix.one_apply_ne h1.symm]
  unfold shift
  rw [if_neg h2]
  simp

theorem banded_zero {m : Nat} : Banded (0 : Mat m) := fun _ _ _ _ => rfl

theorem shift_mulVec {m : Nat} (ph : ℂ) (v : Fin (m + 1) → ℂ) (i : Fin (m + 1)) :
    (shift ph *ᵥ v) i = (if i = Fin.last m then ph else 1) * v (i + 1) := by
  show ∑ j, shift ph i j * v j = _
  unfold shift
  rw [Finset.sum_eq_single (i + 1)]
  · rw [if_pos rfl]
  · intro b _ hb; rw [if_neg hb, zero_mul]
  · simp

theorem band_mulVec {m : Nat} (d u ph : ℂ) (v : Fin (m + 1) → ℂ) (i : Fin (m + 1)) :
    ((d • (1 : Mat m) + u • shift ph) *ᵥ v) i = d * v i + u * ((if i = Fin.last m then ph else 1) * v (i + 1)) := by
  rw [Matrix.add_mulVec, Pi.add_apply, Matrix.smul_mulVec, Matrix.smul_mulVec, Matrix.one_mulVec,
    Pi.smul_apply, Pi.smul_apply, shift_mulVec, smul_eq_mul, smul_eq_mul]

/-- A band matrix with different moduli on and above the diagonal is regular. -/
theorem band_det {m : Nat} (d u ph : ℂ) (hph : ‖ph‖ = 1) (h : ‖d‖ ≠ ‖u‖) :
    (d • (1 : Mat m) + u • shift ph).det ≠ 0 := by
  intro h0
  obtain ⟨v, hv, hz⟩ := Matrix.exists_mulVec_eq_zero_iff.2 h0
  have hn : ∀ i, ‖d‖ * ‖v i‖ = ‖u‖ * ‖v (i + 1)‖ := by
    intro i
    have := congrFun hz i
    rw [band_mulVec, Pi.zero_apply] at this
    have e := congrArg norm (eq_neg_of_add_eq_zero_left this)
    rw [norm_mul, norm_neg, norm_mul, norm_mul] at e
    rw [e]
    split_ifs
    · rw [hph, one_mul]
    · rw [norm_one, one_mul]
  have hs : ‖d‖ * ∑ i, ‖v i‖ = ‖u‖ * ∑ i, ‖v i‖ := by
    rw [Finset.mul_sum, Finset.sum_congr rfl (fun i _ => hn i), ← Finset.mul_sum]
    congr 1
    exact Fintype.sum_equiv (Equiv.addRight 1) _ _ (fun _ => rfl)
  have hpos : 0 < ∑ i, ‖v i‖ := by
    obtain ⟨i, hi⟩ := Function.ne_iff.1 hv
    exact Finset.sum_pos' (fun _ _ => norm_nonneg _) ⟨i, Finset.mem_univ _, norm_pos_iff.2 hi⟩
  exact h (mul_right_cancel₀ hpos.ne' hs)

theorem norm_phase (x : ℝ) : ‖Complex.exp (Complex.I * x)‖ = 1 := by
  rw [mul_comm]; exact Complex.norm_exp_ofReal_mul_I x

end Verif.Cmfd
