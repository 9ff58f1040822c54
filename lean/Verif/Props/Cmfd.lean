import Verif.Lemmas.Cmfd
import Mathlib.MeasureTheory.Integral.IntervalIntegral.FundThmCalculus
import Mathlib.Analysis.SpecialFunctions.Integrals.Basic

/-!
# C80: Fourier analysis of the CMFD iteration

Specification. In a cell of thickness `h` the angular flux `f` in direction `mu` solves the transport
equation `mu f' + sig f = sig s`. The cells are joined, and the flux after the last cell is the flux
before the first one times `exp(i α Δ)`. One transport sweep maps the sources `s` of the cells to
`c/2 Σ w_n (average of the flux in direction mu_n)`; the coarse correction adds `F` times the change.
-/

namespace Verif.Cmfd

open Matrix

/-- The transport equation in one direction. -/
def Transport (sig mu : ℝ) (s : ℂ) (f : ℝ → ℂ) : Prop :=
  ∀ x, ∃ f', HasDerivAt f f' x ∧ (mu : ℂ) * f' + sig * f x = sig * s

/-- The average over a cell. -/
noncomputable def avg (h : ℝ) (f : ℝ → ℂ) : ℂ := (1 / h : ℝ) * ∫ x in (0 : ℝ)..h, f x

/-- The flux in the cells of the slab, continuous from cell to cell and quasi-periodic. -/
structure Slab (m : Nat) (q : Params) (mu alpha : ℝ) (s : Fin (m + 1) → ℂ) (f : Fin (m + 1) → ℝ → ℂ) : Prop where
  cell : ∀ i, Transport q.sigmaT mu (s i) (f i)
  join : ∀ i : Fin m, f i.castSucc (q.h m) = f i.succ 0
  wrap : f (Fin.last m) (q.h m) = Complex.exp (Complex.I * (alpha * q.delta : ℝ)) * f 0 0

/-- The solution of the transport equation. -/
theorem transport_solution {sig mu : ℝ} (hm : mu ≠ 0) {s : ℂ} {f : ℝ → ℂ} (hf : Transport sig mu s f) (x : ℝ) :
    f x = s + (f 0 - s) * (Real.exp (-(sig / mu * x)) : ℝ) := by
  have hmc : (mu : ℂ) ≠ 0 := by exact_mod_cast hm
  have hd : ∀ x, HasDerivAt (fun x : ℝ => (f x - s) * ((Real.exp (sig / mu * x) : ℝ) : ℂ)) 0 x := by
    intro x
    obtain ⟨f', h1, h2⟩ := hf x
    have he : HasDerivAt (fun x : ℝ => Real.exp (sig / mu * x)) (Real.exp (sig / mu * x) * (sig / mu)) x := by
      have := ((hasDerivAt_id x).const_mul (sig / mu)).exp
      simpa using this
    have hec := he.ofReal_comp
    refine ((h1.sub_const s).mul hec).congr_deriv ?_
    have hf' : f' = (sig : ℂ) / mu * (s - f x) := by
      field_simp
      linear_combination h2
    rw [hf']
    push_cast
    ring
  have hc := is_const_of_deriv_eq_zero (fun x => (hd x).differentiableAt) (fun x => (hd x).deriv) x 0
  have hx : ((Real.exp (sig / mu * x) : ℝ) : ℂ) ≠ 0 := by exact_mod_cast (Real.exp_pos _).ne'
  simp only [mul_zero, Real.exp_zero, Complex.ofReal_one, mul_one] at hc
  have e : ((Real.exp (-(sig / mu * x)) : ℝ) : ℂ) = (((Real.exp (sig / mu * x) : ℝ) : ℂ))⁻¹ := by
    rw [Real.exp_neg, Complex.ofReal_inv]
  rw [e, ← hc]
  field_simp
  ring

theorem integral_exp_neg {k h : ℝ} (hk : k ≠ 0) :
    ∫ x in (0 : ℝ)..h, Real.exp (-(k * x)) = (1 - Real.exp (-(k * h))) / k := by
  have hd : ∀ x ∈ Set.uIcc 0 h, HasDerivAt (fun x : ℝ => -Real.exp (-(k * x)) / k) (Real.exp (-(k * x))) x := by
    intro x _
    have h1 : HasDerivAt (fun x : ℝ => -(k * x)) (-k) x := by
      exact (((hasDerivAt_id x).const_mul k).neg).congr_deriv (by simp)
    refine ((h1.exp.neg).div_const k).congr_deriv ?_
    field_simp
  rw [intervalIntegral.integral_eq_sub_of_hasDerivAt hd (by
    apply Continuous.intervalIntegrable; fun_prop)]
  simp only [mul_zero, neg_zero, Real.exp_zero]
  ring

/-- The average of a solution of the transport equation from its values at the edges: the weights are
those of `beta_n` at the optical thickness of the cell. The second part is the balance of the cell. -/
theorem C80_cell {sig mu h : ℝ} (hs : 0 < sig) (hm : mu ≠ 0) (hh : 0 < h) {s : ℂ} {f : ℝ → ℂ}
    (hf : Transport sig mu s f) :
    ((1 - beta (sig * h) mu) / 2 : ℝ) * f 0 + ((1 + beta (sig * h) mu) / 2 : ℝ) * f h = avg h f ∧
    (mu / (sig * h) : ℝ) * (f h - f 0) + avg h f = s := by
  obtain ⟨k, hk⟩ : ∃ k, k = sig / mu := ⟨_, rfl⟩
  have hk0 : k ≠ 0 := by rw [hk]; exact div_ne_zero hs.ne' hm
  obtain ⟨E, hE⟩ : ∃ E, E = Real.exp (-(k * h)) := ⟨_, rfl⟩
  have hE1 : E ≠ 1 := by
    rw [hE, Ne, Real.exp_eq_one_iff, neg_eq_zero]
    exact mul_ne_zero hk0 hh.ne'
  have hsol := transport_solution hm hf
  rw [← hk] at hsol
  have havg : avg h f = s + (f 0 - s) * (((1 - E) / (k * h) : ℝ) : ℂ) := by
    have e : ∀ x, f x = s + (f 0 - s) * ((Real.exp (-(k * x)) : ℝ) : ℂ) := hsol
    unfold avg
    rw [intervalIntegral.integral_congr (g := fun x => s + (f 0 - s) * ((Real.exp (-(k * x)) : ℝ) : ℂ)) (fun x _ => e x),
      intervalIntegral.integral_add (by simp) (by
        apply Continuous.intervalIntegrable; fun_prop),
      intervalIntegral.integral_const, intervalIntegral.integral_const_mul, intervalIntegral.integral_ofReal,
      integral_exp_neg hk0, ← hE, sub_zero, mul_add]
    have hhc : (h : ℂ) ≠ 0 := by exact_mod_cast hh.ne'
    have hkc : (k : ℂ) ≠ 0 := by exact_mod_cast hk0
    rw [Complex.real_smul]
    push_cast
    field_simp
  have hb : beta (sig * h) mu = (1 + E) / (1 - E) - 2 / (k * h) := by
    unfold beta
    have ez : sig * h / (2 * mu) = k * h / 2 := by rw [hk]; field_simp
    dsimp only
    rw [ez]
    obtain ⟨z, hz⟩ : ∃ z, z = k * h / 2 := ⟨_, rfl⟩
    have hz0 : z ≠ 0 := by rw [hz]; exact div_ne_zero (mul_ne_zero hk0 hh.ne') two_ne_zero
    have ekh : k * h = 2 * z := by rw [hz]; ring
    rw [← hz, ekh, Real.tanh_eq_sinh_div_cosh, one_div_div, Real.sinh_eq, Real.cosh_eq]
    have hEz : E = Real.exp (-z) * Real.exp (-z) := by
      rw [hE, ekh, ← Real.exp_add]; congr 1; ring
    have hp : Real.exp z * Real.exp (-z) = 1 := by rw [← Real.exp_add]; simp
    have hpos := Real.exp_pos (-z)
    have hne : Real.exp z - Real.exp (-z) ≠ 0 := by
      intro h0
      apply hE1
      rw [hEz]
      nlinarith
    have hne' : 1 - E ≠ 0 := sub_ne_zero.2 (Ne.symm hE1)
    have key : (Real.exp z + Real.exp (-z)) / 2 / ((Real.exp z - Real.exp (-z)) / 2) = (1 + E) / (1 - E) := by
      rw [div_div_div_cancel_right₀ two_ne_zero, div_eq_div_iff hne hne', hEz]
      linear_combination (-2 * Real.exp (-z)) * hp
    rw [key]
    field_simp
  have hfh : f h = s + (f 0 - s) * (E : ℂ) := by rw [hsol h, hE]
  have hne' : (1 - E : ℂ) ≠ 0 := by
    intro h0
    apply hE1
    have : (E : ℂ) = 1 := by linear_combination -h0
    exact_mod_cast this
  have hkh : (k : ℂ) * h ≠ 0 := by
    exact_mod_cast mul_ne_zero hk0 hh.ne'
  constructor
  · rw [havg, hfh, hb]
    push_cast
    field_simp
    ring
  · have e2 : mu / (sig * h) = 1 / (k * h) := by rw [hk]; field_simp
    rw [havg, hfh, e2]
    push_cast
    field_simp
    ring

/-! ## The matrices -/

/-- `Aₙ` for at least two cells. -/
noncomputable def specA (m : Nat) (q : Params) (mu alpha : ℝ) : Mat m :=
  (((1 - beta (q.h m) mu) / 2 : ℝ) : ℂ) • (1 : Mat m) +
    (((1 + beta (q.h m) mu) / 2 : ℝ) : ℂ) • shift (Complex.exp (Complex.I * (alpha * q.delta : ℝ)))

/-- `Bₙ` for at least two cells. -/
noncomputable def specB (m : Nat) (q : Params) (mu alpha : ℝ) : Mat m :=
  (((1 - beta (q.h m) mu) / 2 - mu / (q.sigmaT * q.h m) : ℝ) : ℂ) • (1 : Mat m) +
    (((1 + beta (q.h m) mu) / 2 + mu / (q.sigmaT * q.h m) : ℝ) : ℂ) • shift (Complex.exp (Complex.I * (alpha * q.delta : ℝ)))

theorem setAn_eq {m : Nat} (An : Mat (m + 1)) (hA : Banded An) (q : Params) (mu alpha : ℝ) :
    setAn An q mu alpha = specA (m + 1) q mu alpha := fillBand_eq An hA _ _ _

theorem setBn_eq {m : Nat} (An : Mat (m + 1)) (hA : Banded An) (q : Params) (mu alpha : ℝ) :
    setBn 0 (setAn An q mu alpha) q mu alpha = specB (m + 1) q mu alpha := by
  unfold setBn
  dsimp only
  rw [setAn_eq An hA, fillBand_eq 0 banded_zero]
  unfold specA specB
  push_cast
  module

theorem h_pos {q : Params} (hq : q.Ok) (m : Nat) : 0 < q.h m := by
  unfold Params.h
  have := hq.w
  positivity

/-- The systems solved are regular. -/
theorem specB_det (m : Nat) {q : Params} (hq : q.Ok) {mu : ℝ} (hm : mu ≠ 0) (alpha : ℝ) :
    (specB m q mu alpha).det ≠ 0 := by
  refine band_det _ _ _ (norm_phase _) ?_
  rw [Complex.norm_real, Complex.norm_real, Real.norm_eq_abs, Real.norm_eq_abs]
  intro h
  have hh := h_pos hq m
  have hb := beta_ne hh hm
  have hs : 0 < q.sigmaT * q.h m := mul_pos hq.sigmaT hh
  have hm2 : 0 < mu / (q.sigmaT * q.h m) * mu := by
    rw [div_mul_eq_mul_div]; exact div_pos (mul_self_pos.2 hm) hs
  rcases abs_eq_abs.1 h with h | h
  · have e : beta (q.h m) mu = -2 * (mu / (q.sigmaT * q.h m)) := by linarith
    rw [e] at hb
    linarith
  · linarith

/-- The band matrices applied to the fluxes at the left edges. -/
theorem slab_edges {m : Nat} {q : Params} {mu alpha : ℝ} {s : Fin (m + 1) → ℂ} {f : Fin (m + 1) → ℝ → ℂ}
    (hf : Slab m q mu alpha s f) (i : Fin (m + 1)) :
    (if i = Fin.last m then Complex.exp (Complex.I * (alpha * q.delta : ℝ)) else 1) * f (i + 1) 0 = f i (q.h m) := by
  by_cases hi : i = Fin.last m
  · rw [if_pos hi, hi, Fin.last_add_one, hf.wrap]
  · rw [if_neg hi, one_mul]
    obtain ⟨j, rfl⟩ := Fin.exists_castSucc_eq.2 hi
    rw [Fin.coeSucc_eq_succ, hf.join]

/-- `Aₙ` turns the edge fluxes into the averages and `Bₙ` into the sources. -/
theorem slab_AB {m : Nat} {q : Params} (hq : q.Ok) (h1 : q.sigmaT = 1) {mu : ℝ} (hm : mu ≠ 0) {alpha : ℝ}
    {s : Fin (m + 1) → ℂ} {f : Fin (m + 1) → ℝ → ℂ} (hf : Slab m q mu alpha s f) :
    specA m q mu alpha *ᵥ (fun i => f i 0) = (fun i => avg (q.h m) (f i)) ∧
    specB m q mu alpha *ᵥ (fun i => f i 0) = s := by
  have hc := fun i => C80_cell hq.sigmaT hm (h_pos hq m) (hf.cell i)
  constructor
  · funext i
    unfold specA
    rw [band_mulVec, slab_edges hf i, ← (hc i).1, h1, one_mul]
  · funext i
    unfold specB
    rw [band_mulVec, slab_edges hf i, ← (hc i).2, ← (hc i).1, h1, one_mul]
    push_cast
    ring

/-- The fluxes exist for all sources. -/
theorem C80_flux_exists (m : Nat) {q : Params} (hq : q.Ok) (h1 : q.sigmaT = 1) {mu : ℝ} (hm : mu ≠ 0) (alpha : ℝ)
    (s : Fin (m + 1) → ℂ) : ∃ f, Slab m q mu alpha s f := by
  obtain ⟨v, hv⟩ : ∃ v, v = (specB m q mu alpha)⁻¹ *ᵥ s := ⟨_, rfl⟩
  have hBv : specB m q mu alpha *ᵥ v = s := by
    rw [hv, Matrix.mulVec_mulVec, Matrix.mul_nonsing_inv _ (isUnit_iff_ne_zero.2 (specB_det m hq hm alpha)),
      Matrix.one_mulVec]
  have hmc : (mu : ℂ) ≠ 0 := by exact_mod_cast hm
  have hT : ∀ i, Transport q.sigmaT mu (s i) (fun x => s i + (v i - s i) * ((Real.exp (-(q.sigmaT / mu * x)) : ℝ) : ℂ)) := by
    intro i x
    have he : HasDerivAt (fun x : ℝ => Real.exp (-(q.sigmaT / mu * x)))
        (Real.exp (-(q.sigmaT / mu * x)) * (-(q.sigmaT / mu))) x := by
      have := (((hasDerivAt_id x).const_mul (q.sigmaT / mu)).neg).exp
      simpa using this
    refine ⟨_, (he.ofReal_comp.const_mul (v i - s i)).const_add (s i), ?_⟩
    push_cast
    field_simp
    ring
  -- the flux at the right edge is the next left edge flux
  have hedge : ∀ i, s i + (v i - s i) * ((Real.exp (-(q.sigmaT / mu * q.h m)) : ℝ) : ℂ) =
      (if i = Fin.last m then Complex.exp (Complex.I * (alpha * q.delta : ℝ)) else 1) * v (i + 1) := by
    intro i
    have hc := C80_cell hq.sigmaT hm (h_pos hq m) (hT i)
    have hB := congrFun hBv i
    unfold specB at hB
    rw [band_mulVec] at hB
    obtain ⟨y, hy⟩ : ∃ y, y = (if i = Fin.last m then Complex.exp (Complex.I * (alpha * q.delta : ℝ)) else 1) * v (i + 1) := ⟨_, rfl⟩
    obtain ⟨E, hE⟩ : ∃ E, E = s i + (v i - s i) * ((Real.exp (-(q.sigmaT / mu * q.h m)) : ℝ) : ℂ) := ⟨_, rfl⟩
    have hc2 := hc.2
    rw [← hc.1] at hc2
    simp only [mul_zero, neg_zero, Real.exp_zero, Complex.ofReal_one, mul_one, add_sub_cancel] at hc2
    rw [← hE, h1, one_mul] at hc2
    rw [← hy, h1, one_mul] at hB
    rw [← hy, ← hE]
    have hne : (((1 + beta (q.h m) mu) / 2 + mu / q.h m : ℝ) : ℂ) ≠ 0 := by
      have hh := h_pos hq m
      intro h0
      have h0' : (1 + beta (q.h m) mu) / 2 + mu / q.h m = 0 := by exact_mod_cast h0
      -- the weight of the outgoing flux is `1 / (1 - exp(-tau))` times a positive number
      have hc3 := C80_cell (f := fun x => ((Real.exp (-(1 / mu * x)) : ℝ) : ℂ)) (s := 0) one_pos hm hh (by
        intro x
        have he : HasDerivAt (fun x : ℝ => Real.exp (-(1 / mu * x)))
            (Real.exp (-(1 / mu * x)) * (-(1 / mu))) x := by
          have := (((hasDerivAt_id x).const_mul (1 / mu)).neg).exp
          simpa using this
        refine ⟨_, he.ofReal_comp, ?_⟩
        push_cast
        field_simp
        ring)
      have h4 := hc3.2
      rw [← hc3.1] at h4
      simp only [mul_zero, neg_zero, Real.exp_zero, Complex.ofReal_one, mul_one, one_mul] at h4
      have h5 : mu / q.h m * (Real.exp (-(1 / mu * q.h m)) - 1) + ((1 - beta (q.h m) mu) / 2 +
          (1 + beta (q.h m) mu) / 2 * Real.exp (-(1 / mu * q.h m))) = 0 := by exact_mod_cast h4
      have h6 : mu / q.h m = -((1 + beta (q.h m) mu) / 2) := by linarith
      rw [h6] at h5
      have : (1 : ℝ) = 0 := by linear_combination h5
      exact one_ne_zero this
    refine mul_left_cancel₀ hne ?_
    push_cast at hB hc2 ⊢
    linear_combination hc2 - hB
  refine ⟨_, hT, fun i => ?_, ?_⟩
  · have := hedge i.castSucc
    rw [if_neg (Fin.castSucc_lt_last i).ne, one_mul, Fin.coeSucc_eq_succ] at this
    simp only [mul_zero, neg_zero, Real.exp_zero, Complex.ofReal_one, mul_one, add_sub_cancel]
    exact this
  · have := hedge (Fin.last m)
    rw [if_pos rfl, Fin.last_add_one] at this
    simp only [mul_zero, neg_zero, Real.exp_zero, Complex.ofReal_one, mul_one, add_sub_cancel]
    exact this

/-! ## The transport sweep -/

theorem angles_fold {m : Nat} {q : Params} (hq : q.Ok) (alpha : ℝ) (quad : List (ℝ × ℝ)) (hmu : ∀ x ∈ quad, x.1 ≠ 0)
    (U An : Mat (m + 1)) (hA : Banded An) :
    ∃ An', Banded An' ∧ quad.foldlM (angleStep q alpha) (U, An) =
      some (U + (quad.map fun x => (x.2 : ℂ) • (specA (m + 1) q x.1 alpha * (specB (m + 1) q x.1 alpha)⁻¹)).sum, An') := by
  induction quad generalizing U An with
  | nil => exact ⟨An, hA, by simp⟩
  | cons x quad ih =>
    have h0 := hmu x List.mem_cons_self
    have hstep : angleStep q alpha (U, An) x =
        some (U + (x.2 : ℂ) • (specA (m + 1) q x.1 alpha * (specB (m + 1) q x.1 alpha)⁻¹), specA (m + 1) q x.1 alpha) := by
      unfold angleStep
      dsimp only
      rw [setBn_eq An hA, setAn_eq An hA, if_neg (specB_det (m + 1) hq h0 alpha)]
      rfl
    obtain ⟨An', hA', h'⟩ := ih (fun y hy => hmu y (List.mem_cons_of_mem _ hy))
      (U + (x.2 : ℂ) • (specA (m + 1) q x.1 alpha * (specB (m + 1) q x.1 alpha)⁻¹)) (specA (m + 1) q x.1 alpha)
      (banded_band _ _ _)
    refine ⟨An', hA', ?_⟩
    rw [List.foldlM_cons, hstep]
    refine h'.trans ?_
    rw [List.map_cons, List.sum_cons, add_assoc]

/-- The operator of `set_U`. -/
noncomputable def specU (m : Nat) (quad : List (ℝ × ℝ)) (q : Params) (alpha : ℝ) : Mat m :=
  ((q.c / 2 : ℝ) : ℂ) • (quad.map fun x => (x.2 : ℂ) • (specA m q x.1 alpha * (specB m q x.1 alpha)⁻¹)).sum

theorem setU_eq {m : Nat} {q : Params} (hq : q.Ok) (alpha : ℝ) (quad : List (ℝ × ℝ)) (hmu : ∀ x ∈ quad, x.1 ≠ 0)
    (An : Mat (m + 1)) (hA : Banded An) :
    ∃ An', Banded An' ∧ setU quad An q alpha = some (specU (m + 1) quad q alpha, An') := by
  obtain ⟨An', hA', h⟩ := angles_fold hq alpha quad hmu 0 An hA
  refine ⟨An', hA', ?_⟩
  unfold setU
  rw [h, zero_add]
  simp only [Option.map_some]
  congr 2
  funext i j
  unfold specU
  rw [Matrix.smul_apply, smul_eq_mul, mul_comm]

theorem list_sum_mulVec {m : Nat} (l : List (Mat m)) (v : Fin (m + 1) → ℂ) (i : Fin (m + 1)) :
    (l.sum *ᵥ v) i = (l.map fun M => (M *ᵥ v) i).sum := by
  induction l with
  | nil => simp
  | cons M l ih => rw [List.sum_cons, Matrix.add_mulVec, Pi.add_apply, ih, List.map_cons, List.sum_cons]

/-- `set_U` is one transport sweep: applied to the sources of the cells it gives `c/2` times the
weighted sum of the averages of the fluxes, whatever is left in the buffer `Aₙ` by earlier calls. For
at least two cells and `Σ_t = 1`. -/
theorem C80_sweep_partial {m : Nat} {q : Params} (hq : q.Ok) (h1 : q.sigmaT = 1) (alpha : ℝ)
    (quad : List (ℝ × ℝ)) (hmu : ∀ x ∈ quad, x.1 ≠ 0) (An : Mat (m + 1)) (hA : Banded An) :
    ∃ U An', setU quad An q alpha = some (U, An') ∧ Banded An' ∧
      ∀ (s : Fin (m + 2) → ℂ) (f : ℝ → Fin (m + 2) → ℝ → ℂ), (∀ x ∈ quad, Slab (m + 1) q x.1 alpha s (f x.1)) →
        ∀ i, (U *ᵥ s) i = ((q.c / 2 : ℝ) : ℂ) * (quad.map fun x => (x.2 : ℂ) * avg (q.h (m + 1)) (f x.1 i)).sum := by
  obtain ⟨An', hA', h⟩ := setU_eq hq alpha quad hmu An hA
  refine ⟨_, An', h, hA', fun s f hf i => ?_⟩
  unfold specU
  rw [Matrix.smul_mulVec, Pi.smul_apply, smul_eq_mul, list_sum_mulVec, List.map_map]
  congr 2
  refine List.map_congr_left fun x hx => ?_
  have hAB := slab_AB hq h1 (hmu x hx) (hf x hx)
  have hinv : (specB (m + 1) q x.1 alpha)⁻¹ *ᵥ s = fun i => f x.1 i 0 := by
    conv_lhs => rw [← hAB.2]
    rw [Matrix.mulVec_mulVec, Matrix.nonsing_inv_mul _ (isUnit_iff_ne_zero.2 (specB_det (m + 1) hq (hmu x hx) alpha)),
      Matrix.one_mulVec]
  rw [Function.comp_apply, Matrix.smul_mulVec, Pi.smul_apply, smul_eq_mul, ← Matrix.mulVec_mulVec, hinv, hAB.1]

/-! ## The coarse correction -/

/-- `getF` solves the coarse diffusion problem: for a source `c Σ_t h S e^{ikαΔ}` in coarse cell `k` the
correction is `F S e^{ikαΔ}`. It is undefined only for `c = 1` and a whole number of periods. -/
theorem C80_coarse (m : Nat) {q : Params} (hq : q.Ok) (alpha : ℝ) :
    (getF m q alpha = none ↔ q.c = 1 ∧ Real.cos (alpha * q.delta) = 1) ∧
    ∀ F, getF m q alpha = some F → ∀ (S : ℂ) (δ : ℤ → ℂ),
      (∀ k, δ k = F * S * Complex.exp (Complex.I * (k * (alpha * q.delta)))) →
      ∀ k : ℤ, -(q.D : ℂ) * (δ (k + 1) - 2 * δ k + δ (k - 1)) + ((1 - q.c) * q.delta : ℝ) * δ k =
        (q.c * q.sigmaT * q.h m : ℝ) * S * Complex.exp (Complex.I * (k * (alpha * q.delta))) := by
  have hdel : 0 < q.delta := mul_pos hq.sigmaT hq.w
  have hD : 0 < q.D := by
    unfold Params.D
    have := hq.eta0
    positivity
  have hcos := Real.cos_le_one (alpha * q.delta)
  have hc1 := hq.c1
  unfold getF
  dsimp only
  constructor
  · constructor
    · intro h
      split_ifs at h with h0
      have t1 : 0 ≤ 2 * q.D * (1 - Real.cos (alpha * q.delta)) := by
        have : 0 ≤ 1 - Real.cos (alpha * q.delta) := by linarith
        positivity
      have t2 : 0 ≤ (1 - q.c) * q.delta := mul_nonneg (by linarith) hdel.le
      have e1 : 2 * q.D * (1 - Real.cos (alpha * q.delta)) = 0 := by linarith
      have e2 : (1 - q.c) * q.delta = 0 := by linarith
      rcases mul_eq_zero.1 e2 with e2 | e2
      · rcases mul_eq_zero.1 e1 with e1 | e1
        · linarith
        · exact ⟨by linarith, by linarith⟩
      · linarith
    · rintro ⟨h1, h2⟩
      rw [if_pos]
      rw [h1, h2]; ring
  · intro F hF S δ hδ k
    split_ifs at hF with h0
    rw [Option.some.injEq] at hF
    obtain ⟨t, ht⟩ : ∃ t, t = alpha * q.delta := ⟨_, rfl⟩
    have ht' : ((alpha : ℂ) * q.delta) = t := by rw [ht]; push_cast; ring
    rw [← ht] at hF h0
    rw [hδ, hδ, hδ, ht']
    have e1 : Complex.exp (Complex.I * (((k + 1 : ℤ) : ℂ) * t)) =
        Complex.exp (Complex.I * (k * t)) * Complex.exp (t * Complex.I) := by
      rw [← Complex.exp_add]; congr 1; push_cast; ring
    have e2 : Complex.exp (Complex.I * (((k - 1 : ℤ) : ℂ) * t)) =
        Complex.exp (Complex.I * (k * t)) * Complex.exp (-(t : ℂ) * Complex.I) := by
      rw [← Complex.exp_add]; congr 1; push_cast; ring
    have e3 : Complex.exp (t * Complex.I) + Complex.exp (-(t : ℂ) * Complex.I) = 2 * (Real.cos t : ℝ) := by
      rw [Complex.ofReal_cos, Complex.two_cos]
    have hF' : F * (2 * q.D * (1 - Real.cos t) + (1 - q.c) * q.delta) = q.c * q.sigmaT * q.h m := by
      rw [← hF]; field_simp
    have hF'' : (F : ℂ) * (2 * q.D * (1 - (Real.cos t : ℝ)) + (1 - q.c) * q.delta) = q.c * q.sigmaT * q.h m := by
      exact_mod_cast hF'
    rw [e1, e2]
    push_cast at hF'' e3 ⊢
    linear_combination (S * Complex.exp (Complex.I * (k * t))) * hF'' -
      (q.D * F * S * Complex.exp (Complex.I * (k * t))) * e3

theorem diag_fold {m : Nat} (g : ℂ → ℂ) (l : List (Fin (m + 1))) (hl : l.Nodup) (U : Mat m) (a b : Fin (m + 1)) :
    l.foldl (fun U i => set U i i (g (U i i))) U a b = if a = b ∧ a ∈ l then g (U a a) else U a b := by
  induction l generalizing U with
  | nil => simp
  | cons i l ih =>
    rw [List.nodup_cons] at hl
    rw [List.foldl_cons, ih hl.2]
    unfold set
    by_cases hab : a = b
    · subst hab
      by_cases hi : a = i
      · subst hi
        simp [hl.1]
      · simp [hi]
    · have : ¬ (a = i ∧ b = i) := fun h => hab (h.1.trans h.2.symm)
      simp [hab, this]

/-- The operator of the iteration. -/
noncomputable def specOmega (m : Nat) (quad : List (ℝ × ℝ)) (q : Params) (alpha F : ℝ) : Mat m :=
  specU m quad q alpha + (F : ℂ) • (ones * (specU m quad q alpha - 1))

theorem setOmega_eq {m : Nat} {q : Params} (hq : q.Ok) (alpha : ℝ) (quad : List (ℝ × ℝ)) (hmu : ∀ x ∈ quad, x.1 ≠ 0)
    (An : Mat (m + 1)) (hA : Banded An) (F : ℝ) (hF : getF (m + 1) q alpha = some F) :
    ∃ An', Banded An' ∧ setOmega quad ones An q alpha = some (specOmega (m + 1) quad q alpha F, An') := by
  obtain ⟨An', hA', h⟩ := setU_eq hq alpha quad hmu An hA
  refine ⟨An', hA', ?_⟩
  unfold setOmega
  rw [h, hF]
  simp only [Option.bind_eq_bind, Option.bind_some, Option.pure_def]
  have e1 : ∀ U : Mat (m + 1), (List.finRange (m + 1 + 1)).foldl (fun U i => set U i i (U i i - 1)) U = U - 1 := by
    intro U
    funext a b
    rw [diag_fold (fun x => x - 1) _ (List.nodup_finRange _), Matrix.sub_apply]
    by_cases hab : a = b
    · subst hab; simp
    · simp [hab]
  have e2 : ∀ U : Mat (m + 1), (List.finRange (m + 1 + 1)).foldl (fun U i => set U i i (U i i + 1)) U = U + 1 := by
    intro U
    funext a b
    rw [diag_fold (fun x => x + 1) _ (List.nodup_finRange _), Matrix.add_apply]
    by_cases hab : a = b
    · subst hab; simp
    · simp [hab]
  rw [e1, e2]
  congr 2
  unfold specOmega
  have : (fun i j => ((ones : Mat (m + 1)) * (specU (m + 1) quad q alpha - 1)) i j * (F : ℂ) : Mat (m + 1)) =
      (F : ℂ) • (ones * (specU (m + 1) quad q alpha - 1)) := by
    funext i j
    exact mul_comm _ _
  refine (congrArg (fun X : Mat (m + 1) => X + (specU (m + 1) quad q alpha - 1) + 1) this).trans ?_
  generalize (F : ℂ) • ((ones : Mat (m + 1)) * (specU (m + 1) quad q alpha - 1)) = Y
  abel

/-- The `m + 1` fine cells fill the coarse cell. -/
theorem C80_cells (m : Nat) (q : Params) : ((List.range (m + 1)).map fun _ => q.h m).sum = q.w := by
  unfold Params.h
  rw [List.map_const', List.sum_replicate, List.length_range, nsmul_eq_mul]
  have : ((m + 1 : ℕ) : ℝ) ≠ 0 := by positivity
  field_simp

/-- Without the correction `eta` the diffusion coefficient is a third of the mean free path, in units of the cell width; the
correction is added to it. -/
theorem C80_diffusion {q : Params} (hq : q.Ok) :
    (q.eta = 0 → 3 * q.sigmaT * (q.D * q.w) = 1) ∧ 3 * q.sigmaT * q.w * (q.D - q.eta) = 1 := by
  have h1 := hq.w.ne'
  have h2 := hq.sigmaT.ne'
  have key : 3 * q.sigmaT * q.w * (q.D - q.eta) = 1 := by
    unfold Params.D Params.delta
    field_simp
    ring
  refine ⟨fun h => ?_, key⟩
  rw [h, sub_zero] at key
  linarith

/-- `set_omega`: the sweep, and to every cell `F` times the sum of the changes of the sweep. -/
theorem C80_omega {m : Nat} {q : Params} (hq : q.Ok) (alpha : ℝ) (quad : List (ℝ × ℝ)) (hmu : ∀ x ∈ quad, x.1 ≠ 0)
    (An : Mat (m + 1)) (hA : Banded An) (F : ℝ) (hF : getF (m + 1) q alpha = some F) :
    ∃ U om An', setU quad An q alpha = some (U, An') ∧ setOmega quad ones An q alpha = some (om, An') ∧
      Banded An' ∧ ∀ e i, (om *ᵥ e) i = (U *ᵥ e) i + F * ∑ j, ((U *ᵥ e) j - e j) := by
  obtain ⟨A1, h1, hU⟩ := setU_eq hq alpha quad hmu An hA
  obtain ⟨A2, h2, hom⟩ := setOmega_eq hq alpha quad hmu An hA F hF
  have : A2 = A1 := by
    unfold setOmega at hom
    rw [hU, hF] at hom
    simp only [Option.bind_eq_bind, Option.bind_some, Option.pure_def, Option.some.injEq, Prod.mk.injEq] at hom
    exact hom.2.symm
  subst this
  refine ⟨_, _, A2, hU, hom, h2, fun e i => ?_⟩
  unfold specOmega
  rw [Matrix.add_mulVec, Pi.add_apply, Matrix.smul_mulVec, Pi.smul_apply, smul_eq_mul, ← Matrix.mulVec_mulVec,
    Matrix.sub_mulVec, Matrix.one_mulVec]
  congr 2
  show ∑ j, 1 * (specU (m + 1) quad q alpha *ᵥ e - e) j = _
  simp

/-! ## The spectral radius -/

theorem larger_fold (l : List ℂ) (r : ℂ) :
    (l.foldl larger r = r ∨ l.foldl larger r ∈ l) ∧ ‖r‖ ≤ ‖l.foldl larger r‖ ∧ ∀ e ∈ l, ‖e‖ ≤ ‖l.foldl larger r‖ := by
  induction l generalizing r with
  | nil => simp
  | cons a l ih =>
    rw [List.foldl_cons]
    obtain ⟨h1, h2, h3⟩ := ih (larger r a)
    have ha : larger r a = r ∨ larger r a = a := by unfold larger; split_ifs <;> simp
    have hr : ‖r‖ ≤ ‖larger r a‖ ∧ ‖a‖ ≤ ‖larger r a‖ := by
      unfold larger
      split_ifs with h
      · exact ⟨le_of_lt h, le_rfl⟩
      · exact ⟨le_rfl, not_lt.1 h⟩
    refine ⟨?_, hr.1.trans h2, ?_⟩
    · rcases h1 with h1 | h1
      · rw [h1]
        rcases ha with h | h <;> rw [h] <;> simp
      · exact Or.inr (List.mem_cons_of_mem _ h1)
    · intro e he
      rcases List.mem_cons.1 he with rfl | he
      · exact hr.2.trans h2
      · exact h3 e he

/-- The samples of `α`: equally spaced from `0` to `π / Δ`. -/
noncomputable def sample (num : Nat) (q : Params) (i : Nat) : ℝ := i * ((Real.pi / q.delta) / ((num : ℝ) - 1))

/-- `spectral_radius` returns an eigenvalue of largest modulus over all samples of `α`; each matrix is
the one computed with fresh buffers. -/
theorem C80_radius {m : Nat} {q : Params} (hq : q.Ok) (hc : q.c < 1) (quad : List (ℝ × ℝ)) (hmu : ∀ x ∈ quad, x.1 ≠ 0)
    (eig : Mat (m + 1) → List ℂ) (num : Nat) :
    ∃ r, ∃ om : Nat → Mat (m + 1), spectralRadius quad eig num q = some r ∧
      (∀ i, (setOmega quad ones (0 : Mat (m + 1)) q (sample num q i)).map Prod.fst = some (om i)) ∧
      (r = 0 ∨ ∃ i < num, r ∈ eig (om i)) ∧ ∀ i < num, ∀ e ∈ eig (om i), ‖e‖ ≤ ‖r‖ := by
  have hF : ∀ a, ∃ F, getF (m + 1) q a = some F := by
    intro a
    have := (C80_coarse (m + 1) hq a).1
    cases h : getF (m + 1) q a with
    | none => exact absurd (this.1 h).1 hc.ne
    | some F => exact ⟨F, rfl⟩
  choose F hF using hF
  obtain ⟨om, hom⟩ : ∃ om : Nat → Mat (m + 1), om = fun i => specOmega (m + 1) quad q (sample num q i) (F (sample num q i)) := ⟨_, rfl⟩
  have key : ∀ (l : List Nat) (r : ℂ) (An : Mat (m + 1)), Banded An →
      ∃ An', l.foldlM (fun (st : ℂ × Mat (m + 1)) (i : Nat) => do
        let (om, An) ← setOmega quad ones st.2 q (i * ((Real.pi / q.delta) / ((num : ℝ) - 1)))
        return ((eig om).foldl larger st.1, An)) (r, An) = some (l.foldl (fun r i => (eig (om i)).foldl larger r) r, An') := by
    intro l
    induction l with
    | nil => intro r An _; exact ⟨An, rfl⟩
    | cons i l ih =>
      intro r An hA
      obtain ⟨A1, hA1, h1⟩ := setOmega_eq hq (sample num q i) quad hmu An hA _ (hF _)
      obtain ⟨A2, h2⟩ := ih ((eig (om i)).foldl larger r) A1 hA1
      refine ⟨A2, ?_⟩
      rw [List.foldlM_cons, List.foldl_cons]
      unfold sample at h1
      rw [h1]
      simp only [Option.bind_eq_bind, Option.bind_some, Option.pure_def]
      rw [hom] at h2 ⊢
      exact h2
  have hfold : ∀ (l : List Nat) (r : ℂ),
      (l.foldl (fun r i => (eig (om i)).foldl larger r) r = r ∨
        ∃ i ∈ l, l.foldl (fun r i => (eig (om i)).foldl larger r) r ∈ eig (om i)) ∧
      ‖r‖ ≤ ‖l.foldl (fun r i => (eig (om i)).foldl larger r) r‖ ∧
      ∀ i ∈ l, ∀ e ∈ eig (om i), ‖e‖ ≤ ‖l.foldl (fun r i => (eig (om i)).foldl larger r) r‖ := by
    intro l
    induction l with
    | nil => simp
    | cons i l ih =>
      intro r
      obtain ⟨a1, a2, a3⟩ := larger_fold (eig (om i)) r
      obtain ⟨b1, b2, b3⟩ := ih ((eig (om i)).foldl larger r)
      rw [List.foldl_cons]
      refine ⟨?_, a2.trans b2, ?_⟩
      · rcases b1 with b1 | ⟨k, hk, b1⟩
        · rw [b1]
          rcases a1 with a1 | a1
          · exact Or.inl a1
          · exact Or.inr ⟨i, List.mem_cons_self, a1⟩
        · exact Or.inr ⟨k, List.mem_cons_of_mem _ hk, b1⟩
      · intro k hk e he
        rcases List.mem_cons.1 hk with rfl | hk
        · exact (a3 e he).trans b2
        · exact b3 k hk e he
  obtain ⟨A', hA'⟩ := key (List.range num) 0 0 banded_zero
  obtain ⟨c1, -, c3⟩ := hfold (List.range num) 0
  refine ⟨(List.range num).foldl (fun r i => (eig (om i)).foldl larger r) 0, om, ?_, ?_, ?_, ?_⟩
  · unfold spectralRadius
    dsimp only
    rw [hA']
    rfl
  · intro i
    obtain ⟨A1, -, h1⟩ := setOmega_eq hq (sample num q i) quad hmu (0 : Mat (m + 1)) banded_zero _ (hF _)
    rw [h1, hom]
    rfl
  · rcases c1 with c1 | ⟨i, hi, c1⟩
    · exact Or.inl c1
    · exact Or.inr ⟨i, List.mem_range.1 hi, c1⟩
  · exact fun i hi => c3 i (List.mem_range.2 hi)

/-! ## Where the code falls short -/

/-- `c = 1` is accepted by the constructor, but the first sample `α = 0` then divides by zero. -/
theorem C80_c1_fails {m : Nat} {q : Params} (hq : q.Ok) (hc : q.c = 1) (quad : List (ℝ × ℝ)) (hmu : ∀ x ∈ quad, x.1 ≠ 0)
    (eig : Mat (m + 1) → List ℂ) (num : Nat) (hn : 0 < num) : spectralRadius quad eig num q = none := by
  obtain ⟨n, rfl⟩ : ∃ n, num = n + 1 := ⟨num - 1, by omega⟩
  obtain ⟨A1, -, hU⟩ := setU_eq hq 0 quad hmu (0 : Mat (m + 1)) banded_zero
  have hF : getF (m + 1) q 0 = none := (C80_coarse (m + 1) hq 0).1.2 ⟨hc, by simp⟩
  unfold spectralRadius
  dsimp only
  rw [List.range_succ_eq_map, List.foldlM_cons]
  have : setOmega quad ones (0 : Mat (m + 1)) q (((0 : Nat) : ℝ) * ((Real.pi / q.delta) / (((n + 1 : Nat) : ℝ) - 1))) = none := by
    unfold setOmega
    rw [Nat.cast_zero, zero_mul, hU, hF]
    rfl
  rw [this]
  rfl

/-- One fine cell per coarse cell: the corner overwrites the diagonal, and a constant flux is not
averaged to itself. -/
theorem C80_one_cell_fails {q : Params} (hq : q.Ok) {mu : ℝ} (hm : 0 < mu) :
    Transport q.sigmaT mu 1 (fun _ => 1) ∧ Slab 0 q mu 0 (fun _ => 1) (fun _ _ => 1) ∧
    (setAn 0 q mu 0 *ᵥ fun _ : Fin 1 => (1 : ℂ)) 0 ≠ avg (q.h 0) (fun _ => 1) := by
  have hT : Transport q.sigmaT mu 1 (fun _ => 1) := fun x => ⟨0, hasDerivAt_const x 1, by simp⟩
  refine ⟨hT, ⟨fun _ => hT, fun i => i.elim0, by simp⟩, ?_⟩
  have hh := h_pos hq 0
  have hA : setAn (0 : Mat 0) q mu 0 0 0 = (((1 + beta (q.h 0) mu) / 2 : ℝ) : ℂ) := by
    show (set (set (0 : Mat 0) 0 0 (((1 - beta (q.h 0) mu) / 2 : ℝ) : ℂ)) (Fin.last 0) 0
      ((((1 + beta (q.h 0) mu) / 2 : ℝ) : ℂ) * Complex.exp (Complex.I * ((0 * q.delta : ℝ) : ℂ)))) 0 0 = _
    unfold set
    simp
  have e : (setAn (0 : Mat 0) q mu 0 *ᵥ fun _ : Fin 1 => (1 : ℂ)) 0 = setAn (0 : Mat 0) q mu 0 0 0 := by
    show ∑ j : Fin 1, setAn (0 : Mat 0) q mu 0 0 j * 1 = _
    simp
  have ha : avg (q.h 0) (fun _ => 1) = 1 := by
    unfold avg
    rw [intervalIntegral.integral_const, sub_zero, Complex.real_smul, mul_one, ← Complex.ofReal_mul, one_div,
      inv_mul_cancel₀ hh.ne', Complex.ofReal_one]
  rw [e, hA, ha]
  intro h
  have h' : (1 + beta (q.h 0) mu) / 2 = 1 := by exact_mod_cast h
  have := beta_lt_one hh hm
  linarith

/-- For `Σ_t = 2` the averages are not those of the transport equation: `beta_n` is evaluated at the
thickness of the cell instead of its optical thickness. -/
theorem C80_sigma_fails {mu : ℝ} (hm : 0 < mu) {h : ℝ} (hh : 0 < h) :
    ∃ f, Transport 2 mu 0 f ∧
      ((1 - beta h mu) / 2 : ℝ) * f 0 + ((1 + beta h mu) / 2 : ℝ) * f h ≠ avg h f := by
  have hmc : (mu : ℂ) ≠ 0 := by exact_mod_cast hm.ne'
  have hT : Transport 2 mu 0 (fun x => ((Real.exp (-(2 / mu * x)) : ℝ) : ℂ)) := by
    intro x
    have he : HasDerivAt (fun x : ℝ => Real.exp (-(2 / mu * x))) (Real.exp (-(2 / mu * x)) * (-(2 / mu))) x := by
      have := (((hasDerivAt_id x).const_mul (2 / mu)).neg).exp
      simpa using this
    refine ⟨_, he.ofReal_comp, ?_⟩
    push_cast
    field_simp
    ring
  refine ⟨_, hT, ?_⟩
  rw [← (C80_cell two_pos hm.ne' hh hT).1]
  simp only [mul_zero, neg_zero, Real.exp_zero]
  intro h0
  have h1 : (1 - beta h mu) / 2 * 1 + (1 + beta h mu) / 2 * Real.exp (-(2 / mu * h)) =
      (1 - beta (2 * h) mu) / 2 * 1 + (1 + beta (2 * h) mu) / 2 * Real.exp (-(2 / mu * h)) := by exact_mod_cast h0
  have h2 := beta_double hh hm
  have h3 : Real.exp (-(2 / mu * h)) < 1 := by
    rw [Real.exp_lt_one_iff]
    have : 0 < 2 / mu * h := by positivity
    linarith
  nlinarith

/-- Parameters and a quadrature that meet the hypotheses. -/
example : ∃ q : Params, q.Ok ∧ q.sigmaT = 1 ∧ q.c < 1 ∧ ∀ x ∈ [((-(1 / 2) : ℝ), (1 : ℝ)), (1 / 2, 1)], x.1 ≠ 0 :=
  ⟨⟨1, 1, 1 / 2, 0⟩, ⟨by norm_num, by norm_num, by norm_num, by norm_num, by norm_num⟩, rfl, by norm_num, by simp⟩

end Verif.Cmfd
