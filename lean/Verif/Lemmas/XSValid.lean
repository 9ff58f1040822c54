import Mathlib.Algebra.BigOperators.Field
import Mathlib.Algebra.BigOperators.Fin
import Mathlib.Algebra.Order.BigOperators.Group.Finset
import Mathlib.Algebra.Order.Field.Basic
import Mathlib.LinearAlgebra.FiniteDimensional.Basic
import Mathlib.LinearAlgebra.FiniteDimensional.Lemmas
import Mathlib.Tactic.Linarith
import Mathlib.Tactic.Ring
import Verif.Model.XSValid

/-!
# Lemmas on the validation of cross sections
-/

namespace Verif.XSValid

open Verif.Phys

variable {K : Type}

theorem exec_true {l : List (Option (List Entry))} {m : List Entry} :
    exec true l = .returns m ↔
      ∃ ls : List (List Entry), l = ls.map some ∧ m = ls.flatten ∧ ∀ es ∈ ls, ∀ e ∈ es, e.error = false := by
  induction l generalizing m with
  | nil =>
    simp only [exec, Outcome.returns.injEq]
    constructor
    · intro h; exact ⟨[], rfl, by simp [← h], by simp⟩
    · rintro ⟨ls, h1, h2, -⟩
      have : ls = [] := by simpa using h1.symm
      subst this; simp [h2]
  | cons s l ih =>
    rcases s with _ | es
    · simp only [exec, reduceCtorEq, false_iff]
      rintro ⟨ls, h, -⟩
      cases ls <;> simp at h
    · simp only [exec, Bool.true_and]
      by_cases he : es.any Entry.error = true
      · rw [if_pos he]
        simp only [reduceCtorEq, false_iff]
        rintro ⟨ls, h, -, h3⟩
        rcases ls with _ | ⟨e', ls⟩
        · simp at h
        · simp only [List.map_cons, List.cons.injEq, Option.some.injEq] at h
          obtain ⟨e, h4, h5⟩ := List.any_eq_true.1 he
          have := h3 e' (by simp) e (h.1 ▸ h4)
          simp [this] at h5
      · rw [if_neg he]
        have he' : ∀ e ∈ es, e.error = false := by
          intro e hm
          by_contra hc
          exact he (List.any_eq_true.2 ⟨e, hm, by simpa using hc⟩)
        constructor
        · intro h
          cases hx : exec true l with
          | returns q =>
            rw [hx] at h
            simp only [Outcome.after, Outcome.returns.injEq] at h
            obtain ⟨ls, h1, h2, h3⟩ := ih.1 hx
            refine ⟨es :: ls, by simp [h1], by simp [← h, h2], ?_⟩
            intro es' hes
            rcases List.mem_cons.1 hes with rfl | hes
            · exact he'
            · exact h3 _ hes
          | ends q => rw [hx] at h; simp [Outcome.after] at h
          | undef => rw [hx] at h; simp [Outcome.after] at h
        · rintro ⟨ls, h1, h2, h3⟩
          rcases ls with _ | ⟨e', ls⟩
          · simp at h1
          · simp only [List.map_cons, List.cons.injEq, Option.some.injEq] at h1
            have := ih.2 ⟨ls, h1.2, rfl, fun es' h => h3 es' (by simp [h])⟩
            rw [this, Outcome.after, h2, h1.1]
            simp

theorem exec_true_nil {l : List (Option (List Entry))} :
    exec true l = .returns [] ↔ ∀ s ∈ l, s = some [] := by
  rw [exec_true]
  constructor
  · rintro ⟨ls, rfl, h2, -⟩ s hs
    obtain ⟨es, h3, rfl⟩ := List.mem_map.1 hs
    rw [List.flatten_eq_nil_iff.1 h2.symm es h3]
  · intro h
    refine ⟨l.map fun _ => [], ?_, ?_, ?_⟩
    · rw [List.map_map]
      conv_lhs => rw [← List.map_id l]
      exact List.map_congr_left fun s hs => by simpa using h s hs
    · symm; rw [List.flatten_eq_nil_iff]; simp
    · simp

theorem exec_true_ok {l : List (Option (List Entry))} :
    (∃ m, exec true l = .returns m) ↔ ∀ s ∈ l, ∃ es, s = some es ∧ ∀ e ∈ es, e.error = false := by
  constructor
  · rintro ⟨m, h⟩ s hs
    obtain ⟨ls, rfl, -, h3⟩ := exec_true.1 h
    obtain ⟨es, h4, rfl⟩ := List.mem_map.1 hs
    exact ⟨es, rfl, h3 es h4⟩
  · intro h
    refine ⟨_, exec_true.2 ⟨l.map fun s => s.getD [], ?_, rfl, ?_⟩⟩
    · rw [List.map_map]
      conv_lhs => rw [← List.map_id l]
      refine List.map_congr_left fun s hs => ?_
      obtain ⟨es, rfl, -⟩ := h s hs
      rfl
    · intro es hes
      obtain ⟨s, hs, rfl⟩ := List.mem_map.1 hes
      obtain ⟨es, rfl, h2⟩ := h s hs
      exact h2

/-- No read outside happens when the steps before are total and the steps after are total unless an error came
before. -/
theorem exec_defined {l₁ l₂ : List (Option (List Entry))} (h₁ : ∀ s ∈ l₁, ∃ es, s = some es)
    (h₂ : (∀ s ∈ l₁, ∃ es, s = some es ∧ ∀ e ∈ es, e.error = false) → ∀ s ∈ l₂, ∃ es, s = some es) :
    exec true (l₁ ++ l₂) ≠ .undef := by
  induction l₁ with
  | nil =>
    have h := h₂ (by simp)
    rw [List.nil_append]
    clear h₁ h₂
    induction l₂ with
    | nil => simp [exec]
    | cons s l ih =>
      obtain ⟨es, rfl⟩ := h s (by simp)
      rw [exec]
      split_ifs
      · simp
      · have := ih fun s hs => h s (by simp [hs])
        cases hx : exec true l <;> simp_all [Outcome.after]
  | cons s l ih =>
    obtain ⟨es, rfl⟩ := h₁ s (by simp)
    rw [List.cons_append, exec]
    by_cases he : (true && es.any Entry.error) = true
    · rw [if_pos he]; simp
    · rw [if_neg he]
      have := ih (fun s hs => h₁ s (by simp [hs])) fun h => h₂ (by
        intro s hs
        rcases List.mem_cons.1 hs with rfl | hs
        · refine ⟨es, rfl, fun e hm => ?_⟩
          by_contra hc
          exact he (by simpa using ⟨e, hm, by simpa using hc⟩)
        · exact h s hs)
      cases hx : exec true (l ++ l₂) <;> simp_all [Outcome.after]

theorem err_ok {c : Prop} [Decidable c] {m : Msg} : (∀ e ∈ err c m, e.error = false) ↔ ¬c := by
  unfold err; split_ifs with h <;> simp [h]

theorem err_nil {c : Prop} [Decidable c] {m : Msg} : err c m = [] ↔ ¬c := by
  unfold err; split_ifs with h <;> simp [h]

theorem warn_ok {c : Prop} [Decidable c] {m : Msg} : ∀ e ∈ warn c m, e.error = false := by
  unfold warn; split_ifs with h <;> simp

theorem warn_nil {c : Prop} [Decidable c] {m : Msg} : warn c m = [] ↔ ¬c := by
  unfold warn; split_ifs with h <;> simp [h]

theorem mem_warn {c : Prop} [Decidable c] {m : Msg} {e : Entry} : e ∈ warn c m ↔ c ∧ e = ⟨false, m⟩ := by
  unfold warn; split_ifs with h <;> simp [h]

/-- The steps of a loop over a vector of the right size. -/
theorem each_eq {n : Int} {v : List K} (h : (v.length : Int) = n) (g : Nat → K → List Entry) :
    each n v g = (v.mapIdx g).map some := by
  subst h
  refine List.ext_getElem (by simp [each]) fun i h1 h2 => ?_
  have hi : i < v.length := by simpa using h2
  simp [each, List.getElem?_eq_getElem hi]

theorem mem_each {n : Int} {v : List K} (h : (v.length : Int) = n) (g : Nat → K → List Entry) {s : Option (List Entry)} :
    s ∈ each n v g ↔ ∃ i, ∃ hi : i < v.length, s = some (g i v[i]) := by
  rw [each_eq h]
  simp only [List.mem_map, List.mem_mapIdx]
  constructor
  · rintro ⟨_, ⟨i, hi, rfl⟩, rfl⟩; exact ⟨i, hi, rfl⟩
  · rintro ⟨i, hi, rfl⟩; exact ⟨_, ⟨i, hi, rfl⟩, rfl⟩

/-- A statement on all steps of a loop over a vector of the right size. -/
theorem forall_each {n : Int} {v : List K} (h : (v.length : Int) = n) {g : Nat → K → List Entry}
    {p : Option (List Entry) → Prop} :
    (∀ s ∈ each n v g, p s) ↔ ∀ i, ∀ hi : i < v.length, p (some (g i v[i])) := by
  constructor
  · intro H i hi; exact H _ ((mem_each h g).2 ⟨i, hi, rfl⟩)
  · intro H s hs
    obtain ⟨i, hi, rfl⟩ := (mem_each h g).1 hs
    exact H i hi

theorem forall_index {v : List K} {p : K → Prop} : (∀ i, ∀ hi : i < v.length, p v[i]) ↔ ∀ a ∈ v, p a := by
  constructor
  · intro h a ha
    obtain ⟨i, hi, rfl⟩ := List.mem_iff_getElem.1 ha
    exact h i hi
  · intro h i hi; exact h _ (List.getElem_mem hi)

/-! ### A medium without leakage -/

section medium

variable [Field K] [LinearOrder K] [IsStrictOrderedRing K] {n : Nat}

/-- With positive absorption nothing but zero is dominated by its own scattering. -/
theorem absorb_zero (a s : Fin n → K) (S : Fin n → Fin n → K) (ha : ∀ g, 0 < a g)
    (hs : ∀ g, s g = ∑ j, S j g) (ψ : Fin n → K) (hψ : ∀ g, 0 ≤ ψ g)
    (h : ∀ g, (a g + s g) * ψ g ≤ ∑ j, S g j * ψ j) (g : Fin n) : ψ g = 0 := by
  have h1 : ∑ g, (a g + s g) * ψ g ≤ ∑ g, ∑ j, S g j * ψ j := Finset.sum_le_sum fun g _ => h g
  rw [Finset.sum_comm] at h1
  have h2 : ∑ j, ∑ g, S g j * ψ j = ∑ g, s g * ψ g := by
    refine Finset.sum_congr rfl fun j _ => ?_
    rw [hs, Finset.sum_mul]
  rw [h2] at h1
  have h3 : ∑ g, a g * ψ g ≤ 0 := by
    have : ∑ g, (a g + s g) * ψ g = ∑ g, a g * ψ g + ∑ g, s g * ψ g := by
      rw [← Finset.sum_add_distrib]; exact Finset.sum_congr rfl fun g _ => by ring
    linarith
  have h4 : ∀ g ∈ Finset.univ, 0 ≤ a g * ψ g := fun g _ => mul_nonneg (ha g).le (hψ g)
  have h5 : ∑ g, a g * ψ g = 0 := le_antisymm h3 (Finset.sum_nonneg h4)
  have h6 := (Finset.sum_eq_zero_iff_of_nonneg h4).1 h5 g (Finset.mem_univ g)
  exact (mul_eq_zero.1 h6).resolve_left (ha g).ne'

/-- A source which is nowhere negative gives a flux which is nowhere negative. -/
theorem flux_nonneg (a s : Fin n → K) (S : Fin n → Fin n → K) (ha : ∀ g, 0 < a g)
    (hs : ∀ g, s g = ∑ j, S j g) (hS : ∀ i j, 0 ≤ S i j) (φ q : Fin n → K) (hq : ∀ g, 0 ≤ q g)
    (h : ∀ g, (a g + s g) * φ g = ∑ j, S g j * φ j + q g) (g : Fin n) : 0 ≤ φ g := by
  have hs0 : ∀ g, 0 ≤ s g := fun g => by rw [hs]; exact Finset.sum_nonneg fun j _ => hS _ _
  have key := absorb_zero a s S ha hs (fun g => max (-φ g) 0) (fun g => le_max_right _ _) (by
    intro g
    have hnn : 0 ≤ ∑ j, S g j * max (-φ j) 0 :=
      Finset.sum_nonneg fun j _ => mul_nonneg (hS _ _) (le_max_right _ _)
    rcases le_total 0 (φ g) with hg | hg
    · rw [max_eq_right (by linarith)]; simpa using hnn
    · rw [max_eq_left (by linarith)]
      have h1 : ∑ j, S g j * (-φ j) ≤ ∑ j, S g j * max (-φ j) 0 :=
        Finset.sum_le_sum fun j _ => mul_le_mul_of_nonneg_left (le_max_left _ _) (hS _ _)
      have h2 : ∑ j, S g j * (-φ j) = -∑ j, S g j * φ j := by
        rw [← Finset.sum_neg_distrib]; exact Finset.sum_congr rfl fun j _ => by ring
      have := h g
      have := hq g
      linarith) g
  have := le_max_left (-φ g) 0
  rw [key] at this
  linarith

/-- With positive absorption every source has exactly one flux. -/
theorem flux_unique (a s : Fin n → K) (S : Fin n → Fin n → K) (ha : ∀ g, 0 < a g)
    (hs : ∀ g, s g = ∑ j, S j g) (hS : ∀ i j, 0 ≤ S i j) (q : Fin n → K) :
    ∃! φ : Fin n → K, ∀ g, (a g + s g) * φ g = ∑ j, S g j * φ j + q g := by
  let L : (Fin n → K) →ₗ[K] (Fin n → K) :=
    { toFun := fun φ g => (a g + s g) * φ g - ∑ j, S g j * φ j
      map_add' := by
        intro x y; funext g
        simp only [Pi.add_apply, mul_add, Finset.sum_add_distrib]; ring
      map_smul' := by
        intro c x; funext g
        simp only [Pi.smul_apply, smul_eq_mul, RingHom.id_apply, mul_sub, Finset.mul_sum]
        congr 1
        · ring
        · exact Finset.sum_congr rfl fun j _ => by ring }
  have hL : ∀ φ, (∀ g, (a g + s g) * φ g = ∑ j, S g j * φ j + q g) ↔ L φ = q := by
    intro φ
    rw [funext_iff]
    refine forall_congr' fun g => ?_
    show _ ↔ (a g + s g) * φ g - ∑ j, S g j * φ j = q g
    constructor <;> intro h <;> linarith
  have inj : Function.Injective L := by
    rw [← LinearMap.ker_eq_bot, LinearMap.ker_eq_bot']
    intro φ hφ
    have h0 : ∀ g, (a g + s g) * φ g = ∑ j, S g j * φ j + 0 := by
      intro g
      have : (a g + s g) * φ g - ∑ j, S g j * φ j = 0 := congrFun hφ g
      linarith
    have h1 := flux_nonneg a s S ha hs hS φ 0 (by simp) h0
    funext g
    exact absorb_zero a s S ha hs φ h1 (fun g => by have := h0 g; linarith) g
  have sur : Function.Surjective L := LinearMap.injective_iff_surjective.1 inj
  obtain ⟨φ, hφ⟩ := sur q
  refine ⟨φ, (hL φ).2 hφ, fun ψ hψ => inj ?_⟩
  rw [hφ]
  exact (hL ψ).1 hψ

end medium

end Verif.XSValid
