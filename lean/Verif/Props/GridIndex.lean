import Verif.Model.Grid
import Mathlib.Algebra.BigOperators.Group.List.Basic
import Mathlib.Algebra.Order.BigOperators.Group.List
import Mathlib.Tactic.Linarith
import Mathlib.Tactic.Ring
import Mathlib.Tactic.NormNum
import Mathlib.Tactic.Positivity

/-!
# C35: flat indices of grids are a bijection
-/

namespace Verif.Grid

/-- Specification: the number with digits `idx` (lowest first) in the mixed radix `num`. -/
def mixedRadix : List ℤ → List ℤ → ℤ
  | n :: ns, i :: is => i + n * mixedRadix ns is
  | _, _ => 0

/-- Specification: `idx` is the index of a cell of a grid with `num` cells. -/
def InRange (num idx : List ℤ) : Prop := List.Forall₂ (fun n i => 0 ≤ i ∧ i < n) num idx

theorem InRange.pos {num idx : List ℤ} (h : InRange num idx) : ∀ n ∈ num, 1 ≤ n := by
  induction h with
  | nil => simp
  | cons h _ ih =>
    intro n hn
    rcases List.mem_cons.1 hn with rfl | hn
    · omega
    · exact ih n hn

theorem prod_pos' {num : List ℤ} (h : ∀ n ∈ num, 1 ≤ n) : 1 ≤ num.prod := by
  induction num with
  | nil => simp
  | cons n ns ih =>
    rw [List.prod_cons]
    have h1 := h n (List.mem_cons_self ..)
    have h2 := ih fun m hm => h m (List.mem_cons_of_mem _ hm)
    nlinarith

theorem mixedRadix_bounds {num idx : List ℤ} (h : InRange num idx) :
    0 ≤ mixedRadix num idx ∧ mixedRadix num idx < num.prod := by
  induction h with
  | nil => simp [mixedRadix]
  | @cons n i ns is h hr ih =>
    rw [List.prod_cons, mixedRadix]
    obtain ⟨i0, i1⟩ := h
    obtain ⟨r0, r1⟩ := ih
    constructor
    · nlinarith
    · nlinarith

/-- The products written by the scan, without range checks. -/
def scan (acc : ℤ) : List ℤ → List ℤ
  | [] => []
  | n :: ns => acc :: scan (acc * n) ns

theorem scanProd_eq (num : List ℤ) : ∀ acc : ℤ, 1 ≤ acc → (∀ n ∈ num, 1 ≤ n) →
    acc * num.prod ≤ 2147483647 → scanProd acc num = some (scan acc num) := by
  induction num with
  | nil => intro acc _ _ _; rfl
  | cons n ns ih =>
    intro acc ha hn hb
    cases ns with
    | nil => rfl
    | cons n' ns =>
      rw [scanProd, scan]
      have h1 := hn n (List.mem_cons_self ..)
      have h2 : 1 ≤ (n' :: ns).prod := prod_pos' fun m hm => hn m (List.mem_cons_of_mem _ hm)
      have h3 : 1 ≤ acc * n := by nlinarith
      rw [List.prod_cons, ← mul_assoc] at hb
      have h4 : acc * n ≤ 2147483647 := by nlinarith
      rw [chk_some (by omega) h4, Option.bind_some,
        ih (acc * n) h3 (fun m hm => hn m (List.mem_cons_of_mem _ hm)) hb]
      rfl

theorem dotLoop_eq {num idx : List ℤ} (h : InRange num idx) : ∀ acc s : ℤ, 1 ≤ acc → 0 ≤ s →
    s + acc * mixedRadix num idx ≤ 2147483647 →
    dotLoop s idx (scan acc num) = some (s + acc * mixedRadix num idx) := by
  induction h with
  | nil => intro acc s _ _ _; simp [dotLoop, mixedRadix, scan]
  | @cons n i ns is h hr ih =>
    intro acc s ha hs hb
    obtain ⟨i0, i1⟩ := h
    obtain ⟨r0, r1⟩ := mixedRadix_bounds hr
    have n1 : 1 ≤ n := by omega
    rw [scan, dotLoop]
    rw [mixedRadix, mul_add, ← mul_assoc, ← add_assoc] at hb ⊢
    have p0 : 0 ≤ i * acc := by positivity
    have p1 : 0 ≤ acc * n * mixedRadix ns is := by positivity
    have hc : acc * i = i * acc := mul_comm _ _
    rw [hc] at hb ⊢
    rw [chk_some (by omega) (by omega), Option.bind_some, chk_some (by omega) (by omega), Option.bind_some,
      ih (acc * n) (s + i * acc) (by nlinarith) (by omega) hb]

theorem dot_eq {num idx : List ℤ} (h : InRange num idx) (hne : num ≠ [])
    (hb : num.prod ≤ 2147483647) :
    ((scanProd 1 num).bind fun e => dot idx e) = some (mixedRadix num idx) := by
  rw [scanProd_eq num 1 le_rfl h.pos (by rw [one_mul]; exact hb), Option.bind_some]
  cases h with
  | nil => exact absurd rfl hne
  | @cons n i ns is h hr =>
    obtain ⟨b0, b1⟩ := mixedRadix_bounds (List.Forall₂.cons h hr : InRange _ _)
    obtain ⟨r0, r1⟩ := mixedRadix_bounds hr
    obtain ⟨i0, i1⟩ := h
    have n1 : 1 ≤ n := by omega
    have p1 : 0 ≤ n * mixedRadix ns is := by positivity
    rw [scan, dot]
    rw [mixedRadix] at b0 b1 ⊢
    rw [mul_one, chk_some (by omega) (by omega), Option.bind_some, one_mul,
      dotLoop_eq hr n i n1 i0 (by omega)]

/-- `totalNumCells` is the product of the counts, without overflow if that fits in `Int`. -/
theorem C35_total {num : List ℤ} (h : ∀ n ∈ num, 1 ≤ n) (hb : num.prod ≤ 2147483647) :
    totalNumCells num = some num.prod := by
  have key : ∀ (ns : List ℤ) (acc : ℤ), 1 ≤ acc → (∀ n ∈ ns, 1 ≤ n) → acc * ns.prod ≤ 2147483647 →
      totalLoop acc ns = some (acc * ns.prod) := by
    intro ns
    induction ns with
    | nil => intro acc _ _ _; simp [totalLoop]
    | cons n ns ih =>
      intro acc ha hn hb
      rw [totalLoop]
      have h1 := hn n (List.mem_cons_self ..)
      have h2 : 1 ≤ ns.prod := prod_pos' fun m hm => hn m (List.mem_cons_of_mem _ hm)
      rw [List.prod_cons, ← mul_assoc] at hb ⊢
      have h3 : 1 ≤ acc * n := by nlinarith
      have h4 : acc * n ≤ 2147483647 := by nlinarith
      rw [chk_some (by omega) h4, Option.bind_some, ih _ h3 (fun m hm => hn m (List.mem_cons_of_mem _ hm)) hb]
  unfold totalNumCells
  simpa using key num 1 le_rfl h (by simpa using hb)

/-- For every dimension and every cell, the flat index is computed without overflow, is the
mixed-radix number of the cell index (first index fastest), and lies below the number of cells. -/
theorem C35_flat {num idx : List ℤ} (h : InRange num idx) (hne : num ≠ []) (hb : num.prod ≤ 2147483647) :
    getFlatIndex num idx = some (mixedRadix num idx) ∧
      0 ≤ mixedRadix num idx ∧ mixedRadix num idx < num.prod := by
  refine ⟨?_, mixedRadix_bounds h⟩
  unfold getFlatIndex
  split
  · simp [mixedRadix]
  · rename_i n0 n1 i0 i1
    obtain ⟨b0, b1⟩ := mixedRadix_bounds h
    cases h with
    | cons h hr => cases hr with
      | cons h' _ =>
        simp only [mixedRadix, mul_zero, add_zero] at b0 b1 ⊢
        have p : 0 ≤ n0 * i1 := mul_nonneg (by omega) h'.1
        rw [mul_comm i1 n0, chk_some (by omega) (by omega), Option.bind_some, chk_some (by omega) (by omega)]
  · rename_i n0 n1 n2 i0 i1 i2
    obtain ⟨b0, b1⟩ := mixedRadix_bounds h
    cases h with
    | cons h hr => cases hr with
      | cons h' hr' => cases hr' with
        | cons h'' _ =>
          simp only [mixedRadix, mul_zero, add_zero] at b0 b1 ⊢
          have p : 0 ≤ n1 * i2 := mul_nonneg (by omega) h''.1
          have q : 0 ≤ i1 + n1 * i2 := by omega
          have r : i1 + n1 * i2 ≤ n0 * (i1 + n1 * i2) := le_mul_of_one_le_left q (by omega)
          rw [mul_comm i2 n1, chk_some (by omega) (by omega), Option.bind_some, chk_some (by omega) (by omega),
            Option.bind_some, chk_some (by omega) (by omega), Option.bind_some,
            chk_some (by omega) (by omega)]
  · exact dot_eq h hne hb

theorem mixedRadix_inj {num idx idx' : List ℤ} (h : InRange num idx) (h' : InRange num idx')
    (e : mixedRadix num idx = mixedRadix num idx') : idx = idx' := by
  induction h generalizing idx' with
  | nil => cases h'; rfl
  | @cons n i ns is h hr ih =>
    cases h' with
    | @cons _ i' _ is' h' hr' =>
      simp only [mixedRadix] at e
      have n0 : n ≠ 0 := by omega
      have e1 : i = i' := by
        have a1 : (i + n * mixedRadix ns is) % n = i := by
          rw [Int.add_mul_emod_self_left]; exact Int.emod_eq_of_lt h.1 h.2
        have a2 : (i' + n * mixedRadix ns is') % n = i' := by
          rw [Int.add_mul_emod_self_left]; exact Int.emod_eq_of_lt h'.1 h'.2
        rw [← a1, ← a2, e]
      subst e1
      have e2 : mixedRadix ns is = mixedRadix ns is' :=
        mul_left_cancel₀ n0 (by omega)
      rw [ih hr' e2]

/-- Different cells have different flat indices. -/
theorem C35_injective {num idx idx' : List ℤ} (h : InRange num idx) (h' : InRange num idx')
    (hne : num ≠ []) (hb : num.prod ≤ 2147483647) (e : getFlatIndex num idx = getFlatIndex num idx') :
    idx = idx' := by
  rw [(C35_flat h hne hb).1, (C35_flat h' hne hb).1] at e
  exact mixedRadix_inj h h' (Option.some.inj e)

/-- Every number below the number of cells is the flat index of a cell. -/
theorem C35_surjective {num : List ℤ} (hn : ∀ n ∈ num, 1 ≤ n) (hne : num ≠ [])
    (hb : num.prod ≤ 2147483647) (f : ℤ) (h0 : 0 ≤ f) (h1 : f < num.prod) :
    ∃ idx, InRange num idx ∧ getFlatIndex num idx = some f := by
  have key : ∀ (ns : List ℤ) (f : ℤ), (∀ n ∈ ns, 1 ≤ n) → 0 ≤ f → f < ns.prod →
      ∃ idx, InRange ns idx ∧ mixedRadix ns idx = f := by
    intro ns
    induction ns with
    | nil => intro f _ h0 h1; exact ⟨[], .nil, by simp at h1; simp [mixedRadix]; omega⟩
    | cons n ns ih =>
      intro f hn h0 h1
      rw [List.prod_cons] at h1
      have n1 := hn n (List.mem_cons_self ..)
      obtain ⟨is, hr, e⟩ := ih (f / n) (fun m hm => hn m (List.mem_cons_of_mem _ hm))
        (Int.ediv_nonneg h0 (by omega)) (Int.ediv_lt_of_lt_mul (by omega) (by rw [mul_comm]; exact h1))
      refine ⟨f % n :: is, .cons ⟨Int.emod_nonneg _ (by omega), Int.emod_lt_of_pos _ (by omega)⟩ hr, ?_⟩
      rw [mixedRadix, e, Int.emod_add_mul_ediv]
  obtain ⟨idx, hr, e⟩ := key num f hn h0 h1
  exact ⟨idx, hr, by rw [(C35_flat hr hne hb).1, e]⟩

/-- `RectilinearGrid::getFlatIndex` is the same function of its cell counts. -/
theorem C35_rectilinear {K : Type} (divs : List (List K)) (idx : List ℤ) :
    rectFlatIndex divs idx = getFlatIndex (rectNumCells divs) idx := by
  unfold rectFlatIndex getFlatIndex
  split <;> simp only [mul_comm]

example : InRange [3, 2, 4, 5] [2, 1, 3, 4] ∧ [3, 2, 4, 5].prod ≤ 2147483647 ∧
    getFlatIndex [3, 2, 4, 5] [2, 1, 3, 4] = some 119 :=
  ⟨by unfold InRange; simp, by norm_num, by decide⟩

end Verif.Grid
