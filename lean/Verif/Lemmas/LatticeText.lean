import Verif.Props.Tokens
import Verif.Props.LatticePrograms
import Verif.Model.LatticeText

/-! Reading the text of a lattice of ids (used by the benchmark models). -/

namespace Verif.LatticeText

open Verif.Str (Byte)
open Verif.StrView
open Verif.Bench
open Verif.Abaqus (readDigits strtol strto32 isSpace)

theorem readDigits_stop (t : List Byte) (ht : ∀ b ∈ t, Abaqus.isDigit b = true) (c : Byte) (hc : Abaqus.isDigit c = false) (r : List Byte)
    (c' : Byte) (hc' : Abaqus.isDigit c' = false) (r' : List Byte) (acc : Nat) : readDigits acc (t ++ c :: r) = readDigits acc (t ++ c' :: r') := by
  induction t generalizing acc with
  | nil => simp [readDigits, hc, hc']
  | cons a t ih =>
    have ha := ht a List.mem_cons_self
    simp only [List.cons_append, readDigits, ha, if_true]
    exact ih (fun b hb => ht b (List.mem_cons_of_mem _ hb)) _

theorem digit_head : ∀ b : Byte, Abaqus.isDigit b = true → isSpace b = false ∧ b ≠ 45 ∧ b ≠ 43 := by
  intro b hb
  simp only [Abaqus.isDigit, Bool.and_eq_true, decide_eq_true_eq] at hb
  have h32 : b ≠ 32 := fun h => by rw [h] at hb; revert hb; decide
  refine ⟨?_, fun h => by rw [h] at hb; revert hb; decide, fun h => by rw [h] at hb; revert hb; decide⟩
  simp only [isSpace, Bool.or_eq_false_iff, beq_eq_false_iff_ne, Bool.and_eq_false_iff, decide_eq_false_iff_not]
  exact ⟨h32, Or.inr (by omega)⟩

theorem strto_stop (t : List Byte) (h0 : t ≠ []) (ht : ∀ b ∈ t, Abaqus.isDigit b = true) (c : Byte) (hc : Abaqus.isDigit c = false)
    (r : List Byte) (c' : Byte) (hc' : Abaqus.isDigit c' = false) (r' : List Byte) : strto32 (t ++ c :: r) = strto32 (t ++ c' :: r') := by
  obtain ⟨a, t, rfl⟩ := List.exists_cons_of_ne_nil h0
  obtain ⟨h1, h2, h3⟩ := digit_head a (ht a List.mem_cons_self)
  have key : ∀ q : List Byte, strtol (a :: q) = (let v : ℤ := (readDigits 0 (a :: q) : ℤ)
      if v < -2 ^ 63 then -2 ^ 63 else if 2 ^ 63 ≤ v then 2 ^ 63 - 1 else v) := by
    intro q
    unfold strtol
    rw [List.dropWhile_cons, h1]
    simp only [Bool.false_eq_true, if_false, h2, h3]
  unfold strto32
  rw [List.cons_append, List.cons_append, key, key, ← List.cons_append, ← List.cons_append, readDigits_stop (a :: t) ht c hc r c' hc' r' 0]

/-- The text consists of the ids, in digits. -/
def spells (t : List String) (ids : List (List ℤ)) : Bool :=
  let toks := (textLines (text t)).map (rowEntries 32)
  toks.all (fun row => row.all fun w => !w.isEmpty && w.all Abaqus.isDigit) && decide (toks.map (fun row => row.map fun w => strto32 (w ++ [0])) = ids)

theorem lattice_eq {t : List String} {ids : List (List ℤ)} (h : spells t ids = true) : lattice t = some ids := by
  unfold spells at h
  simp only [Bool.and_eq_true, decide_eq_true_eq] at h
  obtain ⟨h1, h2⟩ := h
  unfold lattice
  rw [C10_exact]
  · rw [← h2, List.map_map]
    rfl
  · intro l hl w hw q
    have hmem : rowEntries 32 l ∈ (textLines (text t)).map (rowEntries 32) := List.mem_map_of_mem hl
    have := List.all_eq_true.1 (List.all_eq_true.1 h1 _ hmem) w hw
    simp only [Bool.and_eq_true, Bool.not_eq_true', List.isEmpty_eq_false_iff, List.all_eq_true] at this
    exact ⟨strto_stop w this.1 this.2 32 (by decide) q 0 (by decide) [], strto_stop w this.1 this.2 10 (by decide) q 0 (by decide) []⟩

/-- The table of the ids `f i j`; `i` counts columns, `j` rows from the top. -/
def tableOf (nx ny : Nat) (f : Nat → Nat → Nat) : List (List ℤ) :=
  (List.range ny).map fun j => (List.range nx).map fun i => (f i j : ℤ)

theorem tableOf_length (nx ny : Nat) (f : Nat → Nat → Nat) : (tableOf nx ny f).length = ny := by simp [tableOf]

theorem idAt_tableOf (nx ny : Nat) (f : Nat → Nat → Nat) (i j : Nat) :
    PinsSpec.idAt (tableOf nx ny f).reverse i j = if i < nx ∧ j < ny then some ((f i (ny - 1 - j) : Nat) : ℤ) else none := by
  unfold PinsSpec.idAt
  by_cases hj : j < ny
  · rw [List.getElem?_reverse (by rw [tableOf_length]; exact hj), tableOf_length]
    unfold tableOf
    rw [List.getElem?_map, List.getElem?_range (by omega)]
    simp only [Option.map_some, Option.bind_some]
    by_cases hi : i < nx
    · rw [List.getElem?_map, List.getElem?_range hi, if_pos ⟨hi, hj⟩, Option.map_some]
    · rw [if_neg (fun h => hi h.1), List.getElem?_eq_none (by simp; omega)]
  · rw [List.getElem?_eq_none (by simp [tableOf]; omega), if_neg (fun h => hj h.2)]
    rfl

open Verif.Programs in
open Verif.ProgramsSpec in
theorem good_tableOf {K C : Type} [Field K] [LinearOrder K] (eps : K) (pl : Placement K C) (nx ny : Nat) (f : Nat → Nat → Nat)
    (hids : pl.ids = tableOf nx ny f) (hx : 0 < nx) (hy : 0 < ny) (hf : ∀ i < nx, ∀ j < ny, f i j < pl.radii.length)
    (hm : List.Forall₂ (fun rad ms => rad.length ≤ ms.length) pl.radii pl.mats) (hp : eps ≤ pl.pitch.1 ∧ eps ≤ pl.pitch.2) : Good eps pl := by
  refine ⟨?_, ⟨nx, hx, ?_⟩, ?_, hm, hp⟩
  · intro h
    have := tableOf_length nx ny f
    rw [← hids, h] at this
    simp at this
    omega
  · intro row hrow
    rw [hids] at hrow
    obtain ⟨j, -, rfl⟩ := List.mem_map.1 hrow
    simp
  · intro row hrow id hid
    rw [hids] at hrow
    obtain ⟨j, hj, rfl⟩ := List.mem_map.1 hrow
    obtain ⟨i, hi, rfl⟩ := List.mem_map.1 hid
    have := hf i (List.mem_range.1 hi) j (List.mem_range.1 hj)
    exact ⟨by positivity, by exact_mod_cast this⟩

end Verif.LatticeText
