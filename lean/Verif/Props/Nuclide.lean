import Verif.Model.Nuclide
import Verif.Lemmas.Abaqus
import Mathlib.Data.List.TakeWhile

/-!
# C52 Nuclide symbols map to ZAIDs
-/

namespace Verif.Nuclide

open Verif.Abaqus Verif.StrView
open Verif.Str (Byte)

/-! ### Specification -/

/-- The periodic table, in order of atomic number. -/
def periodicTable : List (List Char) :=
  [['H'], ['H','e'], ['L','i'], ['B','e'], ['B'], ['C'], ['N'], ['O'], ['F'], ['N','e'],                   -- 10
   ['N','a'], ['M','g'], ['A','l'], ['S','i'], ['P'], ['S'], ['C','l'], ['A','r'], ['K'], ['C','a'],        -- 20
   ['S','c'], ['T','i'], ['V'], ['C','r'], ['M','n'], ['F','e'], ['C','o'], ['N','i'], ['C','u'], ['Z','n'], -- 30
   ['G','a'], ['G','e'], ['A','s'], ['S','e'], ['B','r'], ['K','r'], ['R','b'], ['S','r'], ['Y'], ['Z','r'], -- 40
   ['N','b'], ['M','o'], ['T','c'], ['R','u'], ['R','h'], ['P','d'], ['A','g'], ['C','d'], ['I','n'], ['S','n'], -- 50
   ['S','b'], ['T','e'], ['I'], ['X','e'], ['C','s'], ['B','a'], ['L','a'], ['C','e'], ['P','r'], ['N','d'], -- 60
   ['P','m'], ['S','m'], ['E','u'], ['G','d'], ['T','b'], ['D','y'], ['H','o'], ['E','r'], ['T','m'], ['Y','b'], -- 70
   ['L','u'], ['H','f'], ['T','a'], ['W'], ['R','e'], ['O','s'], ['I','r'], ['P','t'], ['A','u'], ['H','g'], -- 80
   ['T','l'], ['P','b'], ['B','i'], ['P','o'], ['A','t'], ['R','n'], ['F','r'], ['R','a'], ['A','c'], ['T','h'], -- 90
   ['P','a'], ['U'], ['N','p'], ['P','u'], ['A','m'], ['C','m'], ['B','k'], ['C','f'], ['E','s'], ['F','m'], -- 100
   ['M','d'], ['N','o'], ['L','r'], ['R','f'], ['D','b'], ['S','g'], ['B','h'], ['H','s'], ['M','t'], ['D','s'], -- 110
   ['R','g'], ['C','n'], ['N','h'], ['F','l'], ['M','c'], ['L','v'], ['T','s'], ['O','g']]                   -- 118

def ascii (l : List Char) : List Byte := l.map fun c => UInt8.ofNat c.toNat

/-- ASCII letters. -/
def Letter (c : Byte) : Prop := (65 ≤ c.toNat ∧ c.toNat ≤ 90) ∨ (97 ≤ c.toNat ∧ c.toNat ≤ 122)

instance : DecidablePred Letter := fun c => by unfold Letter; infer_instance

/-- ASCII digits. -/
def Digit (c : Byte) : Prop := 48 ≤ c.toNat ∧ c.toNat ≤ 57

/-! ### Proofs -/

theorem elements_eq : elements = periodicTable.map ascii := by decide +kernel

theorem elements_letters : ∀ e ∈ elements, e ≠ [] ∧ ∀ c ∈ e, Letter c := by decide +kernel

theorem elements_nodup : elements.Nodup := by decide +kernel

theorem isAlpha_iff (c : Byte) : isAlpha c = true ↔ Letter c := by simp [isAlpha, Letter]

theorem isDigit_iff (c : Byte) : isDigit c = true ↔ Digit c := by simp [isDigit, Digit]

theorem countLoop_eq (l : List Byte) (n : Nat) : countLoop l n = n + (l.takeWhile isAlpha).length := by
  induction l generalizing n with
  | nil => rfl
  | cons c l ih =>
    rw [countLoop, List.takeWhile_cons]
    split_ifs with h
    · rw [ih, List.length_cons]; omega
    · rfl

theorem findLoop_none (s : List Byte) (es : List (List Byte)) (i : Nat) (h : s ∉ es) : findLoop s es i = none := by
  induction es generalizing i with
  | nil => rfl
  | cons e es ih =>
    rw [findLoop, if_neg (fun hh => h (by simp [hh])), ih _ fun hh => h (by simp [hh])]

theorem findLoop_some (s : List Byte) (es : List (List Byte)) (i k : Nat) (h : es[k]? = some s) (hn : es.Nodup) :
    findLoop s es i = some (i + k + 1) := by
  induction es generalizing i k with
  | nil => simp at h
  | cons e es ih =>
    rw [findLoop]
    cases k with
    | zero => simp at h; rw [if_pos h.symm]
    | succ k =>
      simp at h
      have hne : s ≠ e := by
        rintro rfl
        exact (List.nodup_cons.1 hn).1 (List.mem_of_getElem? h)
      rw [if_neg hne, ih (i + 1) k h (List.nodup_cons.1 hn).2]
      congr 1
      omega

theorem digitLoop_eq (sep r : List Byte) (d : Byte) (i m : Nat) (hs : ∀ c ∈ sep, ¬ Digit c) (hd : Digit d) :
    digitLoop (sep ++ d :: r) i m = i + sep.length := by
  induction sep generalizing i with
  | nil => rw [List.nil_append, digitLoop, if_pos ((isDigit_iff d).2 hd)]; rfl
  | cons c sep ih =>
    rw [List.cons_append, digitLoop, if_neg (fun h => hs c (by simp) ((isDigit_iff c).1 h)),
      ih _ fun x hx => hs x (by simp [hx]), List.length_cons]
    omega

theorem strto32_digits (a : Nat) (ha : a < 2 ^ 31) (r : List Byte) (hr : ∀ c ∈ r.head?, ¬ Digit c) :
    strto32 (digits a ++ r) = a := by
  obtain ⟨c, t, hct⟩ := List.exists_cons_of_ne_nil (digits_ne a)
  have hc := digits_digit a c (by rw [hct]; simp)
  obtain ⟨hc1, hc2, hc3, hc4⟩ := digit_ne c hc.1 hc.2
  have hval : readDigits 0 (digits a ++ r) = a := by
    rw [readDigits_digits]
    cases r with
    | nil => rfl
    | cons x r =>
      have hx : isDigit x = false := by
        have := hr x rfl
        rw [← isDigit_iff] at this
        simpa using this
      rw [readDigits, hx]
      rfl
  unfold strto32 strtol
  rw [hct, List.cons_append] at hval ⊢
  rw [List.dropWhile_cons_of_neg (by simp [hc1])]
  dsimp only
  rw [if_neg hc3, if_neg hc4, hval, if_neg (by omega), if_neg (by omega), Int.bmod_def]
  split_ifs <;> omega

/-! ### C52 -/

/-- `symbol`, then (optionally) a separator such as `-`, then the mass number, then (optionally) anything that
does not continue the number. -/
theorem C52_zaid (z : Nat) (sym : List Char) (hz : periodicTable[z - 1]? = some sym) (hz0 : 0 < z)
    (sep : List Byte) (hsep : ∀ c ∈ sep, ¬ Letter c ∧ ¬ Digit c) (a : Nat) (ha : a < 2 ^ 31 - 118000)
    (rest : List Byte) (hrest : ∀ c ∈ rest.head?, ¬ Digit c) :
    toZAID (ascii sym ++ sep ++ digits a ++ rest) = some (1000 * (z : ℤ) + a) := by
  have hz' : elements[z - 1]? = some (ascii sym) := by rw [elements_eq, List.getElem?_map, hz]; rfl
  obtain ⟨hne, hl⟩ := elements_letters _ (List.mem_of_getElem? hz')
  obtain ⟨s0, st, hs⟩ := List.exists_cons_of_ne_nil hne
  obtain ⟨d0, dt, hd⟩ := List.exists_cons_of_ne_nil (digits_ne a)
  have hd0 : Digit d0 := digits_digit a d0 (by rw [hd]; simp)
  have hzl : z ≤ 118 := by
    have h1 := (List.getElem?_eq_some_iff.1 hz).1
    have h2 : periodicTable.length = 118 := rfl
    omega
  have hnl : ∀ c, Digit c → ¬ Letter c := by
    intro c h1 h2
    unfold Digit at h1
    unfold Letter at h2
    omega
  have hcount : countLoop ((ascii sym ++ sep ++ digits a ++ rest).drop 1) 1 = (ascii sym).length := by
    rw [countLoop_eq, hs]
    simp only [List.cons_append, List.drop_one, List.tail_cons, List.append_assoc]
    have : (st ++ (sep ++ (digits a ++ rest))).takeWhile isAlpha = st := by
      rw [List.takeWhile_append_of_pos]
      · have : (sep ++ (digits a ++ rest)).takeWhile isAlpha = [] := by
          cases sep with
          | nil =>
            rw [hd, List.nil_append, List.cons_append, List.takeWhile_cons_of_neg]
            rw [isAlpha_iff]
            exact hnl _ hd0
          | cons c sep =>
            rw [List.cons_append, List.takeWhile_cons_of_neg]
            rw [isAlpha_iff]
            exact (hsep c (by simp)).1
        rw [this, List.append_nil]
      · intro c hc
        rw [isAlpha_iff]
        exact hl c (by rw [hs]; simp [hc])
    rw [this, List.length_cons]
    omega
  unfold toZAID
  dsimp only
  rw [hcount]
  simp only [List.append_assoc]
  rw [List.take_left, findLoop_some _ _ 0 _ hz' elements_nodup, List.drop_left]
  dsimp only
  have hm : digitLoop (sep ++ (digits a ++ rest)) (ascii sym).length (ascii sym).length =
      (ascii sym ++ sep).length := by
    rw [hd, List.cons_append, digitLoop_eq sep _ d0 _ _ (fun c hc => (hsep c hc).2) hd0, List.length_append]
  rw [hm, ← List.append_assoc (ascii sym), List.drop_left, List.append_assoc, strto32_digits a (by omega)]
  · rw [chk_some (by omega) (by omega)]
    congr 2
    omega
  · intro c hc
    cases rest with
    | nil =>
      simp at hc
      subst hc
      unfold Digit
      decide
    | cons x rest => exact hrest c (by simpa using hc)

/-- The letters at the front of the string are not the symbol of an element. -/
theorem C52_unknown (str : List Byte) (h : str.takeWhile (fun c => decide (Letter c)) ∉ periodicTable.map ascii) :
    toZAID str = some (-1) := by
  have hal : (fun c => decide (Letter c)) = isAlpha := by
    funext c
    rw [Bool.eq_iff_iff, isAlpha_iff, decide_eq_true_eq]
  rw [hal, ← elements_eq] at h
  unfold toZAID
  dsimp only
  rw [findLoop_none]
  intro hin
  cases str with
  | nil => exact (elements_letters _ hin).1 (by simp)
  | cons c str =>
    rw [List.drop_one, List.tail_cons, countLoop_eq, Nat.add_comm 1, List.take_succ_cons] at hin
    have hc : isAlpha c = true := (isAlpha_iff c).2 ((elements_letters _ hin).2 c (by simp))
    rw [List.takeWhile_cons_of_pos hc] at h
    rw [← List.prefix_iff_eq_take.1 (List.takeWhile_prefix isAlpha)] at hin
    exact h hin

/-- Symbols and mass numbers below 1000 can be told apart by their ZAID. -/
theorem C52_injective (z₁ z₂ : Nat) (s₁ s₂ : List Char) (h₁ : periodicTable[z₁ - 1]? = some s₁) (h₂ : periodicTable[z₂ - 1]? = some s₂)
    (p₁ : 0 < z₁) (p₂ : 0 < z₂) (a₁ a₂ : Nat) (ha₁ : a₁ < 1000) (ha₂ : a₂ < 1000)
    (h : toZAID (ascii s₁ ++ digits a₁) = toZAID (ascii s₂ ++ digits a₂)) : s₁ = s₂ ∧ a₁ = a₂ := by
  have e₁ := C52_zaid z₁ s₁ h₁ p₁ [] (by simp) a₁ (by omega) [] (by simp)
  have e₂ := C52_zaid z₂ s₂ h₂ p₂ [] (by simp) a₂ (by omega) [] (by simp)
  simp only [List.append_nil] at e₁ e₂
  rw [e₁, e₂, Option.some.injEq] at h
  have hz : z₁ = z₂ := by omega
  subst hz
  rw [h₁, Option.some.injEq] at h₂
  exact ⟨h₂, by omega⟩

/-- `U235`, `U-235`, `Am242m`, `Xx1`. -/
example : toZAID [85, 50, 51, 53] = some 92235 := by
  have := C52_zaid 92 ['U'] rfl (by simp) [] (by simp) 235 (by simp) [] (by simp)
  simpa [ascii, digits] using this
example : toZAID [85, 45, 50, 51, 53] = some 92235 := by
  have := C52_zaid 92 ['U'] rfl (by simp) [45] (by simp [Letter, Digit]) 235 (by simp) [] (by simp)
  simpa [ascii, digits] using this
example : toZAID [65, 109, 50, 52, 50, 109] = some 95242 := by
  have := C52_zaid 95 ['A', 'm'] rfl (by simp) [] (by simp) 242 (by simp) [109] (by simp [Digit])
  simpa [ascii, digits] using this
example : toZAID [88, 120, 49] = some (-1) := C52_unknown _ (by decide +kernel)

end Verif.Nuclide
