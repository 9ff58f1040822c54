import Verif.Model.Abaqus
import Verif.Lemmas.Tokens
import Verif.Props.Soup
import Mathlib.Tactic.IntervalCases
import Mathlib.Tactic.NormNum

/-! Auxiliary facts for the Abaqus reader. -/

namespace Verif.Abaqus

open Verif.Polytope Verif.ElemTypes Verif.StrView
open Verif.Str (Byte)

theorem digit_toNat (k : Nat) (h : k < 10) : (UInt8.ofNat (48 + k)).toNat = 48 + k := by
  rw [UInt8.toNat_ofNat']
  omega

theorem readDigits_digits (n : Nat) (r : List Byte) : readDigits 0 (digits n ++ r) = readDigits n r := by
  induction n using Nat.strong_induction_on generalizing r with
  | _ n ih =>
    rw [digits]
    split_ifs with h
    · rw [List.singleton_append, readDigits, digit_toNat n h, if_pos]
      · congr 1; omega
      · simp [isDigit]; omega
    · rw [List.append_assoc, ih (n / 10) (by omega), List.singleton_append, readDigits,
        digit_toNat (n % 10) (by omega), if_pos]
      · congr 1; omega
      · simp [isDigit]; omega

theorem digits_ne (n : Nat) : digits n ≠ [] := by
  rw [digits]
  split_ifs <;> simp

theorem digits_digit (n : Nat) : ∀ c ∈ digits n, 48 ≤ c.toNat ∧ c.toNat ≤ 57 := by
  induction n using Nat.strong_induction_on with
  | _ n ih =>
    rw [digits]
    split_ifs with h
    · intro c hc
      rw [List.mem_singleton.1 hc, digit_toNat n h]
      omega
    · intro c hc
      rcases List.mem_append.1 hc with hc | hc
      · exact ih (n / 10) (by omega) c hc
      · rw [List.mem_singleton.1 hc, digit_toNat (n % 10) (by omega)]
        omega

/-- The text of an id: blanks, digits, blanks. -/
def IdField (i : Nat) (w : List Byte) : Prop :=
  ∃ a b, (∀ c ∈ a, isSpace c = true) ∧ (∀ c ∈ b, isSpace c = true) ∧ w = a ++ digits (i + 1) ++ b

theorem space_ne (c : Byte) (h : isSpace c = true) : isDigit c = false ∧ c ≠ 44 := by
  unfold isSpace at h
  unfold isDigit
  rw [Bool.or_eq_true, Bool.and_eq_true, decide_eq_true_eq, decide_eq_true_eq, beq_iff_eq] at h
  rcases h with rfl | ⟨h1, h2⟩
  · decide
  · constructor
    · rw [Bool.and_eq_false_iff]
      left
      rw [decide_eq_false_iff_not]
      omega
    · rintro rfl
      revert h2
      decide

theorem digit_ne (c : Byte) (h : 48 ≤ c.toNat) (h' : c.toNat ≤ 57) : isSpace c = false ∧ c ≠ 44 ∧ c ≠ 45 ∧ c ≠ 43 := by
  refine ⟨?_, ?_, ?_, ?_⟩
  · unfold isSpace
    rw [Bool.or_eq_false_iff, Bool.and_eq_false_iff]
    refine ⟨?_, .inr ?_⟩
    · rw [beq_eq_false_iff_ne]
      rintro rfl
      revert h
      decide
    · rw [decide_eq_false_iff_not]
      omega
  all_goals
    rintro rfl
    revert h
    decide

theorem IdField.ne {i : Nat} {w : List Byte} (h : IdField i w) : w ≠ [] ∧ 44 ∉ w := by
  obtain ⟨a, b, ha, hb, rfl⟩ := h
  constructor
  · have := digits_ne (i + 1)
    simp [this]
  · simp only [List.mem_append, not_or]
    refine ⟨⟨fun h => (space_ne _ (ha _ h)).2 rfl, fun h => ?_⟩, fun h => (space_ne _ (hb _ h)).2 rfl⟩
    have := digits_digit (i + 1) 44 h
    exact absurd this.1 (by decide)

theorem strto32_field {i : Nat} {w : List Byte} (h : IdField i w) (hi : i + 1 < 2 ^ 31) (r : List Byte)
    (hr : ∀ c ∈ r.head?, isDigit c = false) : strto32 (w ++ r) = ((i + 1 : Nat) : ℤ) := by
  obtain ⟨a, b, ha, hb, rfl⟩ := h
  obtain ⟨c, t, hct⟩ := List.exists_cons_of_ne_nil (digits_ne (i + 1))
  have hc := digits_digit (i + 1) c (by rw [hct]; simp)
  obtain ⟨hc1, hc2, hc3, hc4⟩ := digit_ne c hc.1 hc.2
  have hdrop : (a ++ digits (i + 1) ++ b ++ r).dropWhile isSpace = digits (i + 1) ++ (b ++ r) := by
    have h1 : ∀ (a l : List Byte), (∀ x ∈ a, isSpace x = true) → (a ++ l).dropWhile isSpace = l.dropWhile isSpace := by
      intro a l h
      induction a with
      | nil => rfl
      | cons x a ih =>
        rw [List.cons_append, List.dropWhile_cons_of_pos (h x (by simp)), ih fun y hy => h y (by simp [hy])]
    rw [List.append_assoc, List.append_assoc, h1 a _ ha, hct, List.cons_append, List.dropWhile_cons_of_neg (by simp [hc1])]
  have hval : readDigits 0 (digits (i + 1) ++ (b ++ r)) = i + 1 := by
    rw [readDigits_digits]
    have hstop : ∀ x, (b ++ r).head? = some x → isDigit x = false := by
      intro x hx
      cases b with
      | nil => exact hr x (by simpa using hx)
      | cons y b =>
        simp at hx
        subst hx
        exact (space_ne _ (hb _ (by simp))).1
    cases hbr : b ++ r with
    | nil => rfl
    | cons x l =>
      have := hstop x (by rw [hbr]; rfl)
      rw [readDigits, this]
      rfl
  unfold strto32 strtol
  rw [hdrop]
  rw [hct, List.cons_append] at hval ⊢
  dsimp only
  rw [if_neg hc3, if_neg hc4, hval, if_neg (by omega), if_neg (by omega)]
  rw [Int.bmod_def]
  split_ifs <;> omega

theorem toId_succ (i : Nat) : toId ((i + 1 : Nat) : ℤ) = some i := by
  unfold toId
  rw [if_pos (by omega)]
  congr 1
  omega

theorem find_comma (w r : List Byte) (h : 44 ∉ w) : findFirstOf (w ++ 44 :: r) 44 0 = some w.length := by
  have := (findFirstOf_run 44 0 w h).2 r
  simpa using this

theorem find_none (w : List Byte) (h : 44 ∉ w) : findFirstOf w 44 0 = none := by
  have := (findFirstOf_run 44 0 w h).1
  simpa using this

/-- The ids of a line, each followed by a comma, are read; what follows the last comma is not. -/
theorem idLoop_spec (ids : List Nat) (ws : List (List Byte)) (tail : List Byte)
    (h : List.Forall₂ IdField ids ws) (hi : ∀ i ∈ ids, i + 1 < 2 ^ 31) (ht : 44 ∉ tail) :
    idLoop (ws.flatMap (fun w => w ++ [44]) ++ tail) = some ids := by
  induction h with
  | nil => rw [idLoop]; simp [find_none tail ht]
  | @cons i w ids ws hw hws ih =>
    have e : (w :: ws).flatMap (fun w => w ++ [44]) ++ tail = w ++ 44 :: (ws.flatMap (fun w => w ++ [44]) ++ tail) := by
      simp
    rw [e, idLoop, find_comma _ _ hw.ne.2]
    dsimp only
    rw [strto32_field hw (hi i (by simp)) _ (by simp [isDigit]), toId_succ]
    simp only [Option.bind_some]
    have hih := ih fun j hj => hi j (by simp [hj])
    split_ifs with hl
    · cases hws with
      | nil => rfl
      | @cons j w2 ids ws hw2 hws =>
        exfalso
        simp only [List.flatMap_cons, List.length_append, List.length_cons, List.length_nil] at hl
        have := List.length_pos_iff.2 hw2.ne.1
        omega
    · have hd : (w ++ 44 :: (ws.flatMap (fun w => w ++ [44]) ++ tail)).drop (w.length + 1) =
          ws.flatMap (fun w => w ++ [44]) ++ tail := by
        rw [List.drop_append]
        simp
      rw [hd, hih]
      rfl

/-- Fields separated by commas. -/
def joined : List (List Byte) → List Byte
  | [] => []
  | w :: ws => w ++ ws.flatMap fun w => 44 :: w

theorem joined_cons (w w2 : List Byte) (ws : List (List Byte)) : joined (w :: w2 :: ws) = w ++ 44 :: joined (w2 :: ws) := by
  simp [joined]

theorem lineView_bytes (l : Line) : (lineView l).bytes = l := by simp [lineView, View.bytes]

theorem getToken_head (w r : List Byte) (hw : w ≠ []) (hc : 44 ∉ w) :
    getToken 44 (lineView (w ++ 44 :: r)) = (⟨w ++ 44 :: r ++ [0], w.length⟩, lineView r) := by
  rw [getToken_mid 44 _ 0 w r hw hc (by rw [lineView_bytes]; simp)]
  have hd : (w ++ 44 :: (r ++ [0])).drop (w.length + 1) = r ++ [0] := by
    rw [List.drop_append]
    simp
  simp [lineView, removePrefix, hd]
  omega

theorem getToken_end (w : List Byte) (hw : w ≠ []) (hc : 44 ∉ w) :
    getToken 44 (lineView w) = (lineView w, ⟨[], 0⟩) := by
  rw [getToken_last 44 _ 0 w hw hc (by rw [lineView_bytes]; simp)]
  simp [lineView]

theorem connLoop_spec (conn : List Nat) (ws : List (List Byte)) (h : List.Forall₂ IdField conn ws)
    (hi : ∀ i ∈ conn, i + 1 < 2 ^ 31) : connLoop conn.length (lineView (joined ws)) = some conn := by
  induction h with
  | nil => rfl
  | @cons i w conn ws hw hws ih =>
    have hih := ih fun j hj => hi j (by simp [hj])
    have hpos := List.length_pos_iff.2 hw.ne.1
    rw [List.length_cons, connLoop]
    cases hws with
    | nil =>
      have e : joined [w] = w := by simp [joined]
      rw [e, getToken_end w hw.ne.1 hw.ne.2]
      dsimp only
      unfold tokenInt
      rw [if_neg (by simpa [lineView] using hw.ne.1)]
      simp only [Option.bind_some, lineView]
      rw [strto32_field hw (hi i (by simp)) _ (by simp [isDigit]), toId_succ]
      rfl
    | @cons j w2 conn ws hw2 hws =>
      rw [joined_cons, getToken_head w _ hw.ne.1 hw.ne.2]
      dsimp only
      unfold tokenInt
      rw [if_neg (by simpa using hw.ne.1)]
      simp only [Option.bind_some]
      rw [List.append_assoc, strto32_field hw (hi i (by simp)) _ (by simp [isDigit]), toId_succ, hih]
      rfl

/-! ### Sections -/

/-- A line that the section loop hands to its body. -/
def Plain (l : Line) : Prop := l.length < 1024 ∧ l.head? ≠ some 42

/-- What can follow a section: nothing, or another section. -/
def Follows (more : List Line) : Prop :=
  more = [] ∨ ∃ h l ls, more = h :: l :: ls ∧ h.head? = some 42 ∧ h.length < 1024

def front : List Line → Line
  | [] => []
  | l :: _ => l

theorem sectionLoop_spec {α : Type} (body : α → Line → Option α) (a a' : α) (ls more : List Line)
    (hp : ∀ l ∈ ls, Plain l) (hm : more = [] ∨ ∃ h ls, more = h :: ls ∧ h.head? = some 42 ∧ h.length < 1024)
    (hb : ls.foldlM body a = some a') :
    sectionLoop body a (ls ++ more) = some (a', front more, more.tail) := by
  induction ls generalizing a with
  | nil =>
    simp only [List.foldlM_nil, Option.pure_def, Option.some.injEq] at hb
    subst hb
    rcases hm with rfl | ⟨h, ls, rfl, h1, h2⟩
    · rfl
    · rw [List.nil_append, sectionLoop, if_neg (by omega), if_pos h1]
      rfl
  | cons l ls ih =>
    obtain ⟨h1, h2⟩ := hp l (by simp)
    rw [List.foldlM_cons] at hb
    rw [List.cons_append, sectionLoop, if_neg (by omega), if_neg h2]
    cases hbl : body a l with
    | none => rw [hbl] at hb; simp at hb
    | some a1 =>
      rw [hbl] at hb
      exact ih a1 (fun x hx => hp x (by simp [hx])) hb

theorem ret_spec {R : Type} (s : ASoup R) (more : List Line) (h : Follows more) :
    ret s (front more) more.tail = ⟨s, front more, more.tail⟩ := by
  rcases h with rfl | ⟨a, b, c, rfl, -, -⟩
  · rfl
  · rfl

theorem Follows.weak {more : List Line} (h : Follows more) :
    more = [] ∨ ∃ h ls, more = h :: ls ∧ h.head? = some 42 ∧ h.length < 1024 := by
  rcases h with rfl | ⟨a, b, c, rfl, h1, h2⟩
  · exact .inl rfl
  · exact .inr ⟨a, b :: c, rfl, h1, h2⟩

end Verif.Abaqus
