import Verif.Props.Str
import Verif.Model.StrView
import Mathlib.Tactic.Linarith
import Mathlib.Tactic.IntervalCases
import Mathlib.Data.List.Infix

/-! # C06, C07, C08: numeric constructors, comparison and searches -/

namespace Verif.StrView

open Verif.Str (Byte Buf rdBytes rdBytes_text rdBytes_all Observes Heap)

/-! ## C07: comparison -/

/-- Lexicographic order for the order `lt` on characters: the first difference decides, a proper
prefix is smaller. -/
def LexLt (lt : Byte → Byte → Prop) (a b : List Byte) : Prop :=
  (∃ y t, b = a ++ y :: t) ∨
  (∃ p x s y t, lt x y ∧ a = p ++ x :: s ∧ b = p ++ y :: t)

/-- Order of signed characters. -/
def sLt (x y : Byte) : Prop := x.toBitVec.toInt < y.toBitVec.toInt

/-- Order of unsigned characters (`std::string`). -/
def uLt (x y : Byte) : Prop := x.toNat < y.toNat

theorem chr_inj {a b : Byte} (h : chr a = chr b) : a = b := by
  unfold chr at h
  have := BitVec.eq_of_toInt_eq h
  exact UInt8.toBitVec_inj.1 this

theorem lexLt_nil_left (lt) (b : List Byte) (hb : b ≠ []) : LexLt lt [] b := by
  cases b with
  | nil => exact absurd rfl hb
  | cons y t => exact Or.inl ⟨y, t, rfl⟩

theorem lexLt_nil_right (lt) (a : List Byte) : ¬ LexLt lt a [] := by
  rintro (⟨y, t, h⟩ | ⟨p, x, s, y, t, -, -, h⟩)
  · simp at h
  · simp at h

theorem lexLt_cons (lt : Byte → Byte → Prop) (hirr : ∀ x, ¬ lt x x) (x y : Byte)
    (a b : List Byte) : LexLt lt (x :: a) (y :: b) ↔ lt x y ∨ (x = y ∧ LexLt lt a b) := by
  constructor
  · rintro (⟨z, t, h⟩ | ⟨p, u, s, v, t, huv, h1, h2⟩)
    · simp only [List.cons_append, List.cons.injEq] at h
      exact Or.inr ⟨h.1.symm, Or.inl ⟨z, t, h.2⟩⟩
    · cases p with
      | nil =>
        simp only [List.nil_append, List.cons.injEq] at h1 h2
        left; rw [h1.1, h2.1]; exact huv
      | cons w p =>
        simp only [List.cons_append, List.cons.injEq] at h1 h2
        exact Or.inr ⟨by rw [h1.1, h2.1], Or.inr ⟨p, u, s, v, t, huv, h1.2, h2.2⟩⟩
  · rintro (h | ⟨rfl, ⟨z, t, h⟩ | ⟨p, u, s, v, t, huv, h1, h2⟩⟩)
    · exact Or.inr ⟨[], x, a, y, b, h, rfl, rfl⟩
    · exact Or.inl ⟨z, t, by rw [h]; rfl⟩
    · exact Or.inr ⟨x :: p, u, s, v, t, huv, by rw [h1]; rfl, by rw [h2]; rfl⟩

theorem sLt_irr (x : Byte) : ¬ sLt x x := lt_irrefl _

theorem compare_cons (x y : Byte) (a b : List Byte) :
    compare (x :: a) (y :: b) =
      if chr x < chr y then some (-1) else if chr y < chr x then some 1 else compare a b := by
  unfold compare
  have e : min (x :: a).length (y :: b).length = min a.length b.length + 1 := by
    simp only [List.length_cons]; omega
  rw [e, memcmp]
  by_cases h1 : chr x < chr y
  · simp [h1]
  by_cases h2 : chr y < chr x
  · simp [h1, h2]
  · simp only [h1, h2, if_false]
    rcases memcmp (min a.length b.length) a b with _ | r <;> simp

/-- C07: `compare` never reads outside its arguments and its sign is the lexicographic order on
(signed) characters. -/
theorem C07_compare (a b : List Byte) : ∃ c, compare a b = some c ∧
    (c < 0 ↔ LexLt sLt a b) ∧ (c = 0 ↔ a = b) ∧ (0 < c ↔ LexLt sLt b a) := by
  induction a generalizing b with
  | nil =>
    cases b with
    | nil => exact ⟨0, by simp [compare, memcmp], by simp [lexLt_nil_right], by simp,
        by simp [lexLt_nil_right]⟩
    | cons y b =>
      exact ⟨-1, by simp [compare, memcmp], by simp [lexLt_nil_left], by simp,
        by simp [lexLt_nil_right]⟩
  | cons x a ih =>
    cases b with
    | nil =>
      exact ⟨1, by simp [compare, memcmp], by simp [lexLt_nil_right], by simp,
        by simp [lexLt_nil_left]⟩
    | cons y b =>
      rw [compare_cons, lexLt_cons sLt sLt_irr, lexLt_cons sLt sLt_irr]
      have hx : sLt x y ↔ chr x < chr y := Iff.rfl
      have hy : sLt y x ↔ chr y < chr x := Iff.rfl
      rw [hx, hy]
      by_cases h1 : chr x < chr y
      · have hne : x ≠ y := by rintro rfl; exact lt_irrefl _ h1
        refine ⟨-1, by rw [if_pos h1], by simp [h1], by simp [hne], ?_⟩
        simp only [Int.reduceNeg, Int.neg_pos, Int.reduceLT, false_iff, not_or, not_and]
        exact ⟨by omega, fun h => absurd h.symm hne⟩
      · by_cases h2 : chr y < chr x
        · have hne : x ≠ y := by rintro rfl; exact lt_irrefl _ h2
          refine ⟨1, by rw [if_neg h1, if_pos h2], ?_, by simp [hne], by simp [h2]⟩
          simp only [Int.reduceLT, false_iff, not_or, not_and]
          exact ⟨by omega, fun h => absurd h hne⟩
        · have he : x = y := chr_inj (by omega)
          subst he
          obtain ⟨c, h3, h4, h5, h6⟩ := ih b
          exact ⟨c, by rw [if_neg h1, if_neg h2, h3], by simpa [h1] using h4, by simpa using h5,
            by simpa [h1] using h6⟩

/-- C07: all comparison operators of `StringView` and `String` agree with that order. -/
theorem C07_operators (a b : List Byte) :
    (∃ r, eqOp a b = some r ∧ (r = true ↔ a = b)) ∧
    (∃ r, neOp a b = some r ∧ (r = true ↔ a ≠ b)) ∧
    (∃ r, strEqOp a b = some r ∧ (r = true ↔ a = b)) ∧
    (∃ r, strNeOp a b = some r ∧ (r = true ↔ a ≠ b)) ∧
    (∃ r, ltOp a b = some r ∧ (r = true ↔ LexLt sLt a b)) ∧
    (∃ r, leOp a b = some r ∧ (r = true ↔ LexLt sLt a b ∨ a = b)) ∧
    (∃ r, gtOp a b = some r ∧ (r = true ↔ LexLt sLt b a)) ∧
    (∃ r, geOp a b = some r ∧ (r = true ↔ LexLt sLt b a ∨ a = b)) := by
  obtain ⟨c, h1, h2, h3, h4⟩ := C07_compare a b
  refine ⟨?_, ?_, ⟨_, by rw [strEqOp, h1]; rfl, by simp [h3]⟩,
    ⟨_, by rw [strNeOp, h1]; rfl, by simp [h3]⟩, ⟨_, by rw [ltOp, h1]; rfl, by simp [h2]⟩,
    ⟨_, by rw [leOp, h1]; rfl, ?_⟩, ⟨_, by rw [gtOp, h1]; rfl, by simp [h4]⟩,
    ⟨_, by rw [geOp, h1]; rfl, ?_⟩⟩
  · unfold eqOp
    by_cases hl : a.length = b.length
    · exact ⟨c == 0, by simp [hl, h1], by simp [h3]⟩
    · exact ⟨false, by simp [hl], by simp; rintro rfl; exact hl rfl⟩
  · unfold neOp
    by_cases hl : a.length = b.length
    · exact ⟨c != 0, by simp [hl, h1], by simp [h3]⟩
    · exact ⟨true, by simp [hl], by simp; rintro rfl; exact hl rfl⟩
  · rw [decide_eq_true_iff, ← h2, ← h3]; omega
  · rw [decide_eq_true_iff, ← h3, ← h4]; omega

/-- C07: hence `<` is a strict total order on texts. -/
theorem C07_strict_total :
    (∀ a, ¬ LexLt sLt a a) ∧ (∀ a b c, LexLt sLt a b → LexLt sLt b c → LexLt sLt a c) ∧
    (∀ a b, LexLt sLt a b ∨ a = b ∨ LexLt sLt b a) := by
  refine ⟨?_, ?_, ?_⟩
  · intro a h
    obtain ⟨c, -, h2, h3, -⟩ := C07_compare a a
    have := h2.2 h; have := h3.2 rfl; omega
  · intro a
    induction a with
    | nil =>
      intro b c h1 h2
      apply lexLt_nil_left
      rintro rfl
      exact lexLt_nil_right _ _ h2
    | cons x a ih =>
      intro b c h1 h2
      cases c with
      | nil => exact absurd h2 (lexLt_nil_right _ _)
      | cons z c =>
        cases b with
        | nil => exact absurd h1 (lexLt_nil_right _ _)
        | cons y b =>
          rw [lexLt_cons _ sLt_irr] at h1 h2 ⊢
          rcases h1 with h1 | ⟨rfl, h1⟩
          · rcases h2 with h2 | ⟨rfl, h2⟩
            · exact Or.inl (lt_trans h1 h2)
            · exact Or.inl h1
          · rcases h2 with h2 | ⟨rfl, h2⟩
            · exact Or.inl h2
            · exact Or.inr ⟨rfl, ih b c h1 h2⟩
  · intro a b
    obtain ⟨c, -, h2, h3, h4⟩ := C07_compare a b
    rcases lt_trichotomy c 0 with h | h | h
    · exact Or.inl (h2.1 h)
    · exact Or.inr (Or.inl (h3.1 h))
    · exact Or.inr (Or.inr (h4.1 h))

/-- C07 with the order of `std::string` (unsigned characters), for ASCII texts. Missing for the
full claim: characters 128 to 255, where it is false (`C07_unsigned_fails`). -/
theorem C07_unsigned_partial (a b : List Byte) (ha : ∀ x ∈ a, x.toNat < 128)
    (hb : ∀ x ∈ b, x.toNat < 128) : ∃ c, compare a b = some c ∧
    (c < 0 ↔ LexLt uLt a b) ∧ (c = 0 ↔ a = b) ∧ (0 < c ↔ LexLt uLt b a) := by
  have key : ∀ a b : List Byte, (∀ x ∈ a, x.toNat < 128) → (∀ x ∈ b, x.toNat < 128) →
      (LexLt sLt a b ↔ LexLt uLt a b) := by
    intro a b ha hb
    have hc : ∀ x : Byte, x.toNat < 128 → x.toBitVec.toInt = (x.toNat : Int) := by
      intro x hx
      have h : x.toBitVec.toNat < 128 := hx
      have : x.toBitVec.toInt = (x.toBitVec.toNat : Int) := by
        rw [BitVec.toInt_eq_toNat_cond]; rw [if_pos (by omega)]
      exact this
    constructor
    · rintro (h | ⟨p, x, s, y, t, h, rfl, rfl⟩)
      · exact Or.inl h
      · refine Or.inr ⟨p, x, s, y, t, ?_, rfl, rfl⟩
        unfold sLt at h; unfold uLt
        rw [hc x (ha x (by simp)), hc y (hb y (by simp))] at h
        omega
    · rintro (h | ⟨p, x, s, y, t, h, rfl, rfl⟩)
      · exact Or.inl h
      · refine Or.inr ⟨p, x, s, y, t, ?_, rfl, rfl⟩
        unfold uLt at h; unfold sLt
        rw [hc x (ha x (by simp)), hc y (hb y (by simp))]
        omega
  obtain ⟨c, h1, h2, h3, h4⟩ := C07_compare a b
  exact ⟨c, h1, by rw [h2, key a b ha hb], h3, by rw [h4, key b a hb ha]⟩

/-- C07 with unsigned characters fails: `"\x80" < "A"` for `um2`, but not for `std::string`. -/
theorem C07_unsigned_fails : compare [128] [65] = some (-1) ∧ ¬ LexLt uLt [128] [65] ∧
    LexLt uLt [65] [128] := by
  refine ⟨by decide, ?_, ?_⟩
  · rw [lexLt_cons uLt (fun x => lt_irrefl _)]
    rintro (h | ⟨h, -⟩)
    · exact absurd h (by unfold uLt; decide)
    · exact absurd h (by decide)
  · rw [lexLt_cons uLt (fun x => lt_irrefl _)]
    exact Or.inl (by unfold uLt; decide)

example : compare [97, 98] [97, 98, 99] = some (-1) ∧ compare [98] [97, 98] = some 1 := by decide

/-! ## C08: searches -/

theorem findFrom_spec (p : Byte → Bool) (v : List Byte) (i : Nat) :
    (∀ k, findFrom p v i = some k → i ≤ k ∧ (∃ x, v[k]? = some x ∧ p x = true) ∧
      ∀ j x, i ≤ j → j < k → v[j]? = some x → p x = false) ∧
    (findFrom p v i = none → ∀ j x, i ≤ j → v[j]? = some x → p x = false) := by
  induction hn : v.length - i generalizing i with
  | zero =>
    rw [findFrom]
    simp only [show ¬ i < v.length by omega, dite_false]
    refine ⟨by simp, fun _ j x hj hx => ?_⟩
    have := (List.getElem?_eq_some_iff.1 hx).1
    omega
  | succ n ih =>
    have hi : i < v.length := by omega
    rw [findFrom]
    simp only [hi, dite_true]
    by_cases hp : p v[i] = true
    · simp only [hp, if_true]
      refine ⟨?_, by simp⟩
      intro k hk
      simp only [Option.some.injEq] at hk
      subst hk
      exact ⟨le_refl _, ⟨v[i], by simp [hi], hp⟩, fun j x h1 h2 => by omega⟩
    · simp only [hp]
      obtain ⟨h1, h2⟩ := ih (i + 1) (by omega)
      constructor
      · intro k hk
        obtain ⟨a, b, c⟩ := h1 k hk
        refine ⟨by omega, b, ?_⟩
        intro j x hj hjk hx
        by_cases hji : j = i
        · subst hji
          rw [List.getElem?_eq_getElem hi] at hx
          simp only [Option.some.injEq] at hx
          rw [← hx]; simpa using hp
        · exact c j x (by omega) hjk hx
      · intro hk j x hj hx
        by_cases hji : j = i
        · subst hji
          rw [List.getElem?_eq_getElem hi] at hx
          simp only [Option.some.injEq] at hx
          rw [← hx]; simpa using hp
        · exact h2 hk j x (by omega) hx

/-- C08: `find_first_of(c, pos)` is the least index from `pos` on holding `c`, `npos` iff there is
none. -/
theorem C08_find_first_of (v : List Byte) (c : Byte) (pos : Nat) :
    (∀ k, findFirstOf v c pos = some k ↔
      (pos ≤ k ∧ v[k]? = some c ∧ ∀ j, pos ≤ j → j < k → v[j]? ≠ some c)) ∧
    (findFirstOf v c pos = none ↔ ∀ j, pos ≤ j → v[j]? ≠ some c) := by
  obtain ⟨h1, h2⟩ := findFrom_spec (· == c) v pos
  have e1 : ∀ k, findFirstOf v c pos = some k →
      (pos ≤ k ∧ v[k]? = some c ∧ ∀ j, pos ≤ j → j < k → v[j]? ≠ some c) := by
    intro k hk
    obtain ⟨a, ⟨x, b1, b2⟩, d⟩ := h1 k hk
    refine ⟨a, by rw [b1]; simpa using b2, ?_⟩
    intro j h3 h4 h5
    simpa using d j c h3 h4 h5
  have e2 : findFirstOf v c pos = none → ∀ j, pos ≤ j → v[j]? ≠ some c := by
    intro hk j h3 h4
    simpa using h2 hk j c h3 h4
  refine ⟨fun k => ⟨e1 k, ?_⟩, e2, ?_⟩
  · rintro ⟨a, b, d⟩
    cases hf : findFirstOf v c pos with
    | none => exact absurd b (e2 hf k a)
    | some k' =>
      obtain ⟨a', b', d'⟩ := e1 k' hf
      rcases lt_trichotomy k k' with h | h | h
      · exact absurd b (d' k a h)
      · rw [h]
      · exact absurd b' (d k' a' h)
  · intro h
    cases hf : findFirstOf v c pos with
    | none => rfl
    | some k => obtain ⟨a, b, -⟩ := e1 k hf; exact absurd b (h k a)

/-- C08: `find_first_not_of(c, pos)` is the least index from `pos` on holding another character. -/
theorem C08_find_first_not_of (v : List Byte) (c : Byte) (pos : Nat) :
    (∀ k, findFirstNotOf v c pos = some k ↔
      (pos ≤ k ∧ (∃ x, v[k]? = some x ∧ x ≠ c) ∧
        ∀ j x, pos ≤ j → j < k → v[j]? = some x → x = c)) ∧
    (findFirstNotOf v c pos = none ↔ ∀ j x, pos ≤ j → v[j]? = some x → x = c) := by
  obtain ⟨h1, h2⟩ := findFrom_spec (· != c) v pos
  have e1 : ∀ k, findFirstNotOf v c pos = some k →
      (pos ≤ k ∧ (∃ x, v[k]? = some x ∧ x ≠ c) ∧
        ∀ j x, pos ≤ j → j < k → v[j]? = some x → x = c) := by
    intro k hk
    obtain ⟨a, ⟨x, b1, b2⟩, d⟩ := h1 k hk
    refine ⟨a, ⟨x, b1, by simpa using b2⟩, ?_⟩
    intro j x h3 h4 h5
    simpa using d j x h3 h4 h5
  have e2 : findFirstNotOf v c pos = none → ∀ j x, pos ≤ j → v[j]? = some x → x = c := by
    intro hk j x h3 h4
    simpa using h2 hk j x h3 h4
  refine ⟨fun k => ⟨e1 k, ?_⟩, e2, ?_⟩
  · rintro ⟨a, ⟨x, b1, b2⟩, d⟩
    cases hf : findFirstNotOf v c pos with
    | none => exact absurd (e2 hf k x a b1) b2
    | some k' =>
      obtain ⟨a', ⟨x', b1', b2'⟩, d'⟩ := e1 k' hf
      rcases lt_trichotomy k k' with h | h | h
      · exact absurd (d' k x a h b1) b2
      · rw [h]
      · exact absurd (d k' x' a' h b1') b2'
  · intro h
    cases hf : findFirstNotOf v c pos with
    | none => rfl
    | some k => obtain ⟨a, ⟨x, b1, b2⟩, -⟩ := e1 k hf; exact absurd (h k x a b1) b2

theorem findLastLoop_spec (v : List Byte) (c : Byte) (n : Nat) :
    (∀ k, findLastLoop v c n = some k → k < n ∧ v[k]? = some c ∧
      ∀ j, k < j → j < n → v[j]? ≠ some c) ∧
    (findLastLoop v c n = none → ∀ j, j < n → v[j]? ≠ some c) := by
  induction n with
  | zero => exact ⟨by simp [findLastLoop], fun _ j hj => by omega⟩
  | succ n ih =>
    obtain ⟨h1, h2⟩ := ih
    unfold findLastLoop
    by_cases hc : v[n]? = some c
    · rw [if_pos hc]
      refine ⟨?_, by simp⟩
      intro k hk
      simp only [Option.some.injEq] at hk
      subst hk
      exact ⟨by omega, hc, fun j h3 h4 => by omega⟩
    · rw [if_neg hc]
      constructor
      · intro k hk
        obtain ⟨a, b, d⟩ := h1 k hk
        refine ⟨by omega, b, ?_⟩
        intro j h3 h4
        by_cases hj : j = n
        · subst hj; exact hc
        · exact d j h3 (by omega)
      · intro hk j hj
        by_cases hj' : j = n
        · subst hj'; exact hc
        · exact h2 hk j (by omega)

/-- C08: `find_last_of(c, pos)` is the greatest index up to `pos` holding `c`. -/
theorem C08_find_last_of (v : List Byte) (c : Byte) (pos : Nat) :
    (∀ k, findLastOf v c pos = some k ↔
      (k ≤ pos ∧ v[k]? = some c ∧ ∀ j, k < j → j ≤ pos → v[j]? ≠ some c)) ∧
    (findLastOf v c pos = none ↔ ∀ j, j ≤ pos → v[j]? ≠ some c) := by
  obtain ⟨h1, h2⟩ := findLastLoop_spec v c (if pos < v.length then pos + 1 else v.length)
  have hout : ∀ j, v.length ≤ j → v[j]? ≠ some c := by
    intro j hj h
    have := (List.getElem?_eq_some_iff.1 h).1; omega
  have e1 : ∀ k, findLastOf v c pos = some k →
      (k ≤ pos ∧ v[k]? = some c ∧ ∀ j, k < j → j ≤ pos → v[j]? ≠ some c) := by
    intro k hk
    obtain ⟨a, b, d⟩ := h1 k hk
    refine ⟨by split_ifs at a <;> omega, b, ?_⟩
    intro j h3 h4
    by_cases hj : j < v.length
    · exact d j h3 (by split_ifs <;> omega)
    · exact hout j (by omega)
  have e2 : findLastOf v c pos = none → ∀ j, j ≤ pos → v[j]? ≠ some c := by
    intro hk j hj
    by_cases hj' : j < v.length
    · exact h2 hk j (by split_ifs <;> omega)
    · exact hout j (by omega)
  refine ⟨fun k => ⟨e1 k, ?_⟩, e2, ?_⟩
  · rintro ⟨a, b, d⟩
    cases hf : findLastOf v c pos with
    | none => exact absurd b (e2 hf k a)
    | some k' =>
      obtain ⟨a', b', d'⟩ := e1 k' hf
      rcases lt_trichotomy k k' with h | h | h
      · exact absurd b' (d k' h a')
      · rw [h]
      · exact absurd b (d' k h a)
  · intro h
    cases hf : findLastOf v c pos with
    | none => rfl
    | some k => obtain ⟨a, b, -⟩ := e1 k hf; exact absurd b (h k a)

theorem memcmp_zero_iff (s : List Byte) : ∀ t : List Byte, s.length ≤ t.length →
    ∃ r, memcmp s.length t s = some r ∧ (r = 0 ↔ s <+: t) := by
  induction s with
  | nil => intro t _; exact ⟨0, by simp [memcmp], by simp⟩
  | cons x s ih =>
    intro t ht
    cases t with
    | nil => simp at ht
    | cons y t =>
      rw [List.length_cons, memcmp]
      by_cases h1 : chr y < chr x
      · refine ⟨-1, by simp [h1], ?_⟩
        have : x ≠ y := by rintro rfl; exact lt_irrefl _ h1
        simp [List.cons_prefix_cons, this]
      · by_cases h2 : chr x < chr y
        · refine ⟨1, by simp [h1, h2], ?_⟩
          have : x ≠ y := by rintro rfl; exact lt_irrefl _ h2
          simp [List.cons_prefix_cons, this]
        · have he : x = y := chr_inj (by omega)
          subst he
          obtain ⟨r, h3, h4⟩ := ih t (by simpa using ht)
          exact ⟨r, by simp [h3], by simp [List.cons_prefix_cons, h4]⟩

theorem findSubLoop_spec (s : List Byte) (t : List Byte) : ∀ pos,
    (∃ k, findSubLoop s t pos = some (some (pos + k)) ∧ k ≤ t.length ∧ s <+: t.drop k ∧
      ∀ j, j < k → ¬ s <+: t.drop j) ∨
    (findSubLoop s t pos = some none ∧ ∀ j, j ≤ t.length → ¬ s <+: t.drop j) := by
  induction t with
  | nil =>
    intro pos
    rw [findSubLoop.eq_def]
    by_cases hs : s.length ≤ 0
    · have : s = [] := List.eq_nil_of_length_eq_zero (by omega)
      subst this
      left
      exact ⟨0, by simp [memcmp], by simp, by simp, by simp⟩
    · right
      simp only [List.length_nil, hs, if_false, true_and]
      intro j _ h
      have := h.length_le; simp at this; rw [this] at hs; simp at hs
  | cons y t ih =>
    intro pos
    rw [findSubLoop.eq_def]
    by_cases hs : s.length ≤ (y :: t).length
    · simp only [hs, if_true]
      obtain ⟨r, h1, h2⟩ := memcmp_zero_iff s (y :: t) hs
      rw [h1]
      by_cases hr : r = 0
      · subst hr
        left
        exact ⟨0, by simp, by simp, by simpa using h2.1 rfl, by simp⟩
      · have hn : ¬ s <+: (y :: t) := fun h => hr (h2.2 h)
        have e : (match some r with
          | none => none
          | some 0 => some (some pos)
          | some _ => findSubLoop s t (pos + 1)) = findSubLoop s t (pos + 1) := by
          split
          · rename_i h; simp at h
          · rename_i h; simp only [Option.some.injEq] at h; exact absurd h hr
          · rfl
        simp only [e]
        rcases ih (pos + 1) with ⟨k, k1, k2, k3, k4⟩ | ⟨k1, k2⟩
        · left
          refine ⟨k + 1, by rw [k1]; congr 2; omega, by simp; omega, by simpa using k3, ?_⟩
          intro j hj
          cases j with
          | zero => simpa using hn
          | succ j => simpa using k4 j (by omega)
        · right
          refine ⟨k1, ?_⟩
          intro j hj
          cases j with
          | zero => simpa using hn
          | succ j => simpa using k2 j (by simpa using hj)
    · right
      simp only [hs, if_false, true_and]
      intro j _ h
      have := h.length_le
      simp at this hs; omega

/-- C08: `find_first_of(view, pos)` is the least index from `pos` on at which `s` occurs as a
contiguous block, `npos` iff it occurs nowhere; it never reads outside the view. -/
theorem C08_find_view (v s : List Byte) (pos : Nat) :
    (∃ k, findSub v s pos = some (some k) ∧ pos ≤ k ∧ k ≤ v.length ∧ s <+: v.drop k ∧
      ∀ j, pos ≤ j → j < k → ¬ s <+: v.drop j) ∨
    (findSub v s pos = some none ∧ ∀ j, pos ≤ j → j ≤ v.length → ¬ s <+: v.drop j) := by
  unfold findSub
  by_cases hp : pos > v.length
  · right
    rw [if_pos hp]
    exact ⟨rfl, fun j h1 h2 => by omega⟩
  · rw [if_neg hp]
    rcases findSubLoop_spec s (v.drop pos) pos with ⟨k, k1, k2, k3, k4⟩ | ⟨k1, k2⟩
    · left
      rw [List.drop_drop] at k3
      rw [List.length_drop] at k2
      refine ⟨pos + k, k1, by omega, by omega, k3, ?_⟩
      intro j h1 h2 h3
      have := k4 (j - pos) (by omega)
      rw [List.drop_drop, show pos + (j - pos) = j by omega] at this
      exact this h3
    · right
      refine ⟨k1, ?_⟩
      intro j h1 h2 h3
      have := k2 (j - pos) (by rw [List.length_drop]; omega)
      rw [List.drop_drop, show pos + (j - pos) = j by omega] at this
      exact this h3

/-- C08: `starts_with` and `ends_with` decide prefix and suffix. -/
theorem C08_prefix_suffix (v s : List Byte) :
    (∃ r, startsWith v s = some r ∧ (r = true ↔ s <+: v)) ∧
    (∃ r, endsWith v s = some r ∧ (r = true ↔ s <:+ v)) := by
  constructor
  · unfold startsWith
    by_cases hl : s.length ≤ v.length
    · obtain ⟨c, h1, -, h3, -⟩ := C07_compare (v.take s.length) s
      refine ⟨c == 0, ?_, ?_⟩
      · simp [hl, substr, h1]
      · rw [beq_iff_eq, h3, List.prefix_iff_eq_take]; exact eq_comm
    · refine ⟨false, by simp [hl], ?_⟩
      simp only [Bool.false_eq_true, false_iff]
      intro h; exact hl h.length_le
  · unfold endsWith
    by_cases hl : s.length ≤ v.length
    · obtain ⟨c, h1, -, h3, -⟩ := C07_compare (v.drop (v.length - s.length)) s
      refine ⟨c == 0, ?_, ?_⟩
      · have e : (v.drop (v.length - s.length)).take s.length = v.drop (v.length - s.length) :=
          List.take_of_length_le (by simp; omega)
        simp [hl, substr, e, h1]
      · rw [beq_iff_eq, h3, List.suffix_iff_eq_drop]; exact eq_comm
    · refine ⟨false, by simp [hl], ?_⟩
      simp only [Bool.false_eq_true, false_iff]
      intro h; exact hl h.length_le

example : findFirstOf [97, 98, 97] 98 0 = some 1 ∧ findLastOf [97, 98, 97] 97 5 = some 2 := by
  constructor
  · rw [(C08_find_first_of _ _ _).1]
    refine ⟨by decide, by decide, ?_⟩
    intro j _ hj
    interval_cases j
    decide
  · decide

/-! ## C06: numeric constructors -/

theorem snprintfBuf_short (f : List Byte) (h : f.length ≤ 31) :
    ∃ t, snprintfBuf f = f.map some ++ some 0 :: t := by
  refine ⟨List.replicate (31 - f.length) none, ?_⟩
  unfold snprintfBuf
  rw [List.take_of_length_le h, List.append_assoc, List.take_append, List.take_of_length_le
    (by simp; omega), List.append_cancel_left_eq]
  simp only [List.length_map, List.singleton_append]
  rw [show 32 - f.length = (31 - f.length) + 1 by omega, List.take_succ_cons, List.take_replicate]
  congr 2; omega

/-- C06: what exactly is stored for a value that formats to `f`: the text up to 31 characters;
32 characters lose the last one to the terminator; more read beyond the scratch buffer. -/
theorem C06_numeric_exact (f : List Byte) :
    (f.length ≤ 31 → numericText f = some f) ∧
    (f.length = 32 → numericText f = some (f.take 31 ++ [0])) ∧
    (32 < f.length → numericText f = none) := by
  have hlen : (snprintfBuf f).length = 32 := by simp [snprintfBuf]
  refine ⟨?_, ?_, ?_⟩
  · intro h
    obtain ⟨t, ht⟩ := snprintfBuf_short f h
    rw [numericText, ht, rdBytes_all]
  · intro h
    have e : snprintfBuf f = (f.take 31 ++ [0]).map some ++ [] := by
      unfold snprintfBuf
      rw [List.take_append_of_le_length (by simp; omega), List.take_of_length_le (by simp)]
      simp
    rw [numericText, e]
    have := rdBytes_all (f.take 31 ++ [0]) []
    have e2 : (f.take 31 ++ [(0 : Byte)]).length = f.length := by simp; omega
    rwa [e2] at this
  · intro h
    rw [numericText, rdBytes, if_neg (by omega)]

theorem digits_length (n : Nat) : ∀ k, 1 ≤ k → n < 10 ^ k → (digits n).length ≤ k := by
  induction n using Nat.strongRecOn with
  | ind n ih =>
    intro k hk hn
    rw [digits]
    split_ifs with h
    · simpa using hk
    · obtain ⟨k', rfl⟩ : ∃ k', k = k' + 2 := by
        refine ⟨k - 2, ?_⟩
        rcases k with _ | _ | k
        · omega
        · simp at hn; omega
        · omega
      have := ih (n / 10) (by omega) (k' + 1) (by omega) (by
        rw [Nat.div_lt_iff_lt_mul (by norm_num)]
        calc n < 10 ^ (k' + 2) := hn
          _ = 10 ^ (k' + 1) * 10 := by ring)
      simp only [List.length_append, List.length_singleton]; omega

theorem digits_length_ge (n : Nat) : ∀ k, 10 ^ k ≤ n → k + 1 ≤ (digits n).length := by
  induction n using Nat.strongRecOn with
  | ind n ih =>
    intro k hn
    rw [digits]
    split_ifs with h
    · cases k with
      | zero => simp
      | succ k =>
        have : 10 ≤ 10 ^ (k + 1) := by
          rw [pow_succ]; have := Nat.one_le_pow k 10 (by norm_num); omega
        omega
    · cases k with
      | zero => simp
      | succ k =>
        have := ih (n / 10) (by omega) k (by
          rw [Nat.le_div_iff_mul_le (by norm_num)]
          calc 10 ^ k * 10 = 10 ^ (k + 1) := by ring
            _ ≤ n := hn)
        simp only [List.length_append, List.length_singleton]; omega

/-- C06: `String(int32_t)` and `String(int64_t)` hold exactly the decimal text. -/
theorem C06_integer (h : Heap) (z : Int) (hz : -2 ^ 63 ≤ z ∧ z < 2 ^ 63) :
    ∃ h' r, ofNumber h (fmtInt z) = some (h', r) ∧ Observes h' r (fmtInt z) := by
  have hlen : (fmtInt z).length ≤ 20 := by
    have := digits_length z.natAbs 19 (by norm_num) (by norm_num at hz ⊢; omega)
    unfold fmtInt
    split_ifs
    · simp only [List.length_cons]; omega
    · omega
  obtain ⟨h', r, h1, h2, -⟩ := Str.C04_inline h (fmtInt z) (by norm_num; omega)
  refine ⟨h', r, ?_, h2⟩
  simp [ofNumber, (C06_numeric_exact (fmtInt z)).1 (by omega), h1]

theorem fmtFixed_length (neg : Bool) (m : Nat) : (fmtFixed neg m).length =
    (if neg then 1 else 0) + (digits (m / 1000000)).length + 7 := by
  unfold fmtFixed
  cases neg <;> simp <;> omega

/-- C06 for floating point: values below `10^23` in magnitude are stored exactly as `%f` prints
them. Missing: larger magnitudes, where the claim is false (`C06_float_fails`). -/
theorem C06_float_partial (h : Heap) (neg : Bool) (m : Nat) (hm : m < 10 ^ 23 * 1000000) :
    ∃ h' r, ofNumber h (fmtFixed neg m) = some (h', r) ∧ Observes h' r (fmtFixed neg m) := by
  have hd := digits_length (m / 1000000) 23 (by norm_num)
    (by rw [Nat.div_lt_iff_lt_mul (by norm_num)]; exact hm)
  have hlen : (fmtFixed neg m).length ≤ 31 := by
    rw [fmtFixed_length]; split_ifs <;> omega
  obtain ⟨h', r, h1, h2, -⟩ := Str.C04_inline h (fmtFixed neg m) (by norm_num; omega)
  refine ⟨h', r, ?_, h2⟩
  simp [ofNumber, (C06_numeric_exact (fmtFixed neg m)).1 hlen, h1]

/-- C06 fails for every value of magnitude at least `10^25` (far inside the range of `float` and
`double`): the constructor reads beyond its scratch buffer. -/
theorem C06_float_fails (h : Heap) (neg : Bool) (m : Nat) (hm : 10 ^ 25 * 1000000 ≤ m) :
    ofNumber h (fmtFixed neg m) = none := by
  have hd := digits_length_ge (m / 1000000) 25
    (by rw [Nat.le_div_iff_mul_le (by norm_num)]; exact hm)
  have := (C06_numeric_exact (fmtFixed neg m)).2.2 (by rw [fmtFixed_length]; omega)
  simp [ofNumber, this]

/-- The number written with these digits. -/
def decimal (l : List Byte) : Nat := l.foldl (fun a c => 10 * a + (c.toNat - 48)) 0

/-- Only digits. -/
def Digits (l : List Byte) : Prop := ∀ c ∈ l, 48 ≤ c.toNat ∧ c.toNat ≤ 57

theorem decimal_snoc (l : List Byte) (c : Byte) : decimal (l ++ [c]) = 10 * decimal l + (c.toNat - 48) := by
  simp [decimal]

theorem digit_toNat (n : Nat) (h : n < 10) : (UInt8.ofNat (48 + n)).toNat = 48 + n := by
  rw [UInt8.toNat_ofNat']
  exact Nat.mod_eq_of_lt (by omega)

theorem digits_spec (n : Nat) : Digits (digits n) ∧ decimal (digits n) = n ∧ (10 ≤ n → (digits n).head? ≠ some 48) := by
  induction n using Nat.strong_induction_on with
  | _ n ih =>
    rw [digits]
    split_ifs with h
    · refine ⟨?_, ?_, fun h' => absurd h (by omega)⟩
      · intro c hc
        rw [List.mem_singleton] at hc
        subst hc
        rw [digit_toNat n h]; omega
      · simp only [decimal, List.foldl_cons, List.foldl_nil, digit_toNat n h]; omega
    · obtain ⟨h1, h2, h3⟩ := ih (n / 10) (by omega)
      have hd := digit_toNat (n % 10) (Nat.mod_lt _ (by norm_num))
      refine ⟨?_, ?_, ?_⟩
      · intro c hc
        rcases List.mem_append.1 hc with hc | hc
        · exact h1 c hc
        · rw [List.mem_singleton] at hc
          subst hc
          rw [hd]; omega
      · rw [decimal_snoc, h2, hd]; omega
      · intro _
        by_cases h10 : 10 ≤ n / 10
        · have := h3 h10
          cases hh : digits (n / 10) with
          | nil => rw [hh] at h2; simp [decimal] at h2; omega
          | cons a t => rw [hh] at this; simpa using this
        · rw [digits, if_pos (by omega)]
          simp only [List.cons_append, List.head?_cons, ne_eq, Option.some.injEq]
          intro hc
          have := congrArg UInt8.toNat hc
          rw [digit_toNat _ (by omega)] at this
          simp at this
          omega

/-- C06: the texts. An integer is its sign and its decimal digits without leading zeros; a fixed point number is its sign, the
digits of the whole part, a point and six digits, which together are the number of millionths. -/
theorem C06_text (z : Int) (neg : Bool) (m : Nat) :
    (∃ ds, fmtInt z = (if z < 0 then [45] else []) ++ ds ∧ Digits ds ∧ decimal ds = z.natAbs ∧
      (10 ≤ z.natAbs → ds.head? ≠ some 48)) ∧
    ∃ ip fp, fmtFixed neg m = (if neg then [45] else []) ++ ip ++ 46 :: fp ∧ Digits ip ∧ Digits fp ∧ fp.length = 6 ∧
      decimal ip * 1000000 + decimal fp = m ∧ (10000000 ≤ m → ip.head? ≠ some 48) := by
  constructor
  · obtain ⟨h1, h2, h3⟩ := digits_spec z.natAbs
    refine ⟨digits z.natAbs, ?_, h1, h2, h3⟩
    unfold fmtInt
    split_ifs <;> simp
  · obtain ⟨h1, h2, h3⟩ := digits_spec (m / 1000000)
    refine ⟨digits (m / 1000000), (List.range 6).map fun k => UInt8.ofNat (48 + m / 10 ^ (5 - k) % 10), ?_, h1, ?_, by simp, ?_,
      fun h => h3 (by omega)⟩
    · unfold fmtFixed; simp
    · intro c hc
      rw [List.mem_map] at hc
      obtain ⟨k, -, rfl⟩ := hc
      rw [digit_toNat _ (Nat.mod_lt _ (by norm_num))]
      have := Nat.mod_lt (m / 10 ^ (5 - k)) (show 0 < 10 by norm_num)
      omega
    · rw [h2]
      have e : List.range 6 = [0, 1, 2, 3, 4, 5] := rfl
      rw [e]
      simp only [List.map_cons, List.map_nil, decimal, List.foldl_cons, List.foldl_nil]
      have hd : ∀ x, (UInt8.ofNat (48 + x % 10)).toNat = 48 + x % 10 := fun x => digit_toNat _ (Nat.mod_lt _ (by norm_num))
      simp only [hd]
      norm_num
      omega

example : fmtInt (-1234) = [45, 49, 50, 51, 52] := by
  simp [fmtInt, digits]

end Verif.StrView
