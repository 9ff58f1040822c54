import Verif.Props.StrView

/-! # Specification of fields, and lemmas about tokenising -/

namespace Verif.StrView

open Verif.Str (Byte)

/-- Split a text at every `d`. -/
def split (d : Byte) : List Byte → List (List Byte)
  | [] => [[]]
  | x :: s =>
    if x = d then [] :: split d s
    else match split d s with
      | [] => [[x]]
      | f :: fs => (x :: f) :: fs

/-- The non-empty fields of a text separated by `d`. -/
def fields (d : Byte) (s : List Byte) : List (List Byte) := (split d s).filter (· ≠ [])

theorem split_ne_nil (d : Byte) (s : List Byte) : split d s ≠ [] := by
  cases s with
  | nil => simp [split]
  | cons x s =>
    unfold split
    split_ifs
    · simp
    · split <;> simp

theorem split_free (d : Byte) (t : List Byte) (h : d ∉ t) : split d t = [t] := by
  induction t with
  | nil => rfl
  | cons x t ih =>
    simp only [List.mem_cons, not_or] at h
    rw [split, if_neg (Ne.symm h.1), ih h.2]

theorem split_append (d : Byte) (t r : List Byte) (h : d ∉ t) :
    split d (t ++ d :: r) = t :: split d r := by
  induction t with
  | nil => simp [split]
  | cons x t ih =>
    simp only [List.mem_cons, not_or] at h
    rw [List.cons_append, split, if_neg (Ne.symm h.1), ih h.2]

theorem fields_nil (d : Byte) : fields d [] = [] := rfl

theorem fields_delim (d : Byte) (s : List Byte) : fields d (d :: s) = fields d s := by
  simp [fields, split]

theorem fields_delims (d : Byte) (n : Nat) (s : List Byte) :
    fields d (List.replicate n d ++ s) = fields d s := by
  induction n with
  | zero => simp
  | succ n ih => rw [List.replicate_succ, List.cons_append, fields_delim, ih]

theorem fields_free (d : Byte) (t : List Byte) (h : d ∉ t) (ht : t ≠ []) : fields d t = [t] := by
  simp [fields, split_free d t h, ht]

theorem fields_append (d : Byte) (t r : List Byte) (h : d ∉ t) (ht : t ≠ []) :
    fields d (t ++ d :: r) = t :: fields d r := by
  simp [fields, split_append d t r h, ht]

/-- Every text is delimiters only, or delimiters followed by a field that ends the text or is
followed by a delimiter. -/
theorem decompose (d : Byte) (s : List Byte) :
    (∃ n, s = List.replicate n d) ∨
    (∃ n t, s = List.replicate n d ++ t ∧ t ≠ [] ∧ d ∉ t) ∨
    (∃ n t r, s = List.replicate n d ++ t ++ d :: r ∧ t ≠ [] ∧ d ∉ t) := by
  induction s with
  | nil => exact Or.inl ⟨0, rfl⟩
  | cons x s ih =>
    by_cases hx : x = d
    · subst hx
      rcases ih with ⟨n, rfl⟩ | ⟨n, t, rfl, h⟩ | ⟨n, t, r, rfl, h⟩
      · exact Or.inl ⟨n + 1, rfl⟩
      · exact Or.inr (Or.inl ⟨n + 1, t, rfl, h⟩)
      · exact Or.inr (Or.inr ⟨n + 1, t, r, rfl, h⟩)
    · rcases ih with ⟨n, rfl⟩ | ⟨n, t, rfl, h1, h2⟩ | ⟨n, t, r, rfl, h1, h2⟩
      · cases n with
        | zero => exact Or.inr (Or.inl ⟨0, [x], rfl, by simp, by simpa using Ne.symm hx⟩)
        | succ n =>
          exact Or.inr (Or.inr ⟨0, [x], List.replicate n d, rfl, by simp, by simpa using Ne.symm hx⟩)
      · cases n with
        | zero => exact Or.inr (Or.inl ⟨0, x :: t, rfl, by simp, by simp [Ne.symm hx, h2]⟩)
        | succ n =>
          exact Or.inr (Or.inr ⟨0, [x], List.replicate n d ++ t, rfl, by simp,
            by simpa using Ne.symm hx⟩)
      · cases n with
        | zero => exact Or.inr (Or.inr ⟨0, x :: t, r, rfl, by simp, by simp [Ne.symm hx, h2]⟩)
        | succ n =>
          exact Or.inr (Or.inr ⟨0, [x], List.replicate n d ++ t ++ d :: r, rfl, by simp,
            by simpa using Ne.symm hx⟩)

theorem findFirstNotOf_replicate (d : Byte) (n : Nat) :
    findFirstNotOf (List.replicate n d) d 0 = none := by
  rw [(C08_find_first_not_of _ _ _).2]
  intro j x _ hx
  exact List.eq_of_mem_replicate (List.mem_of_getElem? hx)

theorem findFirstNotOf_run (d : Byte) (n : Nat) (t : List Byte) (ht : t ≠ []) (hd : d ∉ t)
    (u : List Byte) : findFirstNotOf (List.replicate n d ++ t ++ u) d 0 = some n := by
  cases t with
  | nil => exact absurd rfl ht
  | cons x t =>
    rw [(C08_find_first_not_of _ _ _).1]
    simp only [List.mem_cons, not_or] at hd
    refine ⟨by omega, ⟨x, by simp, fun e => hd.1 e.symm⟩, ?_⟩
    intro j y _ hj hy
    rw [List.append_assoc, List.getElem?_append_left (by simpa using hj)] at hy
    exact List.eq_of_mem_replicate (List.mem_of_getElem? hy)

theorem findFirstOf_run (d : Byte) (n : Nat) (t : List Byte) (hd : d ∉ t) :
    findFirstOf (List.replicate n d ++ t) d n = none ∧
    ∀ r, findFirstOf (List.replicate n d ++ t ++ d :: r) d n = some (n + t.length) := by
  have aux : ∀ (u : List Byte) (j : Nat), n ≤ j → j < n + t.length →
      (List.replicate n d ++ t ++ u)[j]? ≠ some d := by
    intro u j h1 h2 h3
    rw [List.append_assoc, List.getElem?_append_right (by simpa using h1),
      List.getElem?_append_left (by simp; omega)] at h3
    exact hd (List.mem_of_getElem? h3)
  constructor
  · rw [(C08_find_first_of _ _ _).2]
    intro j h1 h2
    by_cases hj : j < n + t.length
    · exact aux [] j h1 hj (by simpa using h2)
    · have := (List.getElem?_eq_some_iff.1 h2).1
      simp at this; omega
  · intro r
    rw [(C08_find_first_of _ _ _).1]
    refine ⟨by omega, by simp, fun j h1 h2 => aux _ j h1 h2⟩

/-- Shape of one call of `getTokenAndShrink`. -/
theorem getToken_none (d : Byte) (v : View) (n : Nat) (h : v.bytes = List.replicate n d) :
    getToken d v = (⟨[], 0⟩, v) := by
  unfold getToken
  rw [h, findFirstNotOf_replicate]

theorem getToken_last (d : Byte) (v : View) (n : Nat) (t : List Byte) (ht : t ≠ []) (hd : d ∉ t)
    (h : v.bytes = List.replicate n d ++ t) :
    getToken d v = (⟨v.suf.drop n, v.size - n⟩, ⟨[], 0⟩) := by
  unfold getToken
  have := findFirstNotOf_run d n t ht hd []
  rw [List.append_nil] at this
  rw [h, this]
  simp only [(findFirstOf_run d n t hd).1]

theorem getToken_mid (d : Byte) (v : View) (n : Nat) (t r : List Byte) (ht : t ≠ []) (hd : d ∉ t)
    (h : v.bytes = List.replicate n d ++ t ++ d :: r) :
    getToken d v = (⟨v.suf.drop n, t.length⟩, removePrefix v (n + t.length + 1)) := by
  unfold getToken
  rw [h, findFirstNotOf_run d n t ht hd]
  simp only [(findFirstOf_run d n t hd).2 r]
  rw [show n + t.length - n = t.length by omega]

/-- A view inside its storage. -/
def View.ok (v : View) : Prop := v.size ≤ v.suf.length

theorem View.ok.length {v : View} (h : v.ok) : v.bytes.length = v.size := by
  simp only [View.bytes, List.length_take]; exact Nat.min_eq_left h

theorem suf_eq {v : View} : v.suf = v.bytes ++ v.suf.drop v.size := (List.take_append_drop _ _).symm

theorem bytes_drop (v : View) (n k : Nat) (h : n + k ≤ v.size) :
    (⟨v.suf.drop n, k⟩ : View).bytes = (v.bytes.drop n).take k := by
  simp only [View.bytes, List.drop_take, List.take_take]
  congr 1; omega

theorem bytes_removePrefix (v : View) (n : Nat) : (removePrefix v n).bytes = v.bytes.drop n := by
  simp only [View.bytes, removePrefix, List.drop_take]

theorem ok_removePrefix {v : View} (h : v.ok) (n : Nat) : (removePrefix v n).ok := by
  unfold View.ok removePrefix at *; simp; omega

/-- The result of one call, in terms of the text. -/
theorem getToken_spec (d : Byte) (v : View) (hok : v.ok) :
    let (t, v') := getToken d v
    t.ok ∧ v'.ok ∧ d ∉ t.bytes ∧
    (t.size = 0 → v' = v ∧ fields d v.bytes = []) ∧
    (t.size ≠ 0 → v'.size < v.size ∧ fields d v.bytes = t.bytes :: fields d v'.bytes ∧
      ∃ k, t.suf = v.suf.drop k ∧ k + t.size ≤ v.size ∧
        (k + t.size = v.size ∨ ∃ r, v.bytes.drop (k + t.size) = d :: r) ∧
        (v'.size = 0 ∨ (v'.suf = v.suf.drop (k + t.size + 1) ∧
          v'.size + (k + t.size + 1) = v.size))) := by
  rcases decompose d v.bytes with ⟨n, h⟩ | ⟨n, t, h, ht, hd⟩ | ⟨n, t, r, h, ht, hd⟩
  · rw [getToken_none d v n h]
    refine ⟨by simp [View.ok], hok, by simp [View.bytes], fun _ => ⟨rfl, ?_⟩, by simp⟩
    rw [h]
    have := fields_delims d n []
    simpa [fields_nil] using this
  · rw [getToken_last d v n t ht hd h]
    have hlen : v.size = n + t.length := by rw [← hok.length, h]; simp
    have hb : (⟨v.suf.drop n, v.size - n⟩ : View).bytes = t := by
      rw [bytes_drop v n _ (by omega), h]; simp [hlen]
    have htl : 0 < t.length := List.length_pos_iff.2 ht
    refine ⟨by unfold View.ok at *; simp; omega, by simp [View.ok], by rw [hb]; exact hd,
      fun h0 => by simp only at h0; omega, fun _ => ⟨by simp only; omega, ?_, ?_⟩⟩
    · rw [hb, h, fields_delims, fields_free d t hd ht]; simp [View.bytes, fields_nil]
    · exact ⟨n, rfl, by simp only; omega, Or.inl (by simp only; omega), Or.inl rfl⟩
  · rw [getToken_mid d v n t r ht hd h]
    have hlen : v.size = n + t.length + (r.length + 1) := by rw [← hok.length, h]; simp; omega
    have hb : (⟨v.suf.drop n, t.length⟩ : View).bytes = t := by
      rw [bytes_drop v n _ (by omega), h]; simp
    have hb' : (removePrefix v (n + t.length + 1)).bytes = r := by
      rw [bytes_removePrefix, h]
      rw [← List.drop_drop]
      have : (List.replicate n d ++ t ++ d :: r).drop (n + t.length) = d :: r := by
        rw [List.drop_append, List.drop_eq_nil_of_le (by simp)]; simp
      rw [this]; rfl
    have htl : 0 < t.length := List.length_pos_iff.2 ht
    refine ⟨by unfold View.ok at *; simp; omega, ok_removePrefix hok _, by rw [hb]; exact hd,
      fun h0 => by simp only at h0; omega, fun _ => ⟨?_, ?_, ?_⟩⟩
    · simp only [removePrefix]; omega
    · rw [hb, hb', h, List.append_assoc, fields_delims, fields_append d t r hd ht]
    · refine ⟨n, rfl, by simp only; omega, Or.inr ⟨r, ?_⟩, Or.inr ⟨rfl, ?_⟩⟩
      · rw [h, List.drop_append, List.drop_eq_nil_of_le (by simp)]; simp
      · simp only [removePrefix]; omega

/-! ## Leading spaces -/

/-- Drop leading spaces. -/
def trim (s : List Byte) : List Byte := s.dropWhile (· == 32)

theorem removeLeadingSpaces_spec (v : View) (hok : v.ok) :
    (removeLeadingSpaces v).ok ∧ (removeLeadingSpaces v).bytes = trim v.bytes ∧
    (removeLeadingSpaces v).size = (trim v.bytes).length ∧
    ((removeLeadingSpaces v).size ≠ 0 → ∃ k, k + (removeLeadingSpaces v).size = v.size ∧
      (removeLeadingSpaces v).suf = v.suf.drop k) := by
  unfold removeLeadingSpaces
  have hcase : (∃ n, v.bytes = List.replicate n 32) ∨
      ∃ n x t, v.bytes = List.replicate n 32 ++ x :: t ∧ x ≠ 32 := by
    generalize v.bytes = s
    induction s with
    | nil => exact Or.inl ⟨0, rfl⟩
    | cons y s ih =>
      by_cases hy : y = 32
      · subst hy
        rcases ih with ⟨n, rfl⟩ | ⟨n, x, t, rfl, h⟩
        · exact Or.inl ⟨n + 1, rfl⟩
        · exact Or.inr ⟨n + 1, x, t, rfl, h⟩
      · exact Or.inr ⟨0, y, s, rfl, hy⟩
  have htrim : ∀ n (u : List Byte), trim (List.replicate n 32 ++ u) = trim u := by
    intro n u
    induction n with
    | zero => rfl
    | succ n ih => rw [← ih]; simp [List.replicate_succ, trim]
  rcases hcase with ⟨n, h⟩ | ⟨n, x, t, h, hx⟩
  · rw [h, findFirstNotOf_replicate]
    have : trim (List.replicate n 32) = [] := by simp [trim]
    simp [View.ok, View.bytes, this]
  · have hf : findFirstNotOf v.bytes 32 0 = some n := by
      have := findFirstNotOf_run 32 n [x] (by simp) (by simpa using Ne.symm hx) t
      rw [h]; simpa using this
    rw [hf]
    have hlen : v.size = n + (t.length + 1) := by rw [← hok.length, h]; simp
    have ht : trim v.bytes = x :: t := by
      rw [h, htrim, trim, List.dropWhile_cons]; simp [hx]
    refine ⟨ok_removePrefix hok n, ?_, ?_, fun _ => ⟨n, ?_, rfl⟩⟩
    · rw [bytes_removePrefix, ht, h]; simp
    · rw [ht]; simp only [removePrefix, List.length_cons]; omega
    · simp only [removePrefix]; omega

end Verif.StrView
