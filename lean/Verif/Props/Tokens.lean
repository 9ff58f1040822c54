import Verif.Lemmas.Tokens
import Mathlib.Data.List.TakeWhile

/-!
# C09, C10: tokenising and `stringToLattice`

Specification: `split d s` cuts `s` at every `d`; `fields d s` are its non-empty pieces
(`C09_fields_spec` checks that definition against its meaning); `trim` drops leading spaces.
-/

namespace Verif.StrView

open Verif.Str (Byte)

/-! ## C09 -/

/-- The specification itself: cutting and joining with the delimiter gives the text back, and no
piece contains a delimiter. -/
theorem C09_fields_spec (d : Byte) (s : List Byte) :
    [d].intercalate (split d s) = s ∧ ∀ f ∈ split d s, d ∉ f := by
  induction s with
  | nil => simp [split]
  | cons x s ih =>
    unfold split
    by_cases hx : x = d
    · rw [if_pos hx]
      refine ⟨?_, ?_⟩
      · cases hsp : split d s with
        | nil => exact absurd hsp (split_ne_nil d s)
        | cons f fs => rw [← ih.1, hsp, hx]; simp [List.intercalate, List.intersperse]
      · intro f hf
        rcases List.mem_cons.1 hf with rfl | hf
        · simp
        · exact ih.2 f hf
    · rw [if_neg hx]
      cases hsp : split d s with
      | nil => exact absurd hsp (split_ne_nil d s)
      | cons f fs =>
        rw [hsp] at ih
        refine ⟨?_, ?_⟩
        · rw [← ih.1]
          cases fs <;> simp [List.intercalate, List.intersperse]
        · intro g hg
          rcases List.mem_cons.1 hg with rfl | hg
          · simp only [List.mem_cons, not_or]
            exact ⟨Ne.symm hx, ih.2 f (by simp)⟩
          · exact ih.2 g (by simp [hg])

/-- Calling `getTokenAndShrink(d)` until it returns an empty token yields exactly the non-empty
fields, in order (any number of calls larger than the text is enough). -/
theorem C09_tokens (d : Byte) (v : View) (h : v.size ≤ v.suf.length) (fuel : Nat)
    (hf : v.size < fuel) : (tokens d fuel v).map View.bytes = fields d v.bytes := by
  induction fuel generalizing v with
  | zero => omega
  | succ fuel ih =>
    have hs := getToken_spec d v h
    unfold tokens
    generalize getToken d v = tv at hs ⊢
    obtain ⟨t, v'⟩ := tv
    dsimp only at hs ⊢
    obtain ⟨_, hok', _, h0, h1⟩ := hs
    by_cases ht : t.size = 0
    · rw [if_pos ht, (h0 ht).2]; rfl
    · rw [if_neg ht, (h1 ht).2.1, List.map_cons, ih v' hok' (by have := (h1 ht).1; omega)]

/-- One call: the token contains no delimiter. If the view holds a character other than the
delimiter then the token is not empty and the view becomes strictly shorter; otherwise the token is
empty and the view stays as it is. -/
theorem C09_progress (d : Byte) (v : View) (h : v.size ≤ v.suf.length) :
    let (t, v') := getToken d v
    d ∉ t.bytes ∧
    ((∃ x ∈ v.bytes, x ≠ d) → t.bytes ≠ [] ∧ v'.size < v.size) ∧
    ((∀ x ∈ v.bytes, x = d) → t.bytes = [] ∧ v' = v) := by
  have hs := getToken_spec d v h
  generalize getToken d v = tv at hs ⊢
  obtain ⟨t, v'⟩ := tv
  dsimp only at hs ⊢
  obtain ⟨hok, _, hd, h0, h1⟩ := hs
  have hall : fields d v.bytes = [] ↔ ∀ x ∈ v.bytes, x = d := by
    generalize v.bytes = s
    rcases decompose d s with ⟨n, rfl⟩ | ⟨n, t, rfl, ht, hd⟩ | ⟨n, t, r, rfl, ht, hd⟩
    · have := fields_delims d n []
      simp only [List.append_nil, fields_nil] at this
      simp [this, List.mem_replicate]
    · rw [fields_delims, fields_free d t hd ht]
      obtain ⟨x, hx⟩ := List.exists_mem_of_ne_nil t ht
      simp only [List.cons_ne_nil, false_iff]
      intro hh
      exact hd (hh x (by simp [hx]) ▸ hx)
    · rw [List.append_assoc, fields_delims, fields_append d t r hd ht]
      obtain ⟨x, hx⟩ := List.exists_mem_of_ne_nil t ht
      simp only [List.cons_ne_nil, false_iff]
      intro hh
      exact hd (hh x (by simp [hx]) ▸ hx)
  have hb : t.bytes = [] ↔ t.size = 0 := by
    rw [← List.length_eq_zero_iff, View.ok.length hok]
  refine ⟨hd, ?_, ?_⟩
  · rintro ⟨x, hx, hne⟩
    have : t.size ≠ 0 := fun e => hne ((hall.1 (h0 e).2) x hx)
    exact ⟨fun e => this (hb.1 e), (h1 this).1⟩
  · intro ha
    have : t.size = 0 := by
      by_contra hne
      rw [hall.2 ha] at h1
      exact absurd (h1 hne).2.1 (by simp)
    exact ⟨hb.2 this, (h0 this).1⟩

/-- Concrete: `"\n\nab\nc\n"`. -/
example : (tokens 10 9 ⟨[10, 10, 97, 98, 10, 99, 10, 0], 7⟩).map View.bytes = [[97, 98], [99]] := by
  rw [C09_tokens _ _ (by decide) _ (by decide)]; decide
example : ∃ x ∈ (⟨[10, 97, 0], 2⟩ : View).bytes, x ≠ 10 := by decide

/-! ## C10

`strto` stops at the first character that cannot belong to a number; what it may see after a token
is the delimiter, a newline or the terminator. -/

/-- The entries of one line, as the code reads them: fields without leading spaces, up to the first
blank one. -/
def rowEntries (d : Byte) (line : List Byte) : List (List Byte) :=
  ((fields d line).map trim).takeWhile (· ≠ [])

/-- The lines, as the code reads them: without leading spaces, up to the first blank one. -/
def textLines (s : List Byte) : List (List Byte) :=
  ((fields 10 (trim s)).map trim).takeWhile (· ≠ [])

/-- The value parsed from a token does not depend on what follows it. -/
def Delimited {T : Type} (parse : List Byte → T) (d : Byte) (t : List Byte) : Prop :=
  ∀ r, parse (t ++ d :: r) = parse (t ++ [0]) ∧ parse (t ++ 10 :: r) = parse (t ++ [0])

theorem tails (d : Byte) (v : View) (h : v.ok) :
    let (t, v') := getToken d v
    (t.size ≠ 0 → (t.suf.drop t.size = v.suf.drop v.size ∨ ∃ r, t.suf.drop t.size = d :: r) ∧
      (v'.size ≠ 0 → v'.suf.drop v'.size = v.suf.drop v.size)) := by
  have hs := getToken_spec d v h
  generalize getToken d v = tv at hs ⊢
  obtain ⟨t, v'⟩ := tv
  dsimp only at hs ⊢
  intro ht
  obtain ⟨_, _, k, hk, hle, hc, hv⟩ := hs.2.2.2.2 ht
  refine ⟨?_, fun h0 => ?_⟩
  · rw [hk, List.drop_drop]
    rcases hc with hc | ⟨r, hr⟩
    · left; rw [hc]
    · right
      refine ⟨r ++ v.suf.drop v.size, ?_⟩
      rw [← List.cons_append, ← hr]
      conv_lhs => rw [suf_eq (v := v)]
      rw [List.drop_append_of_le_length (by rw [h.length]; omega)]
  · rcases hv with hv | ⟨hv, hsz⟩
    · exact absurd hv h0
    · rw [hv, List.drop_drop]; congr 1; omega

theorem trim_tail (v : View) (h : v.ok) (h0 : (removeLeadingSpaces v).size ≠ 0) :
    (removeLeadingSpaces v).suf.drop (removeLeadingSpaces v).size = v.suf.drop v.size := by
  obtain ⟨k, hk, hsuf⟩ := (removeLeadingSpaces_spec v h).2.2.2 h0
  rw [hsuf, List.drop_drop]; congr 1

theorem rowLoop_spec {T : Type} (parse : List Byte → T) (d : Byte) (fuel : Nat) (line : View)
    (hok : line.ok) (hf : line.size < fuel)
    (hrest : line.size ≠ 0 → line.suf.drop line.size = [0] ∨ ∃ r, line.suf.drop line.size = 10 :: r)
    (hp : ∀ t ∈ rowEntries d line.bytes, Delimited parse d t) :
    rowLoop parse d fuel line = some ((rowEntries d line.bytes).map fun t => parse (t ++ [0])) := by
  induction fuel generalizing line with
  | zero => omega
  | succ fuel ih =>
    have hs := getToken_spec d line hok
    have htl := tails d line hok
    unfold rowLoop
    generalize getToken d line = tv at hs htl ⊢
    obtain ⟨t, v'⟩ := tv
    dsimp only at hs htl ⊢
    obtain ⟨hokt, hok', _, h0, h1⟩ := hs
    obtain ⟨ho, hb, hsz, _⟩ := removeLeadingSpaces_spec t hokt
    have htt := trim_tail t hokt
    generalize removeLeadingSpaces t = t' at ho hb hsz htt ⊢
    by_cases ht : t.size = 0
    · have hnil : t.bytes = [] := by rw [View.bytes, ht]; rfl
      have : t'.size = 0 := by rw [hsz, hnil]; rfl
      rw [if_pos this, rowEntries, (h0 ht).2]; rfl
    · obtain ⟨hlt, hfe, _⟩ := h1 ht
      by_cases ht' : t'.size = 0
      · rw [if_pos ht', rowEntries, hfe, List.map_cons, List.takeWhile_cons]
        have : trim t.bytes = [] := List.length_eq_zero_iff.1 (by rw [← hsz]; exact ht')
        simp [this]
      · have hne : trim t.bytes ≠ [] := by
          intro e; rw [e] at hsz; exact ht' hsz
        have hre : rowEntries d line.bytes = trim t.bytes :: rowEntries d v'.bytes := by
          rw [rowEntries, hfe, List.map_cons, List.takeWhile_cons]
          simp [hne, rowEntries]
        have hl0 : line.size ≠ 0 := by omega
        rw [if_neg ht', ih v' hok' (by omega)
          (fun h => by rw [(htl ht).2 h]; exact hrest hl0)
          (fun u hu => hp u (by rw [hre]; exact List.mem_cons_of_mem _ hu)), hre]
        simp only [Option.bind_eq_bind, Option.bind_some, Option.pure_def, List.map_cons,
          Option.some.injEq, List.cons.injEq, and_true]
        have hd := hp _ (by rw [hre]; exact List.mem_cons_self)
        rw [suf_eq (v := t'), hb, htt ht']
        rcases (htl ht).1 with h | ⟨r, h⟩
        · rw [h]
          rcases hrest hl0 with h | ⟨r, h⟩
          · rw [h]
          · rw [h]; exact (hd r).2
        · rw [h]; exact (hd r).1

theorem latticeLoop_spec {T : Type} (parse : List Byte → T) (d : Byte) (fuel : Nat) (v : View)
    (hok : v.ok) (hf : v.size < fuel)
    (hrest : v.size ≠ 0 → v.suf.drop v.size = [0])
    (hp : ∀ l ∈ rowEntries 10 v.bytes, ∀ t ∈ rowEntries d l, Delimited parse d t) :
    latticeLoop parse d fuel v = some ((rowEntries 10 v.bytes).map fun l =>
      (rowEntries d l).map fun t => parse (t ++ [0])) := by
  induction fuel generalizing v with
  | zero => omega
  | succ fuel ih =>
    have hs := getToken_spec 10 v hok
    have htl := tails 10 v hok
    unfold latticeLoop
    generalize getToken 10 v = tv at hs htl ⊢
    obtain ⟨t, v'⟩ := tv
    dsimp only at hs htl ⊢
    obtain ⟨hokt, hok', _, h0, h1⟩ := hs
    obtain ⟨ho, hb, hsz, _⟩ := removeLeadingSpaces_spec t hokt
    have htt := trim_tail t hokt
    generalize removeLeadingSpaces t = t' at ho hb hsz htt ⊢
    by_cases ht : t.size = 0
    · have hnil : t.bytes = [] := by rw [View.bytes, ht]; rfl
      have : t'.size = 0 := by rw [hsz, hnil]; rfl
      rw [if_pos this, rowEntries, (h0 ht).2]; rfl
    · obtain ⟨hlt, hfe, _⟩ := h1 ht
      by_cases ht' : t'.size = 0
      · rw [if_pos ht', rowEntries, hfe, List.map_cons, List.takeWhile_cons]
        have : trim t.bytes = [] := List.length_eq_zero_iff.1 (by rw [← hsz]; exact ht')
        simp [this]
      · have hne : trim t.bytes ≠ [] := by
          intro e; rw [e] at hsz; exact ht' hsz
        have hre : rowEntries 10 v.bytes = trim t.bytes :: rowEntries 10 v'.bytes := by
          rw [rowEntries, hfe, List.map_cons, List.takeWhile_cons]
          simp [hne, rowEntries]
        have hl0 : v.size ≠ 0 := by omega
        rw [if_neg ht', rowLoop_spec parse d _ t' ho (by omega) (fun _ => ?_)
          (fun u hu => hp _ (by rw [hre]; exact List.mem_cons_self) u (by rw [← hb]; exact hu)),
          ih v' hok' (by omega) (fun h => by rw [(htl ht).2 h]; exact hrest hl0)
          (fun u hu => hp u (by rw [hre]; exact List.mem_cons_of_mem _ hu)), hre]
        · simp [hb]
        · rw [htt ht']
          rcases (htl ht).1 with h | h
          · left; rw [h]; exact hrest hl0
          · right; exact h

/-- What `stringToLattice` returns on every text: it terminates, and yields the lines up to the
first blank one, each with the values of its entries up to the first blank one. -/
theorem C10_exact {T : Type} (parse : List Byte → T) (d : Byte) (s : List Byte)
    (hp : ∀ l ∈ textLines s, ∀ t ∈ rowEntries d l, Delimited parse d t) :
    stringToLattice parse d s = some ((textLines s).map fun l =>
      (rowEntries d l).map fun t => parse (t ++ [0])) := by
  unfold stringToLattice
  have hok : (⟨s ++ [0], s.length⟩ : View).ok := by simp [View.ok]
  have hbytes : (⟨s ++ [0], s.length⟩ : View).bytes = s := by simp [View.bytes]
  obtain ⟨ho, hb, hsz, _⟩ := removeLeadingSpaces_spec _ hok
  have htt := trim_tail _ hok
  rw [hbytes] at hb hsz
  generalize removeLeadingSpaces ⟨s ++ [0], s.length⟩ = v at ho hb hsz htt ⊢
  have hle : (trim s).length ≤ s.length := (List.dropWhile_suffix _).length_le
  dsimp only
  rw [latticeLoop_spec parse d _ v ho (by omega) (fun h => by rw [htt h]; simp)
    (by rw [hb]; exact hp), hb]
  rfl

/-- Partial result: every entry of the text is returned -- one row per non-blank line, one value per
non-blank field, in order -- provided blank lines and blank fields (spaces only) occur only at the
end. `C10_blank_line_fails` and `C10_blank_field_fails` show that this is necessary: the loops stop
at the first blank. -/
theorem C10_partial {T : Type} (parse : List Byte → T) (d : Byte) (s : List Byte)
    (hl : (fields 10 (trim s)).Pairwise fun x y => trim x = [] → trim y = [])
    (hf : ∀ l ∈ fields 10 (trim s),
      (fields d (trim l)).Pairwise fun x y => trim x = [] → trim y = [])
    (hp : ∀ l ∈ fields 10 (trim s), ∀ t ∈ fields d (trim l), trim t ≠ [] →
      Delimited parse d (trim t)) :
    stringToLattice parse d s =
      some ((((fields 10 (trim s)).map trim).filter (· ≠ [])).map fun l =>
        (((fields d l).map trim).filter (· ≠ [])).map fun t => parse (t ++ [0])) := by
  have key : ∀ L : List (List Byte), L.Pairwise (fun x y => trim x = [] → trim y = []) →
      (L.map trim).takeWhile (· ≠ []) = (L.map trim).filter (· ≠ []) := by
    intro L hL
    induction L with
    | nil => rfl
    | cons x L ih =>
      rw [List.pairwise_cons] at hL
      rw [List.map_cons, List.takeWhile_cons, List.filter_cons]
      by_cases hx : trim x = []
      · simp only [hx, ne_eq, not_true_eq_false, decide_false, Bool.false_eq_true, if_false]
        symm
        rw [List.filter_eq_nil_iff]
        intro a ha
        obtain ⟨y, hy, rfl⟩ := List.mem_map.1 ha
        simp [hL.1 y hy hx]
      · simp only [ne_eq, hx, not_false_eq_true, decide_true, if_true]
        rw [← ih hL.2]
  have hmem : ∀ L : List (List Byte), ∀ x ∈ (L.map trim).takeWhile (· ≠ []),
      ∃ y ∈ L, trim y = x ∧ x ≠ [] := by
    intro L x hx
    obtain ⟨y, hy, rfl⟩ := List.mem_map.1 ((List.takeWhile_sublist _).subset hx)
    exact ⟨y, hy, rfl, by simpa using List.mem_takeWhile_imp hx⟩
  rw [C10_exact parse d s]
  · congr 1
    unfold textLines
    rw [key _ hl]
    apply List.map_congr_left
    intro l hl'
    obtain ⟨y, hy, rfl⟩ := List.mem_map.1 (List.mem_filter.1 hl').1
    rw [rowEntries, key _ (hf y hy)]
  · intro l hl' t ht
    obtain ⟨y, hy, rfl, -⟩ := hmem _ _ hl'
    obtain ⟨z, hz, rfl, hz0⟩ := hmem _ _ ht
    exact hp y hy z hz hz0

/-! ### Numbers: a decimal reader meets the hypothesis -/

/-- A decimal digit. -/
def isDigit (b : Byte) : Bool := 48 ≤ b && b ≤ 57

/-- What `strtol` returns for an unsigned decimal number (value of the leading digits). -/
def readNat (l : List Byte) : Nat :=
  (l.takeWhile isDigit).foldl (fun a b => 10 * a + (b.toNat - 48)) 0

/-- Unsigned decimal entries followed by a non-digit delimiter are read independently of what
follows, so `C10_partial` applies to every lattice of naturals. -/
theorem C10_naturals_delimited (d : Byte) (t : List Byte) (hd : isDigit d = false)
    (ht : ∀ b ∈ t, isDigit b = true) : Delimited readNat d t := by
  have key : ∀ (c : Byte) (r : List Byte), isDigit c = false →
      (t ++ c :: r).takeWhile isDigit = t := by
    intro c r hc
    rw [List.takeWhile_append_of_pos ht, List.takeWhile_cons, hc]; simp
  intro r
  unfold readNat
  rw [key d r hd, key 10 r (by decide), key 0 [] (by decide)]
  exact ⟨rfl, rfl⟩

/-- Concrete: `"1 2 3\n 4 5 6\n"`. -/
example : stringToLattice readNat 32
    [49, 32, 50, 32, 51, 10, 32, 52, 32, 53, 32, 54, 10] = some [[1, 2, 3], [4, 5, 6]] := by
  rw [C10_partial]
  · decide
  · decide
  · decide
  · have h : ∀ l ∈ fields 10 (trim [49, 32, 50, 32, 51, 10, 32, 52, 32, 53, 32, 54, 10]),
        ∀ t ∈ fields 32 (trim l), trim t ≠ [] → ∀ b ∈ trim t, isDigit b = true := by decide
    exact fun l hl t ht h0 => C10_naturals_delimited _ _ (by decide) (h l hl t ht h0)

/-- A line of spaces in the middle of the text silently ends it: of `"1\n \n2"` only the first row
is returned. -/
theorem C10_blank_line_fails :
    stringToLattice readNat 32 [49, 10, 32, 10, 50] = some [[1]] := by
  rw [C10_exact]
  · decide
  · have h : ∀ l ∈ textLines [49, 10, 32, 10, 50],
        ∀ t ∈ rowEntries 32 l, ∀ b ∈ t, isDigit b = true := by decide
    exact fun l hl t ht => C10_naturals_delimited _ _ (by decide) (h l hl t ht)

/-- A blank field in the middle of a line silently ends the row: of `"1, ,2"` only the first value
is returned. -/
theorem C10_blank_field_fails :
    stringToLattice readNat 44 [49, 44, 32, 44, 50] = some [[1]] := by
  rw [C10_exact]
  · decide
  · have h : ∀ l ∈ textLines [49, 44, 32, 44, 50],
        ∀ t ∈ rowEntries 44 l, ∀ b ∈ t, isDigit b = true := by decide
    exact fun l hl t ht => C10_naturals_delimited _ _ (by decide) (h l hl t ht)

end Verif.StrView
