import Verif.Model.XSLib
import Verif.Lemmas.Tokens

/-! # Specification of cross section library files, and lemmas about reading them -/

namespace Verif.XSLib

open Verif.StrView Verif.Abaqus Verif.Phys
open Verif.Str (Byte)

/-! ## Specification -/

variable {R : Type}

/-- A text without zero bytes and with no other white space than blanks. -/
def Clean (l : List Byte) : Prop := ∀ c ∈ l, c ≠ 0 ∧ (isSpace c = true → c = 32)

/-- A line that fits into the buffer. -/
def LineOk (l : Line) : Prop := Clean l ∧ l.length < 1024

/-- A text that is one field. -/
def Word (w : List Byte) : Prop := w ≠ [] ∧ ∀ c ∈ w, c ≠ 0 ∧ isSpace c = false

/-- What is asked of `strto<Float>`: it does not look beyond the field it is given. -/
def Local (flt : List Byte → R) : Prop :=
  ∀ w r, Word w → (r.head? = some 32 ∨ r.head? = some 0) → flt (w ++ r) = flt (w ++ [0])

/-- The number a field stands for. -/
def val (flt : List Byte → R) (w : List Byte) : R := flt (w ++ [0])

/-- The integer a field stands for. -/
def ival (w : List Byte) : ℤ := strto32 (w ++ [0])

/-- A block of numbers: lines of one or more numbers each. No line but the last ends in two or more blanks. -/
def Block (flt : List Byte → R) (ls : List Line) (xs : List R) : Prop :=
  ls ≠ [] ∧ (∀ l ∈ ls, fields 32 l ≠ []) ∧ (∀ l ∈ ls.dropLast, ¬ [32, 32] <:+ l) ∧
    (ls.flatMap (fields 32)).map (val flt) = xs

/-- The data of one group, where only the absorption is always there: `vals` are the entries of the row of the scattering
matrix from column `lo` (counted from zero) on. -/
structure Extra (R : Type) where
  f : R
  nuf : R
  tr : R
  s : R
  lo : Nat
  vals : List R

/-- The data of one group and temperature. -/
structure DRow (R : Type) where
  a : R
  more : Option (Extra R)

variable [Zero R]

def DRow.f (d : DRow R) : R := d.more.elim 0 (·.f)
def DRow.nuf (d : DRow R) : R := d.more.elim 0 (·.nuf)
def DRow.tr (d : DRow R) : R := d.more.elim 0 (·.tr)
def DRow.s (d : DRow R) : R := d.more.elim 0 (·.s)
/-- The entry of a column of the scattering matrix. -/
def DRow.ss (d : DRow R) (j : Nat) : R := d.more.elim 0 fun e => if e.lo ≤ j then e.vals.getD (j - e.lo) 0 else 0

/-- The line of one group and temperature: two indices, then the numbers. Columns are counted from one. -/
def RowText (flt : List Byte → R) (ng : Nat) (l : Line) (d : DRow R) : Prop :=
  ∃ wg wt wa ws, fields 32 l = wg :: wt :: wa :: ws ∧ val flt wa = d.a ∧
    match d.more with
    | none => ws = []
    | some e => ∃ wf wn wr wS wl wh wv, ws = wf :: wn :: wr :: wS :: wl :: wh :: wv ∧
        val flt wf = e.f ∧ val flt wn = e.nuf ∧ val flt wr = e.tr ∧ val flt wS = e.s ∧
        ival wl = e.lo + 1 ∧ ival wh = e.lo + e.vals.length ∧ wv.map (val flt) = e.vals ∧ e.lo + e.vals.length ≤ ng

/-- The data of a nuclide: `rows g t` is for group `g` and temperature `t`. -/
structure DNuc (R : Type) where
  zaid : ℤ
  mass : R
  temps : List R
  rows : Nat → Nat → DRow R

/-- The lines of a nuclide. -/
def NucText (flt : List Byte → R) (ng : Nat) (ls : List Line) (d : DNuc R) : Prop :=
  ∃ (h tp ts xsd : Line) (rl : Nat → Nat → Line) (tail : List Line),
    ls = h :: tp :: ts :: xsd :: ((List.range ng).flatMap (fun g => (List.range d.temps.length).map (rl g)) ++ tail) ∧
    hdrNuc <+: h ∧
    (∃ w₀ w₁ wz wm s₁ s₂ s₃ s₄ wn ws, fields 32 h = w₀ :: w₁ :: wz :: wm :: s₁ :: s₂ :: s₃ :: s₄ :: wn :: ws ∧
      ival wz = d.zaid ∧ val flt wm = d.mass ∧ ival wn = d.temps.length) ∧
    (fields 32 ts).map (val flt) = d.temps ∧
    (∀ g < ng, ∀ t < d.temps.length, RowText flt ng (rl g t) (d.rows g t)) ∧
    ∀ l ∈ tail, ¬ hdrNuc <+: trim l ∧ ¬ hdrEnd <+: trim l

variable [LinearOrder R]

/-- The cross sections at one temperature. -/
def table (ng : Nat) (rows : Nat → DRow R) : XSec R where
  macro_ := false
  fissile := (List.range ng).any fun g => 0 < (rows g).f
  ng := ng
  a := (List.range ng).map fun g => (rows g).a
  f := (List.range ng).map fun g => (rows g).f
  nuf := (List.range ng).map fun g => (rows g).nuf
  tr := (List.range ng).map fun g => (rows g).tr
  s := (List.range ng).map fun g => (rows g).s
  ss := (List.range (ng * ng)).map fun i => (rows (i % ng)).ss (i / ng)

/-- The nuclide with the given data. -/
def DNuc.nuclide (ng : Nat) (d : DNuc R) : Nuclide R where
  fissile := (List.range d.temps.length).any fun t => (table ng fun g => d.rows g t).fissile
  zaid := d.zaid
  mass := d.mass
  temps := d.temps
  xs := (List.range d.temps.length).map fun t => table ng fun g => d.rows g t

/-- A nuclide makes sense. -/
def DNuc.Sound (d : DNuc R) : Prop := 0 < d.zaid ∧ 0 < d.mass ∧ (∀ t ∈ d.temps, 0 < t) ∧ d.temps.Pairwise (· ≤ ·)

/-! ## Fields -/

theorem split_mem (d : Byte) (s w : List Byte) (h : w ∈ split d s) : ∀ c ∈ w, c ∈ s ∧ c ≠ d := by
  induction s generalizing w with
  | nil => simp [split] at h; subst h; simp
  | cons x s ih =>
    rw [split] at h
    split_ifs at h with hx
    · simp only [List.mem_cons] at h
      rcases h with rfl | h
      · simp
      · intro c hc
        exact ⟨by simp [(ih w h c hc).1], (ih w h c hc).2⟩
    · split at h
      · exact absurd ‹_› (split_ne_nil d s)
      · rename_i f fs hs
        simp only [List.mem_cons] at h
        rcases h with rfl | h
        · intro c hc
          simp only [List.mem_cons] at hc
          rcases hc with rfl | hc
          · exact ⟨by simp, hx⟩
          · have := ih f (by rw [hs]; simp) c hc
            exact ⟨by simp [this.1], this.2⟩
        · intro c hc
          have := ih w (by rw [hs]; simp [h]) c hc
          exact ⟨by simp [this.1], this.2⟩

theorem word_of_mem {l w : List Byte} (hl : Clean l) (h : w ∈ fields 32 l) : Word w := by
  simp only [fields, List.mem_filter, decide_eq_true_eq] at h
  refine ⟨h.2, fun c hc => ?_⟩
  have := split_mem 32 l w h.1 c hc
  refine ⟨(hl c this.1).1, ?_⟩
  by_contra hs
  exact this.2 ((hl c this.1).2 (by simpa using hs))

theorem ival_append (w r : List Byte) (hw : Word w) (hr : r.head? = some 32 ∨ r.head? = some 0) :
    strto32 (w ++ r) = ival w := by
  have hrd : ∀ (w : List Byte) (acc : Nat) (r : List Byte), (r.head? = some 32 ∨ r.head? = some 0) →
      readDigits acc (w ++ r) = readDigits acc (w ++ [0]) := by
    intro w
    induction w with
    | nil =>
      intro acc r hr
      cases r with
      | nil => simp at hr
      | cons c r =>
        have : isDigit c = false := by
          simp only [List.head?_cons, Option.some.injEq] at hr
          rcases hr with rfl | rfl <;> decide
        have h0 : isDigit 0 = false := by decide
        simp [readDigits, this, h0]
    | cons c w ih =>
      intro acc r hr
      simp only [List.cons_append, readDigits]
      rw [ih _ r hr]
  obtain ⟨hne, hc⟩ := hw
  obtain ⟨c, t, rfl⟩ := List.exists_cons_of_ne_nil hne
  have h1 := (hc c (by simp)).2
  have hd : ∀ r, (c :: t ++ r).dropWhile isSpace = c :: (t ++ r) := by
    intro r
    rw [List.cons_append, List.dropWhile_cons_of_neg (by simp [h1])]
  have e1 := hrd t 0 r hr
  have e2 := hrd (c :: t) 0 r hr
  rw [List.cons_append] at e2
  unfold ival strto32 strtol
  rw [hd, hd]
  simp only [e1, e2, List.cons_append]

/-! ## Views -/

/-- The view has the given text, which is followed by a zero byte in the storage. -/
def Holds (v : View) (l : List Byte) : Prop :=
  v.bytes = l ∧ v.size = l.length ∧ Clean l ∧ (l ≠ [] → ∃ r, v.suf = l ++ 0 :: r)

theorem Holds.ok {v : View} {l : List Byte} (h : Holds v l) : v.ok := by
  obtain ⟨h1, h2, -, -⟩ := h
  have := congrArg List.length h1
  simp only [View.bytes, List.length_take] at this
  unfold View.ok
  omega

theorem Clean.suffix {l l' : List Byte} (h : Clean l) (hs : l' <:+ l) : Clean l' :=
  fun c hc => h c (hs.subset hc)

/-- Not two blanks at the end, or nothing at all. -/
def Tight (l : List Byte) : Prop := l = [] ∨ fields 32 l ≠ [] ∧ ¬ [32, 32] <:+ l

theorem token {v : View} {l w : List Byte} {ws : List (List Byte)} (h : Holds v l) (hf : fields 32 l = w :: ws) :
    ∃ t v' l' r, getToken 32 v = (t, v') ∧ t.size ≠ 0 ∧ t.suf = w ++ r ∧ t.suf ≠ [] ∧
      (r.head? = some 32 ∨ r.head? = some 0) ∧ Word w ∧ Holds v' l' ∧ fields 32 l' = ws ∧ (Tight l → Tight l') := by
  obtain ⟨hb, hsz, hc, hs⟩ := h
  have hw : Word w := word_of_mem hc (by rw [hf]; simp)
  rcases decompose 32 l with ⟨n, e⟩ | ⟨n, t, e, ht, hd⟩ | ⟨n, t, r, e, ht, hd⟩
  · rw [e] at hf
    have := fields_delims 32 n []
    simp only [List.append_nil, fields_nil] at this
    rw [this] at hf
    exact absurd hf (by simp)
  · have hft := hf
    rw [e, fields_delims, fields_free 32 t hd ht] at hft
    simp only [List.cons.injEq] at hft
    obtain ⟨rfl, rfl⟩ := hft
    obtain ⟨r, hr⟩ := hs (by rw [e]; simp [ht])
    refine ⟨_, _, [], 0 :: r, getToken_last 32 v n t ht hd (hb.trans e), ?_, ?_, ?_, Or.inr rfl, hw, ?_, fields_nil _,
      fun _ => Or.inl rfl⟩
    · have : 0 < t.length := List.length_pos_iff.2 ht
      simp only [hsz, e, List.length_append, List.length_replicate]
      omega
    · simp only [hr, e, List.append_assoc]
      rw [List.drop_append, List.drop_eq_nil_of_le (by simp)]
      simp
    · simp only [hr, e, List.append_assoc]
      rw [List.drop_append, List.drop_eq_nil_of_le (by simp)]
      simp
    · exact ⟨rfl, rfl, by simp [Clean], fun h => absurd rfl h⟩
  · have hft := hf
    rw [e, List.append_assoc, fields_delims, fields_append 32 t r hd ht] at hft
    simp only [List.cons.injEq] at hft
    obtain ⟨rfl, hws⟩ := hft
    obtain ⟨r', hr'⟩ := hs (by rw [e]; simp)
    have hdrop : ∀ u : List Byte, (List.replicate n (32 : Byte) ++ t ++ 32 :: r ++ u).drop (n + t.length + 1) = r ++ u := by
      intro u
      rw [show List.replicate n (32 : Byte) ++ t ++ 32 :: r ++ u = (List.replicate n 32 ++ t ++ [32]) ++ (r ++ u) by simp]
      rw [List.drop_append, List.drop_eq_nil_of_le (by simp; omega)]
      simp
    refine ⟨_, _, r, 32 :: r ++ 0 :: r', getToken_mid 32 v n t r ht hd (hb.trans e), ?_, ?_, ?_, Or.inl rfl, hw,
      ⟨?_, ?_, hc.suffix ?_, fun _ => ⟨r', ?_⟩⟩, hws, ?_⟩
    · have : 0 < t.length := List.length_pos_iff.2 ht
      simp only
      omega
    · simp only [hr', e, List.append_assoc]
      rw [List.drop_append, List.drop_eq_nil_of_le (by simp)]
      simp
    · simp only [hr', e, List.append_assoc]
      rw [List.drop_append, List.drop_eq_nil_of_le (by simp)]
      simp
    · rw [bytes_removePrefix, hb, e]
      simpa using hdrop []
    · simp only [removePrefix, hsz, e]
      simp
      omega
    · rw [e]
      exact ⟨List.replicate n 32 ++ t ++ [32], by simp⟩
    · simp only [removePrefix, hr', e]
      exact hdrop _
    · rintro (h | ⟨-, h⟩)
      · rw [e] at h
        simp at h
      · rcases r.eq_nil_or_concat with h0 | ⟨r₀, x, h0⟩
        · exact Or.inl h0
        · right
          constructor
          · intro hn
            rcases decompose 32 r with ⟨m, em⟩ | ⟨m, t', em, ht', hd'⟩ | ⟨m, t', r', em, ht', hd'⟩
            · cases m with
              | zero => simp [em] at h0
              | succ m =>
                apply h
                refine ⟨List.replicate n 32 ++ t ++ List.replicate m 32, ?_⟩
                rw [e, em, show m + 1 = 1 + m by omega, List.replicate_add]
                simp only [List.append_assoc, List.replicate_one, List.singleton_append]
                congr 2
                rw [← List.replicate_succ, ← List.replicate_succ, List.replicate_succ', List.replicate_succ']
                simp
            · rw [em, fields_delims, fields_free 32 t' hd' ht'] at hn
              simp at hn
            · rw [em, List.append_assoc, fields_delims, fields_append 32 t' r' hd' ht'] at hn
              simp at hn
          · intro hsuf
            apply h
            refine hsuf.trans ?_
            rw [e]
            exact ⟨List.replicate n 32 ++ t ++ [32], by simp⟩

theorem token_end {v : View} {l : List Byte} (h : Holds v l) (hf : fields 32 l = []) : getToken 32 v = (⟨[], 0⟩, v) := by
  rcases decompose 32 l with ⟨n, e⟩ | ⟨n, t, e, ht, hd⟩ | ⟨n, t, r, e, ht, hd⟩
  · exact getToken_none 32 v n (h.1.trans e)
  · rw [e, fields_delims, fields_free 32 t hd ht] at hf
    simp at hf
  · rw [e, List.append_assoc, fields_delims, fields_append 32 t r hd ht] at hf
    simp at hf

@[simp] theorem ok_bind {α β : Type} (a : α) (f : α → Res β) : ((Res.ok a : Res α) >>= f) = f a := rfl
@[simp] theorem undef_bind {α β : Type} (f : α → Res β) : ((Res.undef : Res α) >>= f) = Res.undef := rfl
@[simp] theorem refused_bind {α β : Type} (f : α → Res β) : ((Res.refused : Res α) >>= f) = Res.refused := rfl
@[simp] theorem pure_ok {α : Type} (a : α) : (pure a : Res α) = Res.ok a := rfl

omit [Zero R] [LinearOrder R] in
theorem num_word {flt : List Byte → R} (hflt : Local flt) {t : View} {w r : List Byte} (hs : t.suf = w ++ r)
    (hne : t.suf ≠ []) (hr : r.head? = some 32 ∨ r.head? = some 0) (hw : Word w) : num flt t = .ok (val flt w) := by
  unfold num
  rw [if_neg hne, hs, hflt w r hw hr]
  rfl

omit [Zero R] [LinearOrder R] in
theorem nextNum_word {flt : List Byte → R} (hflt : Local flt) {v : View} {l w : List Byte} {ws : List (List Byte)}
    (h : Holds v l) (hf : fields 32 l = w :: ws) :
    ∃ v' l', nextNum flt v = .ok (val flt w, v') ∧ Holds v' l' ∧ fields 32 l' = ws := by
  obtain ⟨t, v', l', r, h1, h2, h3, h4, h5, h6, h7, h8, -⟩ := token h hf
  refine ⟨v', l', ?_, h7, h8⟩
  unfold nextNum
  rw [h1]
  simp [num_word hflt h3 h4 h5 h6]

theorem nextInt_word {v : View} {l w : List Byte} {ws : List (List Byte)}
    (h : Holds v l) (hf : fields 32 l = w :: ws) :
    ∃ v' l', nextInt v = .ok (ival w, v') ∧ Holds v' l' ∧ fields 32 l' = ws := by
  obtain ⟨t, v', l', r, h1, h2, h3, h4, h5, h6, h7, h8, -⟩ := token h hf
  refine ⟨v', l', ?_, h7, h8⟩
  unfold nextInt int
  rw [h1]
  simp only [if_neg h4, h3]
  rw [← h3, if_neg h4, h3, ival_append w r h6 h5]
  simp

theorem skip_words {v : View} {l : List Byte} (n : Nat) (us ws : List (List Byte)) (h : Holds v l)
    (hf : fields 32 l = us ++ ws) (hn : us.length = n) : ∃ l', Holds (skip n v) l' ∧ fields 32 l' = ws := by
  induction n generalizing v l us with
  | zero => exact ⟨l, h, by rw [hf, List.length_eq_zero_iff.1 hn]; rfl⟩
  | succ n ih =>
    obtain ⟨u, us, rfl⟩ := List.exists_cons_of_length_eq_add_one hn
    obtain ⟨t, v', l', r, h1, h2, h3, h4, h5, h6, h7, h8, -⟩ := token h hf
    rw [skip, h1]
    exact ih us h7 h8 (by simpa using hn)

/-! ## Lines -/

theorem view_store (buf l : List Byte) (hl : Clean l) (rest : List Line) :
    Holds (In.view ⟨rest, true, store buf l⟩) l := by
  have h0 : (store buf l).takeWhile (· ≠ 0) = l := by
    unfold store
    rw [List.takeWhile_append_of_pos fun c hc => by simpa using (hl c hc).1]
    simp
  unfold In.view
  refine ⟨?_, ?_, hl, fun _ => ⟨_, rfl⟩⟩
  · simp only [View.bytes, h0]
    simp [store]
  · simp only [h0]

theorem getline_ok {st : In} {l : Line} {ls : List Line} (hg : st.good = true) (hr : st.rest = l :: ls) (hl : LineOk l) :
    (getline st).good = true ∧ (getline st).rest = ls ∧ Holds (getline st).view l := by
  have : getline st = ⟨ls, true, store st.buf l⟩ := by
    unfold getline
    rw [if_pos hg, hr]
    simp only
    rw [if_neg (by have := hl.2; omega)]
  rw [this]
  exact ⟨rfl, rfl, view_store _ _ hl.1 _⟩

theorem fields_trim (l : List Byte) : fields 32 (trim l) = fields 32 l := by
  induction l with
  | nil => rfl
  | cons x l ih =>
    unfold trim at *
    by_cases h : x = 32
    · subst h
      rw [List.dropWhile_cons_of_pos (by simp), ih, fields_delim]
    · rw [List.dropWhile_cons_of_neg (by simpa using h)]

theorem trim_suffix (l : List Byte) : trim l <:+ l := List.dropWhile_suffix _

theorem Holds.strip {v : View} {l : List Byte} (h : Holds v l) : Holds (removeLeadingSpaces v) (trim l) := by
  obtain ⟨h1, h2, h3, h4⟩ := removeLeadingSpaces_spec v h.ok
  rw [h.1] at h2 h3
  refine ⟨h2, h3, h.2.2.1.suffix (trim_suffix l), fun hne => ?_⟩
  obtain ⟨k, hk1, hk2⟩ := h4 (by rw [h3]; simpa using hne)
  have hl : l ≠ [] := by
    rintro rfl
    exact hne rfl
  obtain ⟨r, hr⟩ := h.2.2.2 hl
  refine ⟨r, ?_⟩
  obtain ⟨p, hp⟩ := trim_suffix l
  have hlen : k = p.length := by
    have := congrArg List.length hp
    rw [h3, h.2.1] at hk1
    simp at this
    omega
  rw [hk2, hr, hlen, ← hp, List.append_assoc, List.drop_left, hp]

theorem Tight.trim {l : List Byte} (hf : fields 32 l ≠ []) (h : ¬ [32, 32] <:+ l) : Tight (trim l) := by
  right
  exact ⟨by rw [fields_trim]; exact hf, fun hs => h (hs.trans (trim_suffix l))⟩

/-! ## Blocks of numbers -/

omit [Zero R] [LinearOrder R] in
theorem values_ok {flt : List Byte → R} (hflt : Local flt) (n : Nat) (st : In) (v : View) (l : List Byte)
    (ls rest : List Line) (hg : st.good = true) (hr : st.rest = ls ++ rest) (hv : Holds v l)
    (hls : ∀ x ∈ ls, LineOk x ∧ fields 32 x ≠ []) (htight : ls ≠ [] → Tight l)
    (hdl : ∀ x ∈ ls.dropLast, ¬ [32, 32] <:+ x) (hn : (fields 32 l ++ ls.flatMap (fields 32)).length = n) :
    ∃ st', values flt n st v = .ok ((fields 32 l ++ ls.flatMap (fields 32)).map (val flt), st') ∧
      st'.good = true ∧ st'.rest = rest := by
  induction n generalizing st v l ls with
  | zero =>
    have he := List.length_eq_zero_iff.1 hn
    have : ls = [] := by
      cases ls with
      | nil => rfl
      | cons x ls =>
        simp only [List.flatMap_cons, List.append_eq_nil_iff] at he
        exact absurd he.2.1 (hls x (by simp)).2
    subst this
    refine ⟨st, ?_, hg, by simpa using hr⟩
    rw [values, he]
    rfl
  | succ n ih =>
    cases hf : fields 32 l with
    | cons w ws =>
      obtain ⟨t, v', l', r, h1, h2, h3, h4, h5, h6, h7, h8, h9⟩ := token hv hf
      obtain ⟨st', e1, e2, e3⟩ := ih st v' l' ls hg hr h7 hls (fun h => h9 (htight h)) hdl
        (by rw [h8]; rw [hf] at hn; simpa using hn)
      refine ⟨st', ?_, e2, e3⟩
      rw [values, h1]
      simp only [if_neg h2]
      rw [num_word hflt h3 h4 h5 h6, ok_bind, e1, h8]
      rfl
    | nil =>
      cases ls with
      | nil =>
        rw [hf] at hn
        simp at hn
      | cons x ls =>
        have hl : l = [] := by
          rcases htight (by simp) with h | h
          · exact h
          · exact absurd hf h.1
        subst hl
        have hx := hls x (by simp)
        obtain ⟨g1, g2, g3⟩ := getline_ok hg (by rw [hr]; rfl) hx.1
        cases hfx : fields 32 x with
        | nil => exact absurd hfx hx.2
        | cons w ws =>
          obtain ⟨t, v', l', r, h1, h2, h3, h4, h5, h6, h7, h8, h9⟩ := token g3.strip (by rw [fields_trim]; exact hfx)
          have ht' : ls ≠ [] → Tight l' := by
            intro hne
            refine h9 (Tight.trim hx.2 (hdl x ?_))
            rw [List.dropLast_cons_of_ne_nil hne]
            simp
          obtain ⟨st', e1, e2, e3⟩ := ih (getline st) v' l' ls g1 g2 h7 (fun y hy => hls y (by simp [hy])) ht'
            (fun y hy => hdl y (by
              cases ls with
              | nil => simp at hy
              | cons z ls => rw [List.dropLast_cons_of_ne_nil (by simp)]; simp [hy]))
            (by
              rw [h8]
              rw [hf] at hn
              simp only [List.flatMap_cons, hfx] at hn
              simpa using hn)
          refine ⟨st', ?_, e2, e3⟩
          rw [values, token_end hv hf]
          simp only [if_true]
          rw [if_neg (by rw [hv.2.1]; simp), h1]
          simp only
          rw [num_word hflt h3 h4 h5 h6, ok_bind, e1, h8]
          simp [hfx]

omit [Zero R] [LinearOrder R] in
/-- A block, the first line of which has been read. -/
theorem block_ok {flt : List Byte → R} (hflt : Local flt) {st : In} {b : List Line} {rest : List Line} {xs : List R}
    (hg : st.good = true) (hr : st.rest = b ++ rest) (hb : Block flt b xs) (hok : ∀ l ∈ b, LineOk l) (strip : Bool) :
    ∃ st', values flt xs.length (getline st)
      (if strip then removeLeadingSpaces (getline st).view else (getline st).view) = .ok (xs, st') ∧
      st'.good = true ∧ st'.rest = rest := by
  obtain ⟨hne, h1, h2, h3⟩ := hb
  obtain ⟨l, ls, rfl⟩ := List.exists_cons_of_ne_nil hne
  obtain ⟨g1, g2, g3⟩ := getline_ok hg (by rw [hr]; rfl) (hok l (by simp))
  have key : ∀ (v : View) (l' : List Byte), Holds v l' → fields 32 l' = fields 32 l → (ls ≠ [] → Tight l') →
      ∃ st', values flt xs.length (getline st) v = .ok (xs, st') ∧ st'.good = true ∧ st'.rest = rest := by
    intro v l' hv hf ht
    obtain ⟨st', e1, e2, e3⟩ := values_ok hflt (fields 32 l' ++ ls.flatMap (fields 32)).length (getline st) v l' ls rest
      g1 g2 hv (fun x hx => ⟨hok x (by simp [hx]), h1 x (by simp [hx])⟩) ht
      (fun x hx => h2 x (by
        cases ls with
        | nil => simp at hx
        | cons z ls => rw [List.dropLast_cons_of_ne_nil (by simp)]; simp [hx])) rfl
    have hx : (fields 32 l' ++ ls.flatMap (fields 32)).map (val flt) = xs := by
      rw [hf, ← h3]; simp
    have hlen : xs.length = (fields 32 l' ++ ls.flatMap (fields 32)).length := by rw [← hx]; simp
    rw [hx] at e1
    rw [hlen]
    exact ⟨st', e1, e2, e3⟩
  have hl2 : ls ≠ [] → ¬ [32, 32] <:+ l := fun hne => h2 l (by rw [List.dropLast_cons_of_ne_nil hne]; simp)
  cases strip
  · exact key _ l g3 rfl fun h => Or.inr ⟨h1 l (by simp), hl2 h⟩
  · exact key _ (trim l) g3.strip (fields_trim l) fun h => Tight.trim (h1 l (by simp)) (hl2 h)

/-! ## Rows -/

theorem set_range {n k : Nat} (p q : Nat → R) (x : R) (hk : k < n) (h1 : q k = x) (h2 : ∀ g, g ≠ k → q g = p g) :
    setAt ((List.range n).map p) k x = .ok ((List.range n).map q) := by
  unfold setAt
  rw [if_pos (by simpa using hk)]
  congr 1
  apply List.ext_getElem
  · simp
  · intro i h3 h4
    rw [List.getElem_set]
    split_ifs with h
    · subst h
      simp [h1]
    · simp [h2 i (Ne.symm h)]

/-- The cross sections after `k` groups. -/
def part (ng k : Nat) (rows : Nat → DRow R) : XSec R where
  macro_ := false
  fissile := (List.range k).any fun g => 0 < (rows g).f
  ng := ng
  a := (List.range ng).map fun g => if g < k then (rows g).a else 0
  f := (List.range ng).map fun g => if g < k then (rows g).f else 0
  nuf := (List.range ng).map fun g => if g < k then (rows g).nuf else 0
  tr := (List.range ng).map fun g => if g < k then (rows g).tr else 0
  s := (List.range ng).map fun g => if g < k then (rows g).s else 0
  ss := (List.range (ng * ng)).map fun i => if i % ng < k then (rows (i % ng)).ss (i / ng) else 0

theorem map_zero (n : Nat) (p : Nat → R) (h : ∀ g, p g = 0) : (List.range n).map p = List.replicate n 0 := by
  rw [List.eq_replicate_iff]
  refine ⟨by simp, fun b hb => ?_⟩
  simp only [List.mem_map] at hb
  obtain ⟨g, -, rfl⟩ := hb
  exact h g

theorem part_zero (ng : Nat) (rows : Nat → DRow R) : part ng 0 rows = XSec.zero ng := by
  unfold part XSec.zero
  congr 1 <;> exact map_zero _ _ fun g => by simp

theorem part_all (ng : Nat) (rows : Nat → DRow R) : part ng ng rows = table ng rows := by
  unfold part table
  congr 1
  case e_ss =>
    apply List.map_congr_left
    intro i hi
    simp only [List.mem_range] at hi
    have : 0 < ng := Nat.pos_of_ne_zero (by rintro rfl; simp at hi)
    rw [if_pos (Nat.mod_lt _ this)]
  all_goals
    apply List.map_congr_left
    intro i hi
    simp only [List.mem_range] at hi
    rw [if_pos hi]

theorem columns_ok {flt : List Byte → R} (hflt : Local flt) (ig col : Nat) (m : XSec R) (h : Nat → R) (v : View)
    (l : List Byte) (ws : List (List Byte)) (hss : m.ss = (List.range (m.ng * m.ng)).map h) (hig : ig < m.ng)
    (hcol : col + ws.length ≤ m.ng) (hv : Holds v l) (hf : fields 32 l = ws) :
    ∃ v', columns flt ig ws.length col m v =
      .ok ({ m with ss := (List.range (m.ng * m.ng)).map fun i => if i % m.ng = ig ∧ col ≤ i / m.ng then
        ((ws.map (val flt))[i / m.ng - col]?).getD (h i) else h i }, v') := by
  induction ws generalizing col m h v l with
  | nil =>
    refine ⟨v, ?_⟩
    rw [List.length_nil, columns]
    congr 2
    cases m
    simp_all
  | cons w ws ih =>
    obtain ⟨v', l', h1, h2, h3⟩ := nextNum_word hflt hv hf
    rw [List.length_cons, columns, h1, ok_bind]
    simp only
    have hpos : 0 < m.ng := by omega
    have hdm : ∀ i, i = col * m.ng + ig ↔ i % m.ng = ig ∧ i / m.ng = col := by
      intro i
      constructor
      · rintro rfl
        exact ⟨by rw [Nat.mul_add_mod']; exact Nat.mod_eq_of_lt hig,
          by rw [Nat.mul_comm, Nat.mul_add_div hpos, Nat.div_eq_of_lt hig, Nat.add_zero]⟩
      · rintro ⟨rfl, rfl⟩
        rw [Nat.mul_comm]
        exact (Nat.div_add_mod i m.ng).symm
    have hset : setSS m ig col (val flt w) = .ok { m with
        ss := (List.range (m.ng * m.ng)).map fun i => if i = col * m.ng + ig then val flt w else h i } := by
      unfold setSS
      rw [if_neg (by omega), Int.toNat_natCast, hss,
        set_range h (fun i => if i = col * m.ng + ig then val flt w else h i) (val flt w) ?_ (by simp)
          (fun g hg => if_neg hg), ok_bind]
      · rfl
      · simp only [List.length_cons] at hcol
        calc col * m.ng + ig < col * m.ng + m.ng := by omega
          _ = (col + 1) * m.ng := by rw [Nat.add_mul, Nat.one_mul]
          _ ≤ m.ng * m.ng := Nat.mul_le_mul_right _ (by omega)
    rw [hset, ok_bind]
    obtain ⟨v'', e⟩ := ih (col + 1) { m with
        ss := (List.range (m.ng * m.ng)).map fun i => if i = col * m.ng + ig then val flt w else h i }
      (fun i => if i = col * m.ng + ig then val flt w else h i) v' l' rfl hig (by simp at hcol ⊢; omega) h2 h3
    refine ⟨v'', ?_⟩
    rw [show ((col : ℤ) + 1) = ((col + 1 : Nat) : ℤ) by push_cast; rfl, e]
    simp only
    congr 3
    apply List.map_congr_left
    intro i hi
    simp only [hdm]
    by_cases h4 : i % m.ng = ig
    · by_cases h5 : i / m.ng = col
      · rw [if_neg (by omega), if_pos ⟨h4, h5⟩, if_pos ⟨h4, by omega⟩, h5]
        simp
      · by_cases h6 : col ≤ i / m.ng
        · rw [if_pos (show i % m.ng = ig ∧ col + 1 ≤ i / m.ng from ⟨h4, by omega⟩),
            if_pos (show i % m.ng = ig ∧ col ≤ i / m.ng from ⟨h4, h6⟩),
            if_neg (show ¬ (i % m.ng = ig ∧ i / m.ng = col) by tauto)]
          rw [show i / m.ng - col = (i / m.ng - (col + 1)) + 1 by omega]
          simp
        · rw [if_neg (by omega), if_neg (by tauto), if_neg (by tauto)]
    · rw [if_neg (by tauto), if_neg (by tauto), if_neg (by tauto)]

theorem row_ok {flt : List Byte → R} (hflt : Local flt) (ng k : Nat) (rows : Nat → DRow R) (v : View) (l : List Byte)
    (hk : k < ng) (hng : ng < 2 ^ 31) (hv : Holds v l) (ht : ∃ l₀, fields 32 l₀ = fields 32 l ∧ RowText flt ng l₀ (rows k)) :
    ∃ v', row flt k (part ng k rows) v = .ok (part ng (k + 1) rows, v') := by
  obtain ⟨l₀, hl₀, wg, wt, wa, ws, hf, ha, hm⟩ := ht
  rw [hl₀] at hf
  obtain ⟨l₁, hv₁, hf₁⟩ := skip_words 2 [wg, wt] (wa :: ws) hv hf rfl
  obtain ⟨v₂, l₂, e₂, hv₂, hf₂⟩ := nextNum_word hflt hv₁ hf₁
  have hlt : ∀ g, g ≠ k → (g < k + 1 ↔ g < k) := fun g hg => by omega
  have upd : ∀ F : DRow R → R, setAt ((List.range ng).map fun g => if g < k then F (rows g) else 0) k (F (rows k)) =
      .ok ((List.range ng).map fun g => if g < k + 1 then F (rows g) else 0) := by
    intro F
    refine set_range _ _ _ hk (if_pos (by omega)) fun g hg => ?_
    simp only [hlt g hg]
  have upd0 : ∀ F : DRow R → R, F (rows k) = 0 → ((List.range ng).map fun g => if g < k then F (rows g) else 0) =
      ((List.range ng).map fun g => if g < k + 1 then F (rows g) else 0) := by
    intro F h0
    apply List.map_congr_left
    intro g _
    by_cases hg : g = k
    · subst hg
      simp [h0]
    · simp only [hlt g hg]
  unfold row
  simp only [e₂, ok_bind]
  rw [show (part ng k rows).a = (List.range ng).map fun g => if g < k then (rows g).a else 0 from rfl, ha, upd DRow.a,
    ok_bind]
  cases hmore : (rows k).more with
  | none =>
    rw [hmore] at hm
    simp only at hm
    subst hm
    rw [token_end hv₂ hf₂]
    simp only [if_true]
    refine ⟨v₂, ?_⟩
    rw [pure_ok]
    have z : (rows k).f = 0 ∧ (rows k).nuf = 0 ∧ (rows k).tr = 0 ∧ (rows k).s = 0 ∧ ∀ j, (rows k).ss j = 0 := by
      simp [DRow.f, DRow.nuf, DRow.tr, DRow.s, DRow.ss, hmore]
    unfold part
    simp only
    rw [upd0 DRow.f z.1, upd0 DRow.nuf z.2.1, upd0 DRow.tr z.2.2.1, upd0 DRow.s z.2.2.2.1]
    congr 3
    · rw [List.range_succ, List.any_append]
      simp [z.1]
    · apply List.map_congr_left
      intro i _
      by_cases hg : i % ng = k
      · rw [hg]
        simp [z.2.2.2.2]
      · simp only [hlt _ hg]
  | some e =>
    rw [hmore] at hm
    simp only at hm
    obtain ⟨wf, wn, wr, wS, wl, wh, wv, rfl, h1, h2, h3, h4, h5, h6, h7, h8⟩ := hm
    obtain ⟨t, v₃, l₃, r, g1, g2, g3, g4, g5, g6, hv₃, hf₃, -⟩ := token hv₂ hf₂
    obtain ⟨v₄, l₄, e₄, hv₄, hf₄⟩ := nextNum_word hflt hv₃ hf₃
    obtain ⟨v₅, l₅, e₅, hv₅, hf₅⟩ := nextNum_word hflt hv₄ hf₄
    obtain ⟨v₆, l₆, e₆, hv₆, hf₆⟩ := nextNum_word hflt hv₅ hf₅
    obtain ⟨v₇, l₇, e₇, hv₇, hf₇⟩ := nextInt_word hv₆ hf₆
    obtain ⟨v₈, l₈, e₈, hv₈, hf₈⟩ := nextInt_word hv₇ hf₇
    have z1 : (rows k).f = e.f := by simp [DRow.f, hmore]
    have z2 : (rows k).nuf = e.nuf := by simp [DRow.nuf, hmore]
    have z3 : (rows k).tr = e.tr := by simp [DRow.tr, hmore]
    have z4 : (rows k).s = e.s := by simp [DRow.s, hmore]
    rw [g1]
    simp only [if_neg g2]
    rw [num_word hflt g3 g4 g5 g6, ok_bind, h1, ← z1]
    simp only [part]
    rw [upd DRow.f, ok_bind, e₄, ok_bind]
    simp only
    rw [h2, ← z2, upd DRow.nuf, ok_bind, e₅, ok_bind]
    simp only
    rw [h3, ← z3, upd DRow.tr, ok_bind, e₆, ok_bind]
    simp only
    rw [h4, ← z4, upd DRow.s, ok_bind, e₇, ok_bind]
    simp only
    rw [e₈, ok_bind]
    simp only
    rw [h5, h6, if_neg (by omega)]
    have hlen : ((e.lo : ℤ) + e.vals.length - (e.lo + 1) + 1).toNat = wv.length := by
      rw [← h7, List.length_map]
      omega
    rw [hlen, show (e.lo : ℤ) + 1 - 1 = (e.lo : ℤ) by omega]
    obtain ⟨v₉, e₉⟩ := columns_ok hflt k e.lo
      { macro_ := false, fissile := (List.range k).any (fun g => decide (0 < (rows g).f)) || decide (0 < (rows k).f),
        ng := ng, a := (List.range ng).map fun g => if g < k + 1 then (rows g).a else 0,
        f := (List.range ng).map fun g => if g < k + 1 then (rows g).f else 0,
        nuf := (List.range ng).map fun g => if g < k + 1 then (rows g).nuf else 0,
        tr := (List.range ng).map fun g => if g < k + 1 then (rows g).tr else 0,
        s := (List.range ng).map fun g => if g < k + 1 then (rows g).s else 0,
        ss := (List.range (ng * ng)).map fun i => if i % ng < k then (rows (i % ng)).ss (i / ng) else 0 }
      (fun i => if i % ng < k then (rows (i % ng)).ss (i / ng) else 0) v₈ l₈ wv rfl hk
      (by rw [← h7, List.length_map] at h8; exact h8) hv₈ hf₈
    refine ⟨v₉, ?_⟩
    rw [e₉]
    simp only
    congr 3
    · rw [List.range_succ, List.any_append]
      simp
    · apply List.map_congr_left
      intro i _
      rw [h7]
      by_cases hg : i % ng = k
      · rw [hg, if_pos (show k < k + 1 by omega), if_neg (show ¬ k < k by omega)]
        simp only [DRow.ss, hmore, Option.elim, true_and, List.getD_eq_getElem?_getD]
      · rw [if_neg (by tauto)]
        simp only [hlt _ hg]

/-- The lines of group `g`. -/
theorem rows_ok {flt : List Byte → R} (hflt : Local flt) (ng k : Nat) (hk : k < ng) (hng : ng < 2 ^ 31)
    (ts : List Nat) (d : Nat → Nat → DRow R) (rl : Nat → Line) (rest : List Line)
    (hrl : ∀ t ∈ ts, LineOk (rl t) ∧ RowText flt ng (rl t) (d k t)) (st : In) (v : View) (hg : st.good = true)
    (hr : st.rest = ts.map rl ++ rest) :
    ∃ st' v', rows flt k (ts.map fun t => part ng k fun g => d g t) st v =
      .ok (ts.map fun t => part ng (k + 1) fun g => d g t, st', v') ∧ st'.good = true ∧ st'.rest = rest := by
  induction ts generalizing st v with
  | nil => exact ⟨st, v, rfl, hg, by simpa using hr⟩
  | cons t ts ih =>
    obtain ⟨h1, h2⟩ := hrl t (by simp)
    obtain ⟨g1, g2, g3⟩ := getline_ok hg (by rw [hr]; rfl) h1
    obtain ⟨v₁, e₁⟩ := row_ok hflt ng k (fun g => d g t) _ _ hk hng g3.strip ⟨rl t, (fields_trim _).symm, h2⟩
    obtain ⟨st', v', e₂, e₃, e₄⟩ := ih (fun t ht => hrl t (by simp [ht])) (getline st) v₁ g1 g2
    refine ⟨st', v', ?_, e₃, e₄⟩
    rw [List.map_cons, rows]
    simp only [e₁, ok_bind]
    rw [e₂]
    rfl

theorem groups_ok {flt : List Byte → R} (hflt : Local flt) (ng : Nat) (hng : ng < 2 ^ 31) (nt : Nat)
    (d : Nat → Nat → DRow R) (rl : Nat → Nat → Line) (rest : List Line)
    (hrl : ∀ g < ng, ∀ t < nt, LineOk (rl g t) ∧ RowText flt ng (rl g t) (d g t)) (n k : Nat) (hk : n + k = ng)
    (st : In) (v : View) (hg : st.good = true)
    (hr : st.rest = (List.range' k n).flatMap (fun g => (List.range nt).map (rl g)) ++ rest) :
    ∃ st' v', groups flt n k ((List.range nt).map fun t => part ng k fun g => d g t) st v =
      .ok ((List.range nt).map fun t => part ng ng fun g => d g t, st', v') ∧ st'.good = true ∧ st'.rest = rest := by
  induction n generalizing k st v with
  | zero =>
    obtain rfl : k = ng := by omega
    exact ⟨st, v, rfl, hg, by simpa using hr⟩
  | succ n ih =>
    rw [List.range'_succ, List.flatMap_cons, List.append_assoc] at hr
    obtain ⟨st₁, v₁, e₁, e₂, e₃⟩ := rows_ok hflt ng k (by omega) hng (List.range nt) d (rl k) _
      (fun t ht => hrl k (by omega) t (by simpa using ht)) st v hg hr
    obtain ⟨st', v', e₄, e₅⟩ := ih (k + 1) (by omega) st₁ v₁ e₂ e₃
    refine ⟨st', v', ?_, e₅⟩
    rw [groups, e₁, ok_bind]
    exact e₄

/-! ## Nuclides -/

omit [Zero R] [LinearOrder R] in
theorem temps_ok {flt : List Byte → R} (hflt : Local flt) (v : View) (l : List Byte) (hv : Holds v l) :
    temps flt (fields 32 l).length v = .ok ((fields 32 l).map (val flt)) := by
  generalize hws : fields 32 l = ws
  induction ws generalizing v l with
  | nil => rfl
  | cons w ws ih =>
    obtain ⟨t, v', l', r, h1, h2, h3, h4, h5, h6, h7, h8, -⟩ := token hv hws
    rw [List.length_cons, temps, h1]
    simp only [if_neg h2]
    rw [num_word hflt h3 h4 h5 h6, ok_bind, ih v' l' h7 h8]
    rfl

omit [Zero R] in
theorem sorted_iff (l : List R) : sorted l = true ↔ l.Pairwise (· ≤ ·) := by
  induction l with
  | nil => simp [sorted]
  | cons x l ih =>
    cases l with
    | nil => simp [sorted]
    | cons y l =>
      rw [sorted, Bool.and_eq_true, ih]
      simp only [Bool.not_eq_true', decide_eq_false_iff_not, not_lt]
      constructor
      · rintro ⟨h1, h2⟩
        refine List.pairwise_cons.2 ⟨fun z hz => ?_, h2⟩
        rcases List.mem_cons.1 hz with rfl | hz
        · exact h1
        · exact le_trans h1 ((List.pairwise_cons.1 h2).1 z hz)
      · intro h
        have := List.pairwise_cons.1 h
        exact ⟨this.1 y (by simp), this.2⟩

theorem valid_iff (ng : Nat) (hng : 0 < ng) (d : DNuc R) : valid (d.nuclide ng) = true ↔ d.Sound := by
  have h1 : ((List.range d.temps.length).map fun t => table ng fun g => d.rows g t).all
      (fun m => decide (0 < m.ng) && !m.macro_) = true := by
    rw [List.all_eq_true]
    intro m hm
    simp only [List.mem_map] at hm
    obtain ⟨t, -, rfl⟩ := hm
    simp [table, hng]
  have h2 : ((List.range d.temps.length).map fun t => table ng fun g => d.rows g t).any (·.fissile) =
      (List.range d.temps.length).any fun t => (table ng fun g => d.rows g t).fissile := by
    rw [List.any_map]
    rfl
  unfold valid DNuc.nuclide DNuc.Sound
  simp only [h1, h2, Bool.and_eq_true, decide_eq_true_eq, List.all_eq_true, sorted_iff]
  simp
  tauto

theorem nuclide_ok {flt : List Byte → R} (hflt : Local flt) (ng : Nat) (hng : ng < 2 ^ 31) (h : Line)
    (ls more : List Line) (d : DNuc R) (ht : NucText flt ng (h :: ls) d) (hok : ∀ l ∈ h :: ls, LineOk l) (st : In)
    (v : View) (l₀ : List Byte) (hv : Holds v l₀) (hl₀ : fields 32 l₀ = fields 32 h) (hg : st.good = true)
    (hr : st.rest = ls ++ more) :
    ∃ st' v' tail, nuclide flt ng st v = (if valid (d.nuclide ng) then .ok (d.nuclide ng, st', v') else .refused) ∧
      st'.good = true ∧ st'.rest = tail ++ more ∧
      ∀ l ∈ tail, LineOk l ∧ ¬ hdrNuc <+: trim l ∧ ¬ hdrEnd <+: trim l := by
  obtain ⟨h', tp, ts, xsd, rl, tail, he, -, ⟨w₀, w₁, wz, wm, s₁, s₂, s₃, s₄, wn, ws, hf, hz, hm, hn⟩, hts, hrl, htail⟩ := ht
  simp only [List.cons.injEq] at he
  obtain ⟨rfl, rfl⟩ := he
  rw [← hl₀] at hf
  obtain ⟨l₁, hv₁, hf₁⟩ := skip_words 2 [w₀, w₁] _ hv hf rfl
  obtain ⟨v₂, l₂, e₂, hv₂, hf₂⟩ := nextInt_word hv₁ hf₁
  obtain ⟨v₃, l₃, e₃, hv₃, hf₃⟩ := nextNum_word hflt hv₂ hf₂
  obtain ⟨l₄, hv₄, hf₄⟩ := skip_words 4 [s₁, s₂, s₃, s₄] _ hv₃ hf₃ rfl
  obtain ⟨v₅, l₅, e₅, -, -⟩ := nextInt_word hv₄ hf₄
  obtain ⟨a1, a2, -⟩ := getline_ok hg (by rw [hr]; rfl) (hok tp (by simp))
  obtain ⟨b1, b2, b3⟩ := getline_ok a1 a2 (hok ts (by simp))
  obtain ⟨c1, c2, -⟩ := getline_ok b1 b2 (hok xsd (by simp))
  have hnt : (fields 32 (trim ts)).length = d.temps.length := by rw [fields_trim, ← hts]; simp
  have htemps := temps_ok hflt _ _ b3.strip
  rw [hnt, fields_trim, hts] at htemps
  have hrow : ∀ g < ng, ∀ t < d.temps.length, LineOk (rl g t) ∧ RowText flt ng (rl g t) (d.rows g t) := by
    intro g hg t ht
    refine ⟨hok _ ?_, hrl g hg t ht⟩
    simp only [List.mem_cons, List.mem_append, List.mem_flatMap, List.mem_map, List.mem_range]
    exact Or.inr (Or.inr (Or.inr (Or.inr (Or.inl ⟨g, hg, t, ht, rfl⟩))))
  obtain ⟨st', v', f1, f2, f3⟩ := groups_ok hflt ng hng d.temps.length d.rows rl (tail ++ more) hrow ng 0 (by omega)
    (getline (getline (getline st))) (removeLeadingSpaces (getline (getline (getline st))).view) c1
    (by rw [c2, ← List.range_eq_range' (n := ng), ← List.append_assoc]; rfl)
  refine ⟨st', v', tail, ?_, f2, f3, fun l hl => ⟨hok l (by simp [hl]), htail l hl⟩⟩
  have hz0 : ((List.range d.temps.length).map fun t => part ng 0 fun g => d.rows g t) =
      List.replicate d.temps.length (XSec.zero ng) := by
    rw [List.eq_replicate_iff]
    refine ⟨by simp, fun b hb => ?_⟩
    simp only [List.mem_map] at hb
    obtain ⟨t, -, rfl⟩ := hb
    exact part_zero _ _
  rw [hz0] at f1
  have hn0 : d.nuclide ng = ⟨((List.range d.temps.length).map fun t => part ng ng fun g => d.rows g t).any (·.fissile),
      d.zaid, d.mass, d.temps, (List.range d.temps.length).map fun t => part ng ng fun g => d.rows g t⟩ := by
    unfold DNuc.nuclide
    simp only [part_all, List.any_map]
    rfl
  unfold nuclide
  simp only [e₂, ok_bind, e₃, e₅, hn]
  rw [size, if_neg (by omega), Int.toNat_natCast, ok_bind, htemps, ok_bind, f1, ok_bind]
  simp only [hz, hm]
  rw [← hn0]
  rfl

theorem starts_iff {v : View} {l : List Byte} (h : Holds v l) (s : List Byte) : starts s v = true ↔ s <+: l := by
  unfold starts
  rw [h.1, List.isPrefixOf_iff_prefix]

theorem toNext_ok (tail : List Line) (l : Line) (rest : List Line)
    (htail : ∀ l ∈ tail, LineOk l ∧ ¬ hdrNuc <+: trim l ∧ ¬ hdrEnd <+: trim l) (hl : LineOk l)
    (hh : hdrNuc <+: trim l ∨ hdrEnd <+: trim l) (fuel : Nat) (hfuel : tail.length < fuel) (st : In) (v : View)
    (hg : st.good = true) (hr : st.rest = tail ++ l :: rest) :
    ∃ st' v', toNext fuel st v = (st', v') ∧ st'.good = true ∧ st'.rest = rest ∧ Holds v' (trim l) := by
  induction tail generalizing fuel st v with
  | nil =>
    obtain ⟨fuel, rfl⟩ : ∃ k, fuel = k + 1 := ⟨fuel - 1, by simp at hfuel; omega⟩
    obtain ⟨g1, g2, g3⟩ := getline_ok hg (by rw [hr]; rfl) hl
    refine ⟨getline st, _, ?_, g1, g2, g3.strip⟩
    rw [toNext]
    simp only [g1, if_true]
    rw [if_pos]
    rw [Bool.or_eq_true, starts_iff g3.strip, starts_iff g3.strip]
    exact hh
  | cons x tail ih =>
    obtain ⟨fuel, rfl⟩ : ∃ k, fuel = k + 1 := ⟨fuel - 1, by simp at hfuel; omega⟩
    obtain ⟨hx, h1, h2⟩ := htail x (by simp)
    obtain ⟨g1, g2, g3⟩ := getline_ok hg (by rw [hr]; rfl) hx
    obtain ⟨st', v', e, hrest⟩ := ih (fun y hy => htail y (by simp [hy])) fuel (by simpa using hfuel) (getline st)
      (removeLeadingSpaces (getline st).view) g1 g2
    refine ⟨st', v', ?_, hrest⟩
    rw [toNext]
    simp only [g1, if_true]
    rw [if_neg, e]
    rw [Bool.or_eq_true, starts_iff g3.strip, starts_iff g3.strip]
    tauto

theorem not_end {h : List Byte} (hh : hdrNuc <+: h) : ¬ hdrEnd <+: h := by
  rintro ⟨r, rfl⟩
  simp [hdrNuc, hdrEnd] at hh

theorem trim_hdr {s h : List Byte} (hh : s <+: h) (hs : s.head? = some 37) : trim h = h := by
  obtain ⟨r, rfl⟩ := hh
  cases s with
  | nil => simp at hs
  | cons c s =>
    simp only [List.head?_cons, Option.some.injEq] at hs
    subst hs
    simp [trim]

/-- The loop over the nuclides, when the first line `l` has been read. -/
theorem nuclides_ok {flt : List Byte → R} (hflt : Local flt) (ng : Nat) (hng : ng < 2 ^ 31) (hng0 : 0 < ng)
    (ds : List (DNuc R)) (texts : List (List Line)) (ht : List.Forall₂ (NucText flt ng) texts ds) (el : Line)
    (hel : hdrEnd <+: trim el) (trail : List Line) (l : Line) (ls : List Line)
    (hl : texts.flatten ++ el :: trail = l :: ls) (hok : ∀ x ∈ texts.flatten ++ [el], LineOk x)
    (st : In) (v : View) (hv : Holds v (trim l)) (hg : st.good = true) (hr : st.rest = ls) (nn : Nat) :
    (ds.length ≤ nn → (∀ d ∈ ds, d.Sound) → nuclides flt ng nn st v =
      .ok (ds.map (DNuc.nuclide ng) ++ List.replicate (nn - ds.length) ⟨false, 0, 0, [], []⟩)) ∧
    (ds.length ≤ nn → (∃ d ∈ ds, ¬ d.Sound) → nuclides flt ng nn st v = .refused) ∧
    (nn < ds.length → (∀ d ∈ ds.take nn, d.Sound) → nuclides flt ng nn st v = .undef) := by
  induction ht generalizing l ls st v nn with
  | nil =>
    simp only [List.flatten_nil, List.nil_append, List.cons.injEq] at hl
    obtain ⟨rfl, rfl⟩ := hl
    have hs := (starts_iff hv hdrEnd).2 hel
    refine ⟨fun _ _ => ?_, fun _ ⟨d, hd, _⟩ => absurd hd (by simp), fun h => absurd h (by simp)⟩
    cases nn <;> simp [nuclides, hs]
  | @cons tx d texts ds htx ht ih =>
    have htx' := htx
    obtain ⟨h', tp, ts, xsd, rl, tail₀, he, hnuc, -⟩ := htx
    obtain ⟨tls, htls⟩ : ∃ tls, tx = h' :: tls := ⟨_, he⟩
    rw [htls] at htx' hok
    rw [htls, List.flatten_cons, List.append_assoc, List.cons_append, List.cons.injEq] at hl
    obtain ⟨rfl, rfl⟩ := hl
    have htr := trim_hdr hnuc rfl
    have hs : starts hdrEnd v = false := by
      rw [Bool.eq_false_iff]
      intro h
      rw [starts_iff hv, htr] at h
      exact not_end hnuc h
    cases nn with
    | zero => exact ⟨fun h => absurd h (by simp), fun h => absurd h (by simp), fun _ _ => by simp [nuclides, hs]⟩
    | succ nn =>
      obtain ⟨st₁, v₁, tail, e1, e2, e3, e4⟩ := nuclide_ok hflt ng hng h' tls (texts.flatten ++ el :: trail) d htx'
        (fun x hx => hok x (by
          simp only [List.flatten_cons, List.mem_append]
          exact Or.inl (Or.inl hx))) st v _ hv (fields_trim h') hg hr
      obtain ⟨l₂, ls₂, hl₂⟩ : ∃ l₂ ls₂, texts.flatten ++ el :: trail = l₂ :: ls₂ :=
        List.exists_cons_of_ne_nil (by simp)
      have hl2ok : LineOk l₂ ∧ (hdrNuc <+: trim l₂ ∨ hdrEnd <+: trim l₂) := by
        cases ht with
        | nil =>
          simp only [List.flatten_nil, List.nil_append, List.cons.injEq] at hl₂
          obtain ⟨rfl, -⟩ := hl₂
          exact ⟨hok _ (by simp), Or.inr hel⟩
        | @cons tx₂ d₂ texts₂ ds₂ htx₂ ht₂ =>
          obtain ⟨h₂, _, _, _, _, _, he₂, hnuc₂, -⟩ := htx₂
          rw [he₂] at hl₂
          simp only [List.flatten_cons, List.cons_append, List.cons.injEq] at hl₂
          obtain ⟨rfl, -⟩ := hl₂
          refine ⟨hok _ ?_, Or.inl (by rw [trim_hdr hnuc₂ rfl]; exact hnuc₂)⟩
          rw [he₂]
          simp
      rw [hl₂] at e3
      obtain ⟨st₂, v₂, f1, f2, f3, f4⟩ := toNext_ok tail l₂ ls₂ e4 hl2ok.1 hl2ok.2 (st₁.rest.length + 1)
        (by rw [e3]; simp) st₁ v₁ e2 e3
      have ih' := ih l₂ ls₂ hl₂ (fun x hx => hok x (by
        simp only [List.flatten_cons, List.mem_append] at hx ⊢
        tauto)) st₂ v₂ f4 f2 f3 nn
      rw [nuclides, hs]
      simp only [Bool.false_eq_true, if_false]
      rw [e1]
      by_cases hsound : d.Sound
      · rw [if_pos ((valid_iff ng hng0 d).2 hsound), ok_bind]
        simp only [f1]
        refine ⟨?_, ?_, ?_⟩
        · intro hle hall
          rw [ih'.1 (by simpa using hle) fun d hd => hall d (by simp [hd]), ok_bind]
          simp
        · rintro hle ⟨d', hd', hn⟩
          rw [ih'.2.1 (by simpa using hle), refused_bind]
          rcases List.mem_cons.1 hd' with rfl | h
          · exact absurd hsound hn
          · exact ⟨d', h, hn⟩
        · intro hlt hall
          rw [ih'.2.2 (by simpa using hlt) fun d hd => hall d (by simp [hd]), undef_bind]
      · rw [if_neg (fun h => hsound ((valid_iff ng hng0 d).1 h)), refused_bind]
        exact ⟨fun _ h => absurd (h d (by simp)) hsound, fun _ _ => rfl, fun _ h => absurd (h d (by simp)) hsound⟩

/-! ## Headers -/

theorem header_ok {s : Line} {st : In} {l : Line} {ls : List Line} (hg : st.good = true) (hr : st.rest = l :: ls)
    (hl : LineOk l) :
    (s <+: l → ∃ st', header s st = .ok st' ∧ st'.good = true ∧ st'.rest = ls ∧ Holds st'.view l) ∧
    (¬ s <+: l → header s st = .refused) := by
  obtain ⟨g1, g2, g3⟩ := getline_ok hg hr hl
  unfold header
  constructor
  · intro h
    exact ⟨_, if_pos ((starts_iff g3 s).2 h), g1, g2, g3⟩
  · intro h
    exact if_neg fun hs => h ((starts_iff g3 s).1 hs)

theorem version_ok {st : In} {l : Line} {ls : List Line} (hg : st.good = true) (hr : st.rest = l :: ls)
    (hl : LineOk l) :
    ([52] <+: trim l → ∃ st', version st = .ok st' ∧ st'.good = true ∧ st'.rest = ls) ∧
    (¬ [52] <+: trim l → trim l ≠ [] → version st = .refused) := by
  obtain ⟨g1, g2, g3⟩ := getline_ok hg hr hl
  have hfind : ∀ l : List Byte, Clean l → l.find? (fun c => !isSpace c) = (trim l).head? := by
    intro l hl
    induction l with
    | nil => rfl
    | cons c l ih =>
      by_cases hc : c = 32
      · subst hc
        rw [List.find?_cons_of_neg (by decide), ih fun x hx => hl x (by simp [hx])]
        simp [trim]
      · have : isSpace c = false := by
          by_contra h
          exact hc ((hl c (by simp)).2 (by simpa using h))
        rw [List.find?_cons_of_pos (by simp [this])]
        simp [trim, hc]
  unfold version
  simp only [g3.1, hfind l hl.1]
  cases h : trim l with
  | nil => exact ⟨fun hp => absurd hp (by simp), fun _ hn => absurd rfl hn⟩
  | cons c t =>
    simp only [List.head?_cons, List.cons_prefix_cons, List.nil_prefix, and_true]
    constructor
    · rintro rfl
      exact ⟨_, if_pos rfl, g1, g2⟩
    · intro hn _
      exact if_neg (Ne.symm hn)

theorem ints_ok (n : Nat) (us ws : List (List Byte)) (hn : us.length = n) (v : View) (l : List Byte) (hv : Holds v l)
    (hf : fields 32 l = us ++ ws) : ints n v = .ok (us.map ival) := by
  induction n generalizing us v l with
  | zero =>
    rw [List.length_eq_zero_iff.1 hn]
    rfl
  | succ n ih =>
    obtain ⟨u, us, rfl⟩ := List.exists_cons_of_length_eq_add_one hn
    obtain ⟨v', l', h1, h2, h3⟩ := nextInt_word hv hf
    rw [ints, h1, ok_bind]
    simp only
    rw [ih us (by simpa using hn) v' l' h2 h3]
    rfl

theorem toFirst_ok (dir : List Line) (l : Line) (rest : List Line)
    (hdir : ∀ x ∈ dir, LineOk x ∧ ¬ hdrNuc <+: x) (hl : LineOk l) (hh : hdrNuc <+: l) (fuel : Nat)
    (st : In) (v : View) (hg : st.good = true) (hr : st.rest = dir ++ l :: rest) :
    (dir.length < fuel → ∃ st' v', toFirst fuel st v = .ok (st', v') ∧ st'.good = true ∧ st'.rest = rest ∧ Holds v' l) ∧
    (fuel ≤ dir.length → toFirst fuel st v = .refused) := by
  induction dir generalizing fuel st v with
  | nil =>
    cases fuel with
    | zero => exact ⟨fun h => absurd h (by simp), fun _ => rfl⟩
    | succ fuel =>
      obtain ⟨g1, g2, g3⟩ := getline_ok hg (by rw [hr]; rfl) hl
      refine ⟨fun _ => ⟨getline st, _, ?_, g1, g2, g3⟩, fun h => absurd h (by simp)⟩
      rw [toFirst]
      simp only [g1, if_true]
      rw [if_pos ((starts_iff g3 _).2 hh)]
  | cons x dir ih =>
    cases fuel with
    | zero => exact ⟨fun h => absurd h (by simp), fun _ => rfl⟩
    | succ fuel =>
      obtain ⟨hx, h1⟩ := hdir x (by simp)
      obtain ⟨g1, g2, g3⟩ := getline_ok hg (by rw [hr]; rfl) hx
      have := ih (fun y hy => hdir y (by simp [hy])) fuel (getline st) (getline st).view g1 g2
      rw [toFirst]
      simp only [g1, if_true]
      rw [if_neg fun h => h1 ((starts_iff g3 _).1 h)]
      simpa using this

end Verif.XSLib
