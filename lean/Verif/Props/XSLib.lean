import Verif.Lemmas.XSLib

/-! # C81: MPACT cross section libraries -/

namespace Verif.XSLib

open Verif.StrView Verif.Abaqus Verif.Phys
open Verif.Str (Byte)

variable {R : Type} [Zero R] [LinearOrder R]

/-- A library file: group bounds, fission spectrum, the number of nuclides announced and the nuclides. -/
def FileText (flt : List Byte → R) (file : List Line) (bounds chi : List R) (nn : Nat) (ds : List (DNuc R)) : Prop :=
  (∀ l ∈ file, LineOk l) ∧
  ∃ (ver v4 dimH dim grpH : Line) (grp : List Line) (chiH : Line) (spec : List Line) (dirH : Line) (dir : List Line)
    (texts : List (List Line)) (el : Line) (trail : List Line),
    file = ver :: v4 :: dimH :: dim :: grpH ::
      (grp ++ chiH :: (spec ++ dirH :: (dir ++ (texts.flatten ++ el :: trail)))) ∧
    hdrVer <+: ver ∧ [52] <+: trim v4 ∧ hdrDim <+: dimH ∧
    (∃ d₀ d₁ d₂ d₃ d₄ d₅ d₆ d₇ d₈ d₉ ws, fields 32 dim = d₀ :: d₁ :: d₂ :: d₃ :: d₄ :: d₅ :: d₆ :: d₇ :: d₈ :: d₉ :: ws ∧
      ival d₀ = bounds.length ∧ ival d₄ = nn) ∧
    hdrGrp <+: grpH ∧ Block flt grp bounds ∧ hdrChi <+: chiH ∧ Block flt spec chi ∧ chi.length = bounds.length ∧
    hdrDir <+: dirH ∧ dir.length ≤ 10000 ∧ (∀ l ∈ dir, ¬ hdrNuc <+: l) ∧
    List.Forall₂ (NucText flt bounds.length) texts ds ∧ ds ≠ [] ∧ hdrEnd <+: trim el

theorem ival_lt (w : List Byte) : ival w < 2 ^ 31 := by
  unfold ival strto32
  have := Int.bmod_lt (x := strtol (w ++ [0])) (m := 2 ^ 32) (by decide)
  simpa using this

/-- Everything but the end of the loop over the nuclides. -/
theorem read_to {flt : List Byte → R} (hflt : Local flt) {file : List Line} {bounds chi : List R} {nn : Nat}
    {ds : List (DNuc R)} (h : FileText flt file bounds chi nn ds) (junk : List Byte) :
    ∃ st v texts el trail l ls, read flt junk file =
        (nuclides flt bounds.length nn st v >>= fun ns => .ok ⟨bounds, chi, ns⟩) ∧
      bounds.length < 2 ^ 31 ∧ 0 < bounds.length ∧ List.Forall₂ (NucText flt bounds.length) texts ds ∧
      hdrEnd <+: trim el ∧ texts.flatten ++ el :: trail = l :: ls ∧ (∀ x ∈ texts.flatten ++ [el], LineOk x) ∧
      Holds v (trim l) ∧ st.good = true ∧ st.rest = ls := by
  obtain ⟨hok, ver, v4, dimH, dim, grpH, grp, chiH, spec, dirH, dir, texts, el, trail, rfl, h1, h2, h3,
    ⟨d₀, d₁, d₂, d₃, d₄, d₅, d₆, d₇, d₈, d₉, ws, hd, hng, hnn⟩, h4, hgrp, h5, hchi, hlen, h6, hdl, hdir, htx, hne, hel⟩ := h
  simp only [List.mem_cons, List.mem_append] at hok
  obtain ⟨st1, a1, a2, a3, -⟩ := (header_ok (s := hdrVer) (st := ⟨_, true, junk⟩)
    (ls := v4 :: dimH :: dim :: grpH :: (grp ++ chiH :: (spec ++ dirH :: (dir ++ (texts.flatten ++ el :: trail)))))
    rfl rfl (hok ver (by simp))).1 h1
  obtain ⟨st2, b1, b2, b3⟩ := (version_ok a2 a3 (hok v4 (by simp))).1 h2
  obtain ⟨st3, c1, c2, c3, -⟩ := (header_ok b2 b3 (hok dimH (by simp))).1 h3
  obtain ⟨e2, e3, e4⟩ := getline_ok c2 c3 (hok dim (by simp))
  have hints := ints_ok 10 [d₀, d₁, d₂, d₃, d₄, d₅, d₆, d₇, d₈, d₉] ws rfl _ _ e4.strip
    (by rw [fields_trim, hd]; rfl)
  obtain ⟨st5, f1, f2, f3, -⟩ := (header_ok e2 e3 (hok grpH (by simp))).1 h4
  obtain ⟨st6, g1, g2, g3⟩ := block_ok hflt f2 f3 hgrp (fun l hl => hok l (by simp [hl])) true
  obtain ⟨st7, i1, i2, i3, -⟩ := (header_ok g2 g3 (hok chiH (by simp))).1 h5
  obtain ⟨st8, j1, j2, j3⟩ := block_ok hflt i2 i3 hchi (fun l hl => hok l (by simp [hl])) false
  obtain ⟨st9, k1, k2, k3, -⟩ := (header_ok j2 j3 (hok dirH (by simp))).1 h6
  obtain ⟨l, ls, hl, hlok, hlnuc⟩ : ∃ l ls, texts.flatten ++ el :: trail = l :: ls ∧ LineOk l ∧ hdrNuc <+: l := by
    cases htx with
    | nil => exact absurd rfl hne
    | @cons tx d texts ds htx ht =>
      obtain ⟨h', _, _, _, _, _, he, hnuc, -⟩ := htx
      refine ⟨h', _, by rw [he]; rfl, hok h' ?_, hnuc⟩
      rw [he]
      simp
  rw [hl] at k3
  obtain ⟨st10, v, m1, m2, m3, m4⟩ := (toFirst_ok dir l ls (fun x hx => ⟨hok x (by simp [hx]), hdir x hx⟩) hlok hlnuc 10001
    st9 st9.view k2 k3).1 (by omega)
  have hpos : 0 < bounds.length := by
    obtain ⟨hb1, hb2, -, hb4⟩ := hgrp
    obtain ⟨x, xs, rfl⟩ := List.exists_cons_of_ne_nil hb1
    rw [← hb4]
    have := List.length_pos_iff.2 (hb2 x (by simp))
    simp
    omega
  refine ⟨st10, v, texts, el, trail, l, ls, ?_, ?_, hpos, htx, hel, hl, ?_, ?_, m2, m3⟩
  · unfold read
    rw [a1, ok_bind, b1, ok_bind, c1, ok_bind]
    simp only
    rw [hints, ok_bind]
    simp only [List.map_cons, List.getElem?_cons_zero, List.getElem?_cons_succ, Res.ofOption, ok_bind]
    rw [f1, ok_bind, hng, size, if_neg (by omega), Int.toNat_natCast, ok_bind]
    simp only [if_true] at g1
    rw [g1, ok_bind]
    simp only
    rw [i1, ok_bind]
    simp only [Bool.false_eq_true, if_false, hlen] at j1
    rw [j1, ok_bind]
    simp only
    rw [k1, ok_bind, m1, ok_bind]
    simp only
    rw [hnn, size, if_neg (by omega), Int.toNat_natCast, ok_bind]
    rfl
  · have := ival_lt d₀
    rw [hng] at this
    exact_mod_cast this
  · intro x hx
    simp only [List.mem_append, List.mem_singleton] at hx
    rcases hx with h | h
    · exact hok x (by simp only [h, true_or, or_true])
    · exact hok x (by simp only [h, true_or, or_true])
  · rw [trim_hdr hlnuc rfl]
    exact m4

/-- Reading a library file gives the bounds, the spectrum and all nuclides of it, in order, each with the cross sections
of its lines; what is not given is zero. This is not so for all files with these numbers: lines of a block must not end in
two blanks (`C81_trailing_fails`), and the announced number of nuclides must be right (`C81_missing_fails`,
`C81_extra_fails`). -/
theorem C81_read_partial {flt : List Byte → R} (hflt : Local flt) {file : List Line} {bounds chi : List R}
    {ds : List (DNuc R)} (h : FileText flt file bounds chi ds.length ds) (hs : ∀ d ∈ ds, d.Sound) (junk : List Byte) :
    read flt junk file = .ok ⟨bounds, chi, ds.map (DNuc.nuclide bounds.length)⟩ := by
  obtain ⟨st, v, texts, el, trail, l, ls, e, h1, h2, h3, h4, h5, h6, h7, h8, h9⟩ := read_to hflt h junk
  rw [e, (nuclides_ok hflt _ h1 h2 ds texts h3 el h4 trail l ls h5 h6 st v h7 h8 h9 _).1 le_rfl hs]
  simp

/-- What the table of one temperature says about each group and pair of groups. -/
theorem C81_table (ng : Nat) (rows : Nat → DRow R) (g : Nat) (hg : g < ng) :
    (table ng rows).a[g]? = some (rows g).a ∧ (table ng rows).f[g]? = some (rows g).f ∧
    (table ng rows).nuf[g]? = some (rows g).nuf ∧ (table ng rows).tr[g]? = some (rows g).tr ∧
    (table ng rows).s[g]? = some (rows g).s ∧ (∀ j < ng, (table ng rows).ssAt g j = some ((rows g).ss j)) ∧
    ((table ng rows).fissile = true ↔ ∃ g < ng, 0 < (rows g).f) := by
  refine ⟨by simp [table, hg], by simp [table, hg], by simp [table, hg], by simp [table, hg], by simp [table, hg],
    fun j hj => ?_, by simp [table]⟩
  unfold XSec.ssAt table
  have hlt : j * ng + g < ng * ng := by
    calc j * ng + g < j * ng + ng := by omega
      _ = (j + 1) * ng := by rw [Nat.add_mul, Nat.one_mul]
      _ ≤ ng * ng := Nat.mul_le_mul_right _ (by omega)
  rw [List.getElem?_map, List.getElem?_range hlt, Option.map_some, Nat.mul_add_mod', Nat.mod_eq_of_lt hg,
    Nat.mul_comm, Nat.mul_add_div (by omega), Nat.div_eq_of_lt hg, Nat.add_zero]

/-- A library with a nuclide that does not make sense is refused. -/
theorem C81_unsound {flt : List Byte → R} (hflt : Local flt) {file : List Line} {bounds chi : List R} {nn : Nat}
    {ds : List (DNuc R)} (h : FileText flt file bounds chi nn ds) (hn : ds.length ≤ nn) (hs : ∃ d ∈ ds, ¬ d.Sound)
    (junk : List Byte) : read flt junk file = .refused := by
  obtain ⟨st, v, texts, el, trail, l, ls, e, h1, h2, h3, h4, h5, h6, h7, h8, h9⟩ := read_to hflt h junk
  rw [e, (nuclides_ok hflt _ h1 h2 ds texts h3 el h4 trail l ls h5 h6 st v h7 h8 h9 _).2.1 hn hs]
  rfl

/-- If more nuclides are announced than there are, the library is accepted with nuclides of ZAID 0 in the end. -/
theorem C81_missing_fails {flt : List Byte → R} (hflt : Local flt) {file : List Line} {bounds chi : List R} {nn : Nat}
    {ds : List (DNuc R)} (h : FileText flt file bounds chi nn ds) (hn : ds.length < nn) (hs : ∀ d ∈ ds, d.Sound)
    (junk : List Byte) : ∃ lib, read flt junk file = .ok lib ∧ lib.nuclides.length = nn ∧
      ∀ i, ds.length ≤ i → i < nn → lib.nuclides[i]? = some ⟨false, 0, 0, [], []⟩ := by
  obtain ⟨st, v, texts, el, trail, l, ls, e, h1, h2, h3, h4, h5, h6, h7, h8, h9⟩ := read_to hflt h junk
  rw [e, (nuclides_ok hflt _ h1 h2 ds texts h3 el h4 trail l ls h5 h6 st v h7 h8 h9 _).1 hn.le hs]
  refine ⟨_, rfl, ?_, fun i hi1 hi2 => ?_⟩
  · simp
    omega
  · simp only
    rw [List.getElem?_append_right (by simpa using hi1), List.getElem?_replicate, if_pos]
    simp
    omega

/-- If fewer nuclides are announced than there are, the vector is overrun. -/
theorem C81_extra_fails {flt : List Byte → R} (hflt : Local flt) {file : List Line} {bounds chi : List R} {nn : Nat}
    {ds : List (DNuc R)} (h : FileText flt file bounds chi nn ds) (hn : nn < ds.length)
    (hs : ∀ d ∈ ds, d.Sound) (junk : List Byte) : read flt junk file = .undef := by
  obtain ⟨st, v, texts, el, trail, l, ls, e, h1, h2, h3, h4, h5, h6, h7, h8, h9⟩ := read_to hflt h junk
  rw [e, (nuclides_ok hflt _ h1 h2 ds texts h3 el h4 trail l ls h5 h6 st v h7 h8 h9 _).2.2 hn
    fun d hd => hs d (List.mem_of_mem_take hd)]
  rfl

/-- At the end of the file, and after a line of 1024 characters or more, of which 1023 are kept, the stream is not good any
more: every later line is empty. -/
theorem C81_stream (st : In) :
    (st.good = false ∨ st.rest = [] → (getline st).good = false ∧ (getline st).view.size = 0) ∧
    ∀ l ls, st.good = true → st.rest = l :: ls → 1024 ≤ l.length → (∀ c ∈ l, c ≠ 0) →
      (getline st).good = false ∧ (getline st).view.size = 1023 ∧ (getline (getline st)).view.size = 0 := by
  have hend : ∀ st : In, st.good = false ∨ st.rest = [] → (getline st).good = false ∧ (getline st).view.size = 0 := by
    intro st h
    unfold getline
    cases hg : st.good with
    | false => simp [In.view, store]
    | true =>
      rw [hg] at h
      have hr : st.rest = [] := by simpa using h
      simp [hr, In.view, store]
  refine ⟨hend st, ?_⟩
  intro l ls hg hr hl hc
  have e : getline st = ⟨ls, false, store st.buf (l.take 1023)⟩ := by
    unfold getline
    rw [if_pos hg, hr]
    dsimp only
    rw [if_pos hl]
  refine ⟨by rw [e], ?_, (hend _ (Or.inl (by rw [e]))).2⟩
  rw [e]
  unfold In.view store
  dsimp only
  rw [List.takeWhile_append_of_pos]
  · simp; omega
  · intro c hc'
    simpa using hc c (List.mem_of_mem_take hc')

/-- Files of another kind or another major version are refused. -/
theorem C81_rejects (flt : List Byte → R) (junk : List Byte) (l₁ l₂ : Line) (rest : List Line) (h₁ : LineOk l₁)
    (h₂ : LineOk l₂) (h : ¬ hdrVer <+: l₁ ∨ ¬ [52] <+: trim l₂ ∧ trim l₂ ≠ []) :
    read flt junk (l₁ :: l₂ :: rest) = .refused := by
  unfold read
  by_cases hv : hdrVer <+: l₁
  · obtain ⟨st1, a1, a2, a3, -⟩ := (header_ok (s := hdrVer) (st := ⟨_, true, junk⟩) rfl rfl h₁).1 hv
    rcases h with h | h
    · exact absurd hv h
    · rw [a1, ok_bind, (version_ok a2 a3 h₂).2 h.1 h.2]
      rfl
  · rw [(header_ok (s := hdrVer) (st := ⟨_, true, junk⟩) rfl rfl h₁).2 hv]
    rfl

/-! ## Examples -/

/-- A file with two groups and one nuclide. -/
def sample : List Line := [
  [37, 86, 69, 82, 58],
  [32, 52, 46, 50],
  [37, 68, 73, 77, 58],
  [50, 32, 48, 32, 48, 32, 48, 32, 49, 32, 48, 32, 48, 32, 48, 32, 48, 32, 48],
  [37, 71, 82, 80, 58],
  [57, 32],
  [32, 53],
  [37, 67, 72, 73, 58],
  [49, 32, 48],
  [37, 68, 73, 82, 58],
  [49, 32, 53],
  [37, 78, 85, 67, 32, 49, 32, 53, 32, 55, 32, 48, 32, 48, 32, 48, 32, 48, 32, 49],
  [84, 80, 49, 43],
  [51, 48, 48],
  [88, 83, 68, 43],
  [49, 32, 49, 32, 51],
  [50, 32, 49, 32, 52, 32, 50, 32, 53, 32, 54, 32, 55, 32, 49, 32, 50, 32, 56, 32, 57],
  [120],
  [37, 69, 78, 68]]

/-- The same, with "9  " and " 25" for the bounds. -/
def sampleBad : List Line := [
  [37, 86, 69, 82, 58],
  [32, 52, 46, 50],
  [37, 68, 73, 77, 58],
  [50, 32, 48, 32, 48, 32, 48, 32, 49, 32, 48, 32, 48, 32, 48, 32, 48, 32, 48],
  [37, 71, 82, 80, 58],
  [57, 32, 32],
  [32, 50, 53],
  [37, 67, 72, 73, 58],
  [49, 32, 48],
  [37, 68, 73, 82, 58],
  [49, 32, 53],
  [37, 78, 85, 67, 32, 49, 32, 53, 32, 55, 32, 48, 32, 48, 32, 48, 32, 48, 32, 49],
  [84, 80, 49, 43],
  [51, 48, 48],
  [88, 83, 68, 43],
  [49, 32, 49, 32, 51],
  [50, 32, 49, 32, 52, 32, 50, 32, 53, 32, 54, 32, 55, 32, 49, 32, 50, 32, 56, 32, 57],
  [120],
  [37, 69, 78, 68]]

theorem local_strto32 : Local strto32 := fun w r hw hr => ival_append w r hw hr

/-- The numbers of the sample. -/
def sampleNuc : DNuc ℤ := ⟨5, 7, [300], fun g _ => if g = 0 then ⟨3, none⟩ else ⟨4, some ⟨2, 5, 6, 7, 0, [8, 9]⟩⟩⟩

theorem sample_text : FileText strto32 sample [9, 5] [1, 0] 1 [sampleNuc] := by
  refine ⟨?_, _, _, _, _, _, (sample.drop 5).take 2, _, (sample.drop 8).take 1, _, (sample.drop 10).take 1,
    [(sample.drop 11).take 7], _, [], rfl, ?_, ?_, ?_, ?_, ?_, ?_, ?_, ?_, rfl, ?_, by decide, ?_, ?_, by simp, ?_⟩
  · unfold LineOk Clean
    decide
  · decide
  · decide
  · decide
  · exact ⟨_, _, _, _, _, _, _, _, _, _, [], rfl, by decide, by decide⟩
  · decide
  · exact ⟨by decide, by decide, by decide, by decide⟩
  · decide
  · exact ⟨by decide, by decide, by decide, by decide⟩
  · decide
  · decide
  · refine List.Forall₂.cons ⟨_, _, _, _, fun g _ => (sample.drop (15 + g)).headD [], (sample.drop 17).take 1, rfl, by decide,
      ⟨_, _, _, _, _, _, _, _, _, [], rfl, by decide, by decide, by decide⟩, by decide, ?_, by decide⟩ List.Forall₂.nil
    intro g hg t ht
    obtain rfl : t = 0 := by simp [sampleNuc] at ht; omega
    obtain rfl | rfl : g = 0 ∨ g = 1 := by simp at hg; omega
    · exact ⟨_, _, _, [], rfl, by decide, rfl⟩
    · exact ⟨_, _, _, _, rfl, by decide, _, _, _, _, _, _, _, rfl, by decide, by decide, by decide, by decide, by decide,
        by decide, by decide, by decide⟩
  · decide

theorem sample_sound : ∀ d ∈ [sampleNuc], d.Sound := by
  unfold DNuc.Sound
  decide

example : Local strto32 ∧ FileText strto32 sample [9, 5] [1, 0] [sampleNuc].length [sampleNuc] ∧
    ∀ d ∈ [sampleNuc], d.Sound := ⟨local_strto32, sample_text, sample_sound⟩

/-- A line of a block that ends in two blanks: the next number is read from the middle of the next line. The file has the
bounds 9 and 25, the library 9 and 5. -/
theorem C81_trailing_fails : (sampleBad.drop 5).take 2 = [[57, 32, 32], [32, 50, 53]] ∧
    (((sampleBad.drop 5).take 2).flatMap (fields 32)).map (val strto32) = [9, 25] ∧
    ∃ lib, read strto32 (List.replicate 1024 0) sampleBad = .ok lib ∧ lib.bounds = [9, 5] := by
  refine ⟨rfl, by decide, ?_⟩
  have key : (match read strto32 (List.replicate 1024 0) sampleBad with
      | .ok lib => decide (lib.bounds = [9, 5])
      | _ => false) = true := by decide +kernel
  cases h : read strto32 (List.replicate 1024 0) sampleBad with
  | undef => rw [h] at key; cases key
  | refused => rw [h] at key; cases key
  | ok lib =>
    rw [h] at key
    exact ⟨lib, rfl, of_decide_eq_true key⟩

/-- The sample with the columns from `lo` to `hi` in the second group. -/
def sampleCols (lo hi : List Byte) : List Line :=
  sample.set 16 ([50, 32, 49, 32, 52, 32, 50, 32, 53, 32, 54, 32, 55, 32] ++ lo ++ [32] ++ hi ++ [32, 56, 32, 57])

def isUndef {α : Type} : Res α → Bool
  | .undef => true
  | _ => false

theorem of_isUndef {α : Type} {r : Res α} (h : isUndef r = true) : r = .undef := by
  cases r with
  | undef => rfl
  | refused => exact absurd h (by simp [isUndef])
  | ok a => exact absurd h (by simp [isUndef])

/-- Columns that are not there: no column at all is accepted; a first column 0 (or -1), a column beyond the last, and column
numbers whose difference is not an `Int` are undefined. -/
theorem C81_columns : (∃ lib, read strto32 (List.replicate 1024 0) (sampleCols [50] [49]) = .ok lib) ∧
    ∀ p ∈ ([([48], [49]), ([45, 49], [49]), ([49], [51]), ([45, 50, 49, 52, 55, 52, 56, 51, 54, 52, 56], [49]),
      ([45, 49], [50, 49, 52, 55, 52, 56, 51, 54, 52, 53]), ([45, 49], [50, 49, 52, 55, 52, 56, 51, 54, 52, 54]),
      ([50, 49, 52, 55, 52, 56, 51, 54, 52, 55], [45, 50, 49, 52, 55, 52, 56, 51, 54, 52, 56])] : List (List Byte × List Byte)),
      read strto32 (List.replicate 1024 0) (sampleCols p.1 p.2) = .undef := by
  constructor
  · have key : (match read strto32 (List.replicate 1024 0) (sampleCols [50] [49]) with
      | .ok _ => true
      | _ => false) = true := by decide +kernel
    cases h : read strto32 (List.replicate 1024 0) (sampleCols [50] [49]) with
    | ok lib => exact ⟨lib, rfl⟩
    | undef => rw [h] at key; exact absurd key (by simp)
    | refused => rw [h] at key; exact absurd key (by simp)
  · have key : ∀ p ∈ ([([48], [49]), ([45, 49], [49]), ([49], [51]), ([45, 50, 49, 52, 55, 52, 56, 51, 54, 52, 56], [49]),
      ([45, 49], [50, 49, 52, 55, 52, 56, 51, 54, 52, 53]), ([45, 49], [50, 49, 52, 55, 52, 56, 51, 54, 52, 54]),
      ([50, 49, 52, 55, 52, 56, 51, 54, 52, 55], [45, 50, 49, 52, 55, 52, 56, 51, 54, 52, 56])] : List (List Byte × List Byte)),
      isUndef (read strto32 (List.replicate 1024 0) (sampleCols p.1 p.2)) = true := by decide +kernel
    intro p hp
    exact of_isUndef (key p hp)

end Verif.XSLib
