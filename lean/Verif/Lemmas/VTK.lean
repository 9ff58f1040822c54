import Verif.Model.VTK
import Verif.Lemmas.XSLib
import Verif.Props.SoupSort

/-! # Specification of VTK files, and lemmas about reading them -/

namespace Verif.VTKFile

open Verif.StrView Verif.Abaqus Verif.Polytope Verif.ElemTypes Verif.XSLib
open Verif.Str (Byte)

variable {R : Type}

/-! ## Specification -/

/-- What is asked of `strto<Float>`: it does not look beyond the field it is given, and skips blanks before it. -/
def Reader (flt : List Byte → R) : Prop := Local flt ∧ ∀ l, flt (32 :: l) = flt l

/-- A line with the three coordinates of a point. -/
def PointLine (flt : List Byte → R) (p : R × R × R) (l : Line) : Prop :=
  ∃ wx wy wz, fields 32 l = [wx, wy, wz] ∧ p = (val flt wx, val flt wy, val flt wz)

/-- A line with the number of vertices of a cell and their (0-based) ids. -/
def CellLine (conn : List Nat) (l : Line) : Prop :=
  ∃ w ws, fields 32 l = w :: ws ∧ ival w = conn.length ∧ ws.map ival = conn.map (fun i : Nat => (i : ℤ))

/-- A named array of `n` values: `CELL_DATA n`, `SCALARS name type ..`, the lookup table, and the values on any number of
lines. The values of an array of integers are at most `lim` in absolute value. -/
def Section (flt : List Byte → R) (lim : ℤ) (n : Nat) (d : List Byte × List R) (ls : List Line) : Prop :=
  ∃ cd sc lt vals, ls = cd :: sc :: lt :: vals ∧ hdrData <+: cd ∧ (∃ w k ws, fields 32 cd = w :: k :: ws ∧ ival k = n) ∧
    (∃ w ty r, sc = w ++ 32 :: (d.1 ++ 32 :: (ty ++ r)) ∧ Word w ∧ Word d.1 ∧
      (ty = tFloat ∨ ty = tDouble ∨
        ty = tInt ∧ ∀ w ∈ vals.flatMap (fields 32), |strtol (w ++ [0])| ≤ lim)) ∧
    (∀ l ∈ vals, l ≠ []) ∧ (vals.flatMap (fields 32)).map (val flt) = d.2 ∧ d.2.length = n

/-- What follows the grid: arrays, and lines of no interest. An array ends with an empty line or with the file. -/
inductive DataText (flt : List Byte → R) (lim : ℤ) (n : Nat) : List (List Byte × List R) → List Line → Prop
  | nil : DataText flt lim n [] []
  | other {ds ls} (l : Line) : ¬ hdrData <+: l → DataText flt lim n ds ls → DataText flt lim n ds (l :: ls)
  | last {d ls} : Section flt lim n d ls → DataText flt lim n [d] ls
  | cons {d ds ls ls'} : Section flt lim n d ls → DataText flt lim n ds ls' → DataText flt lim n (d :: ds) (ls ++ [] :: ls')

/-! ## Fields -/

theorem lead {v : View} {l w : List Byte} {ws : List (List Byte)} (h : Holds v l) (hf : fields 32 l = w :: ws) :
    ∃ n r, v.suf = List.replicate n 32 ++ (w ++ r) ∧ (r.head? = some 32 ∨ r.head? = some 0) ∧ Word w := by
  obtain ⟨hb, hsz, hc, hs⟩ := h
  have hw : Word w := word_of_mem hc (by rw [hf]; simp)
  rcases decompose 32 l with ⟨n, e⟩ | ⟨n, t, e, ht, hd⟩ | ⟨n, t, r, e, ht, hd⟩
  · rw [e] at hf
    have := fields_delims 32 n []
    simp only [List.append_nil, fields_nil] at this
    rw [this] at hf
    exact absurd hf (by simp)
  · have hft := hf
    rw [e, fields_delims, fields_free 32 t hd ht] at hft
    simp only [List.cons.injEq] at hft
    obtain ⟨rfl, rfl⟩ := hft
    obtain ⟨r, hr⟩ := hs (by rw [e]; simp [ht])
    exact ⟨n, 0 :: r, by rw [hr, e]; simp, Or.inr rfl, hw⟩
  · have hft := hf
    rw [e, List.append_assoc, fields_delims, fields_append 32 t r hd ht] at hft
    simp only [List.cons.injEq] at hft
    obtain ⟨rfl, hws⟩ := hft
    obtain ⟨r', hr'⟩ := hs (by rw [e]; simp)
    exact ⟨n, 32 :: (r ++ 0 :: r'), by rw [hr', e]; simp, Or.inl rfl, hw⟩

theorem num_lead {flt : List Byte → R} (hflt : Reader flt) {v : View} {l w : List Byte} {ws : List (List Byte)} (h : Holds v l)
    (hf : fields 32 l = w :: ws) : num flt v = .ok (val flt w) := by
  obtain ⟨n, r, h1, h2, h3⟩ := lead h hf
  have hsk : ∀ (n : Nat) (l : List Byte), flt (List.replicate n 32 ++ l) = flt l := by
    intro n l
    induction n with
    | zero => rfl
    | succ n ih => rw [List.replicate_succ, List.cons_append, hflt.2, ih]
  unfold num
  rw [if_neg (by rw [h1]; simp [h3.1]), h1, hsk, hflt.1 w r h3 h2]
  rfl

theorem int_lead {v : View} {l w : List Byte} {ws : List (List Byte)} (h : Holds v l)
    (hf : fields 32 l = w :: ws) : int v = .ok (ival w) := by
  obtain ⟨n, r, h1, h2, h3⟩ := lead h hf
  have hsk : ∀ (n : Nat) (l : List Byte), strto32 (List.replicate n 32 ++ l) = strto32 l := by
    intro n l
    unfold strto32 strtol
    have : (List.replicate n (32 : Byte) ++ l).dropWhile isSpace = l.dropWhile isSpace := by
      induction n with
      | zero => rfl
      | succ n ih => rw [List.replicate_succ, List.cons_append, List.dropWhile_cons_of_pos (by decide), ih]
    rw [this]
  unfold int
  rw [if_neg (by rw [h1]; simp [h3.1]), h1, hsk, ival_append w r h3 h2]

theorem token_mid {v : View} {w r : List Byte} (h : Holds v (w ++ 32 :: r)) (hw : Word w) :
    ∃ t v', getToken 32 v = (t, v') ∧ t.bytes = w ∧ Holds v' r := by
  obtain ⟨hb, hsz, hc, hs⟩ := h
  obtain ⟨r', hr'⟩ := hs (by simp)
  have hd : (32 : Byte) ∉ w := by
    intro hin
    have := (hw.2 _ hin).2
    exact absurd this (by decide)
  refine ⟨_, _, getToken_mid 32 v 0 w r hw.1 hd (by rw [hb]; simp), ?_, ?_, ?_, hc.suffix ⟨w ++ [32], by simp⟩, fun _ => ⟨r', ?_⟩⟩
  · simp only [View.bytes, hr', List.drop_zero]
    simp
  · rw [bytes_removePrefix, hb, show w ++ 32 :: r = (w ++ [32]) ++ r by simp, List.drop_append,
      List.drop_eq_nil_of_le (by simp)]
    simp
  · simp only [removePrefix, hsz]
    simp
    omega
  · simp only [removePrefix, hr']
    rw [show w ++ 32 :: r ++ 0 :: r' = (w ++ [32]) ++ (r ++ 0 :: r') by simp, List.drop_append,
      List.drop_eq_nil_of_le (by simp)]
    simp

theorem skip_one {v : View} {l w : List Byte} {ws : List (List Byte)} (h : Holds v l) (hf : fields 32 l = w :: ws) :
    ∃ l', Holds (skip 1 v) l' ∧ fields 32 l' = ws := skip_words 1 [w] ws h (by simpa using hf) rfl

theorem strtol_word (w r : List Byte) (hw : Word w) (hr : r.head? = some 32 ∨ r.head? = some 0) :
    strtol (w ++ r) = strtol (w ++ [0]) := by
  have hrd : ∀ (w : List Byte) (acc : Nat) (r : List Byte), (r.head? = some 32 ∨ r.head? = some 0) →
      readDigits acc (w ++ r) = readDigits acc (w ++ [0]) := by
    intro w
    induction w with
    | nil =>
      intro acc r hr
      cases r with
      | nil => simp at hr
      | cons c r =>
        have : isDigit c = false := by
          simp only [List.head?_cons, Option.some.injEq] at hr
          rcases hr with rfl | rfl <;> decide
        have h0 : isDigit 0 = false := by decide
        simp [readDigits, this, h0]
    | cons c w ih =>
      intro acc r hr
      simp only [List.cons_append, readDigits]
      rw [ih _ r hr]
  obtain ⟨hne, hc⟩ := hw
  obtain ⟨c, t, rfl⟩ := List.exists_cons_of_ne_nil hne
  have h1 := (hc c (by simp)).2
  have hd : ∀ r, (c :: t ++ r).dropWhile isSpace = c :: (t ++ r) := by
    intro r
    rw [List.cons_append, List.dropWhile_cons_of_neg (by simp [h1])]
  have e1 := hrd t 0 r hr
  have e2 := hrd (c :: t) 0 r hr
  rw [List.cons_append] at e2
  unfold strtol
  rw [hd, hd]
  simp only [e1, e2, List.cons_append]

/-! ## The grid -/

theorem point_ok {flt : List Byte → R} (hflt : Reader flt) {v : View} {l wx wy wz : List Byte} {ws : List (List Byte)}
    (h : Holds v l) (hf : fields 32 l = wx :: wy :: wz :: ws) :
    point flt v = .ok (val flt wx, val flt wy, val flt wz) := by
  obtain ⟨v1, l1, e1, h1, f1⟩ := nextNum_word hflt.1 h hf
  obtain ⟨v2, l2, e2, h2, f2⟩ := nextNum_word hflt.1 h1 f1
  unfold point
  simp only [e1, ok_bind, e2, num_lead hflt h2 f2, pure_ok]

theorem holds_size {v : View} {l : List Byte} (h : Holds v l) : v.size = l.length := h.2.1

theorem points_ok {flt : List Byte → R} (hflt : Reader flt) (ls : List Line) (vs : List (R × R × R)) (c : Line)
    (rest : List Line) (hls : ∀ l ∈ ls, LineOk l ∧ ¬ hdrCells <+: l) (hc : LineOk c) (hcp : hdrCells <+: c)
    (hv : List.Forall₂ (fun p l => ∃ wx wy wz ws, fields 32 l = wx :: wy :: wz :: ws ∧
      p = (val flt wx, val flt wy, val flt wz)) vs (ls.filter (· ≠ [])))
    (fuel : Nat) (hfuel : ls.length < fuel) (st : In) (hg : st.good = true) (hr : st.rest = ls ++ c :: rest) (s : ASoup R) :
    ∃ st', points flt fuel st s = .ok ({ s with verts := s.verts ++ vs }, st') ∧ st'.good = true ∧ st'.rest = rest ∧
      Holds st'.view c := by
  induction ls generalizing vs fuel st s with
  | nil =>
    obtain ⟨fuel, rfl⟩ : ∃ k, fuel = k + 1 := ⟨fuel - 1, by simp at hfuel; omega⟩
    obtain ⟨g1, g2, g3⟩ := getline_ok hg hr hc
    simp only [List.filter_nil, List.forall₂_nil_right_iff] at hv
    subst hv
    refine ⟨getline st, ?_, g1, g2, g3⟩
    have hne : c.length ≠ 0 := by
      intro h0
      have := hcp.length_le
      simp [hdrCells] at this
      omega
    rw [points]
    simp only [g1, holds_size g3, hne, (starts_iff g3 hdrCells).2 hcp]
    simp
  | cons l ls ih =>
    obtain ⟨fuel, rfl⟩ : ∃ k, fuel = k + 1 := ⟨fuel - 1, by simp at hfuel; omega⟩
    obtain ⟨hl, hnc⟩ := hls l (by simp)
    obtain ⟨g1, g2, g3⟩ := getline_ok hg hr hl
    have ih := fun vs hv s => ih vs (fun x hx => hls x (by simp [hx])) hv fuel (by simp at hfuel; omega) (getline st) g1 g2 s
    rw [points]
    simp only [g1, holds_size g3]
    by_cases h0 : l = []
    · subst h0
      simp only [ne_eq, List.filter_cons, not_true_eq_false, decide_false, Bool.false_eq_true, ↓reduceIte] at hv
      simpa using ih vs hv s
    · rw [List.filter_cons, if_pos (by simpa using h0)] at hv
      cases hv with
      | @cons p _ vs _ hp hv =>
        obtain ⟨wx, wy, wz, ws, hf, rfl⟩ := hp
        have hl0 : l.length ≠ 0 := by simpa using h0
        have hst : starts hdrCells (getline st).view = false := by
          rw [Bool.eq_false_iff]
          intro h
          exact hnc ((starts_iff g3 _).1 h)
        obtain ⟨st', i1, i2⟩ := ih vs hv (addVertex s (val flt wx, val flt wy, val flt wz)).1
        refine ⟨st', ?_, i2⟩
        simp only [hl0, hst, point_ok hflt g3 hf, ok_bind, i1]
        simp [addVertex]

theorem size_nat (n : Nat) : size (n : ℤ) = .ok n := by
  unfold size
  rw [if_neg (by omega)]
  simp

theorem cellIds_ok (conn : List Nat) (ws : List (List Byte)) (hm : ws.map ival = conn.map (fun i : Nat => (i : ℤ))) (v : View)
    (l : List Byte) (more : List (List Byte)) (h : Holds v l) (hf : fields 32 l = ws ++ more) :
    cellIds conn.length v = .ok conn := by
  induction conn generalizing ws v l with
  | nil => rfl
  | cons i conn ih =>
    cases ws with
    | nil => simp at hm
    | cons w ws =>
      simp only [List.map_cons, List.cons.injEq] at hm
      obtain ⟨v1, l1, e1, h1, f1⟩ := nextInt_word h hf
      rw [List.length_cons, cellIds]
      simp only [e1, ok_bind, hm.1, size_nat, ih ws hm.2 v1 l1 h1 f1, pure_ok]

theorem cell_ok (s : ASoup R) (conn : List Nat) (v : View) (l : Line) (h : Holds v l) (hl : CellLine conn l) :
    cell s v = .ok (addElement s (inferVTKElemType conn.length) conn).1 := by
  obtain ⟨w, ws, hf, h1, h2⟩ := hl
  obtain ⟨v1, l1, e1, i1, f1⟩ := nextInt_word h hf
  unfold cell
  simp only [e1, ok_bind, h1, size_nat]
  rw [cellIds_ok conn ws h2 v1 l1 [] i1 (by simpa using f1)]
  rfl

theorem cells_ok (conns : List (List Nat)) (ls rest : List Line) (hls : ∀ l ∈ ls, LineOk l)
    (hc : List.Forall₂ CellLine conns ls) (st : In) (hg : st.good = true) (hr : st.rest = ls ++ rest) (s : ASoup R)
    (els : List (ℤ × List Nat)) (sets : List (ElSet (List Byte) R)) (hrep : Rep s els sets) :
    ∃ s' st', cells conns.length st s = .ok (s', st') ∧ st'.good = true ∧ st'.rest = rest ∧ s'.verts = s.verts ∧
      Rep s' (els ++ conns.map fun c => (inferVTKElemType c.length, c)) sets := by
  induction hc generalizing st s els with
  | nil => exact ⟨s, st, rfl, hg, by simpa using hr, rfl, by simpa using hrep⟩
  | @cons c l conns ls hl hc ih =>
    obtain ⟨g1, g2, g3⟩ := getline_ok hg hr (hls l (by simp))
    obtain ⟨s', st', i1, i2, i3, i4, i5⟩ := ih (fun x hx => hls x (by simp [hx])) (getline st) g1 g2 _ _
      (hrep.addElement (inferVTKElemType c.length) c)
    refine ⟨s', st', ?_, i2, i3, by rw [i4]; rfl, by simpa using i5⟩
    rw [List.length_cons, cells]
    simp only [cell_ok s c _ l g3 hl, ok_bind, i1]

/-- Reading the grid. -/
theorem grid_ok {flt : List Byte → R} (hflt : Reader flt) (vs : List (R × R × R)) (conns : List (List Nat))
    (pl cl bl tl codes : Line) (pls cls rest : List Line) (hpl : LineOk pl) (hpp : hdrPoints <+: pl)
    (hpf : ∃ w k ws, fields 32 pl = w :: k :: ws) (hpls : ∀ l ∈ pls, LineOk l ∧ ¬ hdrCells <+: l)
    (hpv : List.Forall₂ (fun p l => ∃ wx wy wz ws, fields 32 l = wx :: wy :: wz :: ws ∧
      p = (val flt wx, val flt wy, val flt wz)) vs (pls.filter (· ≠ [])))
    (hcl : LineOk cl) (hcp : hdrCells <+: cl) (hcf : ∃ w k ws, fields 32 cl = w :: k :: ws ∧ ival k = conns.length)
    (hcls : ∀ l ∈ cls, LineOk l) (hcc : List.Forall₂ CellLine conns cls) (hbl : LineOk bl) (htl : LineOk tl)
    (htp : hdrTypes <+: tl) (st : In) (hg : st.good = true)
    (hr : st.rest = pl :: (pls ++ cl :: (cls ++ bl :: tl :: codes :: rest))) (s : ASoup R)
    (els : List (ℤ × List Nat)) (sets : List (ElSet (List Byte) R)) (hrep : Rep s els sets) :
    ∃ s' st', grid flt st s = .ok (s', st') ∧ st'.good = true ∧ st'.rest = rest ∧ s'.verts = s.verts ++ vs ∧
      Rep s' (els ++ conns.map fun c => (inferVTKElemType c.length, c)) sets := by
  obtain ⟨g1, g2, g3⟩ := getline_ok hg hr hpl
  obtain ⟨w, k, ws, hpf⟩ := hpf
  obtain ⟨l1, hl1, f1⟩ := skip_one g3 hpf
  obtain ⟨v1, -, e1, -⟩ := nextInt_word hl1 f1
  obtain ⟨st2, e2, a2, b2, c2⟩ := points_ok hflt pls vs cl _ hpls hcl hcp hpv ((getline st).rest.length + 1)
    (by rw [g2]; simp) (getline st) g1 g2 s
  obtain ⟨w', k', ws', hcf, hk⟩ := hcf
  obtain ⟨l3, hl3, f3⟩ := skip_one c2 hcf
  obtain ⟨v3, -, e3, -⟩ := nextInt_word hl3 f3
  obtain ⟨s4, st4, e4, a4, b4, d4, r4⟩ := cells_ok conns cls _ hcls hcc st2 a2 b2 { s with verts := s.verts ++ vs } els sets
    ⟨hrep.types, hrep.conn, hrep.eoffs, hrep.names, hrep.sids, hrep.soffs, hrep.sdata⟩
  obtain ⟨a5, b5, -⟩ := getline_ok a4 b4 hbl
  obtain ⟨a6, b6, c6⟩ := getline_ok a5 b5 htl
  refine ⟨s4, ignoreLine (getline (getline st4)), ?_, ?_, ?_, d4, r4⟩
  · unfold grid
    simp only [(starts_iff g3 hdrPoints).2 hpp, e1, ok_bind, e2, e3, hk, Int.toNat_natCast, e4,
      (starts_iff c6 hdrTypes).2 htp]
    rfl
  · simp [ignoreLine, a6]
  · simp [ignoreLine, a6, b6]

/-! ## Arrays -/

theorem lineValues_ok {flt : List Byte → R} (hflt : Local flt) (isf : Bool) (lim : ℤ) (hlim : lim < 2 ^ 63) (ws : List (List Byte))
    (v : View) (l : List Byte) (h : Holds v l) (hf : fields 32 l = ws)
    (hi : isf = false → ∀ w ∈ ws, |strtol (w ++ [0])| ≤ lim) (fuel : Nat) (hfuel : ws.length < fuel) :
    lineValues flt isf lim fuel v = .ok (ws.map (val flt)) := by
  induction ws generalizing v l fuel with
  | nil =>
    obtain ⟨fuel, rfl⟩ : ∃ k, fuel = k + 1 := ⟨fuel - 1, by simp at hfuel; omega⟩
    rw [lineValues, token_end h hf]
    rfl
  | cons w ws ih =>
    obtain ⟨fuel, rfl⟩ : ∃ k, fuel = k + 1 := ⟨fuel - 1, by simp at hfuel; omega⟩
    obtain ⟨t, v', l', r, h1, h2, h3, h4, h5, h6, h7, h8, -⟩ := token h hf
    have hv : value flt isf lim t = .ok (val flt w) := by
      unfold value
      rw [num_word hflt h3 h4 h5 h6]
      cases isf with
      | true => rfl
      | false =>
        have hb := hi rfl w (by simp)
        have hs : strtol t.suf = strtol (w ++ [0]) := by rw [h3, strtol_word w r h6 h5]
        rw [if_neg (by simp), if_neg h4, hs, if_neg, if_neg (by omega)]
        intro h0
        rw [h0] at hb
        norm_num at hb
        omega
    rw [lineValues, h1]
    simp only [h2, if_false, hv, ok_bind, ih v' l' h7 h8 (fun h x hx => hi h x (by simp [hx])) fuel
      (by simp at hfuel; omega), pure_ok, List.map_cons]

theorem fields_length_le (l : List Byte) : (fields 32 l).length ≤ l.length := by
  induction h : l.length using Nat.strong_induction_on generalizing l with
  | _ n ih =>
    rcases decompose 32 l with ⟨k, e⟩ | ⟨k, t, e, ht, hd⟩ | ⟨k, t, r, e, ht, hd⟩
    · have := fields_delims 32 k []
      simp only [List.append_nil, fields_nil] at this
      rw [e, this]
      simp
    · rw [e, fields_delims, fields_free 32 t hd ht]
      have : 0 < t.length := List.length_pos_iff.2 ht
      rw [← h, e]
      simp
      omega
    · rw [e, List.append_assoc, fields_delims, fields_append 32 t r hd ht]
      have hl := congrArg List.length e
      simp at hl
      have := ih r.length (by omega) r rfl
      simp
      omega

/-- The lines of values, up to an empty line or the end of the file. -/
theorem dataLoop_ok {flt : List Byte → R} (hflt : Local flt) (isf : Bool) (lim : ℤ) (hlim : lim < 2 ^ 63) (n : Nat)
    (vals rest : List Line) (hv : ∀ l ∈ vals, LineOk l ∧ l ≠ [])
    (hi : isf = false → ∀ w ∈ vals.flatMap (fields 32), |strtol (w ++ [0])| ≤ lim) (xs : List R)
    (hn : (xs ++ (vals.flatMap (fields 32)).map (val flt)).length ≤ n) (hrest : rest = [] ∨ ∃ ls, rest = [] :: ls)
    (fuel : Nat) (hfuel : vals.length < fuel) (st : In) (hg : st.good = true) (hr : st.rest = vals ++ rest) :
    ∃ st', dataLoop flt isf lim n fuel st xs = .ok (xs ++ (vals.flatMap (fields 32)).map (val flt), st') ∧
      st'.rest = rest.tail ∧ (st'.good = !rest.isEmpty) := by
  induction vals generalizing xs fuel st with
  | nil =>
    obtain ⟨fuel, rfl⟩ : ∃ k, fuel = k + 1 := ⟨fuel - 1, by simp at hfuel; omega⟩
    rw [dataLoop]
    rcases hrest with rfl | ⟨ls, rfl⟩
    · have he : getline st = ⟨[], false, store st.buf []⟩ := by
        unfold getline
        rw [if_pos hg, hr]
        rfl
      refine ⟨getline st, ?_, ?_, ?_⟩
      · simp [he]
      · simp [he]
      · simp [he]
    · obtain ⟨g1, g2, g3⟩ := getline_ok hg hr (⟨by simp [Clean], by simp⟩ : LineOk [])
      refine ⟨getline st, ?_, by rw [g2]; rfl, by rw [g1]; rfl⟩
      simp only [holds_size g3]
      simp
  | cons l vals ih =>
    obtain ⟨fuel, rfl⟩ : ∃ k, fuel = k + 1 := ⟨fuel - 1, by simp at hfuel; omega⟩
    obtain ⟨hl, hl0⟩ := hv l (by simp)
    obtain ⟨g1, g2, g3⟩ := getline_ok hg hr hl
    have hlv := lineValues_ok hflt isf lim hlim _ (getline st).view l g3 rfl
      (fun h w hw => hi h w (by simp [hw])) ((getline st).view.size + 1)
      (by rw [holds_size g3]; have := fields_length_le l; omega)
    have hl1 : l.length ≠ 0 := by simpa using hl0
    obtain ⟨st', i1, i2⟩ := ih (fun x hx => hv x (by simp [hx])) (fun h w hw => hi h w (by
        simp only [List.flatMap_cons, List.mem_append]; exact Or.inr hw))
      (xs ++ (fields 32 l).map (val flt)) (by simpa [List.flatMap_cons, List.append_assoc] using hn) fuel
      (by simp at hfuel; omega) (getline st) g1 g2
    refine ⟨st', ?_, i2⟩
    rw [dataLoop]
    rw [hlv]
    simp only [g1, holds_size g3, hl1, ok_bind, Bool.true_and, ne_eq, not_false_eq_true, decide_true, if_true]
    rw [if_neg, i1]
    · simp [List.flatMap_cons, List.append_assoc]
    · simp only [List.flatMap_cons, List.map_append, List.length_append] at hn ⊢
      omega

/-- One array. -/
theorem cellData_ok {flt : List Byte → R} (hflt : Local flt) (lim : ℤ) (hlim : lim < 2 ^ 63) (junk : Nat → R) (n : Nat)
    (hn : 0 < n) (d : List Byte × List R) (ls : List Line) (hd : Section flt lim n d ls) (hls : ∀ l ∈ ls, LineOk l)
    (rest : List Line) (hrest : rest = [] ∨ ∃ ls, rest = [] :: ls) (s : ASoup R)
    (els : List (ℤ × List Nat)) (sets : List (ElSet (List Byte) R)) (hrep : Rep s els sets) (hnew : d.1 ∉ sets.map (·.name))
    (st : In) (hg : st.good = true) (hr : st.rest = ls ++ rest) :
    ∃ s' st', (getline st).good = true ∧ starts hdrData (getline st).view = true ∧
      cellData flt lim junk (getline st) s = .ok (s', st') ∧ st'.rest = rest.tail ∧ (st'.good = !rest.isEmpty) ∧
      s'.verts = s.verts ∧ Rep s' els (sets ++ [⟨d.1, List.range n, d.2⟩]) := by
  obtain ⟨cd, sc, lt, vals, rfl, hcd, ⟨w, k, ws, hcf, hk⟩, ⟨w', ty, r, hsc, hw', hwn, hty⟩, hvals, hval, hlen⟩ := hd
  obtain ⟨g1, g2, g3⟩ := getline_ok hg hr (hls cd (by simp))
  obtain ⟨l1, hl1, f1⟩ := skip_one g3 hcf
  have e1 := int_lead hl1 f1
  obtain ⟨a2, b2, c2⟩ := getline_ok g1 g2 (hls sc (by simp))
  rw [hsc] at c2
  obtain ⟨t3, v3, e3, -, h3⟩ := token_mid c2 hw'
  obtain ⟨t4, v4, e4, n4, h4⟩ := token_mid h3 hwn
  have hsk : skip 1 (getline (getline st)).view = v3 := by
    rw [skip, e3]
    rfl
  obtain ⟨a5, b5, -⟩ := getline_ok a2 b2 (hls lt (by simp))
  obtain ⟨isf, hisf, hisi, hint⟩ : ∃ isf, (starts tFloat v4 || starts tDouble v4) = isf ∧
      (isf = false → starts tInt v4 = true) ∧ (isf = false → ∀ w ∈ vals.flatMap (fields 32), |strtol (w ++ [0])| ≤ lim) := by
    refine ⟨_, rfl, ?_, ?_⟩
    · intro hf
      simp only [Bool.or_eq_false_iff] at hf
      rcases hty with rfl | rfl | ⟨rfl, -⟩
      · exact absurd ((starts_iff h4 tFloat).2 ⟨r, rfl⟩) (by simp [hf.1])
      · exact absurd ((starts_iff h4 tDouble).2 ⟨r, rfl⟩) (by simp [hf.2])
      · exact (starts_iff h4 tInt).2 ⟨r, rfl⟩
    · intro hf
      simp only [Bool.or_eq_false_iff] at hf
      rcases hty with rfl | rfl | ⟨rfl, h⟩
      · exact absurd ((starts_iff h4 tFloat).2 ⟨r, rfl⟩) (by simp [hf.1])
      · exact absurd ((starts_iff h4 tDouble).2 ⟨r, rfl⟩) (by simp [hf.2])
      · exact h
  obtain ⟨st6, e6, r6, g6⟩ := dataLoop_ok hflt isf lim hlim n vals rest
    (fun l hl => ⟨hls l (by simp [hl]), hvals l hl⟩) hint [] (by rw [List.nil_append, hval, hlen]) hrest
    ((getline (getline (getline st))).rest.length + 1) (by rw [b5]; simp) _ a5 b5
  rw [List.nil_append, hval] at e6
  have hdata : d.2 ++ ((List.range n).drop d.2.length).map junk = d.2 := by
    rw [List.drop_eq_nil_of_le (by simp [hlen])]
    simp
  have hacc := addElset_accept s d.1 (List.range n) d.2 (by rw [hrep.names]; exact hnew)
    (by rw [ne_eq, List.range_eq_nil]; omega) (.inr (by simp [hlen]))
  have hrep' := hrep.addElset d.1 (List.range n) d.2
  refine ⟨_, st6, g1, (starts_iff g3 _).2 hcd, ?_, r6, g6, ?_, hrep'⟩
  · unfold cellData
    simp only [e1, ok_bind, hsk, e4, n4, hisf, hk, size_nat, e6, hdata, hacc]
    have hcond : (!isf && !starts tInt v4) = false := by
      cases isf with
      | true => rfl
      | false => simp [hisi rfl]
    rw [hcond, if_neg (by simp), if_neg (by omega)]
    rfl
  · rfl

theorem getline_bad {st : In} (h : st.good = false) : (getline st).good = false := by
  unfold getline
  rw [h]
  rfl

theorem sections_end (flt : List Byte → R) (lim : ℤ) (junk : Nat → R) (st : In) (s : ASoup R)
    (h : st.good = false ∨ st.rest = []) (fuel : Nat) : sections flt lim junk (fuel + 1) st s = .ok s := by
  have : (getline st).good = false := by
    by_cases hg : st.good
    · rcases h with h | h
      · exact getline_bad h
      · unfold getline
        rw [if_pos hg, h]
    · exact getline_bad (by simpa using hg)
  rw [sections]
  simp [this]

/-- What follows the grid. -/
theorem sections_ok {flt : List Byte → R} (hflt : Local flt) (lim : ℤ) (hlim : lim < 2 ^ 63) (junk : Nat → R) (n : Nat)
    (ds : List (List Byte × List R)) (ls : List Line) (h : DataText flt lim n ds ls) (hn : ds ≠ [] → 0 < n)
    (hls : ∀ l ∈ ls, LineOk l) (s : ASoup R) (els : List (ℤ × List Nat)) (sets : List (ElSet (List Byte) R))
    (hrep : Rep s els sets) (hnd : (sets.map (·.name) ++ ds.map (·.1)).Nodup) (st : In) (hg : st.good = true)
    (hr : st.rest = ls) (fuel : Nat) (hfuel : ls.length < fuel) :
    ∃ s', sections flt lim junk fuel st s = .ok s' ∧ s'.verts = s.verts ∧
      Rep s' els (sets ++ ds.map fun d => ⟨d.1, List.range n, d.2⟩) := by
  induction h generalizing s sets st fuel with
  | nil =>
    obtain ⟨fuel, rfl⟩ : ∃ k, fuel = k + 1 := ⟨fuel - 1, by simp at hfuel; omega⟩
    exact ⟨s, sections_end flt lim junk st s (.inr hr) fuel, rfl, by simpa using hrep⟩
  | @other ds ls l hl h ih =>
    obtain ⟨fuel, rfl⟩ : ∃ k, fuel = k + 1 := ⟨fuel - 1, by simp at hfuel; omega⟩
    obtain ⟨g1, g2, g3⟩ := getline_ok hg hr (hls l (by simp))
    obtain ⟨s', i1, i2⟩ := ih hn (fun x hx => hls x (by simp [hx])) s sets hrep hnd (getline st) g1 g2 fuel
      (by simp at hfuel; omega)
    have hst : starts hdrData (getline st).view = false := by
      rw [Bool.eq_false_iff]
      intro hh
      exact hl ((starts_iff g3 _).1 hh)
    refine ⟨s', ?_, i2⟩
    rw [sections]
    simp only [g1, hst]
    exact i1
  | @last d ls hd =>
    obtain ⟨fuel, rfl⟩ : ∃ k, fuel = k + 1 := ⟨fuel - 1, by omega⟩
    have hnew : d.1 ∉ sets.map (·.name) := fun hin => (List.nodup_append.1 hnd).2.2 _ hin _ (by simp) rfl
    obtain ⟨s', st', g1, g2, e, r, g, hv, hrep'⟩ := cellData_ok hflt lim hlim junk n (hn (by simp)) d ls hd hls [] (.inl rfl)
      s els sets hrep hnew st hg (by simpa using hr)
    refine ⟨s', ?_, hv, by simpa using hrep'⟩
    rw [sections]
    simp only [g1, g2, e, ok_bind]
    have hl : 1 < ls.length := by
      obtain ⟨_, _, _, _, rfl, -⟩ := hd
      simp
    obtain ⟨fuel, rfl⟩ : ∃ k, fuel = k + 1 := ⟨fuel - 1, by omega⟩
    exact sections_end flt lim junk st' s' (.inr r) fuel
  | @cons d ds ls ls' hd h ih =>
    obtain ⟨fuel, rfl⟩ : ∃ k, fuel = k + 1 := ⟨fuel - 1, by simp at hfuel; omega⟩
    have hnew : d.1 ∉ sets.map (·.name) := fun hin => (List.nodup_append.1 hnd).2.2 _ hin _ (by simp) rfl
    obtain ⟨s', st', g1, g2, e, r, g, hv, hrep'⟩ := cellData_ok hflt lim hlim junk n (hn (by simp)) d ls hd
      (fun x hx => hls x (by simp [hx])) ([] :: ls') (.inr ⟨ls', rfl⟩) s els sets hrep hnew st hg hr
    obtain ⟨s2, i1, i2, i3⟩ := ih (fun _ => hn (by simp)) (fun x hx => hls x (by simp [hx])) s'
      (sets ++ [⟨d.1, List.range n, d.2⟩]) hrep' (by simpa using hnd) st' (by simpa using g) (by simpa using r) fuel
      (by simp at hfuel; omega)
    refine ⟨s2, ?_, by rw [i2, hv], by simpa using i3⟩
    rw [sections]
    simp only [g1, g2, e, ok_bind]
    exact i1

end Verif.VTKFile
