import Verif.Lemmas.VTK

/-!
# C84 VTK files
-/

namespace Verif.VTKFile

open Verif.StrView Verif.Abaqus Verif.Polytope Verif.ElemTypes Verif.XSLib
open Verif.Str (Byte)

variable {R : Type}

/-! ### Specification -/

/-- A VTK file of version 3.0 with an unstructured grid, as MPACT writes it: the points, one on a line; the cells; their types,
from `codes` on; named arrays with a value for every cell. All lines but the first of the cell types have fewer than 1024
characters. -/
def File (flt : List Byte → R) (lim : ℤ) (vs : List (R × R × R)) (cells : List (ℤ × List Nat)) (ds : List (List Byte × List R))
    (file : List Line) : Prop :=
  ∃ (vl title fl gl pl : Line) (pls : List Line) (cl : Line) (cls : List Line) (bl tl code : Line) (codes tail : List Line),
    file = vl :: title :: fl :: gl :: pl :: (pls ++ cl :: (cls ++ bl :: tl :: code :: (codes ++ tail))) ∧
    (∀ l ∈ vl :: title :: fl :: gl :: pl :: (pls ++ cl :: (cls ++ bl :: tl :: (codes ++ tail))), LineOk l) ∧
    hdrVersion <+: vl ∧ hdrAscii <+: fl ∧ (∃ w r, gl = w ++ 32 :: (hdrGrid ++ r) ∧ Word w) ∧
    hdrPoints <+: pl ∧ (∃ w k ws, fields 32 pl = w :: k :: ws ∧ ival k = vs.length) ∧
    (∀ l ∈ pls, ¬ hdrCells <+: l) ∧ List.Forall₂ (PointLine flt) vs (pls.filter (· ≠ [])) ∧
    hdrCells <+: cl ∧ (∃ w k ws, fields 32 cl = w :: k :: ws ∧ ival k = cells.length) ∧
    List.Forall₂ (fun c l => CellLine c.2 l) cells cls ∧
    hdrTypes <+: tl ∧ ((code :: codes).flatMap (fields 32)).map ival = cells.map (·.1) ∧ (∀ l ∈ codes, ¬ hdrData <+: l) ∧
    DataText flt lim cells.length ds tail

/-- The cells whose type follows from the number of vertices: vertices, lines, triangles, quads, 6-node triangles, 8-node
quads. -/
def Known (c : ℤ × List Nat) : Prop :=
  (c.1, c.2.length) ∈ [(VTK.Vertex, 1), (VTK.Line, 2), (VTK.Triangle, 3), (VTK.Quad, 4), (VTK.QuadraticTriangle, 6),
    (VTK.QuadraticQuad, 8)]

/-- The element set of an array: all cells, with their values. -/
def arraySet (n : Nat) (d : List Byte × List R) : ElSet (List Byte) R := ⟨d.1, List.range n, d.2⟩

/-! ### Reading -/

theorem DataText.others {flt : List Byte → R} {lim : ℤ} {n : Nat} {ds : List (List Byte × List R)} {ls : List Line}
    (h : DataText flt lim n ds ls) (pre : List Line) (hp : ∀ l ∈ pre, ¬ hdrData <+: l) : DataText flt lim n ds (pre ++ ls) := by
  induction pre with
  | nil => exact h
  | cons l pre ih => exact .other l (hp l (by simp)) (ih fun x hx => hp x (by simp [hx]))

theorem DataText.length {flt : List Byte → R} {lim : ℤ} {n : Nat} {ds : List (List Byte × List R)} {ls : List Line}
    (h : DataText flt lim n ds ls) : ∀ d ∈ ds, d.2.length = n := by
  induction h with
  | nil => simp
  | other l hl h ih => exact ih
  | last hd =>
    intro d hin
    simp only [List.mem_singleton] at hin
    subst hin
    obtain ⟨_, _, _, _, -, -, -, -, -, -, hh⟩ := hd
    exact hh
  | cons hd h ih =>
    intro d hin
    simp only [List.mem_cons] at hin
    rcases hin with rfl | hin
    · obtain ⟨_, _, _, _, -, -, -, -, -, -, hh⟩ := hd
      exact hh
    · exact ih d hin

theorem readLines_ok {flt : List Byte → R} (hflt : Reader flt) (lim : ℤ) (hlim : lim < 2 ^ 63) (junk : Nat → R)
    (vs : List (R × R × R)) (cells : List (ℤ × List Nat)) (ds : List (List Byte × List R)) (file : List Line)
    (h : File flt lim vs cells ds file) (hc : ds ≠ [] → cells ≠ []) (hnd : (ds.map (·.1)).Nodup) :
    ∃ s, readLines flt lim junk empty file = .ok s ∧ s.verts = vs ∧
      Rep s (cells.map fun c => (inferVTKElemType c.2.length, c.2)) (ds.map (arraySet cells.length)) := by
  obtain ⟨vl, title, fl, gl, pl, pls, cl, cls, bl, tl, code, codes, tail, rfl, hok, hv, hf, ⟨w, r, rfl, hw⟩, hp, hpf, hpc, hpv,
    hcp, hcf, hcc, htp, -, hcodes, htail⟩ := h
  obtain ⟨a1, b1, c1⟩ := getline_ok (st := ⟨vl :: title :: fl :: (w ++ 32 :: (hdrGrid ++ r)) :: pl :: (pls ++ cl :: (cls ++ bl :: tl :: code ::
    (codes ++ tail))), true, []⟩) rfl rfl (hok vl (by simp))
  obtain ⟨a2, b2, -⟩ := getline_ok a1 b1 (hok title (by simp))
  obtain ⟨a3, b3, c3⟩ := getline_ok a2 b2 (hok fl (by simp))
  obtain ⟨a4, b4, c4⟩ := getline_ok a3 b3 (hok _ (by simp))
  obtain ⟨t5, v5, e5, -, h5⟩ := token_mid c4 hw
  have hsk : starts hdrGrid (skip 1 (getline (getline (getline (getline ⟨vl :: title :: fl :: (w ++ 32 :: (hdrGrid ++ r)) :: pl :: (pls ++ cl ::
      (cls ++ bl :: tl :: code :: (codes ++ tail))), true, []⟩)))).view) = true := by
    rw [skip, e5]
    exact (starts_iff h5 _).2 ⟨r, rfl⟩
  obtain ⟨wp, kp, wsp, hpf, -⟩ := hpf
  obtain ⟨s6, st6, e6, a6, b6, d6, r6⟩ := grid_ok hflt vs (cells.map (·.2)) pl cl bl tl code pls cls (codes ++ tail)
    (hok pl (by simp)) hp ⟨wp, kp, wsp, hpf⟩ (fun l hl => ⟨hok l (by simp [hl]), hpc l hl⟩)
    (hpv.imp fun p l ⟨wx, wy, wz, h1, h2⟩ => ⟨wx, wy, wz, [], h1, h2⟩)
    (hok cl (by simp)) hcp (by simpa using hcf) (fun l hl => hok l (by simp [hl]))
    (by rw [List.forall₂_map_left_iff]; exact hcc) (hok bl (by simp)) (hok tl (by simp)) htp _ a4 b4
    (empty : ASoup R) [] [] holds_empty.rep
  obtain ⟨s7, e7, d7, r7⟩ := sections_ok hflt.1 lim hlim junk cells.length ds (codes ++ tail) (htail.others codes hcodes)
    (fun h0 => List.length_pos_iff.2 (hc h0)) (fun l hl => hok l (by
      simp only [List.mem_append] at hl
      rcases hl with h | h <;> simp [h])) s6 _ [] r6 (by simpa using hnd) st6 a6 b6 (st6.rest.length + 1) (by rw [b6]; omega)
  refine ⟨s7, ?_, by rw [d7, d6]; rfl, ?_⟩
  · unfold readLines
    simp only [(starts_iff c1 _).2 hv, (starts_iff c3 _).2 hf, hsk]
    simp [e6, e7]
  · rw [List.nil_append, List.nil_append, List.map_map] at r7
    exact r7

theorem pairs_eq {N D : Type} (e e' : ElSet N D) (n : Nat) (he : e.ids = List.range n) (hd : e.data = [] ∨ e.data.length = e.ids.length)
    (hd' : e'.data = [] ∨ e'.data.length = e'.ids.length) (hname : e'.name = e.name) (hp : e'.pairs.Perm e.pairs)
    (hs : e'.ids.Pairwise (· ≤ ·)) : e' = e := by
  have hfst : ∀ e : ElSet N D, (e.data = [] ∨ e.data.length = e.ids.length) → e.pairs.map (·.1) = e.ids := by
    intro e he
    unfold ElSet.pairs
    split_ifs with h0
    · simp [Function.comp_def]
    · rw [List.map_fst_zip]
      have := he.resolve_left h0
      simp [this]
  have hids : e'.ids = e.ids := by
    have h1 : e'.ids.Perm e.ids := by rw [← hfst e hd, ← hfst e' hd']; exact hp.map _
    refine h1.eq_of_pairwise (le := (· ≤ ·)) (fun a b _ _ h1 h2 => Nat.le_antisymm h1 h2) hs ?_
    rw [he]
    exact List.pairwise_le_range
  have hlt : e.ids.Pairwise (· < ·) := by rw [he]; exact List.pairwise_lt_range
  have hpe : e'.pairs = e.pairs := by
    refine hp.eq_of_pairwise (le := fun a b => a.1 < b.1) (fun a b _ _ h1 h2 => absurd (h1.trans h2) (lt_irrefl _)) ?_ ?_
    · have := hlt
      rw [← hids, ← hfst e' hd', List.pairwise_map] at this
      exact this
    · have := hlt
      rw [← hfst e hd, List.pairwise_map] at this
      exact this
  obtain ⟨nm, ids, data⟩ := e
  obtain ⟨nm', ids', data'⟩ := e'
  simp only at hname hids hd hd' hpe ⊢
  subst hname hids
  congr 1
  unfold ElSet.pairs at hpe
  simp only at hpe
  split_ifs at hpe with h1 h2 h2
  · rw [h1, h2]
  · have := hd.resolve_left h2
    cases data with
    | nil => exact absurd rfl h2
    | cons x data =>
      cases ids' with
      | nil => simp at this
      | cons i ids' => simp at hpe
  · have := hd'.resolve_left h1
    cases data' with
    | nil => exact absurd rfl h1
    | cons x data =>
      cases ids' with
      | nil => simp at this
      | cons i ids' => simp at hpe
  · have h3 := hd'.resolve_left h1
    have h4 := hd.resolve_left h2
    have := congrArg (List.map (·.2)) hpe
    rw [List.map_snd_zip (by simp [h3]), List.map_snd_zip (by simp [h4])] at this
    exact List.map_injective_iff.2 (Option.some_injective _) this

/-- A file is read completely: the points, the cells, and for every array an element set of all cells with the values of the
array, sorted by name. But the type of a cell is guessed from the number of its vertices; see `C84_edge_fails`. -/
theorem C84_read_partial (lt : List Byte → List Byte → Bool) (sortPairs : List (List Byte × Nat) → List (List Byte × Nat))
    (sortPerm : List Nat → List Nat) (hsp : ∀ l, IsStdSort (Alg.pairLt lt ltNat) l (sortPairs l))
    (hsr : ∀ v, Alg.IsSortPermutation ltNat v (sortPerm v)) {flt : List Byte → R} (hflt : Reader flt) (lim : ℤ)
    (hlim : lim < 2 ^ 63) (junk : Nat → R) (vs : List (R × R × R)) (cells : List (ℤ × List Nat))
    (ds : List (List Byte × List R)) (file : List Line) (h : File flt lim vs cells ds file) (hc : ds ≠ [] → cells ≠ [])
    (hnd : (ds.map (·.1)).Nodup) :
    ∃ s sets, readVTK sortPairs sortPerm flt lim junk empty file = .ok s ∧ s.verts = vs ∧
      Rep s (cells.map fun c => (inferVTKElemType c.2.length, c.2)) sets ∧
      sets.Perm (ds.map (arraySet cells.length)) ∧ sets.Pairwise (fun a b => lt b.name a.name = false) ∧
      ((∀ c ∈ cells, Known c) → Rep s cells sets) := by
  obtain ⟨s, h1, h2, h3⟩ := readLines_ok hflt lim hlim junk vs cells ds file h hc hnd
  have hlen : ∀ d ∈ ds, d.2.length = cells.length := by
    obtain ⟨vl, title, fl, gl, pl, pls, cl, cls, bl, tl, code, codes, tail, -, -, -, -, -, -, -, -, -, -, -, -, -, -, -, ht⟩ := h
    exact ht.length
  have hknown : (∀ c ∈ cells, Known c) → cells.map (fun c => (inferVTKElemType c.2.length, c.2)) = cells := by
    intro hk
    conv_rhs => rw [← List.map_id cells]
    refine List.map_congr_left fun c hcin => ?_
    have := hk c hcin
    unfold Known at this
    simp only [List.mem_cons, Prod.mk.injEq, List.not_mem_nil, or_false] at this
    obtain ⟨t, c⟩ := c
    simp only [id, Prod.mk.injEq, and_true] at this ⊢
    rcases this with ⟨rfl, h⟩ | ⟨rfl, h⟩ | ⟨rfl, h⟩ | ⟨rfl, h⟩ | ⟨rfl, h⟩ | ⟨rfl, h⟩ <;> rw [h] <;> decide
  unfold readVTK
  rw [h1]
  simp only [ok_bind]
  have hnl : s.names.length = ds.length := by rw [h3.names]; simp
  rw [hnl]
  by_cases hne : ds = []
  · subst hne
    exact ⟨s, [], rfl, h2, h3, .nil, .nil, fun hk => by rw [hknown hk] at h3; exact h3⟩
  · rw [if_pos (List.length_pos_iff.2 hne)]
    have hn0 : 0 < cells.length := List.length_pos_iff.2 (hc hne)
    have hg : GoodSets (ds.map (arraySet cells.length)) := by
      refine ⟨by rw [List.map_map]; exact hnd, ?_, ?_⟩
      · intro e he
        simp only [List.mem_map] at he
        obtain ⟨d, -, rfl⟩ := he
        simp only [arraySet, ne_eq, List.range_eq_nil]
        omega
      · intro e he
        simp only [List.mem_map] at he
        obtain ⟨d, hd, rfl⟩ := he
        right
        simp [arraySet, hlen d hd]
    obtain ⟨s', sets', r1, r2, r3, r4, r5, order, r6, r7⟩ :=
      C47_sortElsets lt sortPairs sortPerm hsp hsr s _ _ h3 hg (by simpa using hne)
    have heq : sets' = order := by
      have hin : ∀ e ∈ order, e.ids = List.range cells.length ∧ (e.data = [] ∨ e.data.length = e.ids.length) := by
        intro e he
        have := r6.mem_iff.1 he
        refine ⟨?_, hg.data e this⟩
        simp only [List.mem_map] at this
        obtain ⟨d, -, rfl⟩ := this
        rfl
      have hin' := r3.data
      clear r5 r6 r1 r2 r3
      induction r7 with
      | nil => rfl
      | @cons e e' order sets' he _ ih =>
        rw [pairs_eq e e' _ (hin e (by simp)).1 (hin e (by simp)).2 (hin' e' (by simp)) he.1 he.2.1 he.2.2,
          ih (fun x hx => hin x (by simp [hx])) fun x hx => hin' x (by simp [hx])]
    subst heq
    refine ⟨s', sets', by rw [r1]; rfl, by rw [r4, h2], r2, r6, r5, fun hk => ?_⟩
    rw [hknown hk] at r2
    exact r2

/-- The keywords, in ASCII. -/
theorem C84_words : [hdrVersion, hdrAscii, hdrGrid, hdrPoints, hdrCells, hdrTypes, hdrData, tFloat, tDouble, tInt] =
    ["# vtk DataFile Version 3.0", "ASCII", "UNSTRUCTURED_GRID", "POINTS", "CELLS", "CELL_TYPES", "CELL_DATA", "float", "double",
      "int"].map fun s => s.toList.map fun c => UInt8.ofNat c.toNat := by decide

/-- The types that the file gives are ignored: a quadratic edge, one of the element types of the library, is read as a
triangle. -/
theorem C84_edge_fails {flt : List Byte → R} (hflt : Reader flt) (lim : ℤ) (hlim : lim < 2 ^ 63) (junk : Nat → R)
    (vs : List (R × R × R)) (cells : List (ℤ × List Nat)) (file : List Line) (h : File flt lim vs cells [] file)
    (k : Nat) (c : List Nat) (hk : cells[k]? = some (VTK.QuadraticEdge, c)) (hc : c.length = 3) :
    ∃ s, readLines flt lim junk empty file = .ok s ∧ getElement s k = some (VTK.Triangle, c) := by
  obtain ⟨s, h1, -, h3⟩ := readLines_ok hflt lim hlim junk vs cells [] file h (by simp) (by simp)
  refine ⟨s, h1, ?_⟩
  rw [C46_getElement s _ _ h3 k, List.getElem?_map, hk]
  simp [hc, inferVTKElemType]

/-! ### Files that are refused -/

/-- Another version, another format, or another kind of data set is refused. -/
theorem C84_refused (flt : List Byte → R) (lim : ℤ) (junk : Nat → R) (s : ASoup R) (vl title fl gl : Line) (rest : List Line)
    (h1 : LineOk vl) (h2 : LineOk title) (h3 : LineOk fl) (h4 : LineOk gl)
    (h : ¬ hdrVersion <+: vl ∨ ¬ hdrAscii <+: fl ∨ ∃ w r, gl = w ++ 32 :: r ∧ Word w ∧ ¬ hdrGrid <+: r) :
    readLines flt lim junk s (vl :: title :: fl :: gl :: rest) = .refused := by
  obtain ⟨a1, b1, c1⟩ := getline_ok (st := ⟨vl :: title :: fl :: gl :: rest, true, []⟩) rfl rfl h1
  obtain ⟨a2, b2, -⟩ := getline_ok a1 b1 h2
  obtain ⟨a3, b3, c3⟩ := getline_ok a2 b2 h3
  obtain ⟨a4, b4, c4⟩ := getline_ok a3 b3 h4
  unfold readLines
  dsimp only
  by_cases e1 : hdrVersion <+: vl
  · by_cases e2 : hdrAscii <+: fl
    · obtain ⟨w, r, rfl, hw, hr⟩ := (h.resolve_left (by simpa using e1)).resolve_left (by simpa using e2)
      obtain ⟨t5, v5, e5, -, h5⟩ := token_mid c4 hw
      have hsk : starts hdrGrid (skip 1 (getline (getline (getline (getline ⟨vl :: title :: fl :: (w ++ 32 :: r) :: rest,
          true, []⟩)))).view) = false := by
        rw [skip, e5, Bool.eq_false_iff]
        exact fun hh => hr ((starts_iff h5 _).1 hh)
      simp only [(starts_iff c1 _).2 e1, (starts_iff c3 _).2 e2, hsk]
      rfl
    · have : starts hdrAscii (getline (getline (getline ⟨vl :: title :: fl :: gl :: rest, true, []⟩))).view = false := by
        rw [Bool.eq_false_iff]
        exact fun hh => e2 ((starts_iff c3 _).1 hh)
      simp only [(starts_iff c1 _).2 e1, this]
      rfl
  · have : starts hdrVersion (getline ⟨vl :: title :: fl :: gl :: rest, true, []⟩).view = false := by
      rw [Bool.eq_false_iff]
      exact fun hh => e1 ((starts_iff c1 _).1 hh)
    simp only [this]
    rfl

/-- An integer that may not be representable as a `Float` is refused. -/
theorem C84_lossless {flt : List Byte → R} (hflt : Local flt) (lim : ℤ) (v : View) (l : Line) (h : Holds v l)
    (hi : ∃ w ∈ fields 32 l, lim < |strtol (w ++ [0])|) (hmin : ∀ w ∈ fields 32 l, strtol (w ++ [0]) ≠ -2 ^ 63) :
    lineValues flt false lim (v.size + 1) v = .refused := by
  have key : ∀ (ws : List (List Byte)) (v : View) (l : Line), Holds v l → fields 32 l = ws →
      (∃ w ∈ ws, lim < |strtol (w ++ [0])|) → (∀ w ∈ ws, strtol (w ++ [0]) ≠ -2 ^ 63) → ∀ fuel, ws.length < fuel →
      lineValues flt false lim fuel v = .refused := by
    intro ws
    induction ws with
    | nil => intro v l _ _ h; simp at h
    | cons w ws ih =>
      intro v l h hf hi hmin fuel hfuel
      obtain ⟨fuel, rfl⟩ : ∃ k, fuel = k + 1 := ⟨fuel - 1, by omega⟩
      obtain ⟨t, v', l', r, h1, h2, h3, h4, h5, h6, h7, h8, -⟩ := token h hf
      have hs : strtol t.suf = strtol (w ++ [0]) := by rw [h3, strtol_word w r h6 h5]
      rw [lineValues, h1]
      simp only [h2, if_false]
      have hval : value flt false lim t = if lim < |strtol (w ++ [0])| then .refused else .ok (val flt w) := by
        unfold value
        rw [num_word hflt h3 h4 h5 h6, if_neg (by simp), if_neg h4, hs, if_neg (hmin w (by simp))]
      rw [hval]
      by_cases hb : lim < |strtol (w ++ [0])|
      · simp [hb]
      · rw [if_neg hb]
        simp only [ok_bind]
        rw [ih v' l' h7 h8 _ (fun x hx => hmin x (by simp [hx])) fuel (by simpa using hfuel)]
        · rfl
        · obtain ⟨x, hx, hxl⟩ := hi
          simp only [List.mem_cons] at hx
          rcases hx with rfl | hx
          · exact absurd hxl hb
          · exact ⟨x, hx, hxl⟩
  exact key _ v l h rfl hi hmin _ (by rw [holds_size h]; have := fields_length_le l; omega)

/-- A line of values that does not fit into the buffer ends the array: all its values are whatever the memory held, and nothing
of the file is read after it. -/
theorem C84_long_line_fails {flt : List Byte → R} (lim : ℤ) (junk : Nat → R) (n : Nat) (hn : 0 < n)
    (cd sc lt long : Line) (rest : List Line) (hcd : LineOk cd) (hsc : LineOk sc) (hlt : LineOk lt) (hp : hdrData <+: cd)
    (hk : ∃ w k ws, fields 32 cd = w :: k :: ws ∧ ival k = n) (name w r : List Byte)
    (hs : sc = w ++ 32 :: (name ++ 32 :: (tFloat ++ r))) (hw : Word w) (hname : Word name) (hl : 1024 ≤ long.length)
    (s : ASoup R) (els : List (ℤ × List Nat)) (sets : List (ElSet (List Byte) R)) (hrep : Rep s els sets)
    (hnew : name ∉ sets.map (·.name)) (buf : List Byte) :
    ∃ s', sections flt lim junk (rest.length + 5) ⟨cd :: sc :: lt :: long :: rest, true, buf⟩ s = .ok s' ∧
      Rep s' els (sets ++ [⟨name, List.range n, (List.range n).map junk⟩]) := by
  obtain ⟨g1, g2, g3⟩ := getline_ok (st := ⟨cd :: sc :: lt :: long :: rest, true, buf⟩) rfl rfl hcd
  obtain ⟨w₀, k, ws, hcf, hk⟩ := hk
  obtain ⟨l1, hl1, f1⟩ := skip_one g3 hcf
  have e1 := int_lead hl1 f1
  obtain ⟨a2, b2, c2⟩ := getline_ok g1 g2 hsc
  obtain ⟨t3, v3, e3, -, h3⟩ := token_mid (r := name ++ 32 :: (tFloat ++ r)) (by rw [← hs]; exact c2) hw
  obtain ⟨t4, v4, e4, n4, h4⟩ := token_mid h3 hname
  have hsk : skip 1 (getline (getline ⟨cd :: sc :: lt :: long :: rest, true, buf⟩)).view = v3 := by
    rw [skip, e3]
    rfl
  obtain ⟨a5, b5, -⟩ := getline_ok a2 b2 hlt
  have hbad : ∀ st : In, st.good = true → st.rest = long :: rest → (getline st).good = false := by
    intro st h1 h2
    unfold getline
    rw [if_pos h1, h2]
    simp only
    rw [if_pos hl]
  have h6 := hbad _ a5 b5
  have hacc := addElset_accept s name (List.range n) ((List.range n).map junk) (by rw [hrep.names]; exact hnew)
    (by rw [ne_eq, List.range_eq_nil]; omega) (.inr (by simp))
  refine ⟨_, ?_, hrep.addElset name (List.range n) ((List.range n).map junk)⟩
  rw [sections]
  have hcell : cellData flt lim junk (getline ⟨cd :: sc :: lt :: long :: rest, true, buf⟩) s =
      .ok ((addElset s name (List.range n) ((List.range n).map junk)).1,
        getline (getline (getline (getline ⟨cd :: sc :: lt :: long :: rest, true, buf⟩)))) := by
    unfold cellData
    simp only [e1, ok_bind, hsk, e4, n4, (starts_iff h4 tFloat).2 ⟨r, rfl⟩, hk, size_nat, b5, dataLoop, h6,
      Bool.true_or, Bool.not_true, Bool.false_and, Bool.false_eq_true, if_false, List.length_nil, List.drop_zero,
      List.nil_append]
    rw [hacc]
    simp only
    rw [if_neg (by omega)]
    rfl
  simp only [g1, (starts_iff g3 hdrData).2 hp, hcell, ok_bind]
  have := sections_end flt lim junk _ (addElset s name (List.range n) ((List.range n).map junk)).1 (.inl h6)
    (rest.length + 3)
  rw [hacc] at this ⊢
  simpa using this

/-! ### Every file -/

theorem bind_ok {α β : Type} {r : Res α} {f : α → Res β} {b : β} (h : (r >>= f) = .ok b) : ∃ a, r = .ok a ∧ f a = .ok b := by
  cases r with
  | undef => exact absurd h (by simp)
  | refused => exact absurd h (by simp)
  | ok a => exact ⟨a, rfl, h⟩

/-- A soup with cells and, for each of its element sets, the values of its first elements. -/
def Sound (s : ASoup R) : Prop :=
  ∃ els sets, Rep s els sets ∧ GoodSets sets ∧ ∀ e ∈ sets, ∃ n, e.ids = List.range n ∧ e.data.length = n

theorem sound_points {flt : List Byte → R} : ∀ (fuel : Nat) (st : In) (s : ASoup R) (r : ASoup R × In), Sound s →
    points flt fuel st s = .ok r → Sound r.1 := by
  intro fuel
  induction fuel with
  | zero => intro st s r _ h; simp [points] at h
  | succ fuel ih =>
    intro st s r hs h
    rw [points] at h
    split_ifs at h
    · exact ih _ _ _ hs h
    · obtain rfl := Res.ok.inj h
      exact hs
    · obtain ⟨p, -, h⟩ := bind_ok h
      refine ih _ _ _ ?_ h
      obtain ⟨els, sets, h1, h2, h3⟩ := hs
      exact ⟨els, sets, ⟨h1.types, h1.conn, h1.eoffs, h1.names, h1.sids, h1.soffs, h1.sdata⟩, h2, h3⟩

theorem sound_cells : ∀ (n : Nat) (st : In) (s : ASoup R) (r : ASoup R × In), Sound s → cells n st s = .ok r → Sound r.1 := by
  intro n
  induction n with
  | zero =>
    intro st s r hs h
    obtain rfl := Res.ok.inj h
    exact hs
  | succ n ih =>
    intro st s r hs h
    rw [cells] at h
    obtain ⟨s', h1, h⟩ := bind_ok h
    refine ih _ _ _ ?_ h
    unfold cell at h1
    obtain ⟨⟨x, v⟩, -, h1⟩ := bind_ok h1
    obtain ⟨k, -, h1⟩ := bind_ok h1
    obtain ⟨conn, -, h1⟩ := bind_ok h1
    obtain rfl := Res.ok.inj h1
    obtain ⟨els, sets, r1, r2, r3⟩ := hs
    exact ⟨_, sets, r1.addElement _ _, r2, r3⟩

theorem dataLoop_length {flt : List Byte → R} (isf : Bool) (lim : ℤ) (n : Nat) : ∀ (fuel : Nat) (st : In) (xs : List R) (r : List R × In),
    xs.length ≤ n → dataLoop flt isf lim n fuel st xs = .ok r → r.1.length ≤ n := by
  intro fuel
  induction fuel with
  | zero => intro st xs r _ h; simp [dataLoop] at h
  | succ fuel ih =>
    intro st xs r hx h
    rw [dataLoop] at h
    split_ifs at h with h0
    · obtain ⟨ys, -, h⟩ := bind_ok h
      split_ifs at h with h1
      exact ih _ _ _ (by omega) h
    · obtain rfl := Res.ok.inj h
      exact hx

theorem sound_cellData {flt : List Byte → R} (lim : ℤ) (junk : Nat → R) (st : In) (s : ASoup R) (r : ASoup R × In) (hs : Sound s)
    (h : cellData flt lim junk st s = .ok r) : Sound r.1 := by
  unfold cellData at h
  obtain ⟨x, -, h⟩ := bind_ok h
  dsimp only at h
  split_ifs at h
  obtain ⟨n, -, h⟩ := bind_ok h
  obtain ⟨⟨xs, st'⟩, hx, h⟩ := bind_ok h
  have hlen := dataLoop_length _ _ _ _ _ _ _ (Nat.zero_le _) hx
  dsimp only at h hlen
  obtain ⟨els, sets, r1, r2, r3⟩ := hs
  generalize hd : xs ++ ((List.range n).drop xs.length).map junk = data at h
  have hdl : data.length = n := by rw [← hd]; simp; omega
  generalize (getToken 32 (skip 1 (getline st).view)).1.bytes = name at h
  by_cases hacc : name ∉ s.names ∧ List.range n ≠ [] ∧ (data = [] ∨ data.length = (List.range n).length)
  · rw [addElset_accept s name _ _ hacc.1 hacc.2.1 hacc.2.2] at h
    dsimp only at h
    rw [if_neg (by omega)] at h
    obtain rfl := Res.ok.inj h
    refine ⟨els, _, r1.addElset name (List.range n) data, ⟨?_, ?_, ?_⟩, ?_⟩
    · rw [List.map_append, List.nodup_append]
      refine ⟨r2.nodup, by simp, ?_⟩
      intro a ha b hb hab
      simp only [List.map_cons, List.map_nil, List.mem_singleton] at hb
      subst hb hab
      exact hacc.1 (by rw [r1.names]; exact ha)
    · intro e he
      simp only [List.mem_append, List.mem_singleton] at he
      rcases he with he | rfl
      · exact r2.ids e he
      · exact hacc.2.1
    · intro e he
      simp only [List.mem_append, List.mem_singleton] at he
      rcases he with he | rfl
      · exact r2.data e he
      · exact hacc.2.2
    · intro e he
      simp only [List.mem_append, List.mem_singleton] at he
      rcases he with he | rfl
      · exact r3 e he
      · exact ⟨n, rfl, hdl⟩
  · rw [addElset_reject s name _ _ hacc] at h
    simp at h

theorem sound_sections {flt : List Byte → R} (lim : ℤ) (junk : Nat → R) : ∀ (fuel : Nat) (st : In) (s s' : ASoup R), Sound s →
    sections flt lim junk fuel st s = .ok s' → Sound s' := by
  intro fuel
  induction fuel with
  | zero => intro st s s' _ h; simp [sections] at h
  | succ fuel ih =>
    intro st s s' hs h
    rw [sections] at h
    dsimp only at h
    split_ifs at h
    · obtain rfl := Res.ok.inj h
      exact hs
    · obtain ⟨⟨s1, st1⟩, h1, h⟩ := bind_ok h
      exact ih _ _ _ (sound_cellData lim junk _ _ _ hs h1) h
    · exact ih _ _ _ hs h

/-- Whatever is in a file: if it is accepted, the soup is consistent, and its element sets have different names, each of them
with the elements `0`, `1`, … and one value for each. In particular a file with two arrays of one name is refused. -/
theorem C84_sound {flt : List Byte → R} (lim : ℤ) (junk : Nat → R) (s s' : ASoup R) (hs : Sound s) (file : List Line)
    (h : readLines flt lim junk s file = .ok s') : Sound s' := by
  unfold readLines at h
  dsimp only at h
  split_ifs at h
  obtain ⟨⟨s1, st1⟩, h1, h⟩ := bind_ok h
  refine sound_sections lim junk _ _ _ _ ?_ h
  unfold grid at h1
  dsimp only at h1
  split_ifs at h1
  obtain ⟨_, -, h1⟩ := bind_ok h1
  obtain ⟨⟨s2, st2⟩, h2, h1⟩ := bind_ok h1
  obtain ⟨⟨n, _⟩, -, h1⟩ := bind_ok h1
  obtain ⟨⟨s3, st3⟩, h3, h1⟩ := bind_ok h1
  dsimp only at h1
  split_ifs at h1
  obtain ⟨rfl, -⟩ := Prod.mk.inj (Res.ok.inj h1)
  have := sound_cells _ _ _ _ (sound_points _ _ _ _ hs h2) h3
  exact this

example : Sound (empty : ASoup R) := ⟨[], [], holds_empty.rep, ⟨by simp, by simp, by simp⟩, by simp⟩

/-! ### Examples -/

/-- The lines up to the cell types of a file with two triangles. -/
def square : List Line := [
  [35, 32, 118, 116, 107, 32, 68, 97, 116, 97, 70, 105, 108, 101, 32, 86, 101, 114, 115, 105, 111, 110, 32, 51, 46, 48],
  [116],
  [65, 83, 67, 73, 73],
  [68, 65, 84, 65, 83, 69, 84, 32, 85, 78, 83, 84, 82, 85, 67, 84, 85, 82, 69, 68, 95, 71, 82, 73, 68],
  [80, 79, 73, 78, 84, 83, 32, 52, 32, 102, 108, 111, 97, 116],
  [48, 32, 48, 32, 48, 32],
  [49, 32, 48, 32, 48],
  [32, 49, 32, 49, 32, 48],
  [48, 32, 49, 32, 48],
  [],
  [67, 69, 76, 76, 83, 32, 50, 32, 56],
  [51, 32, 48, 32, 49, 32, 50],
  [51, 32, 48, 32, 50, 32, 51],
  [],
  [67, 69, 76, 76, 95, 84, 89, 80, 69, 83, 32, 50],
  [53, 32, 53]]

/-- Two arrays. -/
def arrays : List Line := [
  [],
  [67, 69, 76, 76, 95, 68, 65, 84, 65, 32, 50],
  [83, 67, 65, 76, 65, 82, 83, 32, 98, 32, 102, 108, 111, 97, 116, 32, 49],
  [76, 79, 79, 75, 85, 80, 95, 84, 65, 66, 76, 69, 32, 120],
  [32, 53],
  [54, 32],
  [],
  [67, 69, 76, 76, 95, 68, 65, 84, 65, 32, 50],
  [83, 67, 65, 76, 65, 82, 83, 32, 97, 32, 105, 110, 116],
  [76, 79, 79, 75, 85, 80, 95, 84, 65, 66, 76, 69, 32, 120],
  [51, 32, 52]]

/-- The same two arrays, without an empty line between them. -/
def arraysClose : List Line := [
  [],
  [67, 69, 76, 76, 95, 68, 65, 84, 65, 32, 50],
  [83, 67, 65, 76, 65, 82, 83, 32, 98, 32, 102, 108, 111, 97, 116, 32, 49],
  [76, 79, 79, 75, 85, 80, 95, 84, 65, 66, 76, 69, 32, 120],
  [32, 53],
  [54, 32],
  [67, 69, 76, 76, 95, 68, 65, 84, 65, 32, 50],
  [83, 67, 65, 76, 65, 82, 83, 32, 97, 32, 105, 110, 116],
  [76, 79, 79, 75, 85, 80, 95, 84, 65, 66, 76, 69, 32, 120],
  [51, 32, 52]]

/-- The same two arrays after one line `CELL_DATA`, as the format has it. -/
def arraysOne : List Line := [
  [],
  [67, 69, 76, 76, 95, 68, 65, 84, 65, 32, 50],
  [83, 67, 65, 76, 65, 82, 83, 32, 98, 32, 102, 108, 111, 97, 116, 32, 49],
  [76, 79, 79, 75, 85, 80, 95, 84, 65, 66, 76, 69, 32, 120],
  [32, 53],
  [54, 32],
  [],
  [83, 67, 65, 76, 65, 82, 83, 32, 97, 32, 105, 110, 116],
  [76, 79, 79, 75, 85, 80, 95, 84, 65, 66, 76, 69, 32, 120],
  [51, 32, 52]]

/-- An array of which the second value is missing. -/
def arrayShort : List Line := [
  [67, 69, 76, 76, 95, 68, 65, 84, 65, 32, 50],
  [83, 67, 65, 76, 65, 82, 83, 32, 97, 32, 102, 108, 111, 97, 116],
  [76, 79, 79, 75, 85, 80, 95, 84, 65, 66, 76, 69, 32, 120],
  [51]]

/-- An array with an empty line between the values. -/
def arrayGap : List Line := [
  [67, 69, 76, 76, 95, 68, 65, 84, 65, 32, 50],
  [83, 67, 65, 76, 65, 82, 83, 32, 97, 32, 102, 108, 111, 97, 116],
  [76, 79, 79, 75, 85, 80, 95, 84, 65, 66, 76, 69, 32, 120],
  [51],
  [],
  [52]]

/-- An array for three cells. -/
def arrayMore : List Line := [
  [67, 69, 76, 76, 95, 68, 65, 84, 65, 32, 51],
  [83, 67, 65, 76, 65, 82, 83, 32, 97, 32, 102, 108, 111, 97, 116],
  [76, 79, 79, 75, 85, 80, 95, 84, 65, 66, 76, 69, 32, 120],
  [51, 32, 52, 32, 53]]

/-- Two points on a line. -/
def pairs2 : List Line := [
  [35, 32, 118, 116, 107, 32, 68, 97, 116, 97, 70, 105, 108, 101, 32, 86, 101, 114, 115, 105, 111, 110, 32, 51, 46, 48],
  [116],
  [65, 83, 67, 73, 73],
  [68, 65, 84, 65, 83, 69, 84, 32, 85, 78, 83, 84, 82, 85, 67, 84, 85, 82, 69, 68, 95, 71, 82, 73, 68],
  [80, 79, 73, 78, 84, 83, 32, 52, 32, 102, 108, 111, 97, 116],
  [48, 32, 48, 32, 48, 32, 49, 32, 48, 32, 48],
  [49, 32, 49, 32, 48, 32, 48, 32, 49, 32, 48],
  [],
  [67, 69, 76, 76, 83, 32, 50, 32, 56],
  [51, 32, 48, 32, 49, 32, 50],
  [51, 32, 48, 32, 50, 32, 51],
  [],
  [67, 69, 76, 76, 95, 84, 89, 80, 69, 83, 32, 50],
  [53, 32, 53]]

/-- Points without the third coordinate. -/
def planar : List Line := [
  [35, 32, 118, 116, 107, 32, 68, 97, 116, 97, 70, 105, 108, 101, 32, 86, 101, 114, 115, 105, 111, 110, 32, 51, 46, 48],
  [116],
  [65, 83, 67, 73, 73],
  [68, 65, 84, 65, 83, 69, 84, 32, 85, 78, 83, 84, 82, 85, 67, 84, 85, 82, 69, 68, 95, 71, 82, 73, 68],
  [80, 79, 73, 78, 84, 83, 32, 52, 32, 102, 108, 111, 97, 116],
  [48, 32, 48],
  [49, 32, 48],
  [49, 32, 49],
  [48, 32, 49],
  [],
  [67, 69, 76, 76, 83, 32, 50, 32, 56],
  [51, 32, 48, 32, 49, 32, 50],
  [51, 32, 48, 32, 50, 32, 51],
  [],
  [67, 69, 76, 76, 95, 84, 89, 80, 69, 83, 32, 50],
  [53, 32, 53]]

/-- No empty line before the cell types. -/
def tight : List Line := [
  [35, 32, 118, 116, 107, 32, 68, 97, 116, 97, 70, 105, 108, 101, 32, 86, 101, 114, 115, 105, 111, 110, 32, 51, 46, 48],
  [116],
  [65, 83, 67, 73, 73],
  [68, 65, 84, 65, 83, 69, 84, 32, 85, 78, 83, 84, 82, 85, 67, 84, 85, 82, 69, 68, 95, 71, 82, 73, 68],
  [80, 79, 73, 78, 84, 83, 32, 52, 32, 102, 108, 111, 97, 116],
  [48, 32, 48, 32, 48, 32],
  [49, 32, 48, 32, 48],
  [32, 49, 32, 49, 32, 48],
  [48, 32, 49, 32, 48],
  [],
  [67, 69, 76, 76, 83, 32, 50, 32, 56],
  [51, 32, 48, 32, 49, 32, 50],
  [51, 32, 48, 32, 50, 32, 51],
  [67, 69, 76, 76, 95, 84, 89, 80, 69, 83, 32, 50],
  [53, 32, 53]]

/-- A file with one quadratic edge. -/
def edgeFile : List Line := [
  [35, 32, 118, 116, 107, 32, 68, 97, 116, 97, 70, 105, 108, 101, 32, 86, 101, 114, 115, 105, 111, 110, 32, 51, 46, 48],
  [116],
  [65, 83, 67, 73, 73],
  [68, 65, 84, 65, 83, 69, 84, 32, 85, 78, 83, 84, 82, 85, 67, 84, 85, 82, 69, 68, 95, 71, 82, 73, 68],
  [80, 79, 73, 78, 84, 83, 32, 52, 32, 102, 108, 111, 97, 116],
  [48, 32, 48, 32, 48],
  [49, 32, 48, 32, 48],
  [49, 32, 49, 32, 48],
  [48, 32, 49, 32, 48],
  [],
  [67, 69, 76, 76, 83, 32, 49, 32, 52],
  [51, 32, 48, 32, 49, 32, 50],
  [],
  [67, 69, 76, 76, 95, 84, 89, 80, 69, 83, 32, 49],
  [50, 49]]

/-- A file with a polygon of five vertices. -/
def pentagon : List Line := [
  [35, 32, 118, 116, 107, 32, 68, 97, 116, 97, 70, 105, 108, 101, 32, 86, 101, 114, 115, 105, 111, 110, 32, 51, 46, 48],
  [116],
  [65, 83, 67, 73, 73],
  [68, 65, 84, 65, 83, 69, 84, 32, 85, 78, 83, 84, 82, 85, 67, 84, 85, 82, 69, 68, 95, 71, 82, 73, 68],
  [80, 79, 73, 78, 84, 83, 32, 52, 32, 102, 108, 111, 97, 116],
  [48, 32, 48, 32, 48, 32],
  [49, 32, 48, 32, 48],
  [32, 49, 32, 49, 32, 48],
  [48, 32, 49, 32, 48],
  [50, 32, 50, 32, 48],
  [],
  [67, 69, 76, 76, 83, 32, 49, 32, 54],
  [53, 32, 48, 32, 49, 32, 50, 32, 51, 32, 52],
  [],
  [67, 69, 76, 76, 95, 84, 89, 80, 69, 83, 32, 49],
  [55]]


theorem reader_strto32 : Reader strto32 := by
  refine ⟨fun w r hw hr => ival_append w r hw hr, fun l => ?_⟩
  unfold strto32 strtol
  rw [List.dropWhile_cons_of_pos (by decide)]

theorem sample_file : File strto32 (2 ^ 52) [(0, 0, 0), (1, 0, 0), (1, 1, 0), (0, 1, 0)]
    [(5, [0, 1, 2]), (5, [0, 2, 3])] [([98], [5, 6]), ([97], [3, 4])] (square ++ arrays) := by
  refine ⟨_, _, _, _, _, (square.drop 5).take 5, _, (square.drop 11).take 2, _, _, _, [], arrays, rfl, ?_, ?_, ?_,
    ⟨[68, 65, 84, 65, 83, 69, 84], [], rfl, ?_⟩, ?_, ⟨_, _, _, rfl, ?_⟩, ?_, ?_, ?_, ⟨_, _, _, rfl, ?_⟩, ?_, ?_, ?_, ?_, ?_⟩
  · unfold LineOk Clean
    decide
  · decide
  · decide
  · unfold Word
    decide
  · decide
  · decide
  · decide
  · exact .cons ⟨_, _, _, rfl, by decide⟩ (.cons ⟨_, _, _, rfl, by decide⟩ (.cons ⟨_, _, _, rfl, by decide⟩
      (.cons ⟨_, _, _, rfl, by decide⟩ .nil)))
  · decide
  · decide
  · exact .cons ⟨_, _, rfl, by decide, by decide⟩ (.cons ⟨_, _, rfl, by decide, by decide⟩ .nil)
  · decide
  · decide
  · decide
  · refine .other _ (by decide) (.cons (ls := (arrays.drop 1).take 5) ?_ (.last ?_))
    · refine ⟨_, _, _, _, rfl, by decide, ⟨_, _, _, rfl, by decide⟩, ⟨[83, 67, 65, 76, 65, 82, 83], tFloat, [32, 49], rfl, ?_, ?_,
        .inl rfl⟩, by decide, by decide, by decide⟩
      · unfold Word
        decide
      · unfold Word
        decide
    · refine ⟨_, _, _, _, rfl, by decide, ⟨_, _, _, rfl, by decide⟩, ⟨[83, 67, 65, 76, 65, 82, 83], tInt, [], rfl, ?_, ?_,
        .inr (.inr ⟨rfl, by decide⟩)⟩, by decide, by decide, by decide⟩
      · unfold Word
        decide
      · unfold Word
        decide

/-- The sample meets the conditions of `C84_read_partial`. -/
example : ∀ c ∈ [((5 : ℤ), [0, 1, 2]), (5, [0, 2, 3])], Known c := by
  unfold Known
  decide

example : ∃ s, readLines strto32 (2 ^ 52) (fun _ => 0) empty (square ++ arrays) = .ok s ∧
    s.verts = [(0, 0, 0), (1, 0, 0), (1, 1, 0), (0, 1, 0)] :=
  let ⟨s, h1, h2, _⟩ := readLines_ok reader_strto32 _ (by norm_num) (fun _ => 0) _ _ _ _ sample_file (by simp) (by decide)
  ⟨s, h1, h2⟩

/-- A quadratic edge in a file. -/
example : File strto32 (2 ^ 52) [(0, 0, 0), (1, 0, 0), (1, 1, 0), (0, 1, 0)] [(VTK.QuadraticEdge, [0, 1, 2])] [] edgeFile := by
  refine ⟨_, _, _, _, _, (edgeFile.drop 5).take 5, _, (edgeFile.drop 11).take 1, _, _, _, [], [], rfl, ?_, ?_, ?_,
    ⟨[68, 65, 84, 65, 83, 69, 84], [], rfl, ?_⟩, ?_, ⟨_, _, _, rfl, ?_⟩, ?_, ?_, ?_, ⟨_, _, _, rfl, ?_⟩, ?_, ?_, ?_, ?_, .nil⟩
  · unfold LineOk Clean
    decide
  · decide
  · decide
  · unfold Word
    decide
  · decide
  · decide
  · decide
  · exact .cons ⟨_, _, _, rfl, by decide⟩ (.cons ⟨_, _, _, rfl, by decide⟩ (.cons ⟨_, _, _, rfl, by decide⟩
      (.cons ⟨_, _, _, rfl, by decide⟩ .nil)))
  · decide
  · decide
  · exact .cons ⟨_, _, rfl, by decide, by decide⟩ .nil
  · decide
  · decide
  · decide

/-! ### Where the format and the reader part -/

def undefined {α : Type} : Res α → Bool
  | .undef => true
  | _ => false

def refusal {α : Type} : Res α → Bool
  | .refused => true
  | _ => false

def yields {α : Type} (p : α → Bool) : Res α → Bool
  | .ok a => p a
  | _ => false

theorem undefined_iff {α : Type} {r : Res α} (h : undefined r = true) : r = .undef := by
  cases r <;> simp_all [undefined]

theorem refusal_iff {α : Type} {r : Res α} (h : refusal r = true) : r = .refused := by
  cases r <;> simp_all [refusal]

theorem yields_iff {α : Type} {p : α → Bool} {r : Res α} (h : yields p r = true) : ∃ a, r = .ok a ∧ p a = true := by
  cases r <;> simp_all [yields]

/-- Two points on a line, which the format allows: every second one is lost, and the cells refer to vertices that are not
there. -/
theorem C84_two_points_fails : ∃ s, readLines strto32 (2 ^ 52) (fun _ => 0) empty pairs2 = .ok s ∧
    s.verts = [(0, 0, 0), (1, 1, 0)] ∧ s.conn = [0, 1, 2, 0, 2, 3] := by
  obtain ⟨s, h1, h2⟩ := yields_iff (p := fun s => decide (s.verts = [(0, 0, 0), (1, 1, 0)] ∧ s.conn = [0, 1, 2, 0, 2, 3]))
    (r := readLines strto32 (2 ^ 52) (fun _ => 0) empty pairs2) (by decide +kernel)
  exact ⟨s, h1, by simpa using h2⟩

/-- Two coordinates are not enough: `strto` is handed a null pointer. -/
theorem C84_planar_fails : readLines strto32 (2 ^ 52) (fun _ => 0) empty planar = .undef :=
  undefined_iff (by decide +kernel)

/-- Without an empty line before it the line `CELL_TYPES` is not found. -/
theorem C84_no_blank_fails : readLines strto32 (2 ^ 52) (fun _ => 0) empty tight = .refused :=
  refusal_iff (by decide +kernel)

/-- Without an empty line between two arrays the words of the second header are stored as values of the first array, beyond its
end. -/
theorem C84_adjacent_fails : readLines strto32 (2 ^ 52) (fun _ => 0) empty (square ++ arraysClose) = .undef :=
  undefined_iff (by decide +kernel)

/-- Of two arrays after one line `CELL_DATA`, as the format has it, only the first is read. -/
theorem C84_second_array_fails : ∃ s, readLines strto32 (2 ^ 52) (fun _ => 0) empty (square ++ arraysOne) = .ok s ∧
    s.names = [[98]] ∧ s.sdata = [[5, 6]] := by
  obtain ⟨s, h1, h2⟩ := yields_iff (p := fun s => decide (s.names = [[98]] ∧ s.sdata = [[5, 6]]))
    (r := readLines strto32 (2 ^ 52) (fun _ => 0) empty (square ++ arraysOne)) (by decide +kernel)
  exact ⟨s, h1, by simpa using h2⟩

/-- Missing values, and values after an empty line, are not noticed: the array is left as it was allocated (`none` is a value
that was never written). -/
theorem C84_missing_fails : ∀ t ∈ [arrayShort, arrayGap],
    ∃ s, readLines (fun l => some (strto32 l)) (2 ^ 52) (fun _ => none) empty (square ++ t) = .ok s ∧
      s.sdata = [[some 3, none]] := by
  have key : ∀ t ∈ [arrayShort, arrayGap], yields (fun s : ASoup (Option ℤ) => decide (s.sdata = [[some 3, none]]))
      (readLines (fun l => some (strto32 l)) (2 ^ 52) (fun _ => none) empty (square ++ t)) = true := by decide +kernel
  intro t ht
  obtain ⟨s, h1, h2⟩ := yields_iff (key t ht)
  exact ⟨s, h1, by simpa using h2⟩

/-- The number of values is not compared with the number of cells: the element set contains an element that is not there. -/
theorem C84_count_fails : ∃ s, readLines strto32 (2 ^ 52) (fun _ => 0) empty (square ++ arrayMore) = .ok s ∧
    s.sids = [0, 1, 2] ∧ s.types.length = 2 := by
  obtain ⟨s, h1, h2⟩ := yields_iff (p := fun s => decide (s.sids = [0, 1, 2] ∧ s.types.length = 2))
    (r := readLines strto32 (2 ^ 52) (fun _ => 0) empty (square ++ arrayMore)) (by decide +kernel)
  exact ⟨s, h1, by simpa using h2⟩

/-- Two arrays of one name. -/
example : readLines strto32 (2 ^ 52) (fun _ => 0) empty (square ++ arrays ++ [[]] ++ arrays) = .refused :=
  refusal_iff (by decide +kernel)

/-- A cell of another kind becomes an element of type `Invalid`. -/
theorem C84_pentagon_fails : ∃ s, readLines strto32 (2 ^ 52) (fun _ => 0) empty pentagon = .ok s ∧ s.types = [VTK.Invalid] := by
  obtain ⟨s, h1, h2⟩ := yields_iff (p := fun s => decide (s.types = [VTK.Invalid]))
    (r := readLines strto32 (2 ^ 52) (fun _ => 0) empty pentagon) (by decide +kernel)
  exact ⟨s, h1, by simpa using h2⟩

end Verif.VTKFile
