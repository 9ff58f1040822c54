import Verif.Lemmas.Abaqus
import Verif.Props.SoupSort

/-!
# C51 Abaqus element sets are read completely, C70 Abaqus files
-/

namespace Verif.Abaqus

open Verif.Polytope Verif.ElemTypes Verif.StrView
open Verif.Str (Byte)

variable {R : Type}

/-! ### C51 -/

/-- A line that lists these (0-based) ids: every id, possibly between blanks, is followed by a comma; the line
may end in blanks. -/
def SetLine (ids : List Nat) (l : Line) : Prop :=
  ∃ ws tail, List.Forall₂ IdField ids ws ∧ (∀ c ∈ tail, isSpace c = true) ∧ l = ws.flatMap (fun w => w ++ [44]) ++ tail

/-- The white space around the numbers: blank, tab, line feed, vertical tab, form feed and carriage return. -/
theorem C51_blank (c : Byte) : isSpace c = true ↔ c ∈ [32, 9, 10, 11, 12, 13] := by
  unfold isSpace
  have h : ∀ n : Nat, n < 256 → (c = UInt8.ofNat n ↔ c.toNat = n) := by
    intro n hn
    rw [← UInt8.toNat_inj, UInt8.toNat_ofNat', Nat.mod_eq_of_lt hn]
  have h32 := h 32 (by omega)
  have h9 := h 9 (by omega)
  have h10 := h 10 (by omega)
  have h11 := h 11 (by omega)
  have h12 := h 12 (by omega)
  have h13 := h 13 (by omega)
  simp only [Bool.or_eq_true, beq_iff_eq, Bool.and_eq_true, decide_eq_true_eq, List.mem_cons, List.not_mem_nil, or_false]
  change c = UInt8.ofNat 32 ∨ _ ↔ c = UInt8.ofNat 32 ∨ c = UInt8.ofNat 9 ∨ c = UInt8.ofNat 10 ∨ c = UInt8.ofNat 11 ∨
    c = UInt8.ofNat 12 ∨ c = UInt8.ofNat 13
  rw [h32, h9, h10, h11, h12, h13]
  omega

/-- One line. -/
theorem C51_line_partial (ids : List Nat) (l : Line) (h : SetLine ids l) (hi : ∀ i ∈ ids, i + 1 < 2 ^ 31) :
    idLoop l = some ids := by
  obtain ⟨ws, tail, hw, ht, rfl⟩ := h
  exact idLoop_spec ids ws tail hw hi fun hc => (space_ne _ (ht _ hc)).2 rfl

theorem setLines (idss : List (List Nat)) (ls : List Line) (acc : List Nat) (h : List.Forall₂ SetLine idss ls)
    (hi : ∀ ids ∈ idss, ∀ i ∈ ids, i + 1 < 2 ^ 31) :
    ls.foldlM (fun ids l => (idLoop l).map fun r => ids ++ r) acc = some (acc ++ idss.flatten) := by
  induction h generalizing acc with
  | nil => simp
  | @cons ids l idss ls hl hls ih =>
    rw [List.foldlM_cons, C51_line_partial ids l hl (hi ids (by simp))]
    simp only [Option.map_some, Option.bind_eq_bind, Option.bind_some]
    rw [ih _ fun x hx => hi x (by simp [hx])]
    simp

/-- A whole block: the header names the set, the set holds the ids of all lines, whatever the line breaks, and
the reader stands at the next section. -/
theorem C51_block_partial (s : ASoup R) (name : List Byte) (hdr : Line) (hh : hdr.length = 13) (idss : List (List Nat))
    (ls more : List Line) (h : List.Forall₂ SetLine idss ls) (hp : ∀ l ∈ ls, Plain l) (hm : Follows more)
    (hi : ∀ ids ∈ idss, ∀ i ∈ ids, i + 1 < 2 ^ 31) :
    parseElsets ⟨s, hdr ++ name, ls ++ more⟩ =
      some ⟨(addElset s name idss.flatten []).1, front more, more.tail⟩ := by
  unfold parseElsets
  dsimp only
  rw [if_neg (by simp; omega), sectionLoop_spec _ [] (([] : List Nat) ++ idss.flatten) ls more hp hm.weak
    (setLines idss ls [] h hi), Option.map_some]
  simp only [List.nil_append]
  rw [ret_spec _ _ hm, ← hh, List.drop_left]

/-- An id at the end of a line without a comma is dropped, whatever comes before. -/
theorem C51_no_trailing_comma_fails (ids : List Nat) (ws : List (List Byte)) (h : List.Forall₂ IdField ids ws)
    (hi : ∀ i ∈ ids, i + 1 < 2 ^ 31) (j : Nat) (w : List Byte) (hw : IdField j w) :
    idLoop (ws.flatMap (fun w => w ++ [44]) ++ w) = some ids :=
  idLoop_spec ids ws w h hi hw.ne.2

/-- `1, 12,` and ` 3,  ` -/
example : SetLine [0, 11] [49, 44, 32, 49, 50, 44] :=
  ⟨[[49], [32, 49, 50]], [],
    .cons ⟨[], [], by simp, by simp, by simp [digits]⟩ (.cons ⟨[32], [], by simp [isSpace], by simp, by simp [digits]⟩ .nil),
    by simp, rfl⟩
example : SetLine [2] [32, 51, 44, 32, 32] :=
  ⟨[[32, 51]], [32, 32], .cons ⟨[32], [], by simp [isSpace], by simp, by simp [digits]⟩ .nil, by simp [isSpace], rfl⟩

/-! ### C70 -/

/-- An element line: an element number, and the vertices, separated by commas. -/
def ElemLine (conn : List Nat) (l : Line) : Prop :=
  ∃ num ws, num ≠ [] ∧ 44 ∉ num ∧ conn ≠ [] ∧ List.Forall₂ IdField conn ws ∧ l = num ++ 44 :: joined ws

/-- The text `w` denotes the number `x`, whether a comma or the end of the line follows. -/
def Denotes (flt : List Byte → R) (w : List Byte) (x : R) : Prop :=
  w ≠ [] ∧ 44 ∉ w ∧ (∀ r, flt (w ++ 44 :: r) = x) ∧ flt (w ++ [0]) = x

/-- A vertex line: a number and three coordinates. -/
def NodeLine (flt : List Byte → R) (v : R × R × R) (l : Line) : Prop :=
  ∃ num x y z, num ≠ [] ∧ 44 ∉ num ∧ Denotes flt x v.1 ∧ Denotes flt y v.2.1 ∧ Denotes flt z v.2.2 ∧
    l = num ++ 44 :: (x ++ 44 :: (y ++ 44 :: z))

/-- The lines of an element section for elements of type `t`. -/
def ElemSection (t : ℤ) (conns : List (List Nat)) (ls : List Line) : Prop :=
  ∃ d tail body, (t, d) ∈ [((5 : ℤ), (51 : Byte)), (9, 52), (22, 54), (23, 56)] ∧
    -- *ELEMENT, type=CPSd
    ls = (hdrElement ++ [44, 32, 116, 121, 112, 101, 61, 67, 80, 83] ++ d :: tail) :: body ∧
    (hdrElement ++ [44, 32, 116, 121, 112, 101, 61, 67, 80, 83] ++ d :: tail).length < 1024 ∧
    body ≠ [] ∧ (∀ l ∈ body, Plain l) ∧ List.Forall₂ ElemLine conns body ∧
    (∀ c ∈ conns, (c.length : ℤ) = verticesPerElem t) ∧ ∀ c ∈ conns, ∀ i ∈ c, i + 1 < 2 ^ 31

/-- The lines of an element-set section. -/
def SetSection (name : List Byte) (ids : List Nat) (ls : List Line) : Prop :=
  ∃ body idss,
    -- *ELSET,ELSET=name
    ls = (hdrElset ++ [44, 69, 76, 83, 69, 84, 61] ++ name) :: body ∧
    (hdrElset ++ [44, 69, 76, 83, 69, 84, 61] ++ name).length < 1024 ∧
    body ≠ [] ∧ (∀ l ∈ body, Plain l) ∧ List.Forall₂ SetLine idss body ∧ idss.flatten = ids ∧
    ∀ i ∈ ids, i + 1 < 2 ^ 31

theorem nodes_fold (flt : List Byte → R) (s : ASoup R) (vs : List (R × R × R)) (ls : List Line)
    (h : List.Forall₂ (NodeLine flt) vs ls) :
    ls.foldlM (nodeLine flt) s = some { s with verts := s.verts ++ vs } := by
  induction h generalizing s with
  | nil => simp
  | @cons v l vs ls hl hls ih =>
    have hstep : nodeLine flt s l = some (addVertex s v).1 := by
      obtain ⟨num, x, y, z, h1, h2, ⟨x1, x2, x3, -⟩, ⟨y1, y2, y3, -⟩, ⟨z1, z2, -, z4⟩, rfl⟩ := hl
      unfold nodeLine
      rw [getToken_head num _ h1 h2]
      dsimp only
      rw [getToken_head x _ x1 x2]
      dsimp only
      rw [getToken_head y _ y1 y2]
      dsimp only
      rw [if_neg (by simp [x1, y1, lineView])]
      have e1 : x ++ 44 :: (y ++ 44 :: z) ++ [0] = x ++ 44 :: (y ++ 44 :: z ++ [0]) := by simp
      have e2 : y ++ 44 :: z ++ [0] = y ++ 44 :: (z ++ [0]) := by simp
      rw [e1, x3, e2, y3]
      simp only [lineView]
      rw [z4]
    rw [List.foldlM_cons, hstep]
    simp only [Option.bind_eq_bind, Option.bind_some]
    rw [ih]
    simp [addVertex]

theorem elems_fold (t : ℤ) (s : ASoup R) (conns : List (List Nat)) (ls : List Line)
    (h : List.Forall₂ ElemLine conns ls) (hl : ∀ c ∈ conns, (c.length : ℤ) = verticesPerElem t)
    (hi : ∀ c ∈ conns, ∀ i ∈ c, i + 1 < 2 ^ 31) :
    ls.foldlM (elementLine t) s = some (conns.foldl (fun s c => (addElement s t c).1) s) := by
  induction h generalizing s with
  | nil => simp
  | @cons c l conns ls hc hls ih =>
    have hstep : elementLine t s l = some (addElement s t c).1 := by
      obtain ⟨num, ws, h1, h2, -, h4, rfl⟩ := hc
      unfold elementLine
      rw [getToken_head num _ h1 h2]
      dsimp only
      rw [← hl c (by simp), Int.toNat_natCast, connLoop_spec c ws h4 (hi c (by simp))]
      rfl
    rw [List.foldlM_cons, hstep]
    simp only [Option.bind_eq_bind, Option.bind_some]
    rw [ih _ (fun x hx => hl x (by simp [hx])) fun x hx => hi x (by simp [hx])]
    rfl

theorem foldl_elems (t : ℤ) (s : ASoup R) (conns : List (List Nat)) (els : List (ℤ × List Nat))
    (sets : List (ElSet (List Byte) R)) (h : Rep s els sets) :
    Rep (conns.foldl (fun s c => (addElement s t c).1) s) (els ++ conns.map fun c => (t, c)) sets ∧
      (conns.foldl (fun s c => (addElement s t c).1) s).verts = s.verts := by
  induction conns generalizing s els with
  | nil => simpa using h
  | cons c conns ih =>
    obtain ⟨h1, h2⟩ := ih (addElement s t c).1 (els ++ [(t, c)]) (h.addElement t c)
    exact ⟨by simpa using h1, h2⟩

theorem parseElements_section (s : ASoup R) (t : ℤ) (conns : List (List Nat)) (ls more : List Line)
    (h : ElemSection t conns ls) (hm : Follows more) :
    parseElements ⟨s, front (ls ++ more), (ls ++ more).tail⟩ =
      some ⟨conns.foldl (fun s c => (addElement s t c).1) s, front more, more.tail⟩ := by
  obtain ⟨d, tail, body, hd, rfl, -, -, hp, hl, hc, hi⟩ := h
  have hty : cpsType d = t := by
    simp only [List.mem_cons, Prod.mk.injEq, List.not_mem_nil, or_false] at hd
    rcases hd with ⟨rfl, rfl⟩ | ⟨rfl, rfl⟩ | ⟨rfl, rfl⟩ | ⟨rfl, rfl⟩ <;> decide
  unfold parseElements
  show (if (67 : Byte) ≠ 67 ∨ (80 : Byte) ≠ 80 ∨ (83 : Byte) ≠ 83 then _ else
    (sectionLoop (elementLine (cpsType d)) s (body ++ more)).map _) = _
  rw [if_neg (by decide), hty, sectionLoop_spec _ s _ body more hp hm.weak (elems_fold t s conns body hl hc hi),
    Option.map_some]
  simp only
  rw [ret_spec _ _ hm]

theorem parseElsets_section (s : ASoup R) (name : List Byte) (ids : List Nat) (ls more : List Line)
    (h : SetSection name ids ls) (hm : Follows more) :
    parseElsets ⟨s, front (ls ++ more), (ls ++ more).tail⟩ =
      some ⟨(addElset s name ids []).1, front more, more.tail⟩ := by
  obtain ⟨body, idss, rfl, -, -, hp, hl, rfl, hi⟩ := h
  exact C51_block_partial s name (hdrElset ++ [44, 69, 76, 83, 69, 84, 61]) rfl idss body more hl hp hm
    fun x hx i hix => hi i (List.mem_flatten.2 ⟨x, hx, hix⟩)

/-- Whatever starts with an element or set section can follow a section. -/
theorem ElemSection.follows {t : ℤ} {conns : List (List Nat)} {ls : List Line} (h : ElemSection t conns ls)
    (more : List Line) : Follows (ls ++ more) ∧ hdrElement.isPrefixOf (front (ls ++ more)) = true ∧
      hdrNode.isPrefixOf (front (ls ++ more)) = false := by
  obtain ⟨d, tail, body, hd, rfl, hlen, hne, -⟩ := h
  obtain ⟨b, body, rfl⟩ := List.exists_cons_of_ne_nil hne
  exact ⟨.inr ⟨_, b, body ++ more, rfl, rfl, hlen⟩, rfl, rfl⟩

theorem SetSection.follows {name : List Byte} {ids : List Nat} {ls : List Line} (h : SetSection name ids ls)
    (more : List Line) : Follows (ls ++ more) ∧ hdrElset.isPrefixOf (front (ls ++ more)) = true ∧
      hdrNode.isPrefixOf (front (ls ++ more)) = false ∧ hdrElement.isPrefixOf (front (ls ++ more)) = false := by
  obtain ⟨body, idss, rfl, hlen, hne, -⟩ := h
  obtain ⟨b, body, rfl⟩ := List.exists_cons_of_ne_nil hne
  exact ⟨.inr ⟨_, b, body ++ more, rfl, rfl, hlen⟩, rfl, rfl, rfl⟩

/-- All element sections. -/
theorem while_elements (secs : List (ℤ × List (List Nat))) (lss : List (List Line))
    (h : List.Forall₂ (fun sec ls => ElemSection sec.1 sec.2 ls) secs lss) (more : List Line) (hm : Follows more)
    (hstop : hdrElement.isPrefixOf (front more) = false) (s : ASoup R) (els : List (ℤ × List Nat))
    (sets : List (ElSet (List Byte) R)) (hrep : Rep s els sets) (b : Bool) (fuel : Nat) (hf : secs.length < fuel) :
    ∃ s' b', whileHeader hdrElement parseElements fuel (b, ⟨s, front (lss.flatten ++ more), (lss.flatten ++ more).tail⟩) =
        some (b', ⟨s', front more, more.tail⟩) ∧
      Rep s' (els ++ secs.flatMap fun sec => sec.2.map fun c => (sec.1, c)) sets ∧ s'.verts = s.verts := by
  induction h generalizing s els b fuel with
  | nil =>
    obtain ⟨fuel, rfl⟩ : ∃ k, fuel = k + 1 := ⟨fuel - 1, by simp at hf; omega⟩
    refine ⟨s, b, ?_, by simpa using hrep, rfl⟩
    rw [whileHeader]
    simp only [List.flatten_nil, List.nil_append]
    rw [hstop]
    rfl
  | @cons sec ls secs lss hs hss ih =>
    obtain ⟨fuel, rfl⟩ : ∃ k, fuel = k + 1 := ⟨fuel - 1, by simp at hf; omega⟩
    have hfollow : Follows (lss.flatten ++ more) := by
      cases hss with
      | nil => simpa using hm
      | @cons sec2 ls2 secs lss hs2 hss =>
        have := (hs2.follows (lss.flatten ++ more)).1
        simpa using this
    obtain ⟨-, hpre, -⟩ := hs.follows (lss.flatten ++ more)
    obtain ⟨r1, r2⟩ := foldl_elems sec.1 s sec.2 els sets hrep
    obtain ⟨s', b', i1, i2, i3⟩ := ih _ _ r1 false fuel (by simp at hf; omega)
    refine ⟨s', b', ?_, ?_, by rw [i3, r2]⟩
    · rw [whileHeader, List.flatten_cons, List.append_assoc, hpre, if_pos rfl,
        parseElements_section s sec.1 sec.2 ls (lss.flatten ++ more) hs hfollow]
      exact i1
    · simpa using i2

/-- All set sections, up to the end of the file. -/
theorem while_sets (sets : List (ElSet (List Byte) R)) (lss : List (List Line))
    (h : List.Forall₂ (fun e ls => SetSection e.name e.ids ls) sets lss) (hd : ∀ e ∈ sets, e.data = [])
    (hne : ∀ e ∈ sets, e.ids ≠ []) (s : ASoup R) (els : List (ℤ × List Nat)) (sets0 : List (ElSet (List Byte) R))
    (hrep : Rep s els sets0) (hnd : ((sets0 ++ sets).map (·.name)).Nodup) (b : Bool) (fuel : Nat)
    (hf : sets.length < fuel) :
    ∃ s' b', whileHeader hdrElset parseElsets fuel (b, ⟨s, front lss.flatten, lss.flatten.tail⟩) =
        some (b', ⟨s', [], []⟩) ∧ Rep s' els (sets0 ++ sets) ∧ s'.verts = s.verts := by
  induction h generalizing s sets0 b fuel with
  | nil =>
    obtain ⟨fuel, rfl⟩ : ∃ k, fuel = k + 1 := ⟨fuel - 1, by simp at hf; omega⟩
    exact ⟨s, b, rfl, by simpa using hrep, rfl⟩
  | @cons e ls sets lss hs hss ih =>
    obtain ⟨fuel, rfl⟩ : ∃ k, fuel = k + 1 := ⟨fuel - 1, by simp at hf; omega⟩
    have hfollow : Follows lss.flatten := by
      cases hss with
      | nil => exact .inl rfl
      | @cons e2 ls2 sets lss hs2 hss =>
        have := (hs2.follows lss.flatten).1
        simpa using this
    obtain ⟨-, hpre, -⟩ := hs.follows lss.flatten
    have hnew : e.name ∉ s.names := by
      rw [hrep.names]
      rw [List.map_append, List.map_cons] at hnd
      intro hin
      exact (List.nodup_append.1 hnd).2.2 _ hin _ (by simp) rfl
    have hacc := addElset_accept s e.name e.ids [] hnew (hne e (by simp)) (.inl rfl)
    have hrep' : Rep (addElset s e.name e.ids []).1 els (sets0 ++ [e]) := by
      rw [hacc]
      have := hrep.addElset e.name e.ids []
      have he : e = ⟨e.name, e.ids, []⟩ := by rw [← hd e (by simp)]
      rw [← he] at this
      exact this
    obtain ⟨s', b', i1, i2, i3⟩ := ih (fun x hx => hd x (by simp [hx])) (fun x hx => hne x (by simp [hx])) _ _ hrep'
      (by simpa using hnd) false fuel (by simp at hf; omega)
    refine ⟨s', b', ?_, by simpa using i2, by rw [i3, hacc]⟩
    rw [whileHeader, List.flatten_cons, hpre, if_pos rfl, parseElsets_section s e.name e.ids ls lss.flatten hs hfollow]
    exact i1

/-- A line before the first section. -/
def Preamble (l : Line) : Prop :=
  l.length < 1024 ∧ hdrNode.isPrefixOf l = false ∧ hdrElement.isPrefixOf l = false ∧ hdrElset.isPrefixOf l = false

/-- A file: lines of no interest, the vertices, the element sections, the element sets. -/
structure File (flt : List Byte → R) (vs : List (R × R × R)) (secs : List (ℤ × List (List Nat)))
    (sets : List (ElSet (List Byte) R)) (file : List Line) : Prop where
  shape : ∃ pre hdr nodes elems elsets, file = pre ++ (hdr :: nodes) ++ elems.flatten ++ elsets.flatten ∧
    (∀ l ∈ pre, Preamble l) ∧ hdr.length < 1024 ∧ hdrNode.isPrefixOf hdr = true ∧
    nodes ≠ [] ∧ (∀ l ∈ nodes, Plain l) ∧ List.Forall₂ (NodeLine flt) vs nodes ∧
    List.Forall₂ (fun sec ls => ElemSection sec.1 sec.2 ls) secs elems ∧
    List.Forall₂ (fun (e : ElSet (List Byte) R) ls => SetSection e.name e.ids ls) sets elsets
  nodata : ∀ e ∈ sets, e.data = []
  nonempty : ∀ e ∈ sets, e.ids ≠ []
  names : (sets.map (·.name)).Nodup

theorem flatten_length_ge {α β : Type} {P : α → List β → Prop} (as : List α) (bss : List (List β))
    (h : List.Forall₂ P as bss) (hP : ∀ a b, P a b → 1 ≤ b.length) : as.length ≤ bss.flatten.length := by
  induction h with
  | nil => simp
  | cons h1 _ ih =>
    have := hP _ _ h1
    rw [List.flatten_cons, List.length_append, List.length_cons]
    omega

/-- The pass that meets the vertex header reads everything. -/
theorem last_pass (flt : List Byte → R) (s : ASoup R) (hdr : Line) (nodes : List Line) (vs : List (R × R × R))
    (secs : List (ℤ × List (List Nat))) (elems : List (List Line)) (sets : List (ElSet (List Byte) R))
    (elsets : List (List Line)) (els0 : List (ℤ × List Nat)) (hrep : Rep s els0 [])
    (hh : hdrNode.isPrefixOf hdr = true) (hp : ∀ l ∈ nodes, Plain l) (hn : List.Forall₂ (NodeLine flt) vs nodes)
    (he : List.Forall₂ (fun sec ls => ElemSection sec.1 sec.2 ls) secs elems)
    (hs : List.Forall₂ (fun (e : ElSet (List Byte) R) ls => SetSection e.name e.ids ls) sets elsets)
    (hd : ∀ e ∈ sets, e.data = []) (hne : ∀ e ∈ sets, e.ids ≠ []) (hnd : (sets.map (·.name)).Nodup)
    (fuel : Nat) (hf1 : 1 < fuel) (hf2 : secs.length < fuel) (hf3 : sets.length < fuel) :
    ∃ s' b', ((whileHeader hdrNode (parseNodes flt) fuel
        (true, ⟨s, hdr, nodes ++ (elems.flatten ++ elsets.flatten)⟩)).bind fun x =>
      (whileHeader hdrElement parseElements fuel x).bind fun x => whileHeader hdrElset parseElsets fuel x) =
        some (b', ⟨s', [], []⟩) ∧
      Rep s' (els0 ++ secs.flatMap fun sec => sec.2.map fun c => (sec.1, c)) sets ∧ s'.verts = s.verts ++ vs := by
  have hfs : Follows elsets.flatten ∧ hdrElement.isPrefixOf (front elsets.flatten) = false ∧
      hdrNode.isPrefixOf (front elsets.flatten) = false := by
    cases hs with
    | nil => exact ⟨.inl rfl, rfl, rfl⟩
    | @cons e ls sets lss h1 h2 =>
      obtain ⟨a, b, c, d⟩ := h1.follows lss.flatten
      exact ⟨by simpa using a, by simpa using d, by simpa using c⟩
  have hfe : Follows (elems.flatten ++ elsets.flatten) ∧ hdrNode.isPrefixOf (front (elems.flatten ++ elsets.flatten)) = false := by
    cases he with
    | nil => simpa using ⟨hfs.1, hfs.2.2⟩
    | @cons e ls secs lss h1 h2 =>
      obtain ⟨a, b, c⟩ := h1.follows (lss.flatten ++ elsets.flatten)
      exact ⟨by simpa using a, by simpa using c⟩
  obtain ⟨k, rfl⟩ : ∃ k, fuel = k + 2 := ⟨fuel - 2, by omega⟩
  let s1 : ASoup R := { s with verts := s.verts ++ vs }
  have hrep1 : Rep s1 els0 [] := ⟨hrep.types, hrep.conn, hrep.eoffs, hrep.names, hrep.sids, hrep.soffs, hrep.sdata⟩
  have hnode : whileHeader hdrNode (parseNodes flt) (k + 2) (true, ⟨s, hdr, nodes ++ (elems.flatten ++ elsets.flatten)⟩) =
      some (false, ⟨s1, front (elems.flatten ++ elsets.flatten), (elems.flatten ++ elsets.flatten).tail⟩) := by
    rw [whileHeader, hh, if_pos rfl]
    unfold parseNodes
    dsimp only
    rw [sectionLoop_spec _ s s1 nodes _ hp hfe.1.weak (nodes_fold flt s vs nodes hn)]
    simp only [Option.map_some, Option.bind_some]
    rw [whileHeader, hfe.2]
    rfl
  obtain ⟨s2, b2, e1, e2, e3⟩ := while_elements secs elems he elsets.flatten hfs.1 hfs.2.1 s1 els0 [] hrep1 false (k + 2) hf2
  obtain ⟨s3, b3, f1, f2, f3⟩ := while_sets sets elsets hs hd hne s2 _ [] e2 (by simpa using hnd) b2 (k + 2) hf3
  refine ⟨s3, b3, ?_, by simpa using f2, by rw [f3, e3]⟩
  rw [hnode]
  simp only [Option.bind_some]
  rw [e1]
  simp only [Option.bind_some]
  exact f1

/-- Before the sort, the soup holds what the file lists, in the order of the file. -/
theorem C70_lines_partial (flt : List Byte → R) (vs : List (R × R × R)) (secs : List (ℤ × List (List Nat)))
    (sets : List (ElSet (List Byte) R)) (file : List Line) (h : File flt vs secs sets file) :
    ∃ s, readLines flt empty file = some s ∧
      Rep s (secs.flatMap fun sec => sec.2.map fun c => (sec.1, c)) sets ∧ s.verts = vs := by
  obtain ⟨⟨pre, hdr, nodes, elems, elsets, rfl, hpre, hlen, hh, hne, hp, hn, he, hs⟩, hd, hi, hnd⟩ := h
  have hle : secs.length ≤ elems.flatten.length := by
    refine flatten_length_ge secs elems he ?_
    rintro a b ⟨d, tail, body, -, rfl, -⟩
    simp
  have hls : sets.length ≤ elsets.flatten.length := by
    refine flatten_length_ge sets elsets hs ?_
    rintro a b ⟨body, idss, rfl, -⟩
    simp
  obtain ⟨n0, nodes', hnn⟩ := List.exists_cons_of_ne_nil hne
  have hrep0 : Rep (empty : ASoup R) [] [] := ⟨rfl, rfl, rfl, rfl, rfl, rfl, rfl⟩
  -- from the state in which the header has just been read
  have hfinish : ∀ (inner fuel : Nat), nodes.length + elems.flatten.length + elsets.flatten.length + 1 < inner → 1 ≤ fuel →
      ∃ s' b', ((whileHeader hdrNode (parseNodes flt) inner
          (true, ⟨empty, hdr, nodes ++ (elems.flatten ++ elsets.flatten)⟩)).bind fun x =>
        (whileHeader hdrElement parseElements inner x).bind fun x => whileHeader hdrElset parseElsets inner x) =
          some (b', ⟨s', [], []⟩) ∧ fileLoop flt inner fuel (b', ⟨s', [], []⟩) = some s' ∧
        Rep s' (secs.flatMap fun sec => sec.2.map fun c => (sec.1, c)) sets ∧ s'.verts = vs := by
    intro inner fuel hin hf
    obtain ⟨s', b', h1, h2, h3⟩ := last_pass flt empty hdr nodes vs secs elems sets elsets [] hrep0 hh hp hn he hs hd hi hnd
      inner (by omega) (by omega) (by omega)
    obtain ⟨f, rfl⟩ : ∃ f, fuel = f + 1 := ⟨fuel - 1, by omega⟩
    refine ⟨s', b', h1, rfl, by simpa using h2, by rw [h3]; rfl⟩
  -- passes over the preamble
  have hloop : ∀ (p : List Line) (b : Bool) (cur : Line) (inner fuel : Nat), (∀ l ∈ p, Preamble l) →
      (b = false → Preamble cur) →
      nodes.length + elems.flatten.length + elsets.flatten.length + 1 < inner → p.length + 2 + (if b then 0 else 1) ≤ fuel →
      ∃ s, fileLoop flt inner fuel (b, ⟨empty, cur, p ++ (hdr :: nodes) ++ elems.flatten ++ elsets.flatten⟩) = some s ∧
        Rep s (secs.flatMap fun sec => sec.2.map fun c => (sec.1, c)) sets ∧ s.verts = vs := by
    intro p
    induction p with
    | nil =>
      intro b cur inner fuel _ hcur hin hf
      have hread : ∀ fuel, 2 ≤ fuel → ∃ s, fileLoop flt inner fuel
          (true, ⟨empty, cur, [] ++ (hdr :: nodes) ++ elems.flatten ++ elsets.flatten⟩) = some s ∧
          Rep s (secs.flatMap fun sec => sec.2.map fun c => (sec.1, c)) sets ∧ s.verts = vs := by
        intro fuel hf
        obtain ⟨f, rfl⟩ : ∃ f, fuel = f + 1 := ⟨fuel - 1, by omega⟩
        obtain ⟨s', b', h1, h2, h3, h4⟩ := hfinish inner f hin (by omega)
        refine ⟨s', ?_, h3, h4⟩
        rw [fileLoop]
        simp only [List.nil_append, List.cons_append, List.isEmpty_cons, Bool.false_eq_true, if_false]
        unfold pass
        simp only [if_true]
        rw [if_neg (by omega), List.append_assoc, h1]
        exact h2
      cases b with
      | true => exact hread fuel (by simp at hf; omega)
      | false =>
        obtain ⟨f, rfl⟩ : ∃ f, fuel = f + 1 := ⟨fuel - 1, by simp at hf; omega⟩
        obtain ⟨c1, c2, c3, c4⟩ := hcur rfl
        obtain ⟨s', h1, h2⟩ := hread f (by simp at hf; omega)
        refine ⟨s', ?_, h2⟩
        obtain ⟨i, rfl⟩ : ∃ i, inner = i + 1 := ⟨inner - 1, by omega⟩
        rw [fileLoop]
        simp only [List.nil_append, List.cons_append, List.isEmpty_cons, Bool.false_eq_true, if_false]
        unfold pass
        simp only [Bool.false_eq_true, if_false]
        rw [whileHeader, c2]
        simp only [Bool.false_eq_true, if_false, Option.bind_some]
        rw [whileHeader, c3]
        simp only [Bool.false_eq_true, if_false, Option.bind_some]
        rw [whileHeader, c4]
        simp only [Bool.false_eq_true, if_false, Option.bind_some]
        exact h1
    | cons l p ih =>
      intro b cur inner fuel hpre hcur hin hf
      have hread : ∀ fuel, p.length + 3 ≤ fuel → ∃ s, fileLoop flt inner fuel
          (true, ⟨empty, cur, (l :: p) ++ (hdr :: nodes) ++ elems.flatten ++ elsets.flatten⟩) = some s ∧
          Rep s (secs.flatMap fun sec => sec.2.map fun c => (sec.1, c)) sets ∧ s.verts = vs := by
        intro fuel hf
        obtain ⟨f, rfl⟩ : ∃ f, fuel = f + 1 := ⟨fuel - 1, by omega⟩
        obtain ⟨l1, l2, l3, l4⟩ := hpre l (by simp)
        obtain ⟨s', h1, h2⟩ := ih true l inner f (fun x hx => hpre x (by simp [hx])) (by simp) hin (by simp; omega)
        refine ⟨s', ?_, h2⟩
        obtain ⟨i, rfl⟩ : ∃ i, inner = i + 1 := ⟨inner - 1, by omega⟩
        rw [fileLoop]
        simp only [List.cons_append, List.isEmpty_cons, Bool.false_eq_true, if_false]
        unfold pass
        simp only [if_true]
        rw [if_neg (by omega), whileHeader, l2]
        simp only [Bool.false_eq_true, if_false, Option.bind_some]
        rw [whileHeader, l3]
        simp only [Bool.false_eq_true, if_false, Option.bind_some]
        rw [whileHeader, l4]
        simp only [Bool.false_eq_true, if_false, Option.bind_some]
        simpa using h1
      cases b with
      | true => exact hread fuel (by simp at hf; omega)
      | false =>
        obtain ⟨f, rfl⟩ : ∃ f, fuel = f + 1 := ⟨fuel - 1, by simp at hf; omega⟩
        obtain ⟨c1, c2, c3, c4⟩ := hcur rfl
        obtain ⟨s', h1, h2⟩ := hread f (by simp at hf; omega)
        refine ⟨s', ?_, h2⟩
        obtain ⟨i, rfl⟩ : ∃ i, inner = i + 1 := ⟨inner - 1, by omega⟩
        rw [fileLoop]
        simp only [List.cons_append, List.isEmpty_cons, Bool.false_eq_true, if_false]
        unfold pass
        simp only [Bool.false_eq_true, if_false]
        rw [whileHeader, c2]
        simp only [Bool.false_eq_true, if_false, Option.bind_some]
        rw [whileHeader, c3]
        simp only [Bool.false_eq_true, if_false, Option.bind_some]
        rw [whileHeader, c4]
        simp only [Bool.false_eq_true, if_false, Option.bind_some]
        simpa using h1
  unfold readLines
  cases pre with
  | nil =>
    simp only [List.nil_append, List.cons_append]
    rw [if_neg (by omega)]
    obtain ⟨s', b', h1, h2, h3, h4⟩ := hfinish ((hdr :: (nodes ++ elems.flatten ++ elsets.flatten)).length + 1)
      (2 * (hdr :: (nodes ++ elems.flatten ++ elsets.flatten)).length) (by simp; omega) (by simp; omega)
    refine ⟨s', ?_, h3, h4⟩
    rw [fileLoop]
    have hrest : (nodes ++ elems.flatten ++ elsets.flatten).isEmpty = false := by rw [hnn]; rfl
    simp only [hrest, Bool.false_eq_true, if_false]
    unfold pass
    simp only [Bool.false_eq_true, if_false]
    rw [List.append_assoc] at h1 h2 ⊢
    rw [h1]
    exact h2
  | cons l pre =>
    simp only [List.cons_append]
    have hl := hpre l (by simp)
    rw [if_neg (by have := hl.1; omega)]
    obtain ⟨s, h1, h2⟩ := hloop pre false l ((l :: (pre ++ hdr :: nodes ++ elems.flatten ++ elsets.flatten)).length + 1)
      (2 * (l :: (pre ++ hdr :: nodes ++ elems.flatten ++ elsets.flatten)).length + 1)
      (fun x hx => hpre x (by simp [hx])) (fun _ => hl) (by simp; omega) (by simp; omega)
    exact ⟨s, h1, h2⟩

/-- A line of 1024 characters or more ends the file: what follows it is not read, whatever it is. If the line begins like the
header of a set, a set without elements is added, whose name is the rest of the first 1023 characters. -/
theorem C70_long_line (flt : List Byte → R) (s : ASoup R) (pre : List Line) (l0 long : Line) (rest : List Line)
    (hl0 : Preamble l0) (hpre : ∀ l ∈ pre, Preamble l) (hlong : 1024 ≤ long.length) (h1 : hdrNode.isPrefixOf long = false)
    (h2 : hdrElement.isPrefixOf long = false) :
    (hdrElset.isPrefixOf long = false → readLines flt s (l0 :: pre ++ long :: rest) = some s) ∧
    (hdrElset.isPrefixOf long = true → readLines flt s (l0 :: pre ++ long :: rest) =
      some (addElset s ((long.take 1023).drop 13) [] []).1) := by
  have htake : ∀ h : Line, h.length ≤ 10 → h.isPrefixOf (long.take 1023) = h.isPrefixOf long := by
    intro h hh
    rw [Bool.eq_iff_iff, List.isPrefixOf_iff_prefix, List.isPrefixOf_iff_prefix]
    constructor
    · exact fun hp => hp.trans (List.take_prefix _ _)
    · intro hp
      rw [List.prefix_take_iff]
      exact ⟨hp, by omega⟩
  have n1 := htake hdrNode (by decide)
  have n2 := htake hdrElement (by decide)
  have n3 := htake hdrElset (by decide)
  rw [h1] at n1
  rw [h2] at n2
  obtain ⟨t, ht⟩ : ∃ t, t = if hdrElset.isPrefixOf long then (addElset s ((long.take 1023).drop 13) [] []).1 else s := ⟨_, rfl⟩
  have hend : ∀ (cur : Line) (inner fuel : Nat),
      fileLoop flt (inner + 2) (fuel + 2) (true, ⟨s, cur, long :: rest⟩) = some t := by
    intro cur inner fuel
    rw [fileLoop]
    simp only [List.isEmpty_cons, Bool.false_eq_true, if_false]
    unfold pass
    simp only [if_true]
    rw [if_pos hlong, whileHeader, n1]
    simp only [Bool.false_eq_true, if_false, Option.bind_some]
    rw [whileHeader, n2]
    simp only [Bool.false_eq_true, if_false, Option.bind_some]
    rw [whileHeader, n3]
    cases hb : hdrElset.isPrefixOf long with
    | false =>
      rw [hb] at ht
      simp only [Bool.false_eq_true, if_false, Option.bind_some] at ht ⊢
      rw [ht]; rfl
    | true =>
      rw [hb] at ht
      simp only [if_true] at ht ⊢
      unfold parseElsets
      rw [if_neg (by rw [List.length_take]; omega)]
      simp only [sectionLoop, Option.map_some, Option.bind_some, ret, List.isEmpty_nil, if_true]
      rw [whileHeader]
      have e : hdrElset.isPrefixOf ([] : Line) = false := rfl
      rw [e]
      simp only [Bool.false_eq_true, if_false, Option.bind_some]
      rw [ht]; rfl
  have hskip : ∀ (b : Bool) (l : Line) (ls : List Line) (inner fuel : Nat), Preamble l → ls ≠ [] →
      (whileHeader hdrNode (parseNodes flt) (inner + 1) (true, ⟨s, l, ls⟩)).bind (fun x =>
        (whileHeader hdrElement parseElements (inner + 1) x).bind fun x => whileHeader hdrElset parseElsets (inner + 1) x) =
      some (true, ⟨s, l, ls⟩) := by
    rintro b l ls inner fuel ⟨-, c2, c3, c4⟩ -
    rw [whileHeader, c2]
    simp only [Bool.false_eq_true, if_false, Option.bind_some]
    rw [whileHeader, c3]
    simp only [Bool.false_eq_true, if_false, Option.bind_some]
    rw [whileHeader, c4]
    simp only [Bool.false_eq_true, if_false]
  have hloop : ∀ (p : List Line) (cur : Line) (inner fuel : Nat), (∀ l ∈ p, Preamble l) → p.length + 2 ≤ fuel →
      fileLoop flt (inner + 2) fuel (true, ⟨s, cur, p ++ long :: rest⟩) = some t := by
    intro p
    induction p with
    | nil =>
      intro cur inner fuel _ hf
      obtain ⟨f, rfl⟩ : ∃ f, fuel = f + 2 := ⟨fuel - 2, by simp at hf; omega⟩
      exact hend cur inner f
    | cons l p ih =>
      intro cur inner fuel hp hf
      obtain ⟨f, rfl⟩ : ∃ f, fuel = f + 1 := ⟨fuel - 1, by simp at hf; omega⟩
      have hl := hp l (by simp)
      rw [fileLoop]
      simp only [List.cons_append, List.isEmpty_cons, Bool.false_eq_true, if_false]
      unfold pass
      simp only [if_true]
      rw [if_neg (by have := hl.1; omega), hskip true l _ (inner + 1) f hl (by simp)]
      exact ih l inner f (fun x hx => hp x (by simp [hx])) (by simp at hf ⊢; omega)
  have key : readLines flt s (l0 :: pre ++ long :: rest) = some t := by
    unfold readLines
    simp only [List.cons_append]
    rw [if_neg (by have := hl0.1; omega)]
    obtain ⟨i, hi⟩ : ∃ i, (l0 :: (pre ++ long :: rest)).length + 1 = i + 2 :=
      ⟨(pre ++ long :: rest).length, by simp only [List.length_cons]⟩
    rw [hi, fileLoop]
    have he : (pre ++ long :: rest).isEmpty = false := by cases pre <;> rfl
    simp only [he, Bool.false_eq_true, if_false]
    unfold pass
    simp only [Bool.false_eq_true, if_false]
    rw [hskip true l0 _ (i + 1) 0 hl0 (by simp)]
    exact hloop pre l0 i _ hpre (by simp; omega)
  rw [key, ht]
  constructor
  · intro h; simp [h]
  · intro h; simp [h]

/-- The whole reader: vertices and elements in the order of the file; the sets sorted by name, their ids sorted. -/
theorem C70_file_partial (lt : List Byte → List Byte → Bool) (sortPairs : List (List Byte × Nat) → List (List Byte × Nat))
    (sortPerm : List Nat → List Nat) (hsp : ∀ l, IsStdSort (Alg.pairLt lt ltNat) l (sortPairs l))
    (hsr : ∀ v, Alg.IsSortPermutation ltNat v (sortPerm v)) (flt : List Byte → R) (vs : List (R × R × R))
    (secs : List (ℤ × List (List Nat))) (sets : List (ElSet (List Byte) R)) (file : List Line)
    (h : File flt vs secs sets file) :
    ∃ s sets', readAbaqus sortPairs sortPerm flt empty file = some s ∧
      Rep s (secs.flatMap fun sec => sec.2.map fun c => (sec.1, c)) sets' ∧ s.verts = vs ∧
      sets'.Pairwise (fun a b => lt b.name a.name = false) ∧
      ∃ order, order.Perm sets ∧ List.Forall₂ (fun e e' : ElSet (List Byte) R =>
        e'.name = e.name ∧ e'.ids.Perm e.ids ∧ e'.ids.Pairwise (· ≤ ·)) order sets' := by
  obtain ⟨s, h1, h2, h3⟩ := C70_lines_partial flt vs secs sets file h
  unfold readAbaqus
  rw [h1]
  simp only [Option.bind_some]
  have hlen : s.names.length = sets.length := by rw [h2.names]; simp
  rw [hlen]
  by_cases hne : sets = []
  · subst hne
    exact ⟨s, [], rfl, h2, h3, .nil, [], .nil, .nil⟩
  · rw [if_pos (List.length_pos_iff.2 hne)]
    have hg : GoodSets sets := ⟨h.names, h.nonempty, fun e he => .inl (h.nodata e he)⟩
    obtain ⟨s', sets', r1, r2, r3, r4, r5, order, r6, r7⟩ :=
      C47_sortElsets lt sortPairs sortPerm hsp hsr s _ sets h2 hg hne
    refine ⟨s', sets', r1, r2, by rw [r4, h3], r5, order, r6, ?_⟩
    have hfst : ∀ e : ElSet (List Byte) R, (e.data = [] ∨ e.data.length = e.ids.length) → e.pairs.map (·.1) = e.ids := by
      intro e he
      unfold ElSet.pairs
      split_ifs with h0
      · simp [Function.comp_def]
      · rw [List.map_fst_zip]
        have := he.resolve_left h0
        simp [this]
    have hin : ∀ e ∈ order, e.data = [] := fun e he => h.nodata e (r6.mem_iff.1 he)
    have hin' : ∀ e ∈ sets', e.data = [] ∨ e.data.length = e.ids.length := r3.data
    clear r5 r6 r1 r2 r3
    induction r7 with
    | nil => exact .nil
    | @cons e e' order sets' he _ ih =>
      refine .cons ⟨he.1, ?_, he.2.2⟩ (ih (fun x hx => hin x (by simp [hx])) fun x hx => hin' x (by simp [hx]))
      rw [← hfst e (.inl (hin e (by simp))), ← hfst e' (hin' e' (by simp))]
      exact he.2.1.map _

/-- Nothing tells the caller of an element type that is not supported: after `*ELEMENT, type=CPS5` every line
becomes an element of type `Vertex` with one vertex. -/
theorem C70_unsupported_fails (s : ASoup R) (d : Byte) (hd : d ≠ 51 ∧ d ≠ 52 ∧ d ≠ 54 ∧ d ≠ 56) (num : List Byte)
    (i : Nat) (w : List Byte) (rest : List Byte) (hn : num ≠ [] ∧ 44 ∉ num) (hw : IdField i w) (hi : i + 1 < 2 ^ 31)
    (hp : Plain (num ++ 44 :: (w ++ 44 :: rest))) :
    parseElements ⟨s, hdrElement ++ [44, 32, 116, 121, 112, 101, 61, 67, 80, 83, d],
      [num ++ 44 :: (w ++ 44 :: rest)]⟩ = some ⟨(addElement s 1 [i]).1, [], []⟩ := by
  have hty : cpsType d = 1 := by
    unfold cpsType
    rw [if_neg hd.1, if_neg hd.2.1, if_neg hd.2.2.1, if_neg hd.2.2.2]
    rfl
  unfold parseElements
  show (if (67 : Byte) ≠ 67 ∨ (80 : Byte) ≠ 80 ∨ (83 : Byte) ≠ 83 then _ else
    (sectionLoop (elementLine (cpsType d)) s _).map _) = _
  have hstep : elementLine 1 s (num ++ 44 :: (w ++ 44 :: rest)) = some (addElement s 1 [i]).1 := by
    unfold elementLine
    rw [getToken_head num _ hn.1 hn.2]
    have h1 : (verticesPerElem 1).toNat = 1 := by decide
    dsimp only
    rw [h1, connLoop, getToken_head w _ hw.ne.1 hw.ne.2]
    dsimp only
    unfold tokenInt
    rw [if_neg (by simpa using hw.ne.1)]
    simp only [Option.bind_some]
    rw [List.append_assoc, strto32_field hw hi _ (by simp [isDigit]), toId_succ]
    rfl
  rw [if_neg (by decide), hty, ← List.append_nil [num ++ _],
    sectionLoop_spec _ s (addElement s 1 [i]).1 _ [] (by simpa using hp) (.inl rfl) (by
      rw [List.foldlM_cons, hstep]; rfl)]
  rfl

/-- A line of 1024 characters or more ends the reading: nothing after it is read, and nothing is reported. -/
theorem C70_long_line_fails {α : Type} (body : α → Line → Option α) (a : α) (l : Line) (hl : 1024 ≤ l.length)
    (more : List Line) : sectionLoop body a (l :: more) = some (a, l.take 1023, []) := by
  rw [sectionLoop, if_pos hl]

/-- Ids beyond the 32-bit range are reduced to it without notice: `4294967297` is read as `1`. -/
theorem C70_wrap_fails (k : Nat) (hk : k < 2 ^ 31) (r : List Byte) (hr : ∀ c ∈ r.head?, isDigit c = false) :
    strto32 (digits (2 ^ 32 + k) ++ r) = k := by
  obtain ⟨c, t, hct⟩ := List.exists_cons_of_ne_nil (digits_ne (2 ^ 32 + k))
  have hc := digits_digit (2 ^ 32 + k) c (by rw [hct]; simp)
  obtain ⟨hc1, hc2, hc3, hc4⟩ := digit_ne c hc.1 hc.2
  have hval : readDigits 0 (digits (2 ^ 32 + k) ++ r) = 2 ^ 32 + k := by
    rw [readDigits_digits]
    cases r with
    | nil => rfl
    | cons x r => rw [readDigits, hr x rfl]; rfl
  unfold strto32 strtol
  rw [hct, List.cons_append] at hval ⊢
  rw [List.dropWhile_cons_of_neg (by simp [hc1])]
  dsimp only
  rw [if_neg hc3, if_neg hc4, hval, if_neg (by omega), if_neg (by omega), Int.bmod_def]
  split_ifs <;> omega

/-- A number format for the example: `0` or not `0`. -/
def flt01 (l : List Byte) : ℤ := if l.head? = some 48 then 0 else 1

/-- A comment, one vertex `1,0,1,0`, one triangle `1, 1,1,1`, one set `A` with `1,`. -/
example : File flt01 [(0, 1, 0)] [(5, [[0, 0, 0]])] [⟨[65], [0], []⟩]
    [[42, 42], [42, 78, 79, 68, 69], [49, 44, 48, 44, 49, 44, 48],
     [42, 69, 76, 69, 77, 69, 78, 84, 44, 32, 116, 121, 112, 101, 61, 67, 80, 83, 51], [49, 44, 32, 49, 44, 49, 44, 49],
     [42, 69, 76, 83, 69, 84, 44, 69, 76, 83, 69, 84, 61, 65], [49, 44]] where
  shape := by
    have f : IdField 0 [49] := ⟨[], [], by simp, by simp, by simp [digits]⟩
    have f' : IdField 0 [32, 49] := ⟨[32], [], by simp [isSpace], by simp, by simp [digits]⟩
    have d0 : Denotes flt01 [48] 0 := ⟨by simp, by simp, by simp [flt01], by simp [flt01]⟩
    have d1 : Denotes flt01 [49] 1 := ⟨by simp, by simp, by simp [flt01], by simp [flt01]⟩
    refine ⟨[[42, 42]], [42, 78, 79, 68, 69], [[49, 44, 48, 44, 49, 44, 48]],
      [[[42, 69, 76, 69, 77, 69, 78, 84, 44, 32, 116, 121, 112, 101, 61, 67, 80, 83, 51], [49, 44, 32, 49, 44, 49, 44, 49]]],
      [[[42, 69, 76, 83, 69, 84, 44, 69, 76, 83, 69, 84, 61, 65], [49, 44]]], rfl, ?_, by simp, rfl, by simp, ?_, ?_, ?_, ?_⟩
    · intro l hl
      simp only [List.mem_singleton] at hl
      subst hl
      exact ⟨by simp, rfl, rfl, rfl⟩
    · simp [Plain]
    · exact .cons ⟨[49], [48], [49], [48], by simp, by simp, d0, d1, d0, rfl⟩ .nil
    · refine .cons ⟨51, [], [[49, 44, 32, 49, 44, 49, 44, 49]], by simp, rfl, by simp [hdrElement], by simp, by simp [Plain],
        .cons ⟨[49], [[32, 49], [49], [49]], by simp, by simp, by simp, .cons f' (.cons f (.cons f .nil)), rfl⟩ .nil, ?_, by simp⟩ .nil
      intro c hc
      simp only [List.mem_singleton] at hc
      subst hc
      decide
    · exact .cons ⟨[[49, 44]], [[0]], rfl, by simp [hdrElset], by simp, by simp [Plain],
        .cons ⟨[[49]], [], .cons f .nil, by simp, rfl⟩ .nil, rfl, by simp⟩ .nil
  nodata := by simp
  nonempty := by simp
  names := by simp

end Verif.Abaqus
