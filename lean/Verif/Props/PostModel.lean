import Verif.Lemmas.PostTools

/-!
# C104: mean chord lengths and edge lengths of a model, in the order of its fine cells
-/

namespace Verif.Post

open Verif.Mpact Verif.Polytope Verif.CmfdInfo Verif.ModelSoup
open Verif.Pin (Mesh)
open Verif.ElemTypes (MeshType)
open Verif.XSLib (Res)

set_option linter.unusedSectionVars false
variable {K M : Type} [Field K] [LinearOrder K]

/-- Every coarse cell, placed or not, has a mesh. -/
def AllMeshed (s : Model K M) : Prop := ∀ cell ∈ s.cells, cell.meshId ≠ -1

/-- The numbers of sides of the faces of a coarse cell. -/
def sides (s : Model K M) (c : Nat) : Nat :=
  match s.cells[c]? with
  | none => 0
  | some cell => if cell.meshType = 3 ∨ cell.meshType = 6 then 3 else 4

theorem chk_ok (z : ℤ) (h0 : 0 ≤ z) (h1 : z < 2 ^ 31) : chk z = some z := by
  unfold chk
  rw [if_pos (by constructor <;> omega)]

theorem meshOf_eq {s : Model K M} {c : Nat} {cell : CoarseCell K} (hc : s.cells[c]? = some cell) {l : List (Mesh K)} {mesh : Mesh K}
    (h1 : s.meshes cell.meshType = some l) (h2 : at? l cell.meshId = some mesh) : meshOf s c = mesh := by
  unfold meshOf
  rw [hc, Option.bind_some, h1, Option.bind_some, (at?_eq.1 h2).2]
  rfl

theorem res_of {α : Type} (a : α) : Res.ofOption (some a) = .ok a := rfl
theorem res_bind {α β : Type} (a : α) (f : α → Res β) : (Res.ok a).bind f = f a := rfl

/-- **C104.**  For a model all of whose cells have meshes, extract_meanchordlength writes one number for each fine cell of the core:
the mean chord lengths of the faces of the coarse cells, in the order of the hierarchy; the same as `getMeanChordLengths`. -/
theorem C104_chords_partial (chord : Mesh K → Nat → K) (junk : K) (s : Model K M) (h : Valid s) (hm : AllMeshed s)
    (hsize : (placedFineCells s).length < 2 ^ 31) :
    chordList chord junk s = .ok ((placedCells s).flatMap fun c => (List.range (meshOf s c.toNat).faces.length).map (chord (meshOf s c.toNat))) ∧
    (chordList chord junk s = .ok ((getMeanChordLengths chord s).getD []) ∧ (getMeanChordLengths chord s).isSome) ∧
    ∃ l, chordList chord junk s = .ok l ∧ l.length = (placedFineCells s).length := by
  have hcell : ∀ (c : Nat) (cell : CoarseCell K), s.cells[c]? = some cell → chordsOf chord junk s cell =
      .ok ((List.range (meshOf s c).faces.length).map (chord (meshOf s c))) := by
    intro c cell hc
    obtain ⟨mesh, h1, h2, -⟩ := (h.cell cell (List.mem_of_getElem? hc)).2.2 (hm cell (List.mem_of_getElem? hc))
    obtain ⟨l, hl, hml⟩ := isMeshOf_meshes h1
    unfold chordsOf
    rw [hl]
    dsimp only
    rw [hml, res_of, res_bind, meshOf_eq hc hl hml, ← h2, fill_all, res_of]
  have hat : ∀ c ∈ placedCells s, at? (s.cells.map fun cell => match chordsOf chord junk s cell with | .ok l => l | _ => []) c =
      some ((List.range (meshOf s c.toNat).faces.length).map (chord (meshOf s c.toNat))) := by
    intro c hc
    obtain ⟨h0, h1⟩ := placed_range s h c hc
    obtain ⟨cell, hcell', -⟩ := at?_of_lt h0 h1
    have hg := (at?_eq.1 hcell').2
    rw [at?_eq]
    refine ⟨h0, ?_⟩
    rw [List.getElem?_map, hg, Option.map_some, hcell c.toNat cell hg]
  have hper : perCell (chordsOf chord junk s) s = .ok (s.cells.map fun cell => match chordsOf chord junk s cell with | .ok l => l | _ => []) := by
    apply perCell_ok
    intro cell hc
    obtain ⟨c, hlt, rfl⟩ := List.getElem_of_mem hc
    rw [hcell c _ (List.getElem?_eq_getElem hlt)]
  obtain ⟨g, hg1, hg2, hg3⟩ := C59_chords_partial chord s h (fun c hc cell hcell => hm cell (List.mem_of_getElem? hcell)) hsize
  have hgeq : ∀ c ∈ placedCells s, g c = (List.range (meshOf s c.toNat).faces.length).map (chord (meshOf s c.toNat)) := by
    intro c hc
    obtain ⟨cell, mesh, e1, e2, e3⟩ := hg1 c hc
    obtain ⟨l, hl, hml⟩ := isMeshOf_meshes e2
    rw [e3, meshOf_eq e1 hl hml]
  have hflat : (placedCells s).flatMap g = (placedCells s).flatMap fun c => (List.range (meshOf s c.toNat).faces.length).map (chord (meshOf s c.toNat)) := by
    rw [List.flatMap_def, List.flatMap_def]
    congr 1
    exact List.map_congr_left hgeq
  have htot := (C59_totals s h).2.2.2.2
  rw [total32, if_pos (by exact_mod_cast hsize)] at htot
  have main : chordList chord junk s = .ok ((placedCells s).flatMap g) := by
    unfold chordList
    rw [htot, res_of, res_bind, hper, res_bind, walk_eq s h, Int.toNat_natCast]
    have w : Writes (fun c => c ∈ placedCells s) (fun (c : ℤ) (st : List K × Nat) =>
        (at? (s.cells.map fun cell => match chordsOf chord junk s cell with | .ok l => l | _ => []) c).bind fun l =>
          (copyInto st.1 st.2 l).map fun b => (b, st.2 + l.length)) g := by
      intro c hc done rest hr
      dsimp only
      rw [hat c hc, Option.bind_some, ← hgeq c hc]
      unfold copyInto
      rw [if_pos (by rw [List.length_append]; omega), Option.map_some, List.take_left, ← List.drop_drop, List.drop_left, List.length_append]
    have := forIds_eq w (placedCells s) [] (List.replicate (placedFineCells s).length junk) (fun _ hi => hi) (by
      rw [hg3, List.length_replicate])
    rw [hg3, List.nil_append, List.nil_append, List.drop_replicate, Nat.sub_self, List.replicate_zero, List.append_nil, List.length_nil] at this
    rw [this, res_of, res_bind]
  refine ⟨by rw [main, hflat], ⟨by rw [main, hg2]; rfl, by rw [hg2]; rfl⟩, _, main, hg3⟩

/-- **C104.**  Line `i` of the file belongs to element `i` of the soup of the model (property C99): the numbers are the values of the set
`Mean_Chord_Length`. -/
theorem C104_elements_partial (chord : Mesh K → Nat → K) (recip : K → K) (lt : Name → Name → Bool) (xsec : M → Phys.XSec K) (junk : K) (s : Model K M)
    (h : Valid s) (hb : ModelXdmf.Built s s.cells.length) (hm : AllMeshed s) (hsize : (placedFineCells s).length < 2 ^ 31)
    (soup : CSoup K) (L : List (Tile K)) (els : List (ℤ × List Nat)) (sets : List (ElSet Name K)) (hs : IsSoup chord recip lt xsec s soup L els sets) :
    ∃ e ∈ sets, e.name = bytes "Mean_Chord_Length" ∧ e.ids = List.range els.length ∧ chordList chord junk s = .ok e.data := by
  obtain ⟨e, he, h1, h2, h3, h4⟩ := hs.chordLength
  refine ⟨e, he, h1, h2, ?_⟩
  rw [(C104_chords_partial chord junk s h hm hsize).1]
  congr 1
  have hd : e.data = L.flatMap fun t => (List.range (nf s t)).map (chord (meshOf s t.id)) := by
    refine data_eq (nf s) _ (fun t => by simp) L e.data (by rw [h3, hs.count]) ?_
    intro A t B f hL hf
    rw [h4 _ t f ⟨A, B, hL, hf, rfl⟩, List.getElem?_map, List.getElem?_range hf]
    rfl
  have ho : L.map (fun t => t.id) = (placedCells s).map Int.toNat := by
    rw [← visits_placed s hb, ← hs.order, List.map_map]
    rfl
  have e1 : (L.flatMap fun t => (List.range (nf s t)).map (chord (meshOf s t.id))) =
      (L.map fun t => t.id).flatMap fun c => (List.range (meshOf s c).faces.length).map (chord (meshOf s c)) := by
    rw [List.flatMap_map]; rfl
  rw [hd, e1, ho, List.flatMap_map]

/-- **C104.**  extract_edge_length writes the lengths of the sides of the faces of the coarse cells: three for each triangle, four for
each quadrilateral, face by face, in the order of the hierarchy. -/
theorem C104_edges_partial (len : Mesh K → Nat → Nat → K) (junk : K) (s : Model K M) (h : Valid s) (hm : AllMeshed s)
    (hsize : 4 * (placedFineCells s).length < 2 ^ 31) (hcells : ∀ cell ∈ s.cells, 4 * cell.mats.length < 2 ^ 31) :
    edgeList len junk s = .ok ((placedCells s).flatMap fun c => (List.range (meshOf s c.toNat).faces.length).flatMap fun f =>
      (List.range (sides s c.toNat)).map (len (meshOf s c.toNat) f)) := by
  have hcell : ∀ (c : Nat) (cell : CoarseCell K), s.cells[c]? = some cell → edgesOf len junk s cell =
      .ok ((List.range (meshOf s c).faces.length).flatMap fun f => (List.range (sides s c)).map (len (meshOf s c) f)) := by
    intro c cell hc
    obtain ⟨mesh, h1, h2, -⟩ := (h.cell cell (List.mem_of_getElem? hc)).2.2 (hm cell (List.mem_of_getElem? hc))
    obtain ⟨l, hl, hml⟩ := isMeshOf_meshes h1
    have hw : edgesPerFace cell.meshType = sides s c := by
      unfold sides
      rw [hc]
      dsimp only
      rcases h1.2 with ⟨ht, -⟩ | ⟨ht, -⟩ | ⟨ht, -⟩ | ⟨ht, -⟩ <;> rw [ht] <;> decide
    have hle : sides s c ≤ 4 := by
      unfold sides
      rw [hc]
      dsimp only
      split_ifs <;> omega
    have hs := hcells cell (List.mem_of_getElem? hc)
    have hn : sides s c * cell.mats.length ≤ 4 * cell.mats.length := Nat.mul_le_mul_right _ hle
    unfold edgesOf
    rw [hl]
    dsimp only
    rw [hw, chk_ok _ (by positivity) (by exact_mod_cast lt_of_le_of_lt hn hs), res_of, res_bind, hml, res_of, res_bind, meshOf_eq hc hl hml]
    have e : ((sides s c : ℤ) * (cell.mats.length : ℤ)).toNat = mesh.faces.length * sides s c := by
      rw [h2, Nat.mul_comm]; exact_mod_cast Int.toNat_natCast (sides s c * cell.mats.length)
    rw [e, fill_rows _ _ _ _ (by rw [List.length_replicate]), List.drop_replicate, Nat.sub_self, List.replicate_zero, List.append_nil, res_of]
  have hper : perCell (edgesOf len junk s) s = .ok (s.cells.map fun cell => match edgesOf len junk s cell with | .ok l => l | _ => []) := by
    apply perCell_ok
    intro cell hc
    obtain ⟨c, hlt, rfl⟩ := List.getElem_of_mem hc
    rw [hcell c _ (List.getElem?_eq_getElem hlt)]
  have htot := (C59_totals s h).2.2.2.2
  rw [total32, if_pos (by push_cast at hsize ⊢; omega)] at htot
  unfold edgeList
  rw [htot, Option.bind_some, chk_ok _ (by positivity) (by exact_mod_cast hsize), res_of, res_bind, hper, res_bind, walk_eq s h]
  rw [forIds_push _ (fun c => (List.range (meshOf s c.toNat).faces.length).flatMap fun f =>
      (List.range (sides s c.toNat)).map (len (meshOf s c.toNat) f))]
  · rw [List.nil_append, res_of]
  · intro c hc st
    obtain ⟨h0, h1⟩ := placed_range s h c hc
    obtain ⟨cell, hcell', -⟩ := at?_of_lt h0 h1
    have hg := (at?_eq.1 hcell').2
    have : at? (s.cells.map fun cell => match edgesOf len junk s cell with | .ok l => l | _ => []) c =
        some ((List.range (meshOf s c.toNat).faces.length).flatMap fun f => (List.range (sides s c.toNat)).map (len (meshOf s c.toNat) f)) := by
      rw [at?_eq]
      refine ⟨h0, ?_⟩
      rw [List.getElem?_map, hg, Option.map_some, hcell c.toNat cell hg]
    rw [this, Option.map_some]

/-! ### Cells without mesh -/

/-- The result of building a model. -/
def built (ops : List (Op ℚ String)) : Option (Model ℚ String) := (exRun ops).map (·.1)

/-- Two cells with meshes in the core. -/
def goodOps : List (Op ℚ String) :=
  [.material "fuel", .quadMesh exMesh, .coarseCell (1, 1) MeshType.Quad 0 [0], .rtm [[0, 0]], .lattice [[0]], .assembly [0] [0, 10], .core [[0]]]

/-- The same with a third cell that is used nowhere and has no mesh. -/
def spareOps : List (Op ℚ String) :=
  [.material "fuel", .quadMesh exMesh, .coarseCell (1, 1) MeshType.Quad 0 [0], .coarseCell (1, 1) MeshType.Invalid (-1) [0], .rtm [[0, 0]],
    .lattice [[0]], .assembly [0] [0, 10], .core [[0]]]

deriving instance DecidableEq for Res

/-- **C104** is false with a coarse cell without mesh, even if the cell is used nowhere: the program ends, although the mean chord
lengths of the core are there. -/
theorem C104_unplaced_fails :
    (built spareOps).map (fun s => (placedCells s, getMeanChordLengths (fun _ _ => 7) s, chordList (fun _ _ => 7) 0 s, edgeList (fun _ _ _ => 1) 0 s)) =
      some ([0, 0], some [7, 7], .refused, .refused) := by
  decide +kernel

/-- The theorems apply to a core of two cells. -/
example : (built goodOps).map (fun s => ((placedCells s, placedFineCells s, s.cells.map (·.meshId)), chordList (fun _ _ => 7) 0 s,
    edgeList (fun _ f e => (f : ℚ) + e) 0 s)) =
    some (([0, 0], [0, 0], [0]), .ok [7, 7], .ok [0, 1, 2, 3, 0, 1, 2, 3]) := by
  decide +kernel

theorem valid2 : Valid soup2 where
  core := by decide +kernel
  assembly := by
    intro a ha
    have : a = ⟨[0, 1, 3], [0, 1]⟩ := by simpa [soup2, core2, PropsModelXdmf.twoLattices, PropsModelXdmf.sample] using ha
    subst this
    decide +kernel
  lattice := by decide +kernel
  rtm := by decide +kernel
  cell := by
    intro c hc
    have : c = ⟨(1, 1), 4, 0, [0, 0]⟩ := by simpa [soup2, core2] using hc
    subst this
    exact ⟨by decide +kernel, by decide +kernel, fun _ => ⟨_, ⟨by decide, Or.inr (Or.inl ⟨rfl, rfl⟩)⟩, rfl, by decide⟩⟩

/-- The hypotheses of `C104_elements_partial` are met, by the case of property C99: two lattices with twelve fine cells. -/
example : ∃ sets : List (ElSet Name ℚ), ∃ e ∈ sets, chordList demoEnv.chord 0 soup2 = .ok e.data := by
  obtain ⟨soup, L, els, sets, -, hs⟩ := C99_soup_partial demoEnv nameLt demo_sorts _ soup2 sound2 (few_of_length _ (by decide +kernel))
    (few_of_length _ (by decide +kernel)) (few_of_length _ (by decide +kernel)) (few_of_length _ (by decide +kernel))
  obtain ⟨e, he, -, -, h⟩ := C104_elements_partial demoEnv.chord demoEnv.recip nameLt _ 0 soup2 valid2 sound2.built
    (by unfold AllMeshed; decide +kernel) (by decide +kernel)
    soup L els sets hs
  exact ⟨sets, e, he, h⟩

end Verif.Post
