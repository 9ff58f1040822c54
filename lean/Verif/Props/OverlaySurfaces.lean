import Verif.Props.OverlayGroups
import Verif.Model.OverlaySurfaces

/-!
# The coarse grid in three dimensions (C93)
-/

namespace Verif.OverlaySurfaces

open Verif.XSLib (Res)
open Verif.Gmsh hiding Group
open Verif.GmshSpec
open Verif.GmshGroups
open Verif.Overlay
open Verif.OverlayGroupsSpec
open Verif.OverlayGroups

variable {C : Type}

/-- What the step finds: groups of volumes only, the surfaces around them among the surfaces of the model, new rectangles. -/
structure Setting3 (adj : ℤ → List ℤ) (s : Gm Name C) (model grid : List ℤ) (map : List (List DimTag)) (all : List ℤ)
    (mats : List (Name × C)) : Prop where
  wf : WF s
  dim : ∀ g ∈ s.groups, g.dim = 3
  distinct : Distinct s 3
  mats : mats ≠ [] ∧ (mats.map (·.1)).Nodup
  objs : model ≠ [] ∧ model.Pairwise (· < ·)
  tools : grid ≠ [] ∧ grid.Pairwise (· < ·)
  new : ∀ t ∈ grid, t ∉ model
  faces : ∀ n v, In s 3 n v → ∀ f ∈ adj v, f ∈ model
  full : map.length = model.length + grid.length
  sorted : all.Pairwise (· < ·)
  after : ∀ c ∈ map.flatten, c.2 ∈ all
  some : ∃ n v f f', In s 3 n v ∧ f ∈ adj v ∧ f' ∈ pieces 2 model grid map f

/-- Surface `f` is a piece of the boundary of volume `v`. -/
def Bounds (adj : ℤ → List ℤ) (model grid : List ℤ) (map : List (List DimTag)) (v f : ℤ) : Prop :=
  ∃ f0 ∈ adj v, f ∈ pieces 2 model grid map f0

theorem around_spec (adj : ℤ → List ℤ) (ents : List ℤ) (f : ℤ) : f ∈ around adj ents ↔ ∃ v ∈ ents, f ∈ adj v := by
  unfold around
  rw [mem_foldl_insertTag]
  simp

theorem surfaceGroups_spec (adj : ℤ → List ℤ) : ∀ (gs : List (Gmsh.Group Name)) (s : Gm Name C), WF s → Distinct s 2 →
    (gs.map (·.name)).Nodup → (∀ g ∈ gs, ∀ e, ¬ In s 2 g.name e) →
    WF (surfaceGroups adj gs s) ∧ Distinct (surfaceGroups adj gs s) 2 ∧ (surfaceGroups adj gs s).color = s.color ∧
    ∀ n f, In (surfaceGroups adj gs s) 2 n f ↔ In s 2 n f ∨ ∃ g ∈ gs, g.name = n ∧ ∃ v ∈ g.ents, f ∈ adj v := by
  intro gs
  induction gs with
  | nil => intro s hw hd _ _; exact ⟨hw, hd, rfl, by simp [surfaceGroups]⟩
  | cons g gs ih =>
    intro s hw hd hn hfree
    have hadd : addToPhysicalGroup s 2 (around adj g.ents) (-1) g.name = .ok (s.add 2 (around adj g.ents) (-1) g.name) := by
      refine add_new s 2 _ g.name ?_
      rintro g' hg' ⟨h1, h2⟩
      obtain ⟨e, es, he⟩ := List.exists_cons_of_ne_nil (hw.ents g' hg').2
      exact hfree g (by simp) e ⟨g', hg', h1, h2, by rw [he]; simp⟩
    obtain ⟨h1, h2, h3, h4⟩ := C89_add s _ hw 2 hd _ g.name hadd
    rw [List.map_cons, List.nodup_cons] at hn
    obtain ⟨h5, h6, h7, h8⟩ := ih (s.add 2 (around adj g.ents) (-1) g.name) h1 h2 hn.2 (by
      intro g' hg' e hin
      rcases (h4 2 g'.name e).1 hin with h | ⟨_, h, _⟩
      · exact hfree g' (by simp [hg']) e h
      · exact hn.1 (h ▸ List.mem_map.2 ⟨g', hg', rfl⟩))
    refine ⟨h5, h6, h7.trans h3, fun n f => ?_⟩
    rw [surfaceGroups, h8, h4, around_spec]
    constructor
    · rintro ((h | ⟨_, h, h'⟩) | ⟨g', hg', h, h'⟩)
      · exact Or.inl h
      · exact Or.inr ⟨g, by simp, h.symm, h'⟩
      · exact Or.inr ⟨g', by simp [hg'], h, h'⟩
    · rintro (h | ⟨g', hg', h, h'⟩)
      · exact Or.inl (Or.inl h)
      · rcases List.mem_cons.1 hg' with rfl | hg'
        · exact Or.inl (Or.inr ⟨rfl, h.symm, h'⟩)
        · exact Or.inr ⟨g', hg', h, h'⟩

theorem sorted_foldl (xs : List ℤ) : (xs.foldl insertTag []).Pairwise (· < ·) := sorted_foldl_insertTag xs [] List.Pairwise.nil

theorem gridChildren_spec (model grid : List ℤ) (map : List (List DimTag)) (hnew : ∀ t ∈ grid, t ∉ model) (hnd : grid.Nodup)
    (hfull : map.length = model.length + grid.length) (f : ℤ) :
    f ∈ gridChildren model.length grid.length map ↔ InGrid 2 model grid map f := by
  unfold gridChildren
  rw [mem_foldl_insertTag]
  simp only [List.not_mem_nil, false_or]
  have hfind : ∀ (j : Nat) t, grid[j]? = some t →
      (model.map (fun t => ((2, t) : DimTag)) ++ grid.map fun t => ((2, t) : DimTag)).findIdx? (fun x => x.2 == t) = some (model.length + j) := by
    intro j t ht
    have hj := (List.getElem?_eq_some_iff.1 ht).1
    have hjt := (List.getElem?_eq_some_iff.1 ht).2
    rw [List.findIdx?_append]
    have h1 : (model.map (fun t => ((2, t) : DimTag))).findIdx? (fun x => x.2 == t) = none := by
      rw [List.findIdx?_eq_none_iff]
      intro x hx
      obtain ⟨t', ht', rfl⟩ := List.mem_map.1 hx
      simp only [beq_eq_false_iff_ne, ne_eq]
      rintro rfl
      exact hnew t' (List.mem_of_getElem? ht) ht'
    have h2 : (grid.map (fun t => ((2, t) : DimTag))).findIdx? (fun x => x.2 == t) = some j := by
      rw [List.findIdx?_eq_some_iff_getElem]
      refine ⟨by simpa using hj, by simp [hjt], fun i hi => ?_⟩
      simp only [List.getElem_map, beq_iff_eq]
      intro h
      have := (List.Nodup.getElem_inj_iff hnd).1 (h.trans hjt.symm)
      omega
    rw [h1, h2]
    simp [Nat.add_comm]
  constructor
  · intro h
    obtain ⟨c, hc, rfl⟩ := List.mem_map.1 h
    obtain ⟨l, hl, hcl⟩ := List.mem_flatten.1 hc
    obtain ⟨j, hj⟩ := List.mem_iff_getElem?.1 hl
    have hjlt : j < grid.length := by
      have := (List.getElem?_eq_some_iff.1 hj).1
      simp at this; omega
    rw [List.getElem?_take_of_lt hjlt, List.getElem?_drop] at hj
    refine ⟨grid[j], List.getElem_mem hjlt, ?_⟩
    unfold pieces become
    rw [hfind j _ (List.getElem?_eq_getElem hjlt)]
    refine List.mem_map.2 ⟨c, ?_, rfl⟩
    rw [List.getD_eq_getElem?_getD, hj]
    exact hcl
  · rintro ⟨t, ht, hf⟩
    obtain ⟨j, hj⟩ := List.mem_iff_getElem?.1 ht
    have hjlt := (List.getElem?_eq_some_iff.1 hj).1
    unfold pieces become at hf
    rw [hfind j t hj] at hf
    obtain ⟨c, hc, rfl⟩ := List.mem_map.1 hf
    refine List.mem_map.2 ⟨c, List.mem_flatten.2 ?_, rfl⟩
    rw [List.getD_eq_getElem?_getD] at hc
    cases hk : map[model.length + j]? with
    | none => rw [hk] at hc; simp at hc
    | some l =>
      rw [hk] at hc
      refine ⟨l, List.mem_iff_getElem?.2 ⟨j, ?_⟩, hc⟩
      rw [List.getElem?_take_of_lt hjlt, List.getElem?_drop, hk]

theorem surfaces_members (clos : DimTag → List DimTag) (adj : ℤ → List ℤ) (s : Gm Name C) (model grid : List ℤ)
    (map : List (List DimTag)) (all : List ℤ) (mats : List (Name × C)) (S : Setting3 adj s model grid map all mats) :
    ∃ s' gone, overlaySurfaces clos adj s model grid map all mats = .ok (s', gone) ∧
      (∀ f, f ∈ gone ↔ f ∈ all ∧ ¬ InGrid 2 model grid map f) ∧
      (∀ d n f, In s' d n f → d = 2 ∧ InGrid 2 model grid map f) ∧
      ∀ n f, In s' 2 n f ↔ InGrid 2 model grid map f ∧ (∃ v, In s 3 n v ∧ Bounds adj model grid map v f) ∧
        ∀ m, [m, n].Sublist (mats.map fun m => material m.1) → ¬ ∃ v, In s 3 m v ∧ Bounds adj model grid map v f := by
  have hno2 : ∀ n e, ¬ In s 2 n e := by
    rintro n e ⟨g, hg, h, _⟩
    have := S.dim g hg; omega
  have hnames : (s.groups.map (·.name)).Nodup := by
    refine List.Nodup.map_on ?_ ?_
    · intro g hg g' hg' h
      exact S.distinct g hg g' hg' (S.dim g hg) (S.dim g' hg') h
    · exact S.wf.sorted.imp fun {a b} h => by rintro rfl; omega
  obtain ⟨k1, k2, k3, k4⟩ := surfaceGroups_spec adj s.groups s S.wf (by
    intro g hg _ _ h; have := S.dim g hg; omega) hnames (fun g _ e => hno2 g.name e)
  have hin1 : ∀ n f, In (surfaceGroups adj s.groups s) 2 n f ↔ ∃ v, In s 3 n v ∧ f ∈ adj v := by
    intro n f
    rw [k4]
    constructor
    · rintro (h | ⟨g, hg, hn, v, hv, hf⟩)
      · exact absurd h (hno2 n f)
      · exact ⟨v, ⟨g, hg, S.dim g hg, hn, hv⟩, hf⟩
    · rintro ⟨v, ⟨g, hg, _, hn, hv⟩, hf⟩
      exact Or.inr ⟨g, hg, hn, v, hv, hf⟩
  have hsorted : grid.insertionSort (· ≤ ·) = grid := List.Pairwise.insertionSort_eq (S.tools.2.imp fun h => le_of_lt h)
  have hac : Accepted (model.map fun t => (2, t)) (grid.map fun t => (2, t)) 2 := by
    refine ⟨⟨by simpa using S.objs.1, by rw [pairwise_snd]; exact S.objs.2⟩, ⟨by simpa using S.tools.1, by rw [pairwise_snd]; exact S.tools.2⟩,
      ?_, Or.inl rfl⟩
    intro x hx
    rcases List.mem_append.1 hx with hx | hx <;> (obtain ⟨t, _, rfl⟩ := List.mem_map.1 hx; rfl)
  have hlen : map.length = (model.map fun t => ((2, t) : DimTag)).length + (grid.map fun t => ((2, t) : DimTag)).length := by
    simpa using S.full
  have hmats : (mats.map fun m => (material m.1, m.2)).map (·.1) = mats.map fun m => material m.1 := by
    simp [Function.comp_def]
  have hnd : ((mats.map fun m => (material m.1, m.2)).map (·.1)).Nodup := by
    have : (mats.map fun m => (material m.1, m.2)).map (·.1) = (mats.map (·.1)).map material := by simp [Function.comp_def]
    rw [this]
    exact S.mats.2.map fun _ _ h => material_inj h
  obtain ⟨s0, h0⟩ := C89_defined clos (surfaceGroups adj s.groups s) _ _ map 2 k1 hac hlen
  obtain ⟨s2, h2⟩ := (C90_defined clos (surfaceGroups adj s.groups s) _ _ map (mats.map fun m => (material m.1, m.2)) 2 k1 k2 hac hlen hnd).1 (by
    right
    obtain ⟨n, v, f, f', a1, a2, a3⟩ := S.some
    exact ⟨n, f, f', (hin1 n f).2 ⟨v, a1, a2⟩, a3⟩)
  have hmem := C89_members clos _ s0 _ _ map 2 k1 hac hlen h0
  have hhier := C90_hierarchy clos _ s0 s2 _ _ map _ 2 k1 k2 hac hlen hnd h0 h2
  obtain ⟨_, _, g3⟩ := C90_groups clos _ s2 _ _ map _ 2 k1 k2 hac hlen hnd h2
  have hmem0 : ∀ n f, In s0 2 n f ↔ ∃ v, In s 3 n v ∧ Bounds adj model grid map v f := by
    intro n f
    rw [hmem]
    constructor
    · rintro ⟨f0, h, hf⟩
      obtain ⟨v, hv, hf0⟩ := (hin1 n f0).1 h
      exact ⟨v, hv, f0, hf0, hf⟩
    · rintro ⟨v, hv, f0, hf0, hf⟩
      exact ⟨f0, (hin1 n f0).2 ⟨v, hv, hf0⟩, hf⟩
  have hgone : ∀ f, f ∈ setDiff all (gridChildren model.length grid.length map) ↔ f ∈ all ∧ ¬ InGrid 2 model grid map f := by
    intro f
    have hso : (gridChildren model.length grid.length map).Pairwise (· < ·) := sorted_foldl _
    rw [mem_setDiff _ _ _ S.sorted hso, gridChildren_spec model grid map S.new (S.tools.2.imp fun h => ne_of_lt h) S.full]
  have hall : ∀ n f, In s2 2 n f → f ∈ all := by
    intro n f hin
    obtain ⟨v, hv, f0, hf0, hf⟩ := (hmem0 n f).1 ((hhier n f).1 hin).1
    obtain ⟨c, hc, rfl⟩ := List.mem_map.1 (pieces_flat 2 model grid map f0 f (Or.inl (S.faces n v hv f0 hf0)) hf)
    exact S.after c hc
  have hfin : ∀ n f, In (removeEnts s2 2 (setDiff all (gridChildren model.length grid.length map))) 2 n f ↔
      In s2 2 n f ∧ InGrid 2 model grid map f := by
    intro n f
    rw [removeEnts_in]
    constructor
    · rintro ⟨h, h'⟩
      refine ⟨h, ?_⟩
      by_contra hno
      exact h' rfl ((hgone f).2 ⟨hall n f h, hno⟩)
    · rintro ⟨h, h'⟩
      exact ⟨h, fun _ hg => ((hgone f).1 hg).2 h'⟩
  refine ⟨removeEnts s2 2 (setDiff all (gridChildren model.length grid.length map)), setDiff all (gridChildren model.length grid.length map),
    ?_, hgone, ?_, ?_⟩
  · unfold overlaySurfaces
    rw [hsorted]
    show Res.bind (groupPreserving clos _ _ _ map (mats.map fun m => (material m.1, m.2))) _ = _
    rw [h2]
    show (if map.length < model.length + grid.length then _ else _) = _
    rw [if_neg (by have := S.full; omega)]
  · rintro d' n f hin
    have hin4 := ((removeEnts_in _ _ _ _ _ _).1 hin).1
    have hd : d' = 2 := by
      obtain ⟨g, hg, hgd, _⟩ := hin4
      obtain ⟨_, _, _, h, _⟩ := g3 g hg
      exact hgd ▸ h
    subst hd
    exact ⟨rfl, ((hfin n f).1 hin).2⟩
  · intro n f
    rw [hfin, hhier, hmem0, hmats]
    constructor
    · rintro ⟨⟨a, b⟩, c⟩
      exact ⟨c, a, fun m hm h => b m hm ((hmem0 m f).2 h)⟩
    · rintro ⟨c, a, b⟩
      exact ⟨⟨a, fun m hm h => b m hm ((hmem0 m f).1 h)⟩, c⟩

/-! ## C93 -/

/-- The step is defined. -/
theorem C93_defined (clos : DimTag → List DimTag) (adj : ℤ → List ℤ) (s : Gm Name C) (model grid : List ℤ) (map : List (List DimTag))
    (all : List ℤ) (mats : List (Name × C)) (S : Setting3 adj s model grid map all mats) :
    ∃ s' gone, overlaySurfaces clos adj s model grid map all mats = .ok (s', gone) := by
  obtain ⟨s', gone, h, _⟩ := surfaces_members clos adj s model grid map all mats S
  exact ⟨s', gone, h⟩

/-- Exactly the surfaces that are no children of the rectangles are removed, and no group has anything else. -/
theorem C93_removed (clos : DimTag → List DimTag) (adj : ℤ → List ℤ) (s s' : Gm Name C) (model grid : List ℤ)
    (map : List (List DimTag)) (all gone : List ℤ) (mats : List (Name × C)) (S : Setting3 adj s model grid map all mats)
    (h : overlaySurfaces clos adj s model grid map all mats = .ok (s', gone)) :
    (∀ f, f ∈ gone ↔ f ∈ all ∧ ¬ InGrid 2 model grid map f) ∧ ∀ d n f, In s' d n f → d = 2 ∧ InGrid 2 model grid map f := by
  obtain ⟨_, _, h0, h1, h2, _⟩ := surfaces_members clos adj s model grid map all mats S
  rw [h] at h0; cases h0
  exact ⟨h1, h2⟩

/-- A surface of the grid that bounds one volume only has exactly the groups of this volume, provided that the volume has at most
one material. -/
theorem C93_groups (clos : DimTag → List DimTag) (adj : ℤ → List ℤ) (s s' : Gm Name C) (model grid : List ℤ)
    (map : List (List DimTag)) (all gone : List ℤ) (mats : List (Name × C)) (S : Setting3 adj s model grid map all mats)
    (h : overlaySurfaces clos adj s model grid map all mats = .ok (s', gone)) (f v : ℤ) (hf : InGrid 2 model grid map f)
    (hv : Bounds adj model grid map v f) (hone : ∀ n v', In s 3 n v' → Bounds adj model grid map v' f → v' = v)
    (hmat : ∀ x y, In s 3 (material x) v → In s 3 (material y) v → x = y) (n : Name) : In s' 2 n f ↔ In s 3 n v := by
  obtain ⟨_, _, h0, _, _, h3⟩ := surfaces_members clos adj s model grid map all mats S
  rw [h] at h0; cases h0
  rw [h3]
  constructor
  · rintro ⟨_, ⟨v', h1, h2⟩, _⟩
    rw [← hone n v' h1 h2]; exact h1
  · intro hn
    refine ⟨hf, ⟨v, hn, hv⟩, ?_⟩
    rintro m hm ⟨v', h1, h2⟩
    rw [hone m v' h1 h2] at h1
    have hm1 : m ∈ mats.map fun m => material m.1 := hm.subset (by simp)
    have hn1 : n ∈ mats.map fun m => material m.1 := hm.subset (by simp)
    obtain ⟨a, _, rfl⟩ := List.mem_map.1 hm1
    obtain ⟨b, _, rfl⟩ := List.mem_map.1 hn1
    have hab := hmat _ _ h1 hn
    have hnd : ((mats.map fun m => material m.1)).Nodup := by
      have : (mats.map fun m => material m.1) = (mats.map (·.1)).map material := by simp [Function.comp_def]
      rw [this]
      exact S.mats.2.map fun _ _ h => material_inj h
    have := hnd.sublist hm
    rw [hab] at this
    simp at this

/-- A surface has at most one material of the list, however many volumes it bounds. -/
theorem C93_one (clos : DimTag → List DimTag) (adj : ℤ → List ℤ) (s s' : Gm Name C) (model grid : List ℤ)
    (map : List (List DimTag)) (all gone : List ℤ) (mats : List (Name × C)) (S : Setting3 adj s model grid map all mats)
    (h : overlaySurfaces clos adj s model grid map all mats = .ok (s', gone)) (f : ℤ) (x y : Name)
    (hx : x ∈ mats.map (·.1)) (hy : y ∈ mats.map (·.1)) (h1 : In s' 2 (material x) f) (h2 : In s' 2 (material y) f) : x = y := by
  obtain ⟨_, _, h0, _, _, h3⟩ := surfaces_members clos adj s model grid map all mats S
  rw [h] at h0; cases h0
  obtain ⟨_, a1, b1⟩ := (h3 _ _).1 h1
  obtain ⟨_, a2, b2⟩ := (h3 _ _).1 h2
  by_contra hne
  have hor : ∀ l : List Name, x ∈ l → y ∈ l → [x, y].Sublist l ∨ [y, x].Sublist l := by
    intro l
    induction l with
    | nil => intro h; cases h
    | cons a l ih =>
      intro k1 k2
      rcases List.mem_cons.1 k1 with k3 | k3 <;> rcases List.mem_cons.1 k2 with k4 | k4
      · exact absurd (k3.trans k4.symm) hne
      · rw [k3]; exact Or.inl ((List.singleton_sublist.2 k4).cons_cons a)
      · rw [k4]; exact Or.inr ((List.singleton_sublist.2 k3).cons_cons a)
      · rcases ih k3 k4 with h | h
        · exact Or.inl (h.cons a)
        · exact Or.inr (h.cons a)
  have hmm : (mats.map fun m => material m.1) = (mats.map (·.1)).map material := by simp [Function.comp_def]
  rcases hor _ hx hy with h | h
  · exact b2 (material x) (by rw [hmm]; exact h.map material) a1
  · exact b1 (material y) (by rw [hmm]; exact h.map material) a2

/-- The two steps together: a surface of the grid that bounds one volume only, a fragment of box `i`, is in the group of coarse cell
`i` and in no other, and has exactly one material: one that the volume had before, or the fill material. -/
theorem C93_whole (clos : DimTag → List DimTag) (adj : ℤ → List ℤ) (s s1 s' : Gm Name C) (model cc model2 grid2 : List ℤ)
    (map map2 : List (List DimTag)) (all gone all2 gone2 : List ℤ) (fill : Name × C) (mats : List (Name × C))
    (S : Setting s 3 model cc map all) (h : overlay clos s 3 model cc map all fill = .ok (s1, gone))
    (T : Setting3 adj s1 model2 grid2 map2 all2 mats)
    (h' : overlaySurfaces clos adj s1 model2 grid2 map2 all2 mats = .ok (s', gone2))
    (hbox : ∀ a ∈ cc, ∀ b ∈ cc, ∀ v, v ∈ pieces 3 model cc map a → v ∈ pieces 3 model cc map b → a = b)
    (f v : ℤ) (hf : InGrid 2 model2 grid2 map2 f) (hv : Bounds adj model2 grid2 map2 v f)
    (hone : ∀ n v', In s1 3 n v' → Bounds adj model2 grid2 map2 v' f → v' = v) (i : Nat) (t : ℤ) (hi : cc[i]? = some t)
    (hvt : v ∈ pieces 3 model cc map t) :
    (∀ (j : Nat), j < cc.length → (In s' 2 (cell j) f ↔ j = i)) ∧
    ∃ x, In s' 2 (material x) f ∧ (∀ y, In s' 2 (material y) f → y = x) ∧ (x = fill.1 ∨ Was s 3 model cc map (material x) v) := by
  obtain ⟨x, h1, h2, h3⟩ := C92_one clos s s1 3 model cc map all gone fill S h v ⟨t, List.mem_of_getElem? hi, hvt⟩
  have key := C93_groups clos adj s1 s' model2 grid2 map2 all2 gone2 mats T h' f v hf hv hone
    (fun x' y' hx hy => (h2 x' hx).trans (h2 y' hy).symm)
  refine ⟨fun j hj => ?_, x, (key _).2 h1, fun y hy => h2 y ((key _).1 hy), h3⟩
  rw [key, C92_cells clos s s1 3 model cc map all gone fill S h j _ (List.getElem?_eq_getElem hj)]
  constructor
  · intro hvj
    have hti := (List.getElem?_eq_some_iff.1 hi)
    have heq := hbox _ (List.getElem_mem hj) t (List.mem_of_getElem? hi) v hvj hvt
    have hnd : cc.Nodup := S.cells.2.imp fun h => ne_of_lt h
    exact (List.Nodup.getElem_inj_iff hnd).1 (heq.trans hti.2.symm)
  · rintro rfl
    have hti := (List.getElem?_eq_some_iff.1 hi)
    rw [hti.2]; exact hvt

/-- Volumes 1 (material "A", cell 0) and 2 (material "B", cell 1) with bottoms 11 and 12 and a common wall 13; rectangles 14, 15. -/
def exT : Gm Name Nat := ⟨[⟨3, 1, material [65], [1]⟩, ⟨3, 2, material [66], [2]⟩, ⟨3, 3, cell 0, [1]⟩, ⟨3, 4, cell 1, [2]⟩], fun _ => 0⟩

def exAdj (v : ℤ) : List ℤ := if v = 1 then [11, 13] else [12, 13]

def exTMap : List (List DimTag) := [[(2, 21)], [(2, 22)], [], [(2, 21)], [(2, 22)]]

theorem exT_setting : Setting3 exAdj exT [11, 12, 13] [14, 15] exTMap [21, 22, 23] [([65], 1), ([66], 2)] := by
  refine ⟨⟨by unfold exT; decide, by unfold exT; decide, by unfold exT; decide +kernel⟩, by unfold exT; decide,
    by unfold Distinct exT; decide, by decide, by decide, by decide, by decide, ?_, by decide, by decide, by decide, ?_⟩
  · rintro n v ⟨g, hg, _, _, he⟩
    simp only [exT, List.mem_cons, List.not_mem_nil, or_false] at hg
    rcases hg with rfl | rfl | rfl | rfl <;> simp at he <;> subst he <;> decide
  · exact ⟨material [65], 1, 11, 21, ⟨_, List.mem_cons_self, rfl, rfl, by simp⟩, by decide, by decide⟩

example : outcome (overlaySurfaces (fun x => [x]) exAdj exT [11, 12, 13] [14, 15] exTMap [21, 22, 23] [([65], 1), ([66], 2)]) =
    some ([⟨2, 1, material [65], [21]⟩, ⟨2, 2, material [66], [22]⟩, ⟨2, 3, cell 0, [21]⟩, ⟨2, 4, cell 1, [22]⟩], [23]) := by
  decide +kernel

/-- A rectangle in a surface that bounds two volumes is in the groups of both cells. -/
theorem C93_shared_fails :
    outcome (overlaySurfaces (fun x => [x]) exAdj exT [11, 12, 13] [14] [[], [], [(2, 23)], [(2, 23)]] [23] [([65], 1), ([66], 2)]) =
    some ([⟨2, 1, material [65], [23]⟩, ⟨2, 3, cell 0, [23]⟩, ⟨2, 4, cell 1, [23]⟩], []) := by
  decide +kernel

end Verif.OverlaySurfaces
