import Mathlib.Data.Set.Lattice
import Mathlib.Data.Prod.Lex
import Verif.Lemmas.GmshGroups

/-!
# Physical groups under boolean operations (C89, C90)

`clos` gives the entities that are coloured together with an entity; `map` is what the kernel operation returns.
-/

namespace Verif.GmshGroups

open Verif.XSLib (Res)
open Verif.Gmsh hiding Group
open Verif.GmshSpec

variable {N C : Type} [LinearOrder N]

/-! ## C89 -/

/-- The inputs that pass the checks are the accepted ones; everything else ends the program. -/
theorem C89_check (obj tool : List DimTag) (d : ℤ) : inputChecking obj tool = .ok d ↔ Accepted obj tool d := by
  constructor
  · intro h
    unfold inputChecking at h
    split at h
    · rename_i f b tf tb h1 h2 h3 h4
      split_ifs at h with c1 c2 c3 c4 c5 c6 c7 c8
      cases h
      simp only [not_not, ne_eq] at c1 c2 c3 c4 c5 c6 c7
      have ho := (chains_iff obj).1 ⟨c1, c3⟩
      have ht := (chains_iff tool).1 ⟨c2, c4⟩
      have ho' := same_dim obj ho f b h1 h2 c5
      have ht' := same_dim tool ht tf tb h3 h4 c6
      refine ⟨⟨(by rintro rfl; cases h1), ?_⟩, ⟨(by rintro rfl; cases h3), ?_⟩, ?_, by omega⟩
      · refine List.pairwise_map.2 (ho.imp_of_mem ?_)
        intro x y hx hy hxy
        have := ho' x hx
        have := ho' y hy
        omega
      · refine List.pairwise_map.2 (ht.imp_of_mem ?_)
        intro x y hx hy hxy
        have := ht' x hx
        have := ht' y hy
        omega
      · intro x hx
        rcases List.mem_append.1 hx with hx | hx
        · exact ho' x hx
        · rw [ht' x hx, c7]
    · cases h
  · rintro ⟨⟨h1, h2⟩, ⟨h3, h4⟩, h5, h6⟩
    have hpo : obj.Pairwise fun a b => a.1 < b.1 ∨ (a.1 = b.1 ∧ a.2 < b.2) := by
      refine (List.pairwise_map.1 h2).imp_of_mem ?_
      intro x y hx hy hxy
      have := h5 x (List.mem_append_left _ hx)
      have := h5 y (List.mem_append_left _ hy)
      omega
    have hpt : tool.Pairwise fun a b => a.1 < b.1 ∨ (a.1 = b.1 ∧ a.2 < b.2) := by
      refine (List.pairwise_map.1 h4).imp_of_mem ?_
      intro x y hx hy hxy
      have := h5 x (List.mem_append_right _ hx)
      have := h5 y (List.mem_append_right _ hy)
      omega
    have co := (chains_iff obj).2 hpo
    have ct := (chains_iff tool).2 hpt
    obtain ⟨f, hf⟩ : ∃ f, obj.head? = some f := by cases obj with
      | nil => exact absurd rfl h1
      | cons a l => exact ⟨a, rfl⟩
    obtain ⟨tf, htf⟩ : ∃ f, tool.head? = some f := by cases tool with
      | nil => exact absurd rfl h3
      | cons a l => exact ⟨a, rfl⟩
    have hb := List.getLast?_eq_getLast_of_ne_nil h1
    have htb := List.getLast?_eq_getLast_of_ne_nil h3
    have e1 := h5 f (List.mem_append_left _ (List.mem_of_head? hf))
    have e2 := h5 _ (List.mem_append_left _ (List.getLast_mem h1))
    have e3 := h5 tf (List.mem_append_right _ (List.mem_of_head? htf))
    have e4 := h5 _ (List.mem_append_right _ (List.getLast_mem h3))
    unfold inputChecking
    rw [hf, hb, htf, htb]
    dsimp only
    rw [if_neg (by simpa using co.1), if_neg (by simpa using ct.1), if_neg (by simpa using co.2), if_neg (by simpa using ct.2),
      if_neg (by omega), if_neg (by omega), if_neg (by omega), if_neg (by omega), e1]

/-- The checks never run into undefined behaviour. -/
theorem C89_check_defined (obj tool : List DimTag) : inputChecking obj tool ≠ .undef := by
  unfold inputChecking
  split
  · split_ifs <;> simp
  · simp

/-- The state before the colours. -/
def rebuilt (s : Gm N C) (obj tool : List DimTag) (map : List (List DimTag)) (mats : List N) (d : ℤ) : Gm N C :=
  addAll d (groupInfo s.groups d) (hierarchy mats ((groupInfo s.groups d).map (·.name))
    (((groupInfo s.groups d).map (·.ents)).map (newEnts (obj ++ tool) map))) s.removeAll

theorem gp_eq (clos : DimTag → List DimTag) (s : Gm N C) (obj tool : List DimTag) (map : List (List DimTag)) (mats : List (N × C))
    (d : ℤ) (hs : WF s) (ha : Accepted obj tool d) (hm : map.length = obj.length + tool.length) :
    groupPreserving clos s obj tool map mats =
      if mats = [] then .ok (rebuilt s obj tool map (mats.map (·.1)) d)
      else colorMaterials clos (rebuilt s obj tool map (mats.map (·.1)) d) mats := by
  unfold groupPreserving
  rw [(C89_check obj tool d).2 ha]
  show Res.bind (newGroups obj tool map _) _ = _
  rw [newGroups_eq obj tool map ha.objs.2 ha.tools.2 hm]
  · rfl
  · intro l hl
    obtain ⟨g, hg, rfl⟩ := List.mem_map.1 hl
    exact (hs.ents g ((mem_groupInfo _ _ _).1 hg).1).1

omit [LinearOrder N] in
theorem newPost_sorted (info : List (Gmsh.Group N)) (inputs : List DimTag) (map : List (List DimTag)) :
    AllSorted ((info.map (·.ents)).map (newEnts inputs map)) := by
  intro k
  rw [List.getD_eq_getElem?_getD, List.getElem?_map, List.getElem?_map]
  cases info[k]? with
  | none => simp
  | some g => exact (newEnts_spec inputs map g.ents).1

omit [LinearOrder N] in
theorem newPost_mem (info : List (Gmsh.Group N)) (inputs : List DimTag) (map : List (List DimTag)) (k : Nat) (e : ℤ) :
    e ∈ ((info.map (·.ents)).map (newEnts inputs map)).getD k [] ↔
      ∃ g, info[k]? = some g ∧ ∃ e0 ∈ g.ents, e ∈ become inputs map e0 := by
  rw [List.getD_eq_getElem?_getD, List.getElem?_map, List.getElem?_map]
  cases info[k]? with
  | none => simp
  | some g => simp [(newEnts_spec inputs map g.ents).2]

/-- Without materials, every group of the dimension is rebuilt: same tag, same name, and as entities what its entities become. A
group of which nothing remains is gone, and so are the groups of other dimensions. -/
theorem C89_groups (clos : DimTag → List DimTag) (s s' : Gm N C) (obj tool : List DimTag) (map : List (List DimTag)) (d : ℤ)
    (hs : WF s) (ha : Accepted obj tool d) (hm : map.length = obj.length + tool.length)
    (h : groupPreserving clos s obj tool map [] = .ok s') :
    WF s' ∧ s'.color = s.color ∧ ∀ g', g' ∈ s'.groups ↔ ∃ g ∈ s.groups, g.dim = d ∧ g'.dim = d ∧ g'.tag = g.tag ∧ g'.name = g.name ∧
      g'.ents.Pairwise (· < ·) ∧ g'.ents ≠ [] ∧ ∀ e', e' ∈ g'.ents ↔ ∃ e ∈ g.ents, e' ∈ become (obj ++ tool) map e := by
  rw [gp_eq clos s obj tool map [] d hs ha hm, if_pos rfl] at h
  cases h
  have hl : (((groupInfo s.groups d).map (·.ents)).map (newEnts (obj ++ tool) map)).length = (groupInfo s.groups d).length := by simp
  have hso := newPost_sorted (groupInfo s.groups d) (obj ++ tool) map
  refine ⟨rebuilt_wf d s hs _ hl hso, addAll_color _ _ _ _, fun g' => ?_⟩
  rw [show rebuilt s obj tool map ([].map fun x : N × C => x.1) d = addAll d (groupInfo s.groups d)
    (((groupInfo s.groups d).map (·.ents)).map (newEnts (obj ++ tool) map)) s.removeAll from rfl, rebuilt_mem d s hs _ hl hso]
  constructor
  · rintro ⟨i, g, h1, h2, h3, h4, h5, h6⟩
    have hg := (mem_groupInfo _ _ _).1 (List.mem_of_getElem? h1)
    refine ⟨g, hg.1, hg.2, h2, h3, h4, by rw [h5]; exact hso i, h6, fun e' => ?_⟩
    rw [h5, newPost_mem]
    constructor
    · rintro ⟨g2, hg2, he⟩
      rw [h1] at hg2; cases hg2; exact he
    · exact fun he => ⟨g, h1, he⟩
  · rintro ⟨g, h1, h2, h3, h4, h5, h6, h7, h8⟩
    obtain ⟨i, hi⟩ := List.mem_iff_getElem?.1 ((mem_groupInfo _ _ _).2 ⟨h1, h2⟩)
    refine ⟨i, g, hi, h3, h4, h5, ?_, h7⟩
    refine sorted_ext h6 (hso i) fun e' => ?_
    rw [h8, newPost_mem]
    constructor
    · exact fun he => ⟨g, hi, he⟩
    · rintro ⟨g2, hg2, he⟩
      rw [hi] at hg2; cases hg2; exact he


/-- Membership after the operation, by name. -/
theorem C89_members (clos : DimTag → List DimTag) (s s' : Gm N C) (obj tool : List DimTag) (map : List (List DimTag)) (d : ℤ)
    (hs : WF s) (ha : Accepted obj tool d) (hm : map.length = obj.length + tool.length)
    (h : groupPreserving clos s obj tool map [] = .ok s') (n : N) (e' : ℤ) :
    In s' d n e' ↔ ∃ e, In s d n e ∧ e' ∈ become (obj ++ tool) map e := by
  obtain ⟨_, _, h3⟩ := C89_groups clos s s' obj tool map d hs ha hm h
  constructor
  · rintro ⟨g', h1, h2, rfl, h4⟩
    obtain ⟨g, h5, h6, h7, h8, h9, _, _, h10⟩ := (h3 g').1 h1
    obtain ⟨e, he, he'⟩ := (h10 e').1 h4
    exact ⟨e, ⟨g, h5, h6, h9.symm, he⟩, he'⟩
  · rintro ⟨e, ⟨g, h1, h2, h4, h5⟩, h6⟩
    have hsp := newEnts_spec (obj ++ tool) map g.ents
    have hmem : e' ∈ newEnts (obj ++ tool) map g.ents := (hsp.2 e').2 ⟨e, h5, h6⟩
    exact ⟨⟨d, g.tag, g.name, newEnts (obj ++ tool) map g.ents⟩, (h3 _).2 ⟨g, h1, h2, rfl, rfl, rfl, hsp.1,
      (by intro h0; rw [show newEnts (obj ++ tool) map g.ents = [] from h0] at hmem; cases hmem), hsp.2⟩, rfl, h4, hmem⟩

/-- With accepted inputs and a full map the operation is defined. -/
theorem C89_defined (clos : DimTag → List DimTag) (s : Gm N C) (obj tool : List DimTag) (map : List (List DimTag)) (d : ℤ)
    (hs : WF s) (ha : Accepted obj tool d) (hm : map.length = obj.length + tool.length) :
    ∃ s', groupPreserving clos s obj tool map [] = .ok s' := by
  rw [gp_eq clos s obj tool map [] d hs ha hm, if_pos rfl]; exact ⟨_, rfl⟩

theorem children_iff {P : Type} (l : List DimTag) (reg : ℤ → Set P) (p : P) :
    (∃ e ∈ l.map (·.2), p ∈ reg e) ↔ p ∈ ⋃ c ∈ l, reg c.2 := by
  simp only [Set.mem_iUnion, List.mem_map]
  constructor
  · rintro ⟨e, ⟨c, hc, rfl⟩, hp⟩; exact ⟨c, hc, hp⟩
  · rintro ⟨c, hc, hp⟩; exact ⟨c.2, ⟨c, hc, rfl⟩, hp⟩

theorem become_region {P : Type} (inputs : List DimTag) (map : List (List DimTag)) (reg reg' keep : ℤ → Set P)
    (hin : ∀ (k : Nat) x, inputs[k]? = some x → reg x.2 ∩ keep x.2 = ⋃ c ∈ map.getD k [], reg' c.2)
    (hout : ∀ e, e ∉ inputs.map (·.2) → reg' e = reg e ∧ keep e = Set.univ) (e : ℤ) (p : P) :
    (∃ e' ∈ become inputs map e, p ∈ reg' e') ↔ p ∈ reg e ∩ keep e := by
  unfold become
  cases hf : inputs.findIdx? (fun x => x.2 == e) with
  | none =>
    have hno : e ∉ inputs.map (·.2) := by
      rw [List.findIdx?_eq_none_iff] at hf
      intro he
      obtain ⟨x, hx, rfl⟩ := List.mem_map.1 he
      simpa using hf x hx
    obtain ⟨h1, h2⟩ := hout e hno
    simp [h1, h2]
  | some k =>
    rw [List.findIdx?_eq_some_iff_getElem] at hf
    obtain ⟨hk, hx, _⟩ := hf
    simp only [beq_iff_eq] at hx
    have := hin k _ (List.getElem?_eq_getElem hk)
    rw [hx] at this
    rw [this]
    exact children_iff _ _ _

/-- If the children of every input cover the part `keep` of it that the operation keeps, and the other entities stay, then the
region of every group becomes the kept part. -/
theorem C89_region {P : Type} (clos : DimTag → List DimTag) (s s' : Gm N C) (obj tool : List DimTag) (map : List (List DimTag))
    (d : ℤ) (hs : WF s) (ha : Accepted obj tool d) (hm : map.length = obj.length + tool.length)
    (h : groupPreserving clos s obj tool map [] = .ok s') (reg reg' keep : ℤ → Set P)
    (hin : ∀ (k : Nat) x, (obj ++ tool)[k]? = some x → reg x.2 ∩ keep x.2 = ⋃ c ∈ map.getD k [], reg' c.2)
    (hout : ∀ e, e ∉ (obj ++ tool).map (·.2) → reg' e = reg e ∧ keep e = Set.univ) (n : N) :
    region reg' s' d n = region (fun e => reg e ∩ keep e) s d n := by
  ext p
  simp only [region, Set.mem_ofPred_eq]
  have hmem := C89_members clos s s' obj tool map d hs ha hm h n
  have hreg := become_region (obj ++ tool) map reg reg' keep hin hout
  constructor
  · rintro ⟨e', h1, h2⟩
    obtain ⟨e, h3, h4⟩ := (hmem e').1 h1
    exact ⟨e, h3, (hreg e p).1 ⟨e', h4, h2⟩⟩
  · rintro ⟨e, h1, h2⟩
    obtain ⟨e', h3, h4⟩ := (hreg e p).2 h2
    exact ⟨e', (hmem e').2 ⟨e, h1, h3⟩, h4⟩

/-- Fragmenting does not change the region of any group. -/
theorem C89_fragment {P : Type} (clos : DimTag → List DimTag) (s s' : Gm N C) (obj tool : List DimTag) (map : List (List DimTag))
    (d : ℤ) (hs : WF s) (ha : Accepted obj tool d) (hm : map.length = obj.length + tool.length)
    (h : groupPreserving clos s obj tool map [] = .ok s') (reg reg' : ℤ → Set P)
    (hin : ∀ (k : Nat) x, (obj ++ tool)[k]? = some x → reg x.2 = ⋃ c ∈ map.getD k [], reg' c.2)
    (hout : ∀ e, e ∉ (obj ++ tool).map (·.2) → reg' e = reg e) (n : N) : region reg' s' d n = region reg s d n := by
  have := C89_region clos s s' obj tool map d hs ha hm h reg reg' (fun _ => Set.univ) (by simpa using hin) (by simpa using hout) n
  simpa using this

/-- Intersecting cuts the region of every group of inputs down to the common part of objects and tools. -/
theorem C89_intersect {P : Type} (clos : DimTag → List DimTag) (s s' : Gm N C) (obj tool : List DimTag) (map : List (List DimTag))
    (d : ℤ) (hs : WF s) (ha : Accepted obj tool d) (hm : map.length = obj.length + tool.length)
    (h : groupPreserving clos s obj tool map [] = .ok s') (reg reg' : ℤ → Set P)
    (hin : ∀ (k : Nat) x, (obj ++ tool)[k]? = some x →
      reg x.2 ∩ ((⋃ o ∈ obj, reg o.2) ∩ ⋃ t ∈ tool, reg t.2) = ⋃ c ∈ map.getD k [], reg' c.2)
    (hout : ∀ e, e ∉ (obj ++ tool).map (·.2) → reg' e = reg e) (n : N) (hn : ∀ e, In s d n e → e ∈ (obj ++ tool).map (·.2)) :
    region reg' s' d n = region reg s d n ∩ ((⋃ o ∈ obj, reg o.2) ∩ ⋃ t ∈ tool, reg t.2) := by
  classical
  have := C89_region clos s s' obj tool map d hs ha hm h reg reg' (fun e => if e ∈ (obj ++ tool).map (·.2) then
    ((⋃ o ∈ obj, reg o.2) ∩ ⋃ t ∈ tool, reg t.2) else Set.univ) (by
      intro k x hx
      rw [if_pos (List.mem_map.2 ⟨x, List.mem_of_getElem? hx, rfl⟩)]
      exact hin k x hx) (by
      intro e he
      rw [if_neg he]
      exact ⟨hout e he, rfl⟩) n
  rw [this]
  ext p
  simp only [region, Set.mem_ofPred_eq]
  constructor
  · rintro ⟨e, h1, h2⟩
    rw [if_pos (hn e h1)] at h2
    exact ⟨⟨e, h1, h2.1⟩, h2.2⟩
  · rintro ⟨⟨e, h1, h2⟩, h3⟩
    refine ⟨e, h1, ?_⟩
    rw [if_pos (hn e h1)]
    exact ⟨h2, h3⟩

/-- Cutting removes the tools from the region of every group of objects. -/
theorem C89_cut {P : Type} (clos : DimTag → List DimTag) (s s' : Gm N C) (obj tool : List DimTag) (map : List (List DimTag))
    (d : ℤ) (hs : WF s) (ha : Accepted obj tool d) (hm : map.length = obj.length + tool.length)
    (h : groupPreserving clos s obj tool map [] = .ok s') (reg reg' : ℤ → Set P)
    (hin : ∀ (k : Nat) x, obj[k]? = some x → reg x.2 \ (⋃ t ∈ tool, reg t.2) = ⋃ c ∈ map.getD k [], reg' c.2)
    (n : N) (hn : ∀ e, In s d n e → e ∈ obj.map (·.2)) :
    region reg' s' d n = region reg s d n \ ⋃ t ∈ tool, reg t.2 := by
  have hmem := C89_members clos s s' obj tool map d hs ha hm h n
  have hb : ∀ e, In s d n e → ∀ p, (∃ e' ∈ become (obj ++ tool) map e, p ∈ reg' e') ↔ p ∈ reg e \ ⋃ t ∈ tool, reg t.2 := by
    intro e he p
    obtain ⟨x, hx, rfl⟩ := List.mem_map.1 (hn e he)
    have hsome : ∃ k, obj.findIdx? (fun y => y.2 == x.2) = some k := by
      cases hf : obj.findIdx? (fun y => y.2 == x.2) with
      | none => rw [List.findIdx?_eq_none_iff] at hf; simpa using hf x hx
      | some k => exact ⟨k, rfl⟩
    obtain ⟨k, hk⟩ := hsome
    unfold become
    rw [List.findIdx?_append, hk]
    rw [List.findIdx?_eq_some_iff_getElem] at hk
    obtain ⟨hk, hx, _⟩ := hk
    simp only [beq_iff_eq] at hx
    have := hin k _ (List.getElem?_eq_getElem hk)
    rw [hx] at this
    rw [this]
    exact children_iff _ _ _
  ext p
  simp only [region, Set.mem_ofPred_eq, Set.mem_sdiff]
  constructor
  · rintro ⟨e', h1, h2⟩
    obtain ⟨e, h3, h4⟩ := (hmem e').1 h1
    have := (hb e h3 p).1 ⟨e', h4, h2⟩
    exact ⟨⟨e, h3, this.1⟩, this.2⟩
  · rintro ⟨⟨e, h1, h2⟩, h3⟩
    obtain ⟨e', h4, h5⟩ := (hb e h1 p).2 ⟨h2, h3⟩
    exact ⟨e', (hmem e').2 ⟨e, h1, h4⟩, h5⟩

/-- Adding entities to the group with a name: the group has the old and the new entities, and nothing else changes. -/
theorem C89_add (s s' : Gm N C) (hs : WF s) (d : ℤ) (hd : Distinct s d) (tags : List ℤ) (name : N)
    (h : addToPhysicalGroup s d tags (-1) name = .ok s') :
    WF s' ∧ Distinct s' d ∧ s'.color = s.color ∧
    (∀ d' n e, In s' d' n e ↔ In s d' n e ∨ (d' = d ∧ n = name ∧ e ∈ tags)) := by
  have hadd : ∀ (s0 : Gm N C) (l : List ℤ) (t : ℤ), WF s0 → 0 < t → (∀ g ∈ s0.groups, ¬ (g.dim = d ∧ g.tag = t)) →
      WF (s0.addTagged d l t name) ∧ ∀ d' n e, In (s0.addTagged d l t name) d' n e ↔ In s0 d' n e ∨ (d' = d ∧ n = name ∧ e ∈ l) := by
    intro s0 l t h0 ht hnew
    refine ⟨⟨addTagged_sorted _ _ _ _ _ h0.sorted hnew, fun g hg => ?_, fun g hg => ?_⟩, fun d' n e => ?_⟩
    · rcases (addTagged_mem _ _ _ _ _ _).1 hg with hg | ⟨_, rfl⟩
      · exact h0.pos g hg
      · exact ht
    · rcases (addTagged_mem _ _ _ _ _ _).1 hg with hg | ⟨hl, rfl⟩
      · exact h0.ents g hg
      · refine ⟨sorted_entSet l, fun h => ?_⟩
        obtain ⟨a, l, rfl⟩ := List.exists_cons_of_ne_nil hl
        have : a ∈ Gm.entSet (a :: l) := (mem_entSet _ _).2 (by simp)
        rw [show Gm.entSet (a :: l) = [] from h] at this; cases this
    · constructor
      · rintro ⟨g, h1, h2, h3, h4⟩
        rcases (addTagged_mem _ _ _ _ _ _).1 h1 with hg | ⟨hl, rfl⟩
        · exact Or.inl ⟨g, hg, h2, h3, h4⟩
        · exact Or.inr ⟨h2.symm, h3.symm, (mem_entSet _ _).1 h4⟩
      · rintro (⟨g, h1, h2, h3, h4⟩ | ⟨rfl, rfl, h4⟩)
        · exact ⟨g, (addTagged_mem _ _ _ _ _ _).2 (Or.inl h1), h2, h3, h4⟩
        · exact ⟨_, (addTagged_mem _ _ _ _ _ _).2 (Or.inr ⟨List.ne_nil_of_mem h4, rfl⟩), rfl, rfl, (mem_entSet _ _).2 h4⟩
  have huniq : ∀ g ∈ s.groups, ∀ h ∈ s.groups, g.dim = h.dim → g.tag = h.tag → g = h := fun g hg h hh h1 h2 =>
    List.Pairwise.forall_of_forall_of_flip (R := fun g h : Gmsh.Group N => g.dim = h.dim → g.tag = h.tag → g = h)
      (fun _ _ _ _ => rfl) (hs.sorted.imp fun h _ _ => by omega) (hs.sorted.imp fun h _ _ => by omega) hg hh h1 h2
  unfold addToPhysicalGroup at h
  split at h
  · rename_i g hf
    split at h
    · cases h
      have hg := List.mem_of_find?_eq_some hf
      have hp := List.find?_some hf
      simp only [Bool.and_eq_true, beq_iff_eq] at hp
      have hrm : ∀ a, a ∈ (s.remove d g.tag).groups ↔ a ∈ s.groups ∧ a ≠ g := by
        intro a
        simp only [Gm.remove, List.mem_filter, decide_eq_true_eq]
        refine and_congr_right fun ha => ?_
        constructor
        · rintro h1 rfl; exact h1 ⟨hp.1, rfl⟩
        · rintro h1 ⟨h2, h3⟩; exact h1 (huniq a ha g hg (h2.trans hp.1.symm) h3)
      have h0 : WF (s.remove d g.tag) :=
        ⟨hs.sorted.sublist (List.filter_sublist), fun a ha => hs.pos a ((hrm a).1 ha).1, fun a ha => hs.ents a ((hrm a).1 ha).1⟩
      have hpos := hs.pos g hg
      have key := hadd (s.remove d g.tag) (stdMerge tags g.ents) g.tag h0 hpos (fun a ha h1 =>
        ((hrm a).1 ha).2 (huniq a ((hrm a).1 ha).1 g hg (h1.1.trans hp.1.symm) h1.2))
      rw [Gm.add, if_neg (by omega)]
      refine ⟨key.1, ?_, addTagged_color _ _ _ _ _, fun d' n e => ?_⟩
      · intro a ha b hb h1 h2 h3
        rcases (addTagged_mem _ _ _ _ _ _).1 ha with ha | ⟨_, rfl⟩ <;> rcases (addTagged_mem _ _ _ _ _ _).1 hb with hb | ⟨_, rfl⟩
        · exact hd a ((hrm a).1 ha).1 b ((hrm b).1 hb).1 h1 h2 h3
        · exact absurd (hd a ((hrm a).1 ha).1 g hg h1 hp.1 (h3.trans hp.2.symm)) ((hrm a).1 ha).2
        · exact absurd (hd b ((hrm b).1 hb).1 g hg h2 hp.1 (h3.symm.trans hp.2.symm)) ((hrm b).1 hb).2
        · rfl
      · rw [key.2, mem_stdMerge]
        constructor
        · rintro (⟨a, h1, h2, h3, h4⟩ | ⟨rfl, rfl, h4 | h4⟩)
          · exact Or.inl ⟨a, ((hrm a).1 h1).1, h2, h3, h4⟩
          · exact Or.inr ⟨rfl, rfl, h4⟩
          · exact Or.inl ⟨g, hg, hp.1, hp.2, h4⟩
        · rintro (⟨a, h1, h2, h3, h4⟩ | ⟨rfl, rfl, h4⟩)
          · by_cases hag : a = g
            · subst hag; exact Or.inr ⟨h2.symm.trans hp.1, h3.symm.trans hp.2, Or.inr h4⟩
            · exact Or.inl ⟨a, (hrm a).2 ⟨h1, hag⟩, h2, h3, h4⟩
          · exact Or.inr ⟨rfl, rfl, Or.inl h4⟩
    · cases h
  · rename_i hf
    cases h
    have hnt := newTag_gt s d
    have key := hadd s tags (s.newTag d) hs hnt.1 (fun g hg h1 => by have := hnt.2 g hg h1.1; omega)
    rw [Gm.add, if_pos (by omega)]
    refine ⟨key.1, ?_, addTagged_color _ _ _ _ _, key.2⟩
    have hno : ∀ a ∈ s.groups, a.dim = d → a.name ≠ name := by
      intro a ha h1 h2
      rw [List.find?_eq_none] at hf
      exact absurd (by simp [h1, h2]) (hf a ha)
    intro a ha b hb h1 h2 h3
    rcases (addTagged_mem _ _ _ _ _ _).1 ha with ha | ⟨_, rfl⟩ <;> rcases (addTagged_mem _ _ _ _ _ _).1 hb with hb | ⟨_, rfl⟩
    · exact hd a ha b hb h1 h2 h3
    · exact absurd h3 (hno a ha h1)
    · exact absurd h3.symm (hno b hb h2)
    · rfl

/-- With sorted tags adding is defined. -/
theorem C89_add_defined (s : Gm N C) (d : ℤ) (tags : List ℤ) (name : N) (ht : tags.Pairwise (· ≤ ·)) :
    ∃ s', addToPhysicalGroup s d tags (-1) name = .ok s' := by
  unfold addToPhysicalGroup
  split
  · rw [if_pos ht]; exact ⟨_, rfl⟩
  · exact ⟨_, rfl⟩

/-! ## C90 -/

theorem info_names (s : Gm N C) (hs : WF s) (d : ℤ) (hd : Distinct s d) : ((groupInfo s.groups d).map (·.name)).Pairwise (· < ·) := by
  have h1 := groupInfo_sorted s.groups d
  have h2 : (groupInfo s.groups d).Nodup := by
    rw [(groupInfo_perm s.groups d).nodup_iff]
    refine (hs.sorted.imp ?_).sublist List.filter_sublist
    rintro a b h rfl
    omega
  refine List.pairwise_map.2 ((h1.and h2).imp_of_mem ?_)
  rintro a b ha hb ⟨hab, hne⟩
  refine lt_of_le_of_ne hab fun h => hne ?_
  have ha' := (mem_groupInfo _ _ _).1 ha
  have hb' := (mem_groupInfo _ _ _).1 hb
  exact hd a ha'.1 b hb'.1 ha'.2 hb'.2 h

/-- The entities after the hierarchy, in terms of those before. -/
theorem hierarchy_spec (mats names : List N) (post : List (List ℤ)) (hm : mats.Nodup) (hn : names.Pairwise (· < ·))
    (hl : post.length = names.length) (hs : AllSorted post) :
    AllSorted (hierarchy mats names post) ∧ (hierarchy mats names post).length = post.length ∧
    ∀ (i : Nat) n e, names[i]? = some n → (e ∈ (hierarchy mats names post).getD i [] ↔ e ∈ post.getD i [] ∧
      ∀ (j : Nat) m, names[j]? = some m → [m, n].Sublist mats → e ∉ post.getD j []) := by
  obtain ⟨h1, h2, h3⟩ := hierLoop_spec (mats.map (matIndex names)) [] post post hs rfl (by
      intro i hi
      obtain ⟨m, _, hm⟩ := List.mem_map.1 hi
      rw [matIndex_iff names hn] at hm
      rw [hl]
      by_contra hh; rw [List.getElem?_eq_none (by omega)] at hm; cases hm) (by
      intro i
      rw [List.nil_append]
      refine count_map_le _ _ ?_ mats hm
      intro x y hx hy
      rw [matIndex_iff names hn] at hx hy
      rw [hx] at hy; cases hy; rfl) (by
      intro k e
      constructor
      · intro he; exact ⟨he, fun j hj => by have := hj.length_le; simp at this⟩
      · exact fun he => he.1)
  refine ⟨h1, h2, fun i n e hi => ?_⟩
  have h3' := h3 i e
  rw [List.nil_append] at h3'
  unfold hierarchy
  rw [h3']
  refine and_congr_right fun _ => ?_
  constructor
  · intro h j m hj hsub
    refine h j ?_
    have := hsub.map (matIndex names)
    simp only [List.map_cons, List.map_nil, (matIndex_iff names hn m j).2 hj, (matIndex_iff names hn n i).2 hi] at this
    exact this
  · intro h j hsub
    obtain ⟨l, hl1, hl2⟩ := List.sublist_map_iff.1 hsub
    have hlen : l.length = 2 := by have := congrArg List.length hl2; simpa using this.symm
    obtain ⟨a, b, rfl⟩ := List.length_eq_two.1 hlen
    simp only [List.map_cons, List.map_nil, List.cons.injEq, and_true] at hl2
    have ha := (matIndex_iff names hn a j).1 hl2.1.symm
    have hb := (matIndex_iff names hn b i).1 hl2.2.symm
    rw [hi] at hb; cases hb
    exact h j a ha hl1

theorem hierarchy_nil (names : List N) (post : List (List ℤ)) : hierarchy [] names post = post := rfl

/-- Membership in the rebuilt state, by position. -/
theorem rebuilt_in (s : Gm N C) (hs : WF s) (d : ℤ) (post : List (List ℤ)) (hl : post.length = (groupInfo s.groups d).length)
    (hp : AllSorted post) (n : N) (e : ℤ) : In (addAll d (groupInfo s.groups d) post s.removeAll) d n e ↔
      ∃ i : Nat, ((groupInfo s.groups d).map (·.name))[i]? = some n ∧ e ∈ post.getD i [] := by
  constructor
  · rintro ⟨g', h1, h2, h3, h4⟩
    obtain ⟨i, g, h5, h6, h7, h8, h9, h10⟩ := (rebuilt_mem d s hs post hl hp g').1 h1
    refine ⟨i, ?_, h9 ▸ h4⟩
    rw [List.getElem?_map, h5, ← h3, h8]; rfl
  · rintro ⟨i, h1, h2⟩
    rw [List.getElem?_map, Option.map_eq_some_iff] at h1
    obtain ⟨g, h3, rfl⟩ := h1
    exact ⟨⟨d, g.tag, g.name, post.getD i []⟩, (rebuilt_mem d s hs post hl hp _).2
      ⟨i, g, h3, rfl, rfl, rfl, rfl, List.ne_nil_of_mem h2⟩, rfl, rfl, h2⟩

/-- The groups after the hierarchy. -/
theorem rebuilt_hier (s : Gm N C) (obj tool : List DimTag) (map : List (List DimTag)) (mats : List N) (d : ℤ) (hs : WF s)
    (hd : Distinct s d) (hn : mats.Nodup) :
    WF (rebuilt s obj tool map mats d) ∧ (∀ g ∈ (rebuilt s obj tool map mats d).groups, g.dim = d) ∧
    Distinct (rebuilt s obj tool map mats d) d ∧ (rebuilt s obj tool map mats d).color = s.color ∧
    ∀ n e, In (rebuilt s obj tool map mats d) d n e ↔ In (rebuilt s obj tool map [] d) d n e ∧
      ∀ m, [m, n].Sublist mats → ¬ In (rebuilt s obj tool map [] d) d m e := by
  have hso := newPost_sorted (groupInfo s.groups d) (obj ++ tool) map
  have hl : (((groupInfo s.groups d).map (·.ents)).map (newEnts (obj ++ tool) map)).length = (groupInfo s.groups d).length := by simp
  obtain ⟨h1, h2, h3⟩ := hierarchy_spec mats _ (((groupInfo s.groups d).map (·.ents)).map (newEnts (obj ++ tool) map)) hn
    (info_names s hs d hd) (by simp) hso
  refine ⟨rebuilt_wf d s hs _ (h2.trans hl) h1, ?_, ?_, addAll_color _ _ _ _, fun n e => ?_⟩
  · intro g hg
    obtain ⟨i, g0, _, h5, _⟩ := (rebuilt_mem d s hs _ (h2.trans hl) h1 g).1 hg
    exact h5
  · intro a ha b hb _ _ hab
    obtain ⟨i, g, e1, e2, e3, e4, e5, e6⟩ := (rebuilt_mem d s hs _ (h2.trans hl) h1 a).1 ha
    obtain ⟨i', g', f1, f2, f3, f4, f5, f6⟩ := (rebuilt_mem d s hs _ (h2.trans hl) h1 b).1 hb
    have hg := (mem_groupInfo _ _ _).1 (List.mem_of_getElem? e1)
    have hg' := (mem_groupInfo _ _ _).1 (List.mem_of_getElem? f1)
    have hgg := hd g hg.1 g' hg'.1 hg.2 hg'.2 (by rw [← e4, ← f4, hab])
    subst hgg
    have hnd : (groupInfo s.groups d).Nodup := (List.pairwise_map.1 (info_names s hs d hd)).imp fun {a b} h => by
      rintro rfl; exact absurd h (lt_irrefl _)
    have hi : i = i' := by
      obtain ⟨hi1, hi2⟩ := List.getElem?_eq_some_iff.1 e1
      obtain ⟨hj1, hj2⟩ := List.getElem?_eq_some_iff.1 f1
      exact (List.Nodup.getElem_inj_iff hnd).1 (hi2.trans hj2.symm)
    subst hi
    cases a; cases b
    simp only at *
    subst e2 f2 e3 f3 hab e5 f5
    rfl
  · have hr : ∀ ms, rebuilt s obj tool map ms d = addAll d (groupInfo s.groups d) (hierarchy ms ((groupInfo s.groups d).map (·.name))
      (((groupInfo s.groups d).map (·.ents)).map (newEnts (obj ++ tool) map))) s.removeAll := fun _ => rfl
    rw [hr mats, rebuilt_in s hs d _ (h2.trans hl) h1]
    have hin : ∀ m, In (rebuilt s obj tool map [] d) d m e ↔
        ∃ i : Nat, ((groupInfo s.groups d).map (·.name))[i]? = some m ∧
          e ∈ (((groupInfo s.groups d).map (·.ents)).map (newEnts (obj ++ tool) map)).getD i [] := fun m => by
      rw [hr [], hierarchy_nil]
      exact rebuilt_in s hs d _ hl hso m e
    simp only [hin]
    constructor
    · rintro ⟨i, hi, he⟩
      rw [h3 i n e hi] at he
      exact ⟨⟨i, hi, he.1⟩, fun m hm ⟨j, hj, he'⟩ => he.2 j m hj hm he'⟩
    · rintro ⟨⟨i, hi, he⟩, hall⟩
      exact ⟨i, hi, (h3 i n e hi).2 ⟨he, fun j m hj hm he' => hall m hm ⟨j, hj, he'⟩⟩⟩

theorem color_fold (clos : DimTag → List DimTag) (d : ℤ) (s : Gm N C) (hs : WF s) (hd : Distinct s d) : ∀ mats : List (N × C),
    let s' := mats.reverse.foldl (fun s m =>
      match ptag s.groups d m.1 with
      | none => s
      | some t => s.setColor clos ((entsOf s.groups d t).map fun e => (d, e)) m.2) s
    s'.groups = s.groups ∧ ∀ x,
      (∀ pre m post, mats = pre ++ m :: post → (∃ e, In s d m.1 e ∧ x ∈ clos (d, e)) →
        (∀ m' ∈ pre, ¬ ∃ e, In s d m'.1 e ∧ x ∈ clos (d, e)) → s'.color x = m.2) ∧
      ((∀ m ∈ mats, ¬ ∃ e, In s d m.1 e ∧ x ∈ clos (d, e)) → s'.color x = s.color x)
  | [] => by simp
  | m :: mats => by
    obtain ⟨h1, h2⟩ := color_fold clos d s hs hd mats
    simp only [List.reverse_cons, List.foldl_append, List.foldl_cons, List.foldl_nil]
    generalize List.foldl _ s mats.reverse = s1 at h1 h2 ⊢
    rw [h1]
    have hcov : ∀ x, (∃ t, ptag s.groups d m.1 = some t ∧ x ∈ ((entsOf s.groups d t).map fun e => (d, e)).flatMap clos) ↔
        ∃ e, In s d m.1 e ∧ x ∈ clos (d, e) := by
      intro x
      simp only [List.mem_flatMap, List.mem_map]
      constructor
      · rintro ⟨t, ht, y, ⟨e, he, rfl⟩, hx⟩
        exact ⟨e, (entsOf_ptag s hs d hd m.1 e).1 ⟨t, ht, he⟩, hx⟩
      · rintro ⟨e, he, hx⟩
        obtain ⟨t, ht, he⟩ := (entsOf_ptag s hs d hd m.1 e).2 he
        exact ⟨t, ht, (d, e), ⟨e, he, rfl⟩, hx⟩
    have hcol : (match ptag s.groups d m.1 with
        | none => s1
        | some t => s1.setColor clos ((entsOf s.groups d t).map fun e => (d, e)) m.2).groups = s.groups ∧
        ∀ x, ((∃ e, In s d m.1 e ∧ x ∈ clos (d, e)) → (match ptag s.groups d m.1 with
          | none => s1
          | some t => s1.setColor clos ((entsOf s.groups d t).map fun e => (d, e)) m.2).color x = m.2) ∧
        ((¬ ∃ e, In s d m.1 e ∧ x ∈ clos (d, e)) → (match ptag s.groups d m.1 with
          | none => s1
          | some t => s1.setColor clos ((entsOf s.groups d t).map fun e => (d, e)) m.2).color x = s1.color x) := by
      simp only [← hcov]
      cases hp : ptag s.groups d m.1 with
      | none => exact ⟨h1, fun x => ⟨(fun ⟨t, ht, _⟩ => by cases ht), fun _ => rfl⟩⟩
      | some t =>
        refine ⟨h1, fun x => ⟨fun ⟨t', ht, hx⟩ => ?_, fun hno => ?_⟩⟩
        · cases ht
          simp only [Gm.setColor]
          rw [if_pos hx]
        · simp only [Gm.setColor]
          rw [if_neg (fun hx => hno ⟨t, rfl, hx⟩)]
    refine ⟨hcol.1, fun x => ⟨?_, ?_⟩⟩
    · intro pre m' post heq hc hpre
      cases pre with
      | nil =>
        simp only [List.nil_append, List.cons.injEq] at heq
        obtain ⟨rfl, rfl⟩ := heq
        exact (hcol.2 x).1 hc
      | cons a pre =>
        simp only [List.cons_append, List.cons.injEq] at heq
        obtain ⟨rfl, rfl⟩ := heq
        rw [(hcol.2 x).2 (hpre m (by simp))]
        exact (h2 x).1 pre m' post rfl hc (fun m' hm' => hpre m' (List.mem_cons_of_mem _ hm'))
    · intro hno
      rw [(hcol.2 x).2 (hno m (by simp))]
      exact (h2 x).2 (fun m' hm' => hno m' (List.mem_cons_of_mem _ hm'))

omit [LinearOrder N] in
theorem transfer (clos : DimTag → List DimTag) (d : ℤ) (s r s2 : Gm N C) (mats : List (N × C)) (hc : r.color = s.color)
    (h5 : s2.groups = r.groups)
    (h6 : ∀ x, (∀ pre m post, mats = pre ++ m :: post → (∃ e, In r d m.1 e ∧ x ∈ clos (d, e)) →
        (∀ m' ∈ pre, ¬ ∃ e, In r d m'.1 e ∧ x ∈ clos (d, e)) → s2.color x = m.2) ∧
      ((∀ m ∈ mats, ¬ ∃ e, In r d m.1 e ∧ x ∈ clos (d, e)) → s2.color x = r.color x)) :
    s2.groups = r.groups ∧ ∀ x, (∀ pre m post, mats = pre ++ m :: post → (∃ e, In s2 d m.1 e ∧ x ∈ clos (d, e)) →
        (∀ m' ∈ pre, ¬ ∃ e, In s2 d m'.1 e ∧ x ∈ clos (d, e)) → s2.color x = m.2) ∧
      ((∀ m ∈ mats, ¬ ∃ e, In s2 d m.1 e ∧ x ∈ clos (d, e)) → s2.color x = s.color x) := by
  rw [← hc]
  refine ⟨h5, fun x => ?_⟩
  have := h6 x
  simp only [In, h5] at this ⊢
  exact this

/-- What the operation gives with materials. -/
theorem gp_mats (clos : DimTag → List DimTag) (s s' : Gm N C) (obj tool : List DimTag) (map : List (List DimTag))
    (mats : List (N × C)) (d : ℤ) (hs : WF s) (hd : Distinct s d) (ha : Accepted obj tool d)
    (hm : map.length = obj.length + tool.length) (hn : (mats.map (·.1)).Nodup)
    (h : groupPreserving clos s obj tool map mats = .ok s') :
    s'.groups = (rebuilt s obj tool map (mats.map (·.1)) d).groups ∧ ∀ x,
      (∀ pre m post, mats = pre ++ m :: post → (∃ e, In s' d m.1 e ∧ x ∈ clos (d, e)) →
        (∀ m' ∈ pre, ¬ ∃ e, In s' d m'.1 e ∧ x ∈ clos (d, e)) → s'.color x = m.2) ∧
      ((∀ m ∈ mats, ¬ ∃ e, In s' d m.1 e ∧ x ∈ clos (d, e)) → s'.color x = s.color x) := by
  rw [gp_eq clos s obj tool map mats d hs ha hm] at h
  obtain ⟨h1, h2, h3, h4, _⟩ := rebuilt_hier s obj tool map (mats.map (·.1)) d hs hd hn
  split_ifs at h with hmats
  · cases h
    subst hmats
    refine ⟨rfl, fun x => ⟨fun pre m post hx => ?_, fun _ => by rw [h4]⟩⟩
    simp at hx
  · unfold colorMaterials at h
    split at h
    · cases h
    · rename_i g hg
      cases h
      have hgd := h2 g (List.mem_of_getLast? hg)
      rw [hgd]
      obtain ⟨h5, h6⟩ := color_fold clos d _ h1 h3 mats
      exact transfer clos d _ _ _ mats h4 h5 h6

/-- With materials, an entity leaves every group of a material for which an earlier material of the list has it too, and no other
group. `s0` is the result without materials. -/
theorem C90_hierarchy (clos : DimTag → List DimTag) (s s0 s' : Gm N C) (obj tool : List DimTag) (map : List (List DimTag))
    (mats : List (N × C)) (d : ℤ) (hs : WF s) (hd : Distinct s d) (ha : Accepted obj tool d)
    (hm : map.length = obj.length + tool.length) (hn : (mats.map (·.1)).Nodup)
    (h0 : groupPreserving clos s obj tool map [] = .ok s0) (h : groupPreserving clos s obj tool map mats = .ok s') (n : N) (e : ℤ) :
    In s' d n e ↔ In s0 d n e ∧ ∀ m, [m, n].Sublist (mats.map (·.1)) → ¬ In s0 d m e := by
  obtain ⟨h1, _⟩ := gp_mats clos s s' obj tool map mats d hs hd ha hm hn h
  rw [gp_eq clos s obj tool map [] d hs ha hm, if_pos rfl] at h0
  cases h0
  have := (rebuilt_hier s obj tool map (mats.map (·.1)) d hs hd hn).2.2.2.2 n e
  unfold In at this ⊢
  rw [h1]
  exact this

/-- Every group that remains has the tag and the name of a group before; the model is well-formed again. -/
theorem C90_groups (clos : DimTag → List DimTag) (s s' : Gm N C) (obj tool : List DimTag) (map : List (List DimTag))
    (mats : List (N × C)) (d : ℤ) (hs : WF s) (hd : Distinct s d) (ha : Accepted obj tool d)
    (hm : map.length = obj.length + tool.length) (hn : (mats.map (·.1)).Nodup)
    (h : groupPreserving clos s obj tool map mats = .ok s') :
    WF s' ∧ Distinct s' d ∧ ∀ g' ∈ s'.groups, ∃ g ∈ s.groups, g.dim = d ∧ g'.dim = d ∧ g'.tag = g.tag ∧ g'.name = g.name := by
  obtain ⟨h1, _⟩ := gp_mats clos s s' obj tool map mats d hs hd ha hm hn h
  obtain ⟨h2, _, h4, _⟩ := rebuilt_hier s obj tool map (mats.map (·.1)) d hs hd hn
  refine ⟨⟨h1 ▸ h2.sorted, h1 ▸ h2.pos, h1 ▸ h2.ents⟩, ?_, ?_⟩
  · unfold Distinct at h4 ⊢; rw [h1]; exact h4
  · rw [h1]
    intro g' hg'
    obtain ⟨i, g, k1, k2, k3, k4, _⟩ := (rebuilt_mem d s hs _ (by
      rw [(hierarchy_spec (mats.map (·.1)) _ _ hn (info_names s hs d hd) (by simp)
        (newPost_sorted (groupInfo s.groups d) (obj ++ tool) map)).2.1]; simp)
      (hierarchy_spec (mats.map (·.1)) _ _ hn (info_names s hs d hd) (by simp)
        (newPost_sorted (groupInfo s.groups d) (obj ++ tool) map)).1 g').1 hg'
    have hg := (mem_groupInfo _ _ _).1 (List.mem_of_getElem? k1)
    exact ⟨g, hg.1, hg.2, k2, k3, k4⟩

/-- No entity has two materials of the list. -/
theorem C90_once (clos : DimTag → List DimTag) (s s' : Gm N C) (obj tool : List DimTag) (map : List (List DimTag))
    (mats : List (N × C)) (d : ℤ) (hs : WF s) (hd : Distinct s d) (ha : Accepted obj tool d)
    (hm : map.length = obj.length + tool.length) (hn : (mats.map (·.1)).Nodup)
    (h : groupPreserving clos s obj tool map mats = .ok s') (m n : N) (e : ℤ) (hm' : m ∈ mats.map (·.1)) (hn' : n ∈ mats.map (·.1))
    (h1 : In s' d m e) (h2 : In s' d n e) : m = n := by
  obtain ⟨s0, h0⟩ := C89_defined clos s obj tool map d hs ha hm
  have key := C90_hierarchy clos s s0 s' obj tool map mats d hs hd ha hm hn h0 h
  by_contra hne
  have hor : ∀ l : List N, m ∈ l → n ∈ l → [m, n].Sublist l ∨ [n, m].Sublist l := by
    intro l
    induction l with
    | nil => intro h; cases h
    | cons a l ih =>
      intro k1 k2
      rcases List.mem_cons.1 k1 with k3 | k3 <;> rcases List.mem_cons.1 k2 with k4 | k4
      · exact absurd (k3.trans k4.symm) hne
      · rw [k3]; exact Or.inl ((List.singleton_sublist.2 k4).cons_cons a)
      · rw [k4]; exact Or.inr ((List.singleton_sublist.2 k3).cons_cons a)
      · exact (ih k3 k4).imp (·.cons a) (·.cons a)
  rcases hor _ hm' hn' with h3 | h3
  · exact ((key n e).1 h2).2 m h3 ((key m e).1 h1).1
  · exact ((key m e).1 h1).2 n h3 ((key n e).1 h2).1

omit [LinearOrder N] in
theorem first_with (p : N → Prop) (l : List N) (hnd : l.Nodup) (hex : ∃ m ∈ l, p m) : ∃ n ∈ l, p n ∧
    (∀ m, [m, n].Sublist l → ¬ p m) ∧ ∀ m ∈ l, p m → m = n ∨ [n, m].Sublist l := by
  induction l with
  | nil => obtain ⟨m, h, _⟩ := hex; cases h
  | cons a l ih =>
    obtain ⟨m, hm, he⟩ := hex
    rw [List.nodup_cons] at hnd
    by_cases hae : p a
    · refine ⟨a, by simp, hae, fun m hsub => ?_, fun m hm _ => ?_⟩
      · rcases List.sublist_cons_iff.1 hsub with h | ⟨r, hr, h⟩
        · exact absurd (h.subset (by simp)) hnd.1
        · simp only [List.cons.injEq] at hr
          obtain ⟨rfl, rfl⟩ := hr
          exact absurd (h.subset (by simp)) hnd.1
      · rcases List.mem_cons.1 hm with rfl | hm
        · exact Or.inl rfl
        · exact Or.inr ((List.singleton_sublist.2 hm).cons_cons a)
    · have hm' : ∃ m ∈ l, p m := by
        rcases List.mem_cons.1 hm with rfl | hm
        · exact absurd he hae
        · exact ⟨m, hm, he⟩
      obtain ⟨n, h1, h2, h3, h4⟩ := ih hnd.2 hm'
      refine ⟨n, List.mem_cons_of_mem _ h1, h2, fun m hsub => ?_, fun m hm he => ?_⟩
      · rcases List.sublist_cons_iff.1 hsub with h | ⟨r, hr, h⟩
        · exact h3 m h
        · simp only [List.cons.injEq] at hr
          rw [hr.1]; exact hae
      · rcases List.mem_cons.1 hm with rfl | hm
        · exact absurd he hae
        · exact (h4 m hm he).imp id (·.cons a)

/-- No entity loses its material: of the materials of the list that it had, it keeps one. -/
theorem C90_kept (clos : DimTag → List DimTag) (s s0 s' : Gm N C) (obj tool : List DimTag) (map : List (List DimTag))
    (mats : List (N × C)) (d : ℤ) (hs : WF s) (hd : Distinct s d) (ha : Accepted obj tool d)
    (hm : map.length = obj.length + tool.length) (hn : (mats.map (·.1)).Nodup)
    (h0 : groupPreserving clos s obj tool map [] = .ok s0) (h : groupPreserving clos s obj tool map mats = .ok s') (e : ℤ)
    (m : N) (hm' : m ∈ mats.map (·.1)) (he : In s0 d m e) :
    ∃ n ∈ mats.map (·.1), In s' d n e ∧ ∀ m ∈ mats.map (·.1), In s0 d m e → m = n ∨ [n, m].Sublist (mats.map (·.1)) := by
  have key := C90_hierarchy clos s s0 s' obj tool map mats d hs hd ha hm hn h0 h
  obtain ⟨n, h1, h2, h3, h4⟩ := first_with (fun m => In s0 d m e) _ hn ⟨m, hm', he⟩
  exact ⟨n, h1, (key n e).2 ⟨h2, h3⟩, h4⟩

/-- When objects and tools are fragmented with a list of materials, every material of the list gets the part of its region that no
earlier material has. The fragments do not overlap, and every entity with a material is fragmented. -/
theorem C90_region {P : Type} (clos : DimTag → List DimTag) (s s' : Gm N C) (obj tool : List DimTag) (map : List (List DimTag))
    (mats : List (N × C)) (d : ℤ) (hs : WF s) (hd : Distinct s d) (ha : Accepted obj tool d)
    (hm : map.length = obj.length + tool.length) (hn : (mats.map (·.1)).Nodup)
    (h : groupPreserving clos s obj tool map mats = .ok s') (reg reg' : ℤ → Set P)
    (hin : ∀ (k : Nat) x, (obj ++ tool)[k]? = some x → reg x.2 = ⋃ c ∈ map.getD k [], reg' c.2)
    (hdis : ∀ a ∈ map.flatten, ∀ b ∈ map.flatten, a.2 ≠ b.2 → Disjoint (reg' a.2) (reg' b.2))
    (hall : ∀ n ∈ mats.map (·.1), ∀ e, In s d n e → e ∈ (obj ++ tool).map (·.2)) (n : N) (hnm : n ∈ mats.map (·.1)) :
    region reg' s' d n = region reg s d n \ {p | ∃ m, [m, n].Sublist (mats.map (·.1)) ∧ p ∈ region reg s d m} := by
  obtain ⟨s0, h0⟩ := C89_defined clos s obj tool map d hs ha hm
  have key := C90_hierarchy clos s s0 s' obj tool map mats d hs hd ha hm hn h0 h
  have hmem := C89_members clos s s0 obj tool map d hs ha hm h0
  have hbec : ∀ e, e ∈ (obj ++ tool).map (·.2) → (∀ e' ∈ become (obj ++ tool) map e, e' ∈ map.flatten.map (·.2)) ∧
      ∀ p, (∃ e' ∈ become (obj ++ tool) map e, p ∈ reg' e') ↔ p ∈ reg e := by
    intro e he
    unfold become
    cases hf : (obj ++ tool).findIdx? (fun x => x.2 == e) with
    | none =>
      rw [List.findIdx?_eq_none_iff] at hf
      obtain ⟨x, hx, rfl⟩ := List.mem_map.1 he
      simpa using hf x hx
    | some k =>
      rw [List.findIdx?_eq_some_iff_getElem] at hf
      obtain ⟨hk, hx, _⟩ := hf
      simp only [beq_iff_eq] at hx
      have := hin k _ (List.getElem?_eq_getElem hk)
      rw [hx] at this
      refine ⟨fun e' he' => ?_, fun p => by rw [this]; exact children_iff _ _ _⟩
      obtain ⟨c, hc, rfl⟩ := List.mem_map.1 he'
      refine List.mem_map.2 ⟨c, List.mem_flatten.2 ⟨map.getD k [], ?_, hc⟩, rfl⟩
      have hk' : k < map.length := by rw [List.length_append] at hk; omega
      rw [List.getD_eq_getElem?_getD, List.getElem?_eq_getElem hk']
      simp
  ext p
  simp only [region, Set.mem_ofPred_eq, Set.mem_sdiff]
  constructor
  · rintro ⟨e', h1, h2⟩
    obtain ⟨h3, h4⟩ := (key n e').1 h1
    obtain ⟨e, h5, h6⟩ := (hmem n e').1 h3
    refine ⟨⟨e, h5, ((hbec e (hall n hnm e h5)).2 p).1 ⟨e', h6, h2⟩⟩, ?_⟩
    rintro ⟨m, hsub, e2, h7, h8⟩
    have hmm : m ∈ mats.map (·.1) := hsub.subset (by simp)
    obtain ⟨e2', h9, h10⟩ := ((hbec e2 (hall m hmm e2 h7)).2 p).2 h8
    have hee : e2' = e' := by
      by_contra hne
      obtain ⟨a, ha1, ha2⟩ := List.mem_map.1 ((hbec e2 (hall m hmm e2 h7)).1 e2' h9)
      obtain ⟨b, hb1, hb2⟩ := List.mem_map.1 ((hbec e (hall n hnm e h5)).1 e' h6)
      have := hdis a ha1 b hb1 (by rw [ha2, hb2]; exact hne)
      rw [ha2, hb2] at this
      exact Set.disjoint_left.1 this h10 h2
    subst hee
    exact h4 m hsub ((hmem m e2').2 ⟨e2, h7, h9⟩)
  · rintro ⟨⟨e, h1, h2⟩, h3⟩
    obtain ⟨e', h4, h5⟩ := ((hbec e (hall n hnm e h1)).2 p).2 h2
    refine ⟨e', (key n e').2 ⟨(hmem n e').2 ⟨e, h1, h4⟩, fun m hsub hm' => ?_⟩, h5⟩
    obtain ⟨e2, h6, h7⟩ := (hmem m e').1 hm'
    exact h3 ⟨m, hsub, e2, h6, ((hbec e2 (hall m (hsub.subset (by simp)) e2 h6)).2 p).1 ⟨e', h7, h5⟩⟩

/-- An entity, and what is coloured with it, gets the colour of the first material of the list that has it; the rest keeps its
colour. In particular an entity with a material of the list gets the colour of this material. -/
theorem C90_color (clos : DimTag → List DimTag) (s s' : Gm N C) (obj tool : List DimTag) (map : List (List DimTag))
    (mats : List (N × C)) (d : ℤ) (hs : WF s) (hd : Distinct s d) (ha : Accepted obj tool d)
    (hm : map.length = obj.length + tool.length) (hn : (mats.map (·.1)).Nodup)
    (h : groupPreserving clos s obj tool map mats = .ok s') (x : DimTag) :
    (∀ pre m post, mats = pre ++ m :: post → (∃ e, In s' d m.1 e ∧ x ∈ clos (d, e)) →
      (∀ m' ∈ pre, ¬ ∃ e, In s' d m'.1 e ∧ x ∈ clos (d, e)) → s'.color x = m.2) ∧
    ((∀ m ∈ mats, ¬ ∃ e, In s' d m.1 e ∧ x ∈ clos (d, e)) → s'.color x = s.color x) :=
  (gp_mats clos s s' obj tool map mats d hs hd ha hm hn h).2 x

/-- With materials the operation is defined exactly if an entity with a group remains: otherwise `back` of an empty vector is
undefined. -/
theorem C90_defined (clos : DimTag → List DimTag) (s : Gm N C) (obj tool : List DimTag) (map : List (List DimTag))
    (mats : List (N × C)) (d : ℤ) (hs : WF s) (hd : Distinct s d) (ha : Accepted obj tool d)
    (hm : map.length = obj.length + tool.length) (hn : (mats.map (·.1)).Nodup) :
    ((mats = [] ∨ ∃ n e e', In s d n e ∧ e' ∈ become (obj ++ tool) map e) → ∃ s', groupPreserving clos s obj tool map mats = .ok s') ∧
    (¬ (mats = [] ∨ ∃ n e e', In s d n e ∧ e' ∈ become (obj ++ tool) map e) → groupPreserving clos s obj tool map mats = .undef) := by
  obtain ⟨s0, h0⟩ := C89_defined clos s obj tool map d hs ha hm
  have hmem := C89_members clos s s0 obj tool map d hs ha hm h0
  obtain ⟨h1, h2, h3, h4, h5⟩ := rebuilt_hier s obj tool map (mats.map (·.1)) d hs hd hn
  rw [gp_eq clos s obj tool map mats d hs ha hm]
  rw [gp_eq clos s obj tool map [] d hs ha hm, if_pos rfl] at h0
  cases h0
  by_cases hmats : mats = []
  · rw [if_pos hmats]; exact ⟨fun _ => ⟨_, rfl⟩, fun h => absurd (Or.inl hmats) h⟩
  rw [if_neg hmats]
  unfold colorMaterials
  by_cases hex : ∃ n e e', In s d n e ∧ e' ∈ become (obj ++ tool) map e
  · refine ⟨fun _ => ?_, fun h => absurd (Or.inr hex) h⟩
    obtain ⟨n, e, e', h6, h7⟩ := hex
    have h8 := (hmem n e').2 ⟨e, h6, h7⟩
    have h9 : ∃ n, In (rebuilt s obj tool map (mats.map (·.1)) d) d n e' := by
      by_cases hnm : ∃ m ∈ mats.map (·.1), In (rebuilt s obj tool map [] d) d m e'
      · obtain ⟨m, k1, k2, k3, _⟩ := first_with _ _ hn hnm
        exact ⟨m, (h5 m e').2 ⟨k2, k3⟩⟩
      · exact ⟨n, (h5 n e').2 ⟨h8, fun m hsub hin => hnm ⟨m, hsub.subset (by simp), hin⟩⟩⟩
    obtain ⟨n', g, hg, _⟩ := h9
    cases hl : (rebuilt s obj tool map (mats.map (·.1)) d).groups.getLast? with
    | none => rw [List.getLast?_eq_none_iff] at hl; rw [hl] at hg; cases hg
    | some g => exact ⟨_, rfl⟩
  · refine ⟨(by rintro (h | h); exacts [absurd h hmats, absurd h hex]), fun _ => ?_⟩
    cases hl : (rebuilt s obj tool map (mats.map (·.1)) d).groups.getLast? with
    | none => rfl
    | some g =>
      exfalso
      have hg := List.mem_of_getLast? hl
      obtain ⟨e, he⟩ := List.exists_mem_of_ne_nil _ (h1.ents g hg).2
      obtain ⟨e0, k1, k2⟩ := (hmem g.name e).1 ((h5 g.name e).1 ⟨g, hg, h2 g hg, rfl, he⟩).1
      exact hex ⟨_, _, _, k1, k2⟩

/-! ## A concrete model -/

/-- Surfaces 1 and 2 overlap, surface 5 is elsewhere; names 10 and 20 are two materials, 30 is a grid. -/
def exA : Gm ℕ ℕ := ⟨[⟨2, 1, 10, [1, 5]⟩, ⟨2, 2, 20, [2]⟩, ⟨2, 4, 30, [1]⟩], fun _ => 0⟩

/-- The children of surfaces 1 and 2: surface 3 is what they share. -/
def exMap : List (List DimTag) := [[(2, 1), (2, 3)], [(2, 2), (2, 3)]]

theorem exA_wf : WF exA := by
  refine ⟨by unfold exA; decide, by unfold exA; decide, by unfold exA; decide⟩

theorem exA_distinct : Distinct exA 2 := by unfold Distinct exA; decide

theorem exA_accepted : Accepted [(2, 1)] [(2, 2)] 2 :=
  ⟨by decide, by decide, by decide, by decide⟩

/-- The groups of a result. -/
def groupsOf (r : Res (Gm ℕ ℕ)) : Option (List (Gmsh.Group ℕ)) := match r with | .ok s => some s.groups | _ => none

/-- Fragments without materials: every group gets the children of its surfaces. -/
example : groupsOf (groupPreserving (fun x => [x]) exA [(2, 1)] [(2, 2)] exMap []) =
    some [⟨2, 1, 10, [1, 3, 5]⟩, ⟨2, 2, 20, [2, 3]⟩, ⟨2, 4, 30, [1, 3]⟩] := by decide +kernel

/-- Fragments with materials: the shared surface goes to the first of them; the grid keeps it. -/
example : groupsOf (groupPreserving (fun x => [x]) exA [(2, 1)] [(2, 2)] exMap [(20, 7), (10, 8)]) =
    some [⟨2, 1, 10, [1, 5]⟩, ⟨2, 2, 20, [2, 3]⟩, ⟨2, 4, 30, [1, 3]⟩] := by decide +kernel

/-- The hypotheses of C89 and C90 hold here. -/
example : ∃ s', groupPreserving (fun x => [x]) exA [(2, 1)] [(2, 2)] exMap [(20, 7), (10, 8)] = .ok s' ∧
    In s' 2 20 3 ∧ ¬ In s' 2 10 3 ∧ s'.color (2, 3) = 7 ∧ s'.color (2, 1) = 8 ∧ s'.color (2, 9) = 0 := by
  have hm : exMap.length = [((2 : ℤ), (1 : ℤ))].length + [((2 : ℤ), (2 : ℤ))].length := by decide
  have hn : ([((20 : ℕ), (7 : ℕ)), (10, 8)].map (·.1)).Nodup := by decide
  obtain ⟨s', h⟩ := (C90_defined (fun x => [x]) exA _ _ exMap [(20, 7), (10, 8)] 2 exA_wf exA_distinct exA_accepted hm hn).1
    (Or.inr ⟨20, 2, 3, ⟨⟨2, 2, 20, [2]⟩, by simp [exA], rfl, rfl, by simp⟩, by decide⟩)
  have hg : groupsOf (groupPreserving (fun x => [x]) exA [(2, 1)] [(2, 2)] exMap [(20, 7), (10, 8)]) =
    some [⟨2, 1, 10, [1, 5]⟩, ⟨2, 2, 20, [2, 3]⟩, ⟨2, 4, 30, [1, 3]⟩] := by decide +kernel
  rw [h] at hg
  simp only [groupsOf, Option.some.injEq] at hg
  have h3 : In s' 2 20 3 := by unfold In; rw [hg]; decide
  have h1 : In s' 2 10 1 := by unfold In; rw [hg]; decide
  have h4 : ¬ In s' 2 10 3 := by unfold In; rw [hg]; decide
  have h5 : ¬ In s' 2 20 1 := by unfold In; rw [hg]; decide
  have h6 : ¬ In s' 2 20 9 := by unfold In; rw [hg]; decide
  have h7 : ¬ In s' 2 10 9 := by unfold In; rw [hg]; decide
  have hc := C90_color (fun x => [x]) exA s' _ _ exMap _ 2 exA_wf exA_distinct exA_accepted hm hn h
  refine ⟨s', h, h3, h4, ?_, ?_, ?_⟩
  · exact (hc (2, 3)).1 [] _ _ rfl ⟨3, h3, by simp⟩ (by simp)
  · refine (hc (2, 1)).1 [(20, 7)] (10, 8) [] rfl ⟨1, h1, by simp⟩ ?_
    rintro m hm ⟨e, he, hx⟩
    simp only [List.mem_singleton, Prod.mk.injEq, true_and] at hm hx
    subst hm hx
    exact h5 he
  · refine (hc (2, 9)).2 ?_
    rintro m hm ⟨e, he, hx⟩
    simp only [List.mem_cons, List.not_mem_nil, or_false, Prod.mk.injEq, true_and] at hm hx
    subst hx
    rcases hm with rfl | rfl
    · exact h6 he
    · exact h7 he

/-- As `exA`, without the surface elsewhere. -/
def exC : Gm ℕ ℕ := ⟨[⟨2, 1, 10, [1]⟩, ⟨2, 2, 20, [2]⟩], fun _ => 0⟩

theorem exC_wf : WF exC := ⟨by unfold exC; decide, by unfold exC; decide, by unfold exC; decide⟩

theorem exC_distinct : Distinct exC 2 := by unfold Distinct exC; decide

/-- Points are numbers: surface 1 is {1, 3}, surface 2 is {2, 3}, and the fragments are the single points. -/
def exReg (e : ℤ) : Set ℤ := if e = 1 then {1, 3} else if e = 2 then {2, 3} else {e}

theorem exC_frag (k : Nat) (x : DimTag) (hx : ([(2, 1)] ++ [(2, 2)] : List DimTag)[k]? = some x) :
    exReg x.2 = ⋃ c ∈ exMap.getD k [], ({c.2} : Set ℤ) := by
  match k, hx with
  | 0, hx =>
    simp only [List.cons_append, List.nil_append, List.getElem?_cons_zero, Option.some.injEq] at hx
    subst hx; ext p; simp [exReg, exMap, or_comm]
  | 1, hx =>
    simp only [List.cons_append, List.nil_append, List.getElem?_cons_succ, List.getElem?_cons_zero, Option.some.injEq] at hx
    subst hx; ext p; simp [exReg, exMap, or_comm]
  | k + 2, hx => simp at hx

/-- `C89_fragment` and `C90_region` apply: with the materials 20 and 10, in this order, material 10 gets the point 1 alone. -/
example : (∃ s', groupPreserving (fun x => [x]) exC [(2, 1)] [(2, 2)] exMap [] = .ok s' ∧
      region (fun e => ({e} : Set ℤ)) s' 2 10 = region exReg exC 2 10) ∧
    ∃ s', groupPreserving (fun x => [x]) exC [(2, 1)] [(2, 2)] exMap [(20, 7), (10, 8)] = .ok s' ∧
      region (fun e => ({e} : Set ℤ)) s' 2 10 = {1} := by
  have hm : exMap.length = [((2 : ℤ), (1 : ℤ))].length + [((2 : ℤ), (2 : ℤ))].length := by decide
  have hn : ([((20 : ℕ), (7 : ℕ)), (10, 8)].map (·.1)).Nodup := by decide
  constructor
  · obtain ⟨s', h⟩ := C89_defined (fun x => [x]) exC _ _ exMap 2 exC_wf exA_accepted hm
    refine ⟨s', h, C89_fragment _ exC s' _ _ exMap 2 exC_wf exA_accepted hm h exReg _ exC_frag ?_ 10⟩
    intro e he
    simp only [List.cons_append, List.nil_append, List.map_cons, List.map_nil, List.mem_cons, List.not_mem_nil, or_false, not_or] at he
    simp [exReg, he.1, he.2]
  · obtain ⟨s', h⟩ := (C90_defined (fun x => [x]) exC _ _ exMap [(20, 7), (10, 8)] 2 exC_wf exC_distinct exA_accepted hm hn).1
      (Or.inr ⟨20, 2, 3, ⟨⟨2, 2, 20, [2]⟩, by simp [exC], rfl, rfl, by simp⟩, by decide⟩)
    refine ⟨s', h, ?_⟩
    rw [C90_region _ exC s' _ _ exMap _ 2 exC_wf exC_distinct exA_accepted hm hn h exReg _ exC_frag ?_ ?_ 10 (by decide)]
    · ext p
      simp only [region, In, exC, exReg, List.mem_cons, List.not_mem_nil, or_false, Set.mem_sdiff, Set.mem_ofPred_eq,
        Set.mem_singleton_iff, List.map_cons, List.map_nil]
      constructor
      · rintro ⟨⟨e, ⟨g, rfl | rfl, _, h1, h2⟩, h3⟩, h4⟩
        · simp only [List.mem_singleton] at h2
          subst h2
          simp only [if_true, Set.mem_insert_iff, Set.mem_singleton_iff] at h3
          rcases h3 with rfl | rfl
          · rfl
          · exact absurd ⟨20, by decide, 2, ⟨_, Or.inr rfl, rfl, rfl, by simp⟩, by simp⟩ h4
        · simp at h1
      · rintro rfl
        refine ⟨⟨1, ⟨_, Or.inl rfl, rfl, rfl, by simp⟩, by simp⟩, ?_⟩
        rintro ⟨m, h1, e, ⟨g, rfl | rfl, _, h2, h3⟩, h4⟩
        · simp only at h2; subst h2; revert h1; decide
        · simp only [List.mem_singleton] at h3
          subst h3
          simp at h4
    · intro a _ b _ hab
      simpa using hab
    · intro n _ e he
      obtain ⟨g, h1, _, _, h2⟩ := he
      simp only [exC, List.mem_cons, List.not_mem_nil, or_false] at h1
      rcases h1 with rfl | rfl <;> simp_all

/-- The statement with materials is false without its hypothesis that no material is listed twice: a material that is listed twice
loses all its entities. -/
theorem C90_twice_fails : WF exA ∧ Distinct exA 2 ∧ Accepted [(2, 1)] [(2, 2)] 2 ∧ In exA 2 10 1 ∧
    (∃ s', groupPreserving (fun x => [x]) exA [(2, 1)] [(2, 2)] exMap [(10, 7), (10, 7)] = .ok s' ∧ ∀ e, ¬ In s' 2 10 e) := by
  refine ⟨exA_wf, exA_distinct, exA_accepted, by unfold In exA; decide, ?_⟩
  have hg : groupsOf (groupPreserving (fun x => [x]) exA [(2, 1)] [(2, 2)] exMap [(10, 7), (10, 7)]) =
    some [⟨2, 2, 20, [2, 3]⟩, ⟨2, 4, 30, [1, 3]⟩] := by decide +kernel
  cases h : groupPreserving (fun x => [x]) exA [(2, 1)] [(2, 2)] exMap [(10, 7), (10, 7)] with
  | ok s' =>
    rw [h] at hg
    simp only [groupsOf, Option.some.injEq] at hg
    refine ⟨s', rfl, fun e => ?_⟩
    rintro ⟨g, h1, _, h2, _⟩
    rw [hg] at h1
    simp only [List.mem_cons, List.not_mem_nil, or_false] at h1
    rcases h1 with rfl | rfl <;> simp at h2
  | undef => rw [h] at hg; simp [groupsOf] at hg
  | refused => rw [h] at hg; simp [groupsOf] at hg

/-- Two groups of one dimension with one name: Gmsh allows them, an input file can contain them. -/
def exB : Gm ℕ ℕ := ⟨[⟨2, 1, 10, [1]⟩, ⟨2, 2, 10, [5]⟩, ⟨2, 3, 20, [2]⟩], fun _ => 0⟩

/-- Nor without the hypothesis that no two groups share a name: only one of them is treated, and an entity then has two materials. -/
theorem C90_names_fails : WF exB ∧ Accepted [(2, 1)] [(2, 2)] 2 ∧
    ∃ s', groupPreserving (fun x => [x]) exB [(2, 1)] [(2, 2)] exMap [(10, 7), (20, 8)] = .ok s' ∧ In s' 2 10 3 ∧ In s' 2 20 3 := by
  refine ⟨⟨by unfold exB; decide, by unfold exB; decide, by unfold exB; decide⟩, exA_accepted, ?_⟩
  have hg : groupsOf (groupPreserving (fun x => [x]) exB [(2, 1)] [(2, 2)] exMap [(10, 7), (20, 8)]) =
    some [⟨2, 1, 10, [1, 3]⟩, ⟨2, 2, 10, [5]⟩, ⟨2, 3, 20, [2, 3]⟩] := by decide +kernel
  cases h : groupPreserving (fun x => [x]) exB [(2, 1)] [(2, 2)] exMap [(10, 7), (20, 8)] with
  | ok s' =>
    rw [h] at hg
    simp only [groupsOf, Option.some.injEq] at hg
    exact ⟨s', rfl, by unfold In; rw [hg]; decide, by unfold In; rw [hg]; decide⟩
  | undef => rw [h] at hg; simp [groupsOf] at hg
  | refused => rw [h] at hg; simp [groupsOf] at hg

/-- An intersection that leaves no entity with a group is undefined with materials, though it is defined without them. -/
theorem C90_none_fails : WF exB ∧ Accepted [(2, 1), (2, 2), (2, 5)] [(2, 7)] 2 ∧
    groupPreserving (fun x => [x]) exB [(2, 1), (2, 2), (2, 5)] [(2, 7)] [[], [], [], []] [(10, 7)] = .undef ∧
    ∃ s', groupPreserving (fun x => [x]) exB [(2, 1), (2, 2), (2, 5)] [(2, 7)] [[], [], [], []] [] = .ok s' := by
  have hwf : WF exB := ⟨by unfold exB; decide, by unfold exB; decide, by unfold exB; decide⟩
  have hac : Accepted [(2, 1), (2, 2), (2, 5)] [(2, 7)] 2 := ⟨by decide, by decide, by decide, by decide⟩
  refine ⟨hwf, hac, ?_, C89_defined _ exB _ _ _ 2 hwf hac (by decide)⟩
  have hg : (match groupPreserving (fun x => [x]) exB [(2, 1), (2, 2), (2, 5)] [(2, 7)] [[], [], [], []] [(10, 7)] with
    | .undef => true | _ => false) = true := by decide +kernel
  revert hg
  cases groupPreserving (fun x => [x]) exB [(2, 1), (2, 2), (2, 5)] [(2, 7)] [[], [], [], []] [(10, 7)] <;> simp

end Verif.GmshGroups
