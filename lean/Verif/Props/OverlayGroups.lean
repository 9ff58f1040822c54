import Verif.Lemmas.OverlayGroups

/-!
# The coarse grid and the physical groups (C92)

`clos` gives the entities that are coloured together with an entity; `map` are the fragments that the kernel returns.
-/

namespace Verif.OverlayGroups

open Verif.XSLib (Res)
open Verif.Gmsh hiding Group
open Verif.GmshSpec
open Verif.GmshGroups
open Verif.Overlay
open Verif.OverlayGroupsSpec

variable {C : Type}

theorem pairwise_snd (d : ℤ) (l : List ℤ) : (l.map fun t => (d, t)).map (·.2) = l := by
  rw [List.map_map]; exact List.map_id _

theorem setting_accepted {s : Gm Name C} {d : ℤ} {model cc : List ℤ} {map : List (List DimTag)} {all : List ℤ}
    (S : Setting s d model cc map all) : Accepted (model.map fun t => (d, t)) (cc.map fun t => (d, t)) d := by
  refine ⟨⟨by simpa using S.objs.1, by rw [pairwise_snd]; exact S.objs.2⟩, ⟨by simpa using S.cells.1, by rw [pairwise_snd]; exact S.cells.2⟩,
    ?_, S.solid⟩
  intro x hx
  rcases List.mem_append.1 hx with hx | hx <;> (obtain ⟨t, _, rfl⟩ := List.mem_map.1 hx; rfl)

/-- The stages of the overlay. -/
theorem overlay_stages (clos : DimTag → List DimTag) (s : Gm Name C) (d : ℤ) (model cc : List ℤ) (map : List (List DimTag))
    (all : List ℤ) (fill : Name × C) (S : Setting s d model cc map all) :
    ∃ (mats : List (Name × C)) (s2 s3 s4 : Gm Name C),
      getMaterials s.color s.groups [] = .ok mats ∧
      overlay clos s d model cc map all fill = .ok (removeEnts s4 d (setDiff all (keepTags d s4.groups)), setDiff all (keepTags d s4.groups)) ∧
      WF s2 ∧ Distinct s2 d ∧ s2.color = s.color ∧
      (∀ d' n e, In s2 d' n e ↔ (In s d' n e ∨ (d' = d ∧ n = material fill.1 ∧ e ∈ cc)) ∨ (d' = d ∧ ∃ i : Nat, n = cell i ∧ cc[i]? = some e)) ∧
      (((moveFill mats fill).map fun m => (material m.1, m.2)).map (·.1)).Nodup ∧
      groupPreserving clos s2 (model.map fun t => (d, t)) (cc.map fun t => (d, t)) map [] = .ok s3 ∧
      groupPreserving clos s2 (model.map fun t => (d, t)) (cc.map fun t => (d, t)) map
        ((moveFill mats fill).map fun m => (material m.1, m.2)) = .ok s4 := by
  obtain ⟨mats, h1, h2, -, -, -⟩ := getMaterials_spec s.color s.groups [] S.named (fun g hg => (S.wf.ents g hg).2) (by simp)
  have hsorted : cc.insertionSort (· ≤ ·) = cc := List.Pairwise.insertionSort_eq (S.cells.2.imp fun h => le_of_lt h)
  obtain ⟨s1, h3⟩ : ∃ s1, addToPhysicalGroup s d cc (-1) (material fill.1) = .ok s1 := by
    unfold addToPhysicalGroup
    split
    · rw [if_pos (S.cells.2.imp fun h => le_of_lt h)]; exact ⟨_, rfl⟩
    · exact ⟨_, rfl⟩
  obtain ⟨k1, k2, k3, k4⟩ := C89_add s s1 S.wf d S.distinct cc (material fill.1) h3
  obtain ⟨s2, h4, k5, k6, k7, k8⟩ := cellGroups_spec d cc 0 cell0 s1 k1 k2 (by have := S.count; omega) (fun _ => rfl) (by
    intro i e _ hi hin
    rcases (k4 d (cell i) e).1 hin with ⟨g, hg, _, hn, _⟩ | ⟨_, h, _⟩
    · exact S.first g hg (hn ▸ cell_prefix i)
    · exact cell_ne_material _ _ h)
  have hin2 : ∀ d' n e, In s2 d' n e ↔ (In s d' n e ∨ (d' = d ∧ n = material fill.1 ∧ e ∈ cc)) ∨
      (d' = d ∧ ∃ i : Nat, n = cell i ∧ cc[i]? = some e) := by
    intro d' n e
    rw [k8, k4]
    simp only [Nat.zero_add]
  obtain ⟨l, c, m1, m2, m3⟩ := moveFill_spec mats fill h2
  have hnd : (((moveFill mats fill).map fun m => (material m.1, m.2)).map (·.1)).Nodup := by
    have : ((moveFill mats fill).map fun m => (material m.1, m.2)).map (·.1) = ((moveFill mats fill).map (·.1)).map material := by
      simp [Function.comp_def]
    rw [this]
    exact m2.map fun _ _ h => material_inj h
  have hac := setting_accepted S
  have hlen : map.length = (model.map fun t => ((d, t) : DimTag)).length + (cc.map fun t => ((d, t) : DimTag)).length := by
    simpa using S.full
  obtain ⟨s3, h5⟩ := C89_defined clos s2 _ _ map d k5 hac hlen
  obtain ⟨s4, h6⟩ := (C90_defined clos s2 _ _ map ((moveFill mats fill).map fun m => (material m.1, m.2)) d k5 k6 hac hlen hnd).1 (by
    right
    obtain ⟨t, ts, hcc⟩ := List.exists_cons_of_ne_nil S.cells.1
    have ht : t ∈ cc := by rw [hcc]; simp
    obtain ⟨e', es, he'⟩ := List.exists_cons_of_ne_nil (S.some t ht)
    exact ⟨material fill.1, t, e', (hin2 d _ t).2 (Or.inl (Or.inr ⟨rfl, rfl, ht⟩)), by
      have : e' ∈ pieces d model cc map t := by rw [he']; simp
      exact this⟩)
  refine ⟨mats, s2, s3, s4, h1, ?_, k5, k6, k7.trans k3, hin2, hnd, h5, h6⟩
  unfold overlay
  rw [h1]
  show Res.bind (addToPhysicalGroup s d cc (-1) (material fill.1)) _ = _
  rw [h3]
  show Res.bind (cellGroups d cc cell0 s1) _ = _
  rw [h4, hsorted]
  show Res.bind (groupPreserving clos s2 (model.map fun t => (d, t)) (cc.map fun t => (d, t)) map
        ((moveFill mats fill).map fun m => (material m.1, m.2))) _ = _
  rw [h6]
  rfl

theorem pieces_all {s : Gm Name C} {d : ℤ} {model cc : List ℤ} {map : List (List DimTag)} {all : List ℤ}
    (S : Setting s d model cc map all) (e e' : ℤ) (he : e ∈ model ∨ e ∈ cc) (h : e' ∈ pieces d model cc map e) : e' ∈ all := by
  unfold pieces become at h
  cases hf : (model.map (fun t => ((d, t) : DimTag)) ++ cc.map fun t => ((d, t) : DimTag)).findIdx? (fun x => x.2 == e) with
  | none =>
    rw [List.findIdx?_eq_none_iff] at hf
    have := hf (d, e) (by simpa using he)
    simp at this
  | some k =>
    rw [hf] at h
    obtain ⟨c, hc, rfl⟩ := List.mem_map.1 h
    refine S.after c ?_
    rw [List.getD_eq_getElem?_getD] at hc
    cases hk : map[k]? with
    | none => rw [hk] at hc; simp at hc
    | some l =>
      rw [hk] at hc
      exact List.mem_flatten.2 ⟨l, List.mem_of_getElem? hk, hc⟩

/-- Everything about membership, from the stages. -/
theorem overlay_members (clos : DimTag → List DimTag) (s : Gm Name C) (d : ℤ) (model cc : List ℤ) (map : List (List DimTag))
    (all : List ℤ) (fill : Name × C) (S : Setting s d model cc map all) :
    ∃ (mats l : List (Name × C)) (c : C) (s' : Gm Name C) (gone : List ℤ), overlay clos s d model cc map all fill = .ok (s', gone) ∧
      getMaterials s.color s.groups [] = .ok mats ∧ moveFill mats fill = l ++ [(fill.1, c)] ∧
      (∀ e, e ∈ gone ↔ e ∈ all ∧ ¬ InGrid d model cc map e) ∧
      (∀ (i : Nat) t, cc[i]? = some t → ∀ e, In s' d (cell i) e ↔ e ∈ pieces d model cc map t) ∧
      (∀ d' n e, In s' d' n e → d' = d ∧ InGrid d model cc map e) ∧
      (∀ n e, ¬ preCoarse <+: n → n ∉ (moveFill mats fill).map (fun m => material m.1) → n ≠ material fill.1 →
        (In s' d n e ↔ InGrid d model cc map e ∧ Was s d model cc map n e)) ∧
      (∀ x e, In s' d (material x) e ↔ InGrid d model cc map e ∧ (x = fill.1 ∨ Was s d model cc map (material x) e) ∧
        ∀ y, [y, x].Sublist ((moveFill mats fill).map (·.1)) → ¬ Was s d model cc map (material y) e) := by
  obtain ⟨mats, s2, s3, s4, h1, h2, h3, h4, h5, h6, h7, h8, h9⟩ := overlay_stages clos s d model cc map all fill S
  have hmn : (mats.map (·.1)).Nodup := by
    obtain ⟨m0, hm0, hm1, -⟩ := getMaterials_spec s.color s.groups [] S.named (fun g hg => (S.wf.ents g hg).2) (by simp)
    rw [h1] at hm0; cases hm0; exact hm1
  obtain ⟨l, c, m1, m2, m3⟩ := moveFill_spec mats fill hmn
  have hac := setting_accepted S
  have hlen : map.length = (model.map fun t => ((d, t) : DimTag)).length + (cc.map fun t => ((d, t) : DimTag)).length := by
    simpa using S.full
  have hmem := C89_members clos s2 s3 _ _ map d h3 hac hlen h8
  have hhier := C90_hierarchy clos s2 s3 s4 _ _ map _ d h3 h4 hac hlen h7 h8 h9
  obtain ⟨g1, g2, g3⟩ := C90_groups clos s2 s4 _ _ map _ d h3 h4 hac hlen h7 h9
  -- stage three
  have hmem3 : ∀ n e, In s3 d n e ↔ (Was s d model cc map n e ∨ (n = material fill.1 ∧ InGrid d model cc map e)) ∨
      ∃ i t, n = cell i ∧ cc[i]? = some t ∧ e ∈ pieces d model cc map t := by
    intro n e
    rw [hmem]
    constructor
    · rintro ⟨e0, he0, he⟩
      rcases (h6 d n e0).1 he0 with (h | ⟨_, hn, hc⟩) | ⟨_, i, hn, hi⟩
      · exact Or.inl (Or.inl ⟨e0, h, he⟩)
      · exact Or.inl (Or.inr ⟨hn, e0, hc, he⟩)
      · exact Or.inr ⟨i, e0, hn, hi, he⟩
    · rintro ((⟨e0, h, he⟩ | ⟨hn, e0, hc, he⟩) | ⟨i, e0, hn, hi, he⟩)
      · exact ⟨e0, (h6 d n e0).2 (Or.inl (Or.inl h)), he⟩
      · exact ⟨e0, (h6 d n e0).2 (Or.inl (Or.inr ⟨rfl, hn, hc⟩)), he⟩
      · exact ⟨e0, (h6 d n e0).2 (Or.inr ⟨rfl, i, hn, hi⟩), he⟩
  have hmats : ((moveFill mats fill).map fun m => (material m.1, m.2)).map (·.1) = ((moveFill mats fill).map (·.1)).map material := by
    simp [Function.comp_def]
  have hnot : ∀ n, preCoarse <+: n → ∀ m, ¬ [m, n].Sublist (((moveFill mats fill).map fun m => (material m.1, m.2)).map (·.1)) := by
    intro n hp m hs
    have : n ∈ ((moveFill mats fill).map fun m => (material m.1, m.2)).map (·.1) := hs.subset (by simp)
    rw [hmats] at this
    obtain ⟨x, _, rfl⟩ := List.mem_map.1 this
    exact material_not_cell x hp
  have hwasn : ∀ n e, preCoarse <+: n → ¬ Was s d model cc map n e := by
    rintro n e hp ⟨e0, ⟨g, hg, _, hn, _⟩, _⟩
    exact S.first g hg (hn ▸ hp)
  have hcell4 : ∀ n e, preCoarse <+: n → (In s4 d n e ↔ ∃ i t, n = cell i ∧ cc[i]? = some t ∧ e ∈ pieces d model cc map t) := by
    intro n e hp
    rw [hhier, hmem3]
    constructor
    · rintro ⟨(h | ⟨h, _⟩) | h, _⟩
      · exact absurd h (hwasn n e hp)
      · exact absurd (h ▸ hp) (material_not_cell _)
      · exact h
    · exact fun h => ⟨Or.inr h, fun m hm => absurd hm (hnot n hp m)⟩
  obtain ⟨q1, q2⟩ := keepTags_spec d s4
  have hkeep : ∀ e, e ∈ keepTags d s4.groups ↔ InGrid d model cc map e := by
    intro e
    rw [q2]
    constructor
    · rintro ⟨n, hp, hn⟩
      obtain ⟨i, t, _, hi, he⟩ := (hcell4 n e hp).1 hn
      exact ⟨t, List.mem_of_getElem? hi, he⟩
    · rintro ⟨t, ht, he⟩
      obtain ⟨i, hi⟩ := List.mem_iff_getElem?.1 ht
      exact ⟨cell i, cell_prefix i, (hcell4 _ e (cell_prefix i)).2 ⟨i, t, rfl, hi, he⟩⟩
  have hgone : ∀ e, e ∈ setDiff all (keepTags d s4.groups) ↔ e ∈ all ∧ ¬ InGrid d model cc map e := by
    intro e
    rw [mem_setDiff _ _ _ S.sorted q1, hkeep]
  have hall : ∀ n e, In s4 d n e → e ∈ all := by
    intro n e hin
    have := ((hhier n e).1 hin).1
    obtain ⟨e0, he0, he⟩ := (hmem n e).1 this
    refine pieces_all S e0 e ?_ he
    rcases (h6 d n e0).1 he0 with (h | ⟨_, _, hc⟩) | ⟨_, i, _, hi⟩
    · exact Or.inl (S.owned n e0 h)
    · exact Or.inr hc
    · exact Or.inr (List.mem_of_getElem? hi)
  have hfin : ∀ n e, In (removeEnts s4 d (setDiff all (keepTags d s4.groups))) d n e ↔ In s4 d n e ∧ InGrid d model cc map e := by
    intro n e
    rw [removeEnts_in]
    constructor
    · rintro ⟨h, h'⟩
      refine ⟨h, ?_⟩
      by_contra hno
      exact h' rfl ((hgone e).2 ⟨hall n e h, hno⟩)
    · rintro ⟨h, h'⟩
      exact ⟨h, fun _ hg => ((hgone e).1 hg).2 h'⟩
  refine ⟨mats, l, c, _, _, h2, h1, m1, hgone, ?_, ?_, ?_, ?_⟩
  · intro i t hi e
    have hlt : ∀ (i : Nat) t, cc[i]? = some t → i < 100000 := fun i t h => by
      have := (List.getElem?_eq_some_iff.1 h).1
      have := S.count
      omega
    rw [hfin, hcell4 _ _ (cell_prefix i)]
    constructor
    · rintro ⟨⟨j, t', hij, hj, he⟩, _⟩
      have : i = j := cell_inj (hlt i t hi) (hlt j t' hj) hij
      subst this
      rw [hi] at hj; cases hj; exact he
    · exact fun he => ⟨⟨i, t, rfl, hi, he⟩, t, List.mem_of_getElem? hi, he⟩
  · rintro d' n e hin
    have hin4 := ((removeEnts_in _ _ _ _ _ _).1 hin).1
    have hd : d' = d := by
      obtain ⟨g, hg, hgd, _⟩ := hin4
      obtain ⟨_, _, _, h, _⟩ := g3 g hg
      exact hgd ▸ h
    subst hd
    exact ⟨rfl, ((hfin n e).1 hin).2⟩
  · intro n e hp hn hnf
    rw [hfin, hhier, hmem3]
    constructor
    · rintro ⟨⟨(h | ⟨h, _⟩) | ⟨i, _, h, _⟩, _⟩, hk⟩
      · exact ⟨hk, h⟩
      · exact absurd h hnf
      · exact absurd (h ▸ cell_prefix i) hp
    · rintro ⟨hk, h⟩
      refine ⟨⟨Or.inl (Or.inl h), fun m hm => ?_⟩, hk⟩
      exfalso
      apply hn
      have : n ∈ ((moveFill mats fill).map fun m => (material m.1, m.2)).map (·.1) := hm.subset (by simp)
      simpa [Function.comp_def] using this
  · intro x e
    have hs3 : ∀ y, In s3 d (material y) e ↔ Was s d model cc map (material y) e ∨ (y = fill.1 ∧ InGrid d model cc map e) := by
      intro y
      rw [hmem3]
      constructor
      · rintro ((h | ⟨h, h'⟩) | ⟨i, _, h, _⟩)
        · exact Or.inl h
        · exact Or.inr ⟨material_inj h, h'⟩
        · exact absurd h.symm (cell_ne_material i y)
      · rintro (h | ⟨h, h'⟩)
        · exact Or.inl (Or.inl h)
        · exact Or.inl (Or.inr ⟨by rw [h], h'⟩)
    rw [hfin, hhier, hs3]
    have hsub : ∀ m, [m, material x].Sublist (((moveFill mats fill).map fun m => (material m.1, m.2)).map (·.1)) ↔
        ∃ y, m = material y ∧ [y, x].Sublist ((moveFill mats fill).map (·.1)) := by
      intro m
      rw [hmats]
      constructor
      · intro h
        have hm : m ∈ ((moveFill mats fill).map (·.1)).map material := h.subset (by simp)
        obtain ⟨y, _, rfl⟩ := List.mem_map.1 hm
        refine ⟨y, rfl, ?_⟩
        obtain ⟨l', hl', he⟩ := List.sublist_map_iff.1 h
        match l', he with
        | [a, b], he =>
          simp only [List.map_cons, List.map_nil, List.cons.injEq, and_true] at he
          rw [material_inj he.1, material_inj he.2]
          exact hl'
      · rintro ⟨y, rfl, h⟩
        exact h.map material
    have hnf : ∀ y, [y, x].Sublist ((moveFill mats fill).map (·.1)) → y ≠ fill.1 := by
      intro y hy
      rw [m1, List.map_append] at hy m2
      exact (pair_concat _ _ _ _ m2 hy).2
    constructor
    · rintro ⟨⟨h, h'⟩, hk⟩
      refine ⟨hk, ?_, fun y hy hw => ?_⟩
      · rcases h with h | h
        · exact Or.inr h
        · exact Or.inl h.1
      · exact h' _ ((hsub _).2 ⟨y, rfl, hy⟩) ((hs3 y).2 (Or.inl hw))
    · rintro ⟨hk, h, h'⟩
      refine ⟨⟨?_, fun m hm => ?_⟩, hk⟩
      · rcases h with h | h
        · exact Or.inr ⟨h, hk⟩
        · exact Or.inl h
      · obtain ⟨y, rfl, hy⟩ := (hsub m).1 hm
        rw [hs3]
        rintro (hw | ⟨hw, _⟩)
        · exact h' y hy hw
        · exact hnf y hy hw

/-! ## C92 -/

/-- The overlay is defined. -/
theorem C92_defined (clos : DimTag → List DimTag) (s : Gm Name C) (d : ℤ) (model cc : List ℤ) (map : List (List DimTag))
    (all : List ℤ) (fill : Name × C) (S : Setting s d model cc map all) :
    ∃ s' gone, overlay clos s d model cc map all fill = .ok (s', gone) := by
  obtain ⟨_, _, _, s', gone, h, _⟩ := overlay_members clos s d model cc map all fill S
  exact ⟨s', gone, h⟩

/-- Exactly the entities outside the grid are removed, and nothing outside the grid has a group afterwards. -/
theorem C92_removed (clos : DimTag → List DimTag) (s s' : Gm Name C) (d : ℤ) (model cc : List ℤ) (map : List (List DimTag))
    (all gone : List ℤ) (fill : Name × C) (S : Setting s d model cc map all)
    (h : overlay clos s d model cc map all fill = .ok (s', gone)) :
    (∀ e, e ∈ gone ↔ e ∈ all ∧ ¬ InGrid d model cc map e) ∧ ∀ d' n e, In s' d' n e → d' = d ∧ InGrid d model cc map e := by
  obtain ⟨_, _, _, _, _, h0, _, _, h1, _, h2, _⟩ := overlay_members clos s d model cc map all fill S
  rw [h] at h0; cases h0
  exact ⟨h1, h2⟩

/-- The model is well-formed again, with one group for a name. -/
theorem C92_wf (clos : DimTag → List DimTag) (s s' : Gm Name C) (d : ℤ) (model cc : List ℤ) (map : List (List DimTag))
    (all gone : List ℤ) (fill : Name × C) (S : Setting s d model cc map all)
    (h : overlay clos s d model cc map all fill = .ok (s', gone)) : WF s' ∧ Distinct s' d := by
  obtain ⟨mats, s2, s3, s4, h1, h2, h3, h4, h5, h6, h7, h8, h9⟩ := overlay_stages clos s d model cc map all fill S
  rw [h] at h2
  cases h2
  have hlen : map.length = (model.map fun t => ((d, t) : DimTag)).length + (cc.map fun t => ((d, t) : DimTag)).length := by
    simpa using S.full
  obtain ⟨g1, g2, _⟩ := C90_groups clos s2 s4 _ _ map _ d h3 h4 (setting_accepted S) hlen h7 h9
  exact ⟨removeEnts_wf _ g1 _ _, removeEnts_distinct _ _ g2 _⟩

/-- The group with the number of a coarse cell has exactly the fragments of its rectangle. -/
theorem C92_cells (clos : DimTag → List DimTag) (s s' : Gm Name C) (d : ℤ) (model cc : List ℤ) (map : List (List DimTag))
    (all gone : List ℤ) (fill : Name × C) (S : Setting s d model cc map all)
    (h : overlay clos s d model cc map all fill = .ok (s', gone)) (i : Nat) (t : ℤ) (hi : cc[i]? = some t) (e : ℤ) :
    In s' d (cell i) e ↔ e ∈ pieces d model cc map t := by
  obtain ⟨_, _, _, _, _, h0, _, _, _, h1, _⟩ := overlay_members clos s d model cc map all fill S
  rw [h] at h0; cases h0
  exact h1 i t hi e

/-- The fill material has exactly what had no other material. -/
theorem C92_fill (clos : DimTag → List DimTag) (s s' : Gm Name C) (d : ℤ) (model cc : List ℤ) (map : List (List DimTag))
    (all gone : List ℤ) (fill : Name × C) (S : Setting s d model cc map all)
    (h : overlay clos s d model cc map all fill = .ok (s', gone)) (e : ℤ) :
    In s' d (material fill.1) e ↔ InGrid d model cc map e ∧ ∀ y, y ≠ fill.1 → ¬ Was s d model cc map (material y) e := by
  obtain ⟨mats, l, c, _, _, h0, h1, h2, _, _, _, _, h3⟩ := overlay_members clos s d model cc map all fill S
  rw [h] at h0; cases h0
  obtain ⟨m0, hm0, hm1, -, hm2, -⟩ := getMaterials_spec s.color s.groups [] S.named (fun g hg => (S.wf.ents g hg).2) (by simp)
  rw [h1] at hm0; cases hm0
  obtain ⟨-, -, -, m2, m3⟩ := moveFill_spec mats fill hm1
  rw [h3]
  constructor
  · rintro ⟨hk, _, hy⟩
    refine ⟨hk, fun y hyf hw => ?_⟩
    have hmem : y ∈ (moveFill mats fill).map (·.1) := by
      obtain ⟨e0, ⟨g, hg, _, hn, _⟩, _⟩ := hw
      obtain ⟨m, hm, rfl⟩ := List.mem_map.1 (hm2 y ⟨g, hg, hn⟩)
      exact List.mem_map.2 ⟨m, (m3 m).2 (Or.inl hm), rfl⟩
    refine hy y ?_ hw
    rw [h2, List.map_append] at hmem ⊢
    refine (pair_sublist_concat _ _ _ _).2 (Or.inr ⟨?_, rfl⟩)
    rcases List.mem_append.1 hmem with h | h
    · exact h
    · exact absurd (by simpa using h) hyf
  · rintro ⟨hk, hy⟩
    refine ⟨hk, Or.inl rfl, fun y hy' => hy y ?_⟩
    rw [h2, List.map_append] at hy' m2
    exact (pair_concat _ _ _ _ m2 hy').2

/-- Every entity of the grid has exactly one material, and that is one it had before, or the fill material. -/
theorem C92_one (clos : DimTag → List DimTag) (s s' : Gm Name C) (d : ℤ) (model cc : List ℤ) (map : List (List DimTag))
    (all gone : List ℤ) (fill : Name × C) (S : Setting s d model cc map all)
    (h : overlay clos s d model cc map all fill = .ok (s', gone)) (e : ℤ) (he : InGrid d model cc map e) :
    ∃ x, In s' d (material x) e ∧ (∀ y, In s' d (material y) e → y = x) ∧ (x = fill.1 ∨ Was s d model cc map (material x) e) := by
  obtain ⟨mats, l, c, _, _, h0, h1, h2, _, _, _, _, h3⟩ := overlay_members clos s d model cc map all fill S
  rw [h] at h0; cases h0
  obtain ⟨m0, hm0, hm1, -, hm2, -⟩ := getMaterials_spec s.color s.groups [] S.named (fun g hg => (S.wf.ents g hg).2) (by simp)
  rw [h1] at hm0; cases hm0
  obtain ⟨-, -, -, m2, m3⟩ := moveFill_spec mats fill hm1
  have hmem : ∀ y, (y = fill.1 ∨ Was s d model cc map (material y) e) → y ∈ (moveFill mats fill).map (·.1) := by
    rintro y (rfl | ⟨e0, ⟨g, hg, _, hn, _⟩, _⟩)
    · rw [h2]; simp
    · obtain ⟨m, hm, rfl⟩ := List.mem_map.1 (hm2 y ⟨g, hg, hn⟩)
      exact List.mem_map.2 ⟨m, (m3 m).2 (Or.inl hm), rfl⟩
  obtain ⟨x, k1, k2, k3, k4⟩ := first_with (fun y => y = fill.1 ∨ Was s d model cc map (material y) e) _ m2
    ⟨fill.1, hmem _ (Or.inl rfl), Or.inl rfl⟩
  refine ⟨x, (h3 x e).2 ⟨he, k2, fun y hy hw => k3 y hy (Or.inr hw)⟩, fun y hy => ?_, k2⟩
  obtain ⟨_, hy1, hy2⟩ := (h3 y e).1 hy
  rcases k4 y (hmem y hy1) hy1 with h | h
  · exact h
  · exfalso
    rcases k2 with hx | hx
    · rw [hx, h2, List.map_append] at h
      rw [h2, List.map_append] at m2
      exact (pair_concat _ _ _ _ m2 h).2 rfl
    · exact hy2 x h hx

/-- What had one material other than the fill material keeps it. -/
theorem C92_keeps (clos : DimTag → List DimTag) (s s' : Gm Name C) (d : ℤ) (model cc : List ℤ) (map : List (List DimTag))
    (all gone : List ℤ) (fill : Name × C) (S : Setting s d model cc map all)
    (h : overlay clos s d model cc map all fill = .ok (s', gone)) (e : ℤ) (he : InGrid d model cc map e) (x : Name)
    (hx : x ≠ fill.1) (hw : Was s d model cc map (material x) e)
    (hone : ∀ y, y ≠ fill.1 → Was s d model cc map (material y) e → y = x) : In s' d (material x) e := by
  obtain ⟨y, h1, h2, h3⟩ := C92_one clos s s' d model cc map all gone fill S h e he
  by_cases hy : y = fill.1
  · rw [hy] at h1
    exact absurd hw (((C92_fill clos s s' d model cc map all gone fill S h e).1 h1).2 x hx)
  · rcases h3 with h3 | h3
    · exact absurd h3 hy
    · rw [← hone y hy h3]; exact h1

/-- Groups that are neither materials nor coarse cells keep what lies in the grid. -/
theorem C92_rest (clos : DimTag → List DimTag) (s s' : Gm Name C) (d : ℤ) (model cc : List ℤ) (map : List (List DimTag))
    (all gone : List ℤ) (fill : Name × C) (S : Setting s d model cc map all)
    (h : overlay clos s d model cc map all fill = .ok (s', gone)) (n : Name) (hm : ∀ x, n ≠ material x)
    (hc : ¬ [67, 111, 97, 114, 115, 101, 95, 67, 101, 108, 108] <+: n) (e : ℤ) :
    In s' d n e ↔ InGrid d model cc map e ∧ Was s d model cc map n e := by
  obtain ⟨mats, l, c, _, _, h0, h1, h2, _, _, _, h3, _⟩ := overlay_members clos s d model cc map all fill S
  rw [h] at h0; cases h0
  refine h3 n e hc ?_ (hm _)
  intro hmem
  obtain ⟨m, _, hm'⟩ := List.mem_map.1 hmem
  exact hm _ hm'.symm

theorem pieces_flat (d : ℤ) (model cc : List ℤ) (map : List (List DimTag)) (e e' : ℤ) (he : e ∈ model ∨ e ∈ cc)
    (h : e' ∈ pieces d model cc map e) : e' ∈ map.flatten.map (·.2) := by
  unfold pieces become at h
  cases hf : (model.map (fun t => ((d, t) : DimTag)) ++ cc.map fun t => ((d, t) : DimTag)).findIdx? (fun x => x.2 == e) with
  | none =>
    rw [List.findIdx?_eq_none_iff] at hf
    have := hf (d, e) (by simpa using he)
    simp at this
  | some k =>
    rw [hf] at h
    obtain ⟨c, hc, rfl⟩ := List.mem_map.1 h
    refine List.mem_map.2 ⟨c, ?_, rfl⟩
    rw [List.getD_eq_getElem?_getD] at hc
    cases hk : map[k]? with
    | none => rw [hk] at hc; simp at hc
    | some l =>
      rw [hk] at hc
      exact List.mem_flatten.2 ⟨l, List.mem_of_getElem? hk, hc⟩

/-- In terms of points: let the fragments cover what they are fragments of, without overlap. Then the group of a coarse cell is its
rectangle; the fill material is the grid without the other materials; another material is within what it was; and every point of
the grid has exactly one material. -/
theorem C92_region {P : Type} (clos : DimTag → List DimTag) (s s' : Gm Name C) (d : ℤ) (model cc : List ℤ) (map : List (List DimTag))
    (all gone : List ℤ) (fill : Name × C) (S : Setting s d model cc map all)
    (h : overlay clos s d model cc map all fill = .ok (s', gone)) (reg reg' : ℤ → Set P)
    (hin : ∀ e, e ∈ model ∨ e ∈ cc → reg e = {p | ∃ e' ∈ pieces d model cc map e, p ∈ reg' e'})
    (hdis : ∀ a ∈ map.flatten, ∀ b ∈ map.flatten, a.2 ≠ b.2 → Disjoint (reg' a.2) (reg' b.2)) :
    (∀ (i : Nat) t, cc[i]? = some t → region reg' s' d (cell i) = reg t) ∧
    region reg' s' d (material fill.1) = {p | (∃ t ∈ cc, p ∈ reg t) ∧ ∀ y, y ≠ fill.1 → p ∉ region reg s d (material y)} ∧
    (∀ x, x ≠ fill.1 → region reg' s' d (material x) ⊆ {p | (∃ t ∈ cc, p ∈ reg t) ∧ p ∈ region reg s d (material x)}) ∧
    ∀ p, (∃ t ∈ cc, p ∈ reg t) → ∃! x, p ∈ region reg' s' d (material x) := by
  have hsame : ∀ a b p, a ∈ map.flatten.map (·.2) → b ∈ map.flatten.map (·.2) → p ∈ reg' a → p ∈ reg' b → a = b := by
    intro a b p ha hb hpa hpb
    obtain ⟨a', ha', rfl⟩ := List.mem_map.1 ha
    obtain ⟨b', hb', rfl⟩ := List.mem_map.1 hb
    by_contra hne
    exact Set.disjoint_left.1 (hdis a' ha' b' hb' hne) hpa hpb
  have hgridf : ∀ e, InGrid d model cc map e → e ∈ map.flatten.map (·.2) := by
    rintro e ⟨t, ht, he⟩; exact pieces_flat d model cc map t e (Or.inr ht) he
  have hgrid : ∀ e p, e ∈ map.flatten.map (·.2) → p ∈ reg' e → (InGrid d model cc map e ↔ ∃ t ∈ cc, p ∈ reg t) := by
    intro e p he hp
    constructor
    · rintro ⟨t, ht, het⟩
      exact ⟨t, ht, by rw [hin t (Or.inr ht)]; exact ⟨e, het, hp⟩⟩
    · rintro ⟨t, ht, hpt⟩
      rw [hin t (Or.inr ht)] at hpt
      obtain ⟨e', he', hpe'⟩ := hpt
      have := hsame e e' p he (pieces_flat d model cc map t e' (Or.inr ht) he') hp hpe'
      exact ⟨t, ht, this ▸ he'⟩
  have hwas : ∀ n e p, e ∈ map.flatten.map (·.2) → p ∈ reg' e → (Was s d model cc map n e ↔ p ∈ region reg s d n) := by
    intro n e p he hp
    constructor
    · rintro ⟨t, ht, het⟩
      exact ⟨t, ht, by rw [hin t (Or.inl (S.owned n t ht))]; exact ⟨e, het, hp⟩⟩
    · rintro ⟨t, ht, hpt⟩
      rw [hin t (Or.inl (S.owned n t ht))] at hpt
      obtain ⟨e', he', hpe'⟩ := hpt
      have := hsame e e' p he (pieces_flat d model cc map t e' (Or.inl (S.owned n t ht)) he') hp hpe'
      exact ⟨t, ht, this ▸ he'⟩
  have hpiece : ∀ p, (∃ t ∈ cc, p ∈ reg t) → ∃ e, InGrid d model cc map e ∧ p ∈ reg' e := by
    rintro p ⟨t, ht, hpt⟩
    rw [hin t (Or.inr ht)] at hpt
    obtain ⟨e', he', hpe'⟩ := hpt
    exact ⟨e', ⟨t, ht, he'⟩, hpe'⟩
  obtain ⟨-, honly⟩ := C92_removed clos s s' d model cc map all gone fill S h
  have hfill := C92_fill clos s s' d model cc map all gone fill S h
  refine ⟨?_, ?_, ?_, ?_⟩
  · intro i t hi
    have hc := C92_cells clos s s' d model cc map all gone fill S h i t hi
    rw [hin t (Or.inr (List.mem_of_getElem? hi))]
    ext p
    constructor
    · rintro ⟨e, h1, h2⟩; exact ⟨e, (hc e).1 h1, h2⟩
    · rintro ⟨e, h1, h2⟩; exact ⟨e, (hc e).2 h1, h2⟩
  · ext p
    constructor
    · rintro ⟨e, h1, h2⟩
      obtain ⟨h3, h4⟩ := (hfill e).1 h1
      have hf := hgridf e h3
      exact ⟨(hgrid e p hf h2).1 h3, fun y hy hp => h4 y hy ((hwas _ e p hf h2).2 hp)⟩
    · rintro ⟨h1, h2⟩
      obtain ⟨e, h3, h4⟩ := hpiece p h1
      exact ⟨e, (hfill e).2 ⟨h3, fun y hy hw => h2 y hy ((hwas _ e p (hgridf e h3) h4).1 hw)⟩, h4⟩
  · rintro x hx p ⟨e, h1, h2⟩
    have h3 := (honly d _ e h1).2
    obtain ⟨y, h4, h5, h6⟩ := C92_one clos s s' d model cc map all gone fill S h e h3
    have hxy := h5 x h1
    subst hxy
    have hf := hgridf e h3
    refine ⟨(hgrid e p hf h2).1 h3, ?_⟩
    rcases h6 with h6 | h6
    · exact absurd h6 hx
    · exact (hwas _ e p hf h2).1 h6
  · intro p hp
    obtain ⟨e, h3, h4⟩ := hpiece p hp
    obtain ⟨x, h5, h6, _⟩ := C92_one clos s s' d model cc map all gone fill S h e h3
    refine ⟨x, ⟨e, h5, h4⟩, ?_⟩
    rintro y ⟨e', h7, h8⟩
    have h9 := (honly d _ e' h7).2
    have := hsame e' e p (hgridf e' h9) (hgridf e h3) h8 h4
    exact h6 y (this ▸ h7)

/-- The colours: what has a material afterwards has the colour of the first entity of the first group with this material; the fill
material has its own colour if there was no group with it. (No name starts like that of a material without being one.) -/
theorem C92_color (clos : DimTag → List DimTag) (s s' : Gm Name C) (d : ℤ) (model cc : List ℤ) (map : List (List DimTag))
    (all gone : List ℤ) (fill : Name × C) (S : Setting s d model cc map all)
    (h : overlay clos s d model cc map all fill = .ok (s', gone))
    (hnames : ∀ g ∈ s.groups, preMaterial <+: g.name → ∃ y, g.name = material y)
    (hself : ∀ e, (d, e) ∈ clos (d, e)) (hother : ∀ e e', (d, e) ∈ clos (d, e') → e = e') (x : Name) (e : ℤ)
    (hx : In s' d (material x) e) :
    ((∀ g ∈ s.groups, g.name ≠ material x) → s'.color (d, e) = fill.2) ∧
    ∀ pre g post e0 es, s.groups = pre ++ g :: post → g.name = material x → (∀ g' ∈ pre, g'.name ≠ material x) →
      g.ents = e0 :: es → s'.color (d, e) = s.color (g.dim, e0) := by
  obtain ⟨mats, s2, s3, s4, h1, h2, h3, h4, h5, h6, h7, h8, h9⟩ := overlay_stages clos s d model cc map all fill S
  rw [h] at h2
  cases h2
  obtain ⟨m0, hm0, hm1, -, hm2, hm3⟩ := getMaterials_spec s.color s.groups [] S.named (fun g hg => (S.wf.ents g hg).2) (by simp)
  rw [h1] at hm0; cases hm0
  obtain ⟨l, c, m1, m2, m3⟩ := moveFill_spec mats fill hm1
  have hac := setting_accepted S
  have hlen : map.length = (model.map fun t => ((d, t) : DimTag)).length + (cc.map fun t => ((d, t) : DimTag)).length := by
    simpa using S.full
  have hcol := (C90_color clos s2 s4 _ _ map _ d h3 h4 hac hlen h7 h9 (d, e)).1
  have hx4 := ((removeEnts_in _ _ _ _ _ _).1 hx).1
  have key : ∀ m ∈ moveFill mats fill, m.1 = x → s4.color (d, e) = m.2 := by
    rintro m hm rfl
    obtain ⟨pre, post, hpp⟩ := List.append_of_mem hm
    refine hcol (pre.map fun m => (material m.1, m.2)) (material m.1, m.2) (post.map fun m => (material m.1, m.2)) (by rw [hpp]; simp)
      ⟨e, hx4, hself e⟩ ?_
    rintro m' hm' ⟨e', he', hcl⟩
    have hee := hother e e' hcl
    subst hee
    obtain ⟨m'', hm'', rfl⟩ := List.mem_map.1 hm'
    have hin1 : material m''.1 ∈ ((moveFill mats fill).map fun m => (material m.1, m.2)).map (·.1) := by
      rw [hpp]; simp only [List.map_append, List.mem_append, List.map_map]
      exact Or.inl (List.mem_map.2 ⟨m'', hm'', rfl⟩)
    have hin2 : material m.1 ∈ ((moveFill mats fill).map fun m => (material m.1, m.2)).map (·.1) := by
      rw [hpp]; simp
    have heq := C90_once clos s2 s4 _ _ map _ d h3 h4 hac hlen h7 h9 _ _ e hin1 hin2 he' hx4
    rw [hpp, List.map_append, List.map_cons] at m2
    exact (List.nodup_append.1 m2).2.2 m''.1 (List.mem_map.2 ⟨m'', hm'', rfl⟩) m.1 (by simp) (material_inj heq)
  have hsomem : ∃ m ∈ moveFill mats fill, m.1 = x := by
    obtain ⟨mm, ll, cc', s'', g', h0, k1, k2, _, _, _, _, k3⟩ := overlay_members clos s d model cc map all fill S
    rw [h] at h0; cases h0
    rw [h1] at k1; cases k1
    rcases ((k3 x e).1 hx).2.1 with hf | ⟨e0, ⟨g, hg, _, hn, _⟩, _⟩
    · exact ⟨(fill.1, c), by rw [m1]; simp, hf.symm⟩
    · obtain ⟨m, hm, hm'⟩ := List.mem_map.1 (hm2 x ⟨g, hg, hn⟩)
      exact ⟨m, (m3 m).2 (Or.inl hm), hm'⟩
  obtain ⟨m, hm, hmx⟩ := hsomem
  have hcm : s4.color (d, e) = m.2 := key m hm hmx
  have hdrop : ∀ g ∈ s.groups, preMaterial <+: g.name → g.name.drop 9 = x → g.name = material x := by
    intro g hg hp hd
    obtain ⟨y, hy⟩ := hnames g hg hp
    rw [hy, material_drop] at hd
    rw [hy, hd]
  refine ⟨fun hno => ?_, fun pre g post e0 es hgs hgn hpre hge => ?_⟩
  · show s4.color (d, e) = fill.2
    rw [hcm]
    rcases (m3 m).1 hm with hm' | ⟨_, rfl⟩
    · rcases hm3 m hm' with hm' | ⟨pre, g, post, hgs, k1, k2, _⟩
      · cases hm'
      · have hg : g ∈ s.groups := by rw [hgs]; simp
        exact absurd (hdrop g hg k1 (k2.trans hmx)) (hno g hg)
    · rfl
  · show s4.color (d, e) = s.color (g.dim, e0)
    rw [hcm]
    have hg : g ∈ s.groups := by rw [hgs]; simp
    have hxin := hm2 x ⟨g, hg, hgn⟩
    rcases (m3 m).1 hm with hm' | ⟨hno, rfl⟩
    · rcases hm3 m hm' with hm' | ⟨pre', g', post', hgs', k1, k2, k3, k4⟩
      · cases hm'
      · have hg' : g' ∈ s.groups := by rw [hgs']; simp
        have hgn' := hdrop g' hg' k1 (k2.trans hmx)
        have : pre' = pre ∧ g' = g := by
          rw [hgs] at hgs'
          rcases List.append_eq_append_iff.1 hgs' with ⟨as, ha, hb⟩ | ⟨as, ha, hb⟩
          · cases as with
            | nil => simp only [List.nil_append, List.cons.injEq] at hb; exact ⟨by simpa using ha, hb.1.symm⟩
            | cons a as =>
              simp only [List.cons_append, List.cons.injEq] at hb
              exfalso
              refine k3 g (by rw [ha, hb.1]; simp) (hgn ▸ material_prefix x) ?_
              rw [hgn, material_drop, hmx]
          · cases as with
            | nil => simp only [List.nil_append, List.cons.injEq] at hb; exact ⟨by simpa using ha.symm, hb.1⟩
            | cons a as =>
              simp only [List.cons_append, List.cons.injEq] at hb
              exfalso
              exact hpre g' (by rw [ha, hb.1]; simp) hgn'
        rw [this.2, hge] at k4
        simpa using k4.symm
    · exact absurd (hmx ▸ hxin) hno

/-! ### A case, and where it fails -/

/-- Material "A" on surface 1, "B" on surface 2. -/
def exS : Gm Name Nat := ⟨[⟨2, 1, material [65], [1]⟩, ⟨2, 2, material [66], [2]⟩], fun x => x.2.toNat⟩

/-- Rectangle 3 shares fragment 5 with surface 1. -/
def exMap : List (List DimTag) := [[(2, 4), (2, 5)], [(2, 6)], [(2, 5), (2, 7)]]

theorem exS_setting : Setting exS 2 [1, 2] [3] exMap [4, 5, 6, 7] := by
  refine ⟨Or.inl rfl, ⟨by unfold exS; decide, by unfold exS; decide, by unfold exS; decide⟩, by unfold Distinct exS; decide,
    by unfold exS; decide, by unfold exS; decide, by decide, by decide, by decide, by decide, ?_, by decide, by decide, by decide, by decide⟩
  rintro n e ⟨g, hg, _, _, he⟩
  simp only [exS, List.mem_cons, List.not_mem_nil, or_false] at hg
  rcases hg with rfl | rfl <;> simp at he <;> simp [he]

/-- The groups and what is removed, for evaluation. -/
def outcome (r : Res (Gm Name Nat × List ℤ)) : Option (List (Gmsh.Group Name) × List ℤ) :=
  match r with
  | .ok (s, g) => some (s.groups, g)
  | _ => none

/-- Rectangle 3 becomes cell 0: fragment 5 is of "A", fragment 7 of the fill material "W"; 4 and 6 are removed. -/
example : outcome (overlay (fun x => [x]) exS 2 [1, 2] [3] exMap [4, 5, 6, 7] ([87], 9)) =
    some ([⟨2, 1, material [65], [5]⟩, ⟨2, 3, material [87], [7]⟩, ⟨2, 4, cell 0, [5, 7]⟩], [4, 6]) := by decide +kernel

/-- A group named `Material` ends the program: `substr` throws. -/
theorem C92_name_fails : outcome (overlay (fun x => [x]) (⟨[⟨2, 1, [77, 97, 116, 101, 114, 105, 97, 108], [1]⟩], fun _ => 0⟩)
    2 [1] [2] [[(2, 3)], [(2, 3)]] [3] ([87], 9)) = none := by decide +kernel

/-- The fill material changes places with the last material: of two materials "A", "B" of one surface the first counts, unless the
fill material "W" has a group before. -/
theorem C92_swap_fails :
    outcome (overlay (fun x => [x]) ⟨[⟨2, 2, material [65], [1]⟩, ⟨2, 3, material [66], [1]⟩], fun _ => 0⟩
      2 [1] [2] [[(2, 3)], [(2, 3)]] [3] ([87], 9)) = some ([⟨2, 2, material [65], [3]⟩, ⟨2, 5, cell 0, [3]⟩], []) ∧
    outcome (overlay (fun x => [x]) ⟨[⟨2, 1, material [87], [1]⟩, ⟨2, 2, material [65], [1]⟩, ⟨2, 3, material [66], [1]⟩], fun _ => 0⟩
      2 [1] [2] [[(2, 3)], [(2, 3)]] [3] ([87], 9)) = some ([⟨2, 3, material [66], [3]⟩, ⟨2, 4, cell 0, [3]⟩], []) := by
  constructor <;> decide +kernel

/-- With a group that has the name of a coarse cell already, what is outside the grid stays (fragment 4). -/
theorem C92_again_fails :
    outcome (overlay (fun x => [x]) ⟨[⟨2, 1, material [65], [1]⟩, ⟨2, 2, cell 0, [1]⟩], fun _ => 0⟩
      2 [1] [2] [[(2, 3), (2, 4)], [(2, 3)]] [3, 4] ([87], 9)) =
    some ([⟨2, 1, material [65], [3, 4]⟩, ⟨2, 2, cell 0, [3, 4]⟩, ⟨2, 4, cell 0, [3]⟩], []) := by decide +kernel

end Verif.OverlayGroups
