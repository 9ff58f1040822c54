import Verif.Props.OverlayGroupsSpec
import Verif.Props.GmshGroups
import Verif.Props.Names

/-! Lemmas for C92. -/

namespace Verif.OverlayGroups

open Verif.XSLib (Res)
open Verif.Gmsh hiding Group
open Verif.GmshSpec
open Verif.GmshGroups
open Verif.Overlay
open Verif.OverlayGroupsSpec

variable {C : Type}

theorem matName_eq (x : Name) : matName x = material x := rfl

theorem material_inj {x y : Name} (h : material x = material y) : x = y := List.append_cancel_left h

theorem material_prefix (x : Name) : preMaterial <+: material x := ⟨95 :: x, rfl⟩

theorem material_drop (x : Name) : (material x).drop 9 = x := rfl

theorem cell_inj {i j : Nat} (hi : i < 100000) (hj : j < 100000) (h : cell i = cell j) : i = j :=
  Names.C63_injective i j hi hj (List.append_cancel_left h)

theorem cell_prefix (i : Nat) : preCoarse <+: cell i := ⟨95 :: Names.getASCIINumber i, rfl⟩

theorem cell_ne_material (i : Nat) (x : Name) : cell i ≠ material x := by
  intro h
  have := congrArg List.head? h
  simp [cell, material] at this

theorem material_not_cell (x : Name) : ¬ preCoarse <+: material x := by
  rintro ⟨t, h⟩
  have := congrArg List.head? h
  simp [preCoarse, material] at this

/-! ### The list of materials -/

theorem getMaterials_spec (color : DimTag → C) : ∀ (gs : List (Gmsh.Group Name)) (acc : List (Name × C)),
    (∀ g ∈ gs, g.name ≠ preMaterial) → (∀ g ∈ gs, g.ents ≠ []) → (acc.map (·.1)).Nodup →
    ∃ mats, getMaterials color gs acc = .ok mats ∧ (mats.map (·.1)).Nodup ∧ (∃ l, mats = acc ++ l) ∧
      (∀ x, (∃ g ∈ gs, g.name = material x) → x ∈ mats.map (·.1)) ∧
      ∀ m ∈ mats, m ∈ acc ∨ ∃ pre g post, gs = pre ++ g :: post ∧ preMaterial <+: g.name ∧ g.name.drop 9 = m.1 ∧
        (∀ g' ∈ pre, preMaterial <+: g'.name → g'.name.drop 9 ≠ m.1) ∧ g.ents.head?.map (fun e => color (g.dim, e)) = some m.2 := by
  intro gs
  induction gs with
  | nil =>
    intro acc _ _ hn
    exact ⟨acc, rfl, hn, ⟨[], by simp⟩, by simp, fun m hm => Or.inl hm⟩
  | cons g gs ih =>
    intro acc hne hents hn
    have hne' := fun g' hg' => hne g' (List.mem_cons_of_mem _ hg')
    have hents' := fun g' hg' => hents g' (List.mem_cons_of_mem _ hg')
    unfold getMaterials
    by_cases hp : preMaterial.isPrefixOf g.name
    · rw [if_pos hp]
      have hp' : preMaterial <+: g.name := List.isPrefixOf_iff_prefix.1 hp
      have hlen : ¬ g.name.length < 9 := by
        obtain ⟨t, ht⟩ := hp'
        intro hlt
        have h0 : t = [] := by
          have := congrArg List.length ht
          rw [List.length_append] at this
          have h8 : preMaterial.length = 8 := rfl
          exact List.eq_nil_of_length_eq_zero (by omega)
        subst h0
        exact hne g List.mem_cons_self (by simpa using ht.symm)
      rw [if_neg hlen]
      by_cases ha : acc.any fun m => m.1 == g.name.drop 9
      · rw [if_pos ha]
        obtain ⟨m0, hm0, hm0'⟩ := List.any_eq_true.1 ha
        simp only [beq_iff_eq] at hm0'
        obtain ⟨mats, h1, h2, ⟨l, h3⟩, h4, h5⟩ := ih acc hne' hents' hn
        refine ⟨mats, h1, h2, ⟨l, h3⟩, ?_, ?_⟩
        · rintro x ⟨g', hg', hx⟩
          rcases List.mem_cons.1 hg' with rfl | hg'
          · rw [hx, material_drop] at hm0'
            rw [h3]
            exact List.mem_map.2 ⟨m0, List.mem_append_left _ hm0, hm0'⟩
          · exact h4 x ⟨g', hg', hx⟩
        · intro m hm
          rcases h5 m hm with h | ⟨pre, g', post, rfl, k1, k2, k3, k4⟩
          · exact Or.inl h
          · by_cases hmg : g.name.drop 9 = m.1
            · left
              have : m = m0 := by
                have hm0m : m0 ∈ mats := by rw [h3]; exact List.mem_append_left _ hm0
                exact List.inj_on_of_nodup_map h2 hm hm0m (by rw [hm0', hmg])
              rw [this]; exact hm0
            · right
              refine ⟨g :: pre, g', post, rfl, k1, k2, ?_, k4⟩
              intro g2 hg2 h9
              rcases List.mem_cons.1 hg2 with rfl | hg2
              · exact hmg
              · exact k3 g2 hg2 h9
      · rw [if_neg ha]
        obtain ⟨e, es, he⟩ := List.exists_cons_of_ne_nil (hents g List.mem_cons_self)
        have hnotin : g.name.drop 9 ∉ acc.map (·.1) := by
          intro h
          obtain ⟨m0, hm0, hm0'⟩ := List.mem_map.1 h
          exact ha (List.any_eq_true.2 ⟨m0, hm0, by simpa using hm0'⟩)
        rw [he]
        dsimp only
        obtain ⟨mats, h1, h2, ⟨l, h3⟩, h4, h5⟩ := ih (acc ++ [(g.name.drop 9, color (g.dim, e))]) hne' hents' (by
          rw [List.map_append]
          refine List.nodup_append.2 ⟨hn, by simp, ?_⟩
          intro a ha' b hb
          simp only [List.map_cons, List.map_nil, List.mem_singleton] at hb
          rintro rfl
          exact hnotin (hb ▸ ha'))
        have hg0 : (g.name.drop 9, color (g.dim, e)) ∈ mats := by rw [h3]; simp
        refine ⟨mats, h1, h2, ⟨(g.name.drop 9, color (g.dim, e)) :: l, by rw [h3]; simp⟩, ?_, ?_⟩
        · rintro x ⟨g', hg', hx⟩
          rcases List.mem_cons.1 hg' with rfl | hg'
          · exact List.mem_map.2 ⟨_, hg0, by rw [hx, material_drop]⟩
          · exact h4 x ⟨g', hg', hx⟩
        · intro m hm
          by_cases hmg : g.name.drop 9 = m.1
          · right
            have : m = (g.name.drop 9, color (g.dim, e)) := List.inj_on_of_nodup_map h2 hm hg0 hmg.symm
            subst this
            exact ⟨[], g, gs, rfl, hp', rfl, by simp, by rw [he]; rfl⟩
          · rcases h5 m hm with h | ⟨pre, g', post, rfl, k1, k2, k3, k4⟩
            · rcases List.mem_append.1 h with h | h
              · exact Or.inl h
              · rw [List.mem_singleton] at h
                rw [h] at hmg; exact absurd rfl hmg
            · right
              refine ⟨g :: pre, g', post, rfl, k1, k2, ?_, k4⟩
              intro g2 hg2 h9
              rcases List.mem_cons.1 hg2 with rfl | hg2
              · exact hmg
              · exact k3 g2 hg2 h9
    · rw [if_neg hp]
      obtain ⟨mats, h1, h2, h3, h4, h5⟩ := ih acc hne' hents' hn
      have hp' : ¬ preMaterial <+: g.name := fun h => hp (List.isPrefixOf_iff_prefix.2 h)
      refine ⟨mats, h1, h2, h3, ?_, ?_⟩
      · rintro x ⟨g', hg', hx⟩
        rcases List.mem_cons.1 hg' with rfl | hg'
        · exact absurd (hx ▸ material_prefix x) hp'
        · exact h4 x ⟨g', hg', hx⟩
      · intro m hm
        rcases h5 m hm with h | ⟨pre, g', post, rfl, k1, k2, k3, k4⟩
        · exact Or.inl h
        · right
          refine ⟨g :: pre, g', post, rfl, k1, k2, ?_, k4⟩
          intro g2 hg2 h9
          rcases List.mem_cons.1 hg2 with rfl | hg2
          · exact absurd h9 hp'
          · exact k3 g2 hg2 h9

theorem swap_last {α : Type} : ∀ (l : List α) (i : Nat) (a b : α), l[i]? = some a → l.getLast? = some b →
    ∃ l', (l.set i b).set (l.length - 1) a = l' ++ [a] ∧ (l' ++ [a]).Perm l := by
  intro l i a b ha hb
  obtain ⟨init, rfl⟩ : ∃ init, l = init ++ [b] := List.getLast?_eq_some_iff.1 hb
  have hi : i < (init ++ [b]).length := (List.getElem?_eq_some_iff.1 ha).1
  rw [List.length_append, List.length_singleton] at hi ⊢
  by_cases h : i < init.length
  · refine ⟨init.set i b, ?_, ?_⟩
    · rw [List.set_append_left _ _ h, Nat.add_sub_cancel, List.set_append_right _ _ (by simp)]
      simp
    · have ha' : init[i]? = some a := by rwa [List.getElem?_append_left h] at ha
      have hget : init[i] = a := (List.getElem?_eq_some_iff.1 ha').2
      rw [List.set_eq_take_append_cons_drop, if_pos h]
      have : init = init.take i ++ a :: init.drop (i + 1) := by
        conv_lhs => rw [← List.take_append_drop i init, List.drop_eq_getElem_cons h, hget]
      calc (init.take i ++ b :: init.drop (i + 1)) ++ [a]
          = init.take i ++ (b :: (init.drop (i + 1) ++ [a])) := by simp
        _ |>.Perm (init.take i ++ (a :: (init.drop (i + 1) ++ [b]))) := by
            refine List.Perm.append_left _ ?_
            have h1 : (b :: (init.drop (i + 1) ++ [a])).Perm (b :: a :: init.drop (i + 1)) :=
              (List.perm_append_comm (l₁ := init.drop (i + 1)) (l₂ := [a])).cons b
            have h2 : (a :: (init.drop (i + 1) ++ [b])).Perm (a :: b :: init.drop (i + 1)) :=
              (List.perm_append_comm (l₁ := init.drop (i + 1)) (l₂ := [b])).cons a
            exact h1.trans ((List.Perm.swap a b _).trans h2.symm)
        _ = (init.take i ++ a :: init.drop (i + 1)) ++ [b] := by simp
        _ = init ++ [b] := by rw [← this]
  · have : i = init.length := by omega
    subst this
    simp only [List.getElem?_append_right (le_refl _), Nat.sub_self, List.getElem?_cons_zero, Option.some.injEq] at ha
    subst ha
    refine ⟨init, ?_, List.Perm.refl _⟩
    simp

theorem moveFill_spec (mats : List (Name × C)) (fill : Name × C) (hn : (mats.map (·.1)).Nodup) :
    ∃ l c, moveFill mats fill = l ++ [(fill.1, c)] ∧ ((moveFill mats fill).map (·.1)).Nodup ∧
      (∀ m, m ∈ moveFill mats fill ↔ m ∈ mats ∨ (fill.1 ∉ mats.map (·.1) ∧ m = fill)) := by
  unfold moveFill
  cases hf : mats.findIdx? fun m => m.1 == fill.1 with
  | none =>
    have hno : fill.1 ∉ mats.map (·.1) := by
      rw [List.findIdx?_eq_none_iff] at hf
      intro h
      obtain ⟨m, hm, hm'⟩ := List.mem_map.1 h
      simpa [hm'] using hf m hm
    refine ⟨mats, fill.2, rfl, ?_, fun m => ?_⟩
    · rw [List.map_append]
      refine List.nodup_append.2 ⟨hn, by simp, ?_⟩
      intro a ha b hb
      simp only [List.map_cons, List.map_nil, List.mem_singleton] at hb
      rintro rfl
      exact hno (hb ▸ ha)
    · simp [hno]
  | some i =>
    rw [List.findIdx?_eq_some_iff_getElem] at hf
    obtain ⟨hi, hx, _⟩ := hf
    simp only [beq_iff_eq] at hx
    have hne : mats ≠ [] := by rintro rfl; simp at hi
    have hget := List.getElem?_eq_getElem hi
    have hlast := List.getLast?_eq_getLast_of_ne_nil hne
    simp only [hget, hlast]
    obtain ⟨l', h1, h2⟩ := swap_last mats i _ _ hget hlast
    have hin : fill.1 ∈ mats.map (·.1) := List.mem_map.2 ⟨_, List.getElem_mem hi, hx⟩
    refine ⟨l', mats[i].2, ?_, ?_, fun m => ?_⟩
    · rw [h1, ← hx]
    · rw [h1]; exact (h2.map (·.1)).nodup_iff.2 hn
    · rw [h1, h2.mem_iff]; simp [hin]

/-! ### The groups of the cells -/

theorem add_new (s : Gm Name C) (d : ℤ) (tags : List ℤ) (n : Name) (h : ∀ g ∈ s.groups, ¬ (g.dim = d ∧ g.name = n)) :
    addToPhysicalGroup s d tags (-1) n = .ok (s.add d tags (-1) n) := by
  unfold addToPhysicalGroup
  rw [List.find?_eq_none.2 (by intro g hg; simpa using h g hg)]

theorem increment_cell (i : Nat) (hi : i < 100000) : ∃ n, Names.increment (cell i) = some n ∧ (i + 1 < 100000 → n = cell (i + 1)) := by
  by_cases h : i + 1 < 100000
  · exact ⟨_, Names.C63_sequential [67, 111, 97, 114, 115, 101, 95, 67, 101, 108, 108, 95] i h, fun _ => rfl⟩
  · have : i = 99999 := by omega
    subst this
    refine ⟨[67, 111, 97, 114, 115, 101, 95, 67, 101, 108, 108] ++ (95 + 1) :: List.replicate 5 48, ?_, fun h => absurd h (by omega)⟩
    rw [← Names.C63_overflow_fails 5 95 (by decide) [67, 111, 97, 114, 115, 101, 95, 67, 101, 108, 108]]
    rfl

theorem cellGroups_spec (d : ℤ) : ∀ (cc : List ℤ) (k : Nat) (n : Name) (s : Gm Name C), WF s → Distinct s d →
    k + cc.length ≤ 100000 → (cc ≠ [] → n = cell k) → (∀ i e, k ≤ i → i < 100000 → ¬ In s d (cell i) e) →
    ∃ s', cellGroups d cc n s = .ok s' ∧ WF s' ∧ Distinct s' d ∧ s'.color = s.color ∧
      ∀ d' n e, In s' d' n e ↔ In s d' n e ∨ (d' = d ∧ ∃ i, n = cell (k + i) ∧ cc[i]? = some e) := by
  intro cc
  induction cc with
  | nil =>
    intro k n s hw hd _ _ _
    exact ⟨s, rfl, hw, hd, rfl, by simp⟩
  | cons t ts ih =>
    intro k n s hw hd hk hn hfree
    have hn := hn (by simp)
    rw [List.length_cons] at hk
    have hadd : addToPhysicalGroup s d [t] (-1) n = .ok (s.add d [t] (-1) n) := by
      refine add_new s d [t] n ?_
      rintro g hg ⟨h1, h2⟩
      obtain ⟨e, es, he⟩ := List.exists_cons_of_ne_nil (hw.ents g hg).2
      exact hfree k e (le_refl _) (by omega) ⟨g, hg, h1, by rw [h2, hn], by rw [he]; simp⟩
    obtain ⟨h1, h2, h3, h4⟩ := C89_add s _ hw d hd [t] n hadd
    obtain ⟨n', hn1, hn2⟩ := increment_cell k (by omega)
    obtain ⟨s', h5, h6, h7, h8, h9⟩ := ih (k + 1) n' (s.add d [t] (-1) n) h1 h2 (by omega) (by
      intro hts
      obtain ⟨a, l, rfl⟩ := List.exists_cons_of_ne_nil hts
      rw [List.length_cons] at hk
      exact hn2 (by omega)) (by
      intro i e hi hi' hin
      rcases (h4 d (cell i) e).1 hin with h | ⟨_, h, _⟩
      · exact hfree i e (by omega) hi' h
      · have := cell_inj hi' (by omega) (h.trans hn); omega)
    refine ⟨s', ?_, h6, h7, h8.trans h3, fun d' m e => ?_⟩
    · unfold cellGroups
      rw [hn, hn1]
      rw [hn] at h5
      exact h5
    · rw [h9, h4]
      constructor
      · rintro ((h | ⟨h, h', h''⟩) | ⟨h, i, h', h''⟩)
        · exact Or.inl h
        · right
          refine ⟨h, 0, by rw [h', hn]; rfl, ?_⟩
          rw [List.mem_singleton] at h''; rw [h'']; rfl
        · exact Or.inr ⟨h, i + 1, by rw [h']; congr 1; omega, h''⟩
      · rintro (h | ⟨h, i, h', h''⟩)
        · exact Or.inl (Or.inl h)
        · cases i with
          | zero =>
            left; right
            simp only [List.getElem?_cons_zero, Option.some.injEq] at h''
            exact ⟨h, by rw [h', hn]; rfl, by rw [h'']; simp⟩
          | succ i => exact Or.inr ⟨h, i, by rw [h']; congr 1; omega, h''⟩

/-! ### What is kept -/

theorem dedup_spec : ∀ l : List ℤ, l.Pairwise (· ≤ ·) → (dedupAdjacent l).Pairwise (· < ·) ∧ ∀ x, x ∈ dedupAdjacent l ↔ x ∈ l := by
  intro l
  induction l with
  | nil => intro _; simp [dedupAdjacent]
  | cons a l ih =>
    intro h
    cases l with
    | nil => simp [dedupAdjacent]
    | cons b l =>
      obtain ⟨h1, h2⟩ := ih (List.pairwise_cons.1 h).2
      have hab := (List.pairwise_cons.1 h).1
      unfold dedupAdjacent
      by_cases hba : b = a
      · rw [if_pos hba]
        refine ⟨h1, fun x => ?_⟩
        rw [h2, hba]; simp
      · rw [if_neg hba]
        refine ⟨List.pairwise_cons.2 ⟨fun x hx => ?_, h1⟩, fun x => by simp [h2]⟩
        have hx' := (h2 x).1 hx
        have hb := hab b List.mem_cons_self
        rcases List.mem_cons.1 hx' with rfl | hx''
        · omega
        · have := (List.pairwise_cons.1 (List.pairwise_cons.1 h).2).1 x hx''
          omega

theorem keepTags_spec (d : ℤ) (s : Gm Name C) : (keepTags d s.groups).Pairwise (· < ·) ∧
    ∀ e, e ∈ keepTags d s.groups ↔ ∃ n, preCoarse <+: n ∧ In s d n e := by
  obtain ⟨h1, h2⟩ := dedup_spec _ (List.pairwise_insertionSort (· ≤ ·)
    ((s.groups.filter fun g => g.dim == d && preCoarse.isPrefixOf g.name).flatMap (·.ents)))
  refine ⟨h1, fun e => ?_⟩
  unfold keepTags
  rw [h2, List.mem_insertionSort]
  simp only [List.mem_flatMap, List.mem_filter, Bool.and_eq_true, beq_iff_eq, List.isPrefixOf_iff_prefix]
  constructor
  · rintro ⟨g, ⟨h3, h4, h5⟩, h6⟩; exact ⟨g.name, h5, g, h3, h4, rfl, h6⟩
  · rintro ⟨n, h5, g, h3, h4, rfl, h6⟩; exact ⟨g, ⟨h3, h4, h5⟩, h6⟩

theorem removeEnts_in (s : Gm Name C) (d : ℤ) (l : List ℤ) (d' : ℤ) (n : Name) (e : ℤ) :
    In (removeEnts s d l) d' n e ↔ In s d' n e ∧ (d' = d → e ∉ l) := by
  unfold In removeEnts
  simp only [List.mem_filter, List.mem_map, decide_eq_true_eq]
  constructor
  · rintro ⟨g', ⟨⟨g, hg, rfl⟩, -⟩, h2, h3, h4⟩
    by_cases hd : g.dim = d
    · rw [if_pos hd] at h2 h3 h4
      rw [List.mem_filter, decide_eq_true_eq] at h4
      exact ⟨⟨g, hg, h2, h3, h4.1⟩, fun _ => h4.2⟩
    · rw [if_neg hd] at h2 h3 h4
      exact ⟨⟨g, hg, h2, h3, h4⟩, fun h => absurd (h2.trans h) hd⟩
  · rintro ⟨⟨g, hg, h2, h3, h4⟩, h5⟩
    refine ⟨_, ⟨⟨g, hg, rfl⟩, ?_⟩, ?_⟩
    · by_cases hd : g.dim = d
      · rw [if_pos hd]
        exact List.ne_nil_of_mem (List.mem_filter.2 ⟨h4, by simpa using h5 (h2 ▸ hd)⟩)
      · rw [if_neg hd]; exact List.ne_nil_of_mem h4
    · by_cases hd : g.dim = d
      · rw [if_pos hd]
        exact ⟨h2, h3, List.mem_filter.2 ⟨h4, by simpa using h5 (h2 ▸ hd)⟩⟩
      · rw [if_neg hd]; exact ⟨h2, h3, h4⟩

theorem removeEnts_wf (s : Gm Name C) (hs : WF s) (d : ℤ) (l : List ℤ) : WF (removeEnts s d l) := by
  have hb : ∀ g : Gmsh.Group Name, (if g.dim = d then { g with ents := g.ents.filter fun e => decide (e ∉ l) } else g).dim = g.dim ∧
      (if g.dim = d then { g with ents := g.ents.filter fun e => decide (e ∉ l) } else g).tag = g.tag := by
    intro g; split_ifs <;> simp
  refine ⟨?_, ?_, ?_⟩
  · refine List.Pairwise.filter _ (List.pairwise_map.2 (hs.sorted.imp fun {a b} h => ?_))
    rw [(hb a).1, (hb b).1, (hb a).2, (hb b).2]; exact h
  · intro g' hg'
    obtain ⟨g, hg, rfl⟩ := List.mem_map.1 (List.mem_filter.1 hg').1
    rw [(hb g).2]; exact hs.pos g hg
  · intro g' hg'
    obtain ⟨hg1, hg2⟩ := List.mem_filter.1 hg'
    obtain ⟨g, hg, rfl⟩ := List.mem_map.1 hg1
    refine ⟨?_, by simpa using hg2⟩
    by_cases h : g.dim = d
    · rw [if_pos h]; exact (hs.ents g hg).1.filter _
    · rw [if_neg h]; exact (hs.ents g hg).1

theorem removeEnts_distinct (s : Gm Name C) (d : ℤ) (hd : Distinct s d) (l : List ℤ) : Distinct (removeEnts s d l) d := by
  have hb : ∀ g : Gmsh.Group Name, (if g.dim = d then { g with ents := g.ents.filter fun e => decide (e ∉ l) } else g).dim = g.dim ∧
      (if g.dim = d then { g with ents := g.ents.filter fun e => decide (e ∉ l) } else g).name = g.name := by
    intro g; split_ifs <;> simp
  intro g' hg' h' hh' d1 d2 hn
  obtain ⟨g, hg, rfl⟩ := List.mem_map.1 (List.mem_filter.1 hg').1
  obtain ⟨k, hk, rfl⟩ := List.mem_map.1 (List.mem_filter.1 hh').1
  rw [(hb g).1] at d1
  rw [(hb k).1] at d2
  rw [(hb g).2, (hb k).2] at hn
  rw [hd g hg k hk d1 d2 hn]

theorem pair_concat {α : Type} (l : List α) (f m n : α) (hnd : (l ++ [f]).Nodup) (h : [m, n].Sublist (l ++ [f])) :
    (n = f → m ∈ l) ∧ m ≠ f := by
  have hf : f ∉ l := fun hf => (List.nodup_append.1 hnd).2.2 f hf f (by simp) rfl
  have hmn : m ≠ n := by
    have := hnd.sublist h
    simp at this; exact this
  have key : m ≠ f := by
    rintro rfl
    have := (pair_sublist_concat m n m l).1 h
    rcases this with h | ⟨h, h'⟩
    · exact hf (h.subset (by simp))
    · exact hf h
  refine ⟨fun _ => ?_, key⟩
  have hm : m ∈ l ++ [f] := h.subset (by simp)
  rcases List.mem_append.1 hm with h | h
  · exact h
  · exact absurd (List.mem_singleton.1 h) key

end Verif.OverlayGroups
