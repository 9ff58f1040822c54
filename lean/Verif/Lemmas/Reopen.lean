import Verif.Props.GmshInfo
import Verif.Props.GmshPins

/-! Lemmas on models that are cut, coloured, written and opened again (C114). -/

namespace Verif.ReopenL

open Verif.XSLib (Res)
open Verif.Gmsh (Gm DimTag)
open Verif.GmshSpec
open Verif.Overlay (Name)
open Verif.Info (Col openInfo write)
open Verif.InfoSpec
open Verif.Pins

set_option linter.unusedSectionVars false

/-- Four bytes. -/
def Bytes (c : Col) : Prop :=
  (0 ≤ c.1 ∧ c.1 < 256) ∧ (0 ≤ c.2.1 ∧ c.2.1 < 256) ∧ (0 ≤ c.2.2.1 ∧ c.2.2.1 < 256) ∧ (0 ≤ c.2.2.2 ∧ c.2.2.2 < 256)

theorem setColor_all {N C : Type} {Q : C → Prop} (clos : DimTag → List DimTag) (s : Gm N C) (l : List DimTag) (c : C) (hs : ∀ x, Q (s.color x))
    (hc : Q c) (x : DimTag) : Q ((s.setColor clos l c).color x) := by
  show Q (if x ∈ l.flatMap clos then c else s.color x)
  split
  · exact hc
  · exact hs x

theorem add_color {N C : Type} (s : Gm N C) (d : ℤ) (l : List ℤ) (t : ℤ) (n : N) : (s.add d l t n).color = s.color := by
  unfold Gm.add Gm.addTagged
  by_cases h : l = []
  · rw [if_pos h]
  · rw [if_neg h]

theorem pinMats_all {C : Type} {Q : C → Prop} (clos : DimTag → List DimTag) (ts : List ℤ) : ∀ (ms : List (Name × C)) (s s' : Gm Name C), (∀ x, Q (s.color x)) →
    (∀ m ∈ ms, Q m.2) → pinMats clos ts ms s = .ok s' → ∀ x, Q (s'.color x) := by
  induction ts with
  | nil =>
    intro ms s s' hs _ h
    rw [pinMats] at h
    · cases h; exact hs
    · intro a b c d e; cases e
  | cons t ts ih =>
    intro ms s s' hs hm h
    cases ms with
    | nil =>
      rw [pinMats] at h
      · cases h; exact hs
      · intro a b c d _ e; cases e
    | cons m ms =>
      rw [pinMats] at h
      cases ha : Gmsh.addToPhysicalGroup s 2 [t] (-1) (Overlay.matName m.1) with
      | undef => rw [ha] at h; cases h
      | refused => rw [ha] at h; cases h
      | ok s1 =>
        rw [ha] at h
        have hc : s1.color = s.color := by
          unfold Gmsh.addToPhysicalGroup at ha
          split at ha
          · split at ha
            · cases ha; rw [add_color]; rfl
            · cases ha
          · cases ha; rw [add_color]
        refine ih ms _ s' (setColor_all clos s1 _ _ (by rw [hc]; exact hs) (hm m (by simp))) (fun m' hm' => hm m' (by simp [hm'])) h

theorem addPin_all {K C : Type} [Field K] [LinearOrder K] {Q : C → Prop} (clos : DimTag → List DimTag) (o o' : Occ K C) (x y : K) (radii : List K)
    (mats : List (Name × C)) (out : List ℤ) (hs : ∀ e, Q (o.gm.color e)) (hm : ∀ m ∈ mats, Q m.2)
    (h : addPin clos o x y radii mats = .ok (o', out)) (e : DimTag) : Q (o'.gm.color e) := by
  cases radii with
  | nil => cases h
  | cons r0 rs =>
    rw [addPin] at h
    split at h
    · cases h
    split at h
    · cases h
    split at h
    · cases h
    dsimp only at h
    cases hp : pinMats clos ((ringsAt x y none (r0 :: rs) o.next).map (·.tag)) mats o.gm with
    | undef => rw [hp] at h; cases h
    | refused => rw [hp] at h; cases h
    | ok s =>
      rw [hp] at h
      cases h
      exact pinMats_all clos _ mats o.gm s hs hm hp e

theorem colorMaterials_all {C : Type} {Q : C → Prop} (clos : DimTag → List DimTag) (s : Gm Name C) (ms : List (Name × C)) (hs : ∀ x, Q (s.color x))
    (hm : ∀ m ∈ ms, Q m.2) (hne : s.groups ≠ []) :
    ∃ s', Gmsh.colorMaterials clos s ms = .ok s' ∧ s'.groups = s.groups ∧ ∀ x, Q (s'.color x) := by
  unfold Gmsh.colorMaterials
  cases hg : s.groups.getLast? with
  | none => exact absurd (List.getLast?_eq_none_iff.1 hg) hne
  | some g =>
    refine ⟨_, rfl, ?_⟩
    have hm' : ∀ m ∈ ms.reverse, Q m.2 := fun m h => hm m (List.mem_reverse.1 h)
    generalize ms.reverse = l at hm'
    have key : ∀ (l : List (Name × C)) (s1 : Gm Name C), (∀ m ∈ l, Q m.2) → s1.groups = s.groups → (∀ x, Q (s1.color x)) →
        (l.foldl (fun s m => match Gmsh.ptag s.groups g.dim m.1 with
          | none => s
          | some t => s.setColor clos ((Gmsh.entsOf s.groups g.dim t).map fun e => (g.dim, e)) m.2) s1).groups = s.groups ∧
        ∀ x, Q ((l.foldl (fun s m => match Gmsh.ptag s.groups g.dim m.1 with
          | none => s
          | some t => s.setColor clos ((Gmsh.entsOf s.groups g.dim t).map fun e => (g.dim, e)) m.2) s1).color x) := by
      intro l
      induction l with
      | nil => intro s1 _ h1 h2; exact ⟨h1, h2⟩
      | cons m l ih =>
        intro s1 h0 h1 h2
        rw [List.foldl_cons]
        refine ih _ (fun m' hm' => h0 m' (by simp [hm'])) ?_ ?_
        · split
          · exact h1
          · exact h1
        · intro x
          split
          · exact h2 x
          · exact setColor_all clos s1 _ _ h2 (h0 m (by simp)) x
    exact key l s hm' rfl hs

theorem colorMaterials_in {C : Type} {s s' : Gm Name C} (h : s'.groups = s.groups) (d : ℤ) (n : Name) (e : ℤ) : In s' d n e ↔ In s d n e := by
  unfold In; rw [h]

/-- Opening the file that was written, with all groups of dimension two. -/
theorem reopen_in (s s0 : Gm Name Col) (ents : List DimTag) (h : Storable s ents) (h0 : s0.groups = []) (hd : Distinct s 2) :
    ∃ s', openInfo s0 (write s ents) = .ok s' ∧ WF s' ∧ Distinct s' 2 ∧
      ∀ d n b, In s' d n b ↔ ∃ e, In s d n e ∧ b = newNumber ents d e := by
  obtain ⟨s', h1, h2, h3, -, -⟩ := C96_roundtrip s s0 ents h h0
  have hlen : s'.groups.length = s.groups.length := by simpa using congrArg List.length h3
  have hat : ∀ (i : Nat) g', s'.groups[i]? = some g' → ∃ g, s.groups[i]? = some g ∧ g'.dim = g.dim ∧ g'.name = g.name ∧
      g'.ents = g.ents.map (newNumber ents g.dim) := by
    intro i g' hi
    have := congrArg (·[i]?) h3
    simp only [List.getElem?_map, hi, Option.map_some] at this
    cases hg : s.groups[i]? with
    | none => rw [hg] at this; cases this
    | some g =>
      rw [hg] at this
      simp only [Option.map_some, Option.some.injEq, Prod.mk.injEq] at this
      exact ⟨g, rfl, this.1, this.2.1, this.2.2⟩
  have hto : ∀ (i : Nat) g, s.groups[i]? = some g → ∃ g', s'.groups[i]? = some g' ∧ g'.dim = g.dim ∧ g'.name = g.name ∧
      g'.ents = g.ents.map (newNumber ents g.dim) := by
    intro i g hi
    have hlt := (List.getElem?_eq_some_iff.1 hi).1
    obtain ⟨g2, k1, k2⟩ := hat i _ (List.getElem?_eq_getElem (l := s'.groups) (by omega))
    rw [hi] at k1; cases k1
    exact ⟨_, List.getElem?_eq_getElem (by omega), k2⟩
  refine ⟨s', h1, h2, ?_, ?_⟩
  · intro g' hg' k' hk' d1 d2 hn
    obtain ⟨i, hi⟩ := List.mem_iff_getElem?.1 hg'
    obtain ⟨j, hj⟩ := List.mem_iff_getElem?.1 hk'
    obtain ⟨g, a1, a2, a3, -⟩ := hat i g' hi
    obtain ⟨k, b1, b2, b3, -⟩ := hat j k' hj
    have hgk := hd g (List.mem_of_getElem? a1) k (List.mem_of_getElem? b1) (by rw [← a2, d1]) (by rw [← b2, d2]) (by rw [← a3, ← b3, hn])
    subst hgk
    have hnd : s.groups.Nodup := h.wf.sorted.imp fun {a b} hab e => by subst e; rcases hab with hab | hab <;> omega
    have hij : i = j := by
      obtain ⟨c1, c2⟩ := List.getElem?_eq_some_iff.1 a1
      obtain ⟨c3, c4⟩ := List.getElem?_eq_some_iff.1 b1
      exact (List.Nodup.getElem_inj_iff hnd).1 (c2.trans c4.symm)
    subst hij
    rw [hi] at hj
    cases hj
    rfl
  · intro d n b
    constructor
    · rintro ⟨g', hg', rfl, rfl, hb⟩
      obtain ⟨i, hi⟩ := List.mem_iff_getElem?.1 hg'
      obtain ⟨g, a1, a2, a3, a4⟩ := hat i g' hi
      rw [a4] at hb
      obtain ⟨e, he, rfl⟩ := List.mem_map.1 hb
      exact ⟨e, ⟨g, List.mem_of_getElem? a1, a2.symm, a3.symm, he⟩, by rw [a2]⟩
    · rintro ⟨e, ⟨g, hg, rfl, rfl, he⟩, rfl⟩
      obtain ⟨i, hi⟩ := List.mem_iff_getElem?.1 hg
      obtain ⟨g', a1, a2, a3, a4⟩ := hto i g hi
      exact ⟨g', List.mem_of_getElem? a1, a2, a3, by rw [a4]; exact List.mem_map.2 ⟨e, he, rfl⟩⟩

/-- After a cut: the groups have the pieces of the objects, and other entities stay. -/
theorem cut_in {N C : Type} [LinearOrder N] (clos : DimTag → List DimTag) (s : Gm N C) (obj tool : List DimTag) (map : List (List DimTag)) (hs : WF s) (hd : Distinct s 2)
    (ha : Accepted obj tool 2) (hm : map.length = obj.length + tool.length) :
    ∃ s', Gmsh.groupPreserving clos s obj tool map [] = .ok s' ∧ WF s' ∧ Distinct s' 2 ∧ s'.color = s.color ∧
      ∀ d n e', In s' d n e' ↔ d = 2 ∧ ∃ e, In s 2 n e ∧ e' ∈ become (obj ++ tool) map e := by
  obtain ⟨s', h⟩ := GmshGroups.C89_defined clos s obj tool map 2 hs ha hm
  obtain ⟨h1, h2, h3⟩ := GmshGroups.C89_groups clos s s' obj tool map 2 hs ha hm h
  refine ⟨s', h, h1, ?_, h2, ?_⟩
  · intro g' hg' k' hk' d1 d2 hn
    obtain ⟨g, a1, a2, a3, a4, a5, -⟩ := (h3 g').1 hg'
    obtain ⟨k, b1, b2, b3, b4, b5, -⟩ := (h3 k').1 hk'
    have hgk := hd g a1 k b1 a2 b2 (by rw [← a5, ← b5, hn])
    subst hgk
    have ht : g'.tag = k'.tag := a4.trans b4.symm
    obtain ⟨i, hi⟩ := List.mem_iff_getElem.1 hg'
    obtain ⟨j, hj⟩ := List.mem_iff_getElem.1 hk'
    obtain ⟨hi, rfl⟩ := hi
    obtain ⟨hj, rfl⟩ := hj
    have hp := List.pairwise_iff_getElem.1 h1.sorted
    rcases lt_trichotomy i j with hij | hij | hij
    · have := hp i j hi hj hij; omega
    · subst hij; rfl
    · have := hp j i hj hi hij; omega
  · intro d n e'
    constructor
    · intro hin
      have hd2 : d = 2 := by
        obtain ⟨g', hg', rfl, -, -⟩ := hin
        obtain ⟨g, -, -, a3, -⟩ := (h3 g').1 hg'
        exact a3
      subst hd2
      exact ⟨rfl, (GmshGroups.C89_members clos s s' obj tool map 2 hs ha hm h n e').1 hin⟩
    · rintro ⟨rfl, hin⟩
      exact (GmshGroups.C89_members clos s s' obj tool map 2 hs ha hm h n e').2 hin

end Verif.ReopenL
