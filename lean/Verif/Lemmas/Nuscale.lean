import Verif.Props.NuscaleSpec
import Verif.Lemmas.SceneLattices
import Verif.Lemmas.Reopen

/-! Lemmas on the vessel of the NuScale core (C114). -/

namespace Verif.NuscaleL

open Verif.XSLib (Res)
open Verif.Gmsh (Gm DimTag)
open Verif.GmshSpec Verif.PinsSpec Verif.PinsP Verif.Pins
open Verif.Overlay (Name matName)
open Verif.OverlayGroupsSpec (material)
open Verif.InfoSpec (newNumber Storable)
open Verif.Info (Col)
open Verif.ProgramsSpec Verif.Scene Verif.SceneSpec Verif.SceneL Verif.Nuscale Verif.NuscaleSpec Verif.ReopenL

set_option linter.unusedSectionVars false
variable {K : Type} [Field K] [LinearOrder K] [IsStrictOrderedRing K]

/-- The surfaces of the vessel. -/
structure Vessel (col : String → Col) (o : Occ K Col) : Prop where
  wf : WF o.gm
  distinct : Distinct o.gm 2
  next : o.next = 6
  rings : ∀ R, R ∈ o.rings ↔ ∃ (k : Nat) (r : K), vesselRadii[k]? = some r ∧ R = ⟨1 + k, 0, 0, within vesselRadii k, r⟩
  groups : ∀ d n e, In o.gm d n e ↔ d = 2 ∧ ∃ (k : Nat) (m : Name × Col), (vesselMats col)[k]? = some m ∧ n = material m.1 ∧ e = 1 + k
  colors : ∀ x, Bytes (o.gm.color x)

theorem vessel_ok (clos : DimTag → List DimTag) (hself : ∀ e, (2, e) ∈ clos (2, e)) (hother : ∀ e e', (2, e) ∈ clos (2, e') → e = e')
    (col : String → Col) (hcol : ∀ n, Bytes (col n)) : ∃ o : Occ K Col, vessel clos col = .ok (o, [1, 2, 3, 4, 5]) ∧ Vessel col o := by
  have hc := ProgramsL.start_clean (K := K) (fun _ : DimTag => ((0, 0, 255, 0) : Col))
  obtain ⟨⟨o, out⟩, hq⟩ := (C94_accepts clos hself hother (Programs.start fun _ => ((0, 0, 255, 0) : Col)) hc.wf hc.distinct (0 : K) 0 vesselRadii
    (vesselMats col)).1 (by
      refine ⟨by simp [vesselRadii], rfl, ?_, ?_⟩
      · simp only [vesselRadii]; norm_num
      · simp only [vesselRadii]; norm_num)
  obtain ⟨h1, h2, h3, h4, h5, h6, -, -⟩ := C94_pin clos hself hother _ hc.wf hc.distinct 0 0 _ _ o out hq
  refine ⟨o, ?_, h1, h2, ?_, ?_, ?_, ?_⟩
  · unfold vessel
    rw [hq, h4]
    rfl
  · rw [h3]; rfl
  · intro R
    rw [h5]
    constructor
    · rintro (h | h)
      · cases h
      · exact h
    · exact Or.inr
  · intro d n e
    rw [h6]
    constructor
    · rintro (⟨g, hg, _⟩ | h)
      · cases hg
      · exact h
    · exact Or.inr
  · refine addPin_all (Q := Bytes) clos _ o 0 0 vesselRadii (vesselMats col) out (fun e => ?_) ?_ hq
    · show Bytes ((0, 0, 255, 0) : Col)
      unfold Bytes; decide
    · intro m hm
      simp only [vesselMats, List.mem_cons, List.not_mem_nil, or_false] at hm
      rcases hm with rfl | rfl | rfl | rfl | rfl <;> exact hcol _

/-- The point is in the part of the vessel with material `x` that is left after the cut. -/
def VesselLies (x : Name) (P : K × K) : Prop :=
  ∃ (k : Nat) (r : K) (n : String), vesselRadii[k]? = some r ∧ ["SS304", "Water", "SS304", "Water", "SS304"][k]? = some n ∧ x = MFiles.str n ∧
    P.1 ^ 2 + P.2 ^ 2 ≤ r ^ 2 ∧ (∀ r', within vesselRadii k = some r' → r' ^ 2 < P.1 ^ 2 + P.2 ^ 2) ∧ (k = 0 → ∀ T ∈ tools, P ∉ T)

theorem vesselMats_get (col : String → Col) (k : Nat) (m : Name × Col) : (vesselMats col)[k]? = some m ↔
    ∃ n, ["SS304", "Water", "SS304", "Water", "SS304"][k]? = some n ∧ m = mat col n := by
  have : vesselMats col = ["SS304", "Water", "SS304", "Water", "SS304"].map (mat col) := rfl
  rw [this, List.getElem?_map, Option.map_eq_some_iff]
  exact ⟨fun ⟨n, h1, h2⟩ => ⟨n, h1, h2.symm⟩, fun ⟨n, h1, h2⟩ => ⟨n, h1, h2.symm⟩⟩

theorem ringSet_vessel {col : String → Col} {o : Occ K Col} (V : Vessel col o) (k : Nat) (P : K × K) : P ∈ ringSet o (1 + k) ↔
    ∃ r, vesselRadii[k]? = some r ∧ P.1 ^ 2 + P.2 ^ 2 ≤ r ^ 2 ∧ ∀ r', within vesselRadii k = some r' → r' ^ 2 < P.1 ^ 2 + P.2 ^ 2 := by
  constructor
  · rintro ⟨R, hR, ht, h1, h2⟩
    obtain ⟨k', r, hr, rfl⟩ := (V.rings R).1 hR
    obtain rfl : k' = k := by simp only at ht; omega
    simp only [sub_zero] at h1 h2
    exact ⟨r, hr, h1, h2⟩
  · rintro ⟨r, hr, h1, h2⟩
    refine ⟨_, (V.rings _).2 ⟨k, r, hr, rfl⟩, rfl, ?_, ?_⟩ <;> simp only [sub_zero]
    · exact h1
    · exact h2

theorem tools_length : (tools (K := K)).length = 74 := by simp [tools, cutouts, holes]

theorem become_first (map : List (List DimTag)) (l : List DimTag) (hl : map[0]? = some l) (n : Nat) :
    become ([(2, 1)] ++ (fresh 6 n).map fun t => ((2, t) : DimTag)) map 1 = l.map (·.2) := by
  unfold become
  have : ([((2, 1) : DimTag)] ++ (fresh 6 n).map fun t => ((2, t) : DimTag)).findIdx? (fun x => x.2 == 1) = some 0 := by
    rw [List.singleton_append, List.findIdx?_cons]; rfl
  rw [this]
  simp only [List.getD_eq_getElem?_getD, hl, Option.getD_some]

theorem become_other (map : List (List DimTag)) (n : Nat) (e : ℤ) (h1 : e ≠ 1) (h2 : e < 6) :
    become ([(2, 1)] ++ (fresh 6 n).map fun t => ((2, t) : DimTag)) map e = [e] := by
  unfold become
  have : ([((2, 1) : DimTag)] ++ (fresh 6 n).map fun t => ((2, t) : DimTag)).findIdx? (fun x => x.2 == e) = none := by
    rw [List.findIdx?_eq_none_iff]
    intro x hx
    rw [beq_eq_false_iff_ne]
    rcases List.mem_append.1 hx with hx | hx
    · rw [List.mem_singleton.1 hx]; exact h1.symm
    · obtain ⟨t, ht, rfl⟩ := List.mem_map.1 hx
      obtain ⟨i, -, rfl⟩ := (mem_fresh _ _ t).1 ht
      show (6 + (i : ℤ)) ≠ e
      omega
  rw [this]

theorem carve_ok (clos : DimTag → List DimTag) (col : String → Col) (hcol : ∀ n, Bytes (col n)) (o : Occ K Col) (V : Vessel col o)
    (map : List (List DimTag)) (ents : List DimTag) (shape : ℤ → Set (K × K)) (H : Cutting o 1 tools map ents shape) :
    ∃ gm, carve clos col o [1, 2, 3, 4, 5] map = .ok gm ∧ Storable gm ents ∧ Distinct gm 2 ∧
      (∀ d n e, In gm d n e → d = 2 ∧ (∃ x, n = material x) ∧ (2, e) ∈ ents) ∧
      ∀ x P, (∃ e, In gm 2 (material x) e ∧ P ∈ shape e) ↔ VesselLies x P := by
  have hl : map[0]? = some map[0]! := by
    have : 0 < map.length := by rw [H.full]; omega
    rw [List.getElem!_eq_getElem?_getD, List.getElem?_eq_getElem this]; rfl
  generalize map[0]! = l at hl
  have hacc : Accepted [(2, 1)] ((fresh 6 (tools (K := K)).length).map fun t => ((2, t) : DimTag)) 2 := by
    refine ⟨⟨by simp, by simp⟩, ⟨?_, ?_⟩, ?_, Or.inl rfl⟩
    · refine List.ne_nil_of_length_pos ?_
      rw [List.length_map, fresh_length, tools_length]
      omega
    · rw [List.map_map]
      have e1 : ((fun x : DimTag => x.2) ∘ fun t : ℤ => ((2, t) : DimTag)) = id := rfl
      rw [e1, List.map_id]
      exact fresh_sorted _ _
    · intro x hx
      rcases List.mem_append.1 hx with hx | hx
      · rw [List.mem_singleton.1 hx]
      · obtain ⟨t, -, rfl⟩ := List.mem_map.1 hx; rfl
  obtain ⟨s1, c1, c2, c3, c4, c5⟩ := cut_in clos o.gm _ _ map V.wf V.distinct hacc (by rw [H.full, List.length_map, fresh_length]; rfl)
  have hk5 : ∀ (k : Nat) n, ["SS304", "Water", "SS304", "Water", "SS304"][k]? = some n → k < 5 ∧ (n = "SS304" ∨ n = "Water") := by
    intro k n h
    obtain ⟨h1, h2⟩ := List.getElem?_eq_some_iff.1 h
    refine ⟨h1, ?_⟩
    have := List.mem_of_getElem? h
    simp only [List.mem_cons, List.not_mem_nil, or_false] at this
    rcases this with h | h | h | h | h
    · exact Or.inl h
    · exact Or.inr h
    · exact Or.inl h
    · exact Or.inr h
    · exact Or.inl h
  have hin : ∀ d n e', In s1 d n e' ↔ d = 2 ∧ ∃ (k : Nat) (m : String), ["SS304", "Water", "SS304", "Water", "SS304"][k]? = some m ∧ n = material (MFiles.str m) ∧
      ((k = 0 ∧ ∃ c ∈ l, c.2 = e') ∨ (k ≠ 0 ∧ e' = 1 + k)) := by
    intro d n e'
    rw [c5]
    refine and_congr_right fun _ => ?_
    constructor
    · rintro ⟨e, he, hb⟩
      obtain ⟨-, k, m, hk, rfl, rfl⟩ := (V.groups _ _ _).1 he
      obtain ⟨nm, hn, rfl⟩ := (vesselMats_get col k m).1 hk
      refine ⟨k, nm, hn, rfl, ?_⟩
      by_cases h0 : k = 0
      · subst h0
        left
        rw [show (1 : ℤ) + ((0 : Nat) : ℤ) = 1 from rfl, become_first map l hl] at hb
        obtain ⟨c, hc, rfl⟩ := List.mem_map.1 hb
        exact ⟨rfl, c, hc, rfl⟩
      · right
        have := (hk5 k nm hn).1
        rw [become_other map _ _ (by omega) (by omega)] at hb
        exact ⟨h0, List.mem_singleton.1 hb⟩
    · rintro ⟨k, nm, hn, rfl, h⟩
      refine ⟨1 + k, (V.groups _ _ _).2 ⟨rfl, k, mat col nm, (vesselMats_get col k _).2 ⟨nm, hn, rfl⟩, rfl, rfl⟩, ?_⟩
      rcases h with ⟨rfl, c, hc, rfl⟩ | ⟨h0, rfl⟩
      · rw [show (1 : ℤ) + ((0 : Nat) : ℤ) = 1 from rfl, become_first map l hl]
        exact List.mem_map.2 ⟨c, hc, rfl⟩
      · have := (hk5 k nm hn).1
        rw [become_other map _ _ (by omega) (by omega)]
        exact List.mem_singleton.2 rfl
  have hne : s1.groups ≠ [] := by
    obtain ⟨g, hg, -⟩ := (hin 2 _ 2).2 ⟨rfl, 1, "Water", rfl, rfl, Or.inr ⟨by decide, rfl⟩⟩
    exact List.ne_nil_of_mem hg
  obtain ⟨gm, g1, g2, g3⟩ := colorMaterials_all (Q := Bytes) clos s1 ([mat col "Water", mat col "SS304"].map fun m => (matName m.1, m.2))
    (by rw [c4]; exact V.colors) (by
      intro m hm
      simp only [List.map_cons, List.map_nil, List.mem_cons, List.not_mem_nil, or_false] at hm
      rcases hm with rfl | rfl <;> exact hcol _) hne
  have hin' : ∀ d n e, In gm d n e ↔ In s1 d n e := colorMaterials_in g2
  have hring : ∀ k : Nat, k < 5 → ∃ R ∈ o.rings, R.tag = 1 + k := by
    intro k hk
    have : k < (vesselRadii (K := K)).length := hk
    exact ⟨_, (V.rings _).2 ⟨k, _, List.getElem?_eq_getElem this, rfl⟩, rfl⟩
  have howned : ∀ d n e, In gm d n e → d = 2 ∧ (∃ x, n = material x) ∧ (2, e) ∈ ents := by
    intro d n e h0
    obtain ⟨hd, k, nm, hn, hx, h1⟩ := (hin d n e).1 ((hin' d n e).1 h0)
    refine ⟨hd, ⟨_, hx⟩, (H.surfs e).2 ?_⟩
    rcases h1 with ⟨rfl, c, hc, rfl⟩ | ⟨h0, rfl⟩
    · exact Or.inl ⟨l, hl, c, hc, rfl⟩
    · obtain ⟨R, hR, hRt⟩ := hring k (hk5 k nm hn).1
      exact Or.inr ⟨R, hR, by omega, hRt⟩
  have hwf : WF gm := by
    refine ⟨?_, ?_, ?_⟩
    · rw [g2]; exact c2.sorted
    · rw [g2]; exact c2.pos
    · rw [g2]; exact c2.ents
  have hdist : Distinct gm 2 := by unfold Distinct; rw [g2]; exact c3
  have hname : ∀ g ∈ gm.groups, g.dim = 2 ∧ (g.name = material (MFiles.str "SS304") ∨ g.name = material (MFiles.str "Water")) := by
    intro g hg
    obtain ⟨e, he⟩ := List.exists_mem_of_ne_nil _ (hwf.ents g hg).2
    obtain ⟨h1, k, nm, hn, h2, -⟩ := (hin _ _ e).1 ((hin' _ _ e).1 ⟨g, hg, rfl, rfl, he⟩)
    refine ⟨h1, ?_⟩
    rcases (hk5 k nm hn).2 with rfl | rfl
    · exact Or.inl h2
    · exact Or.inr h2
  refine ⟨gm, ?_, ?_, hdist, howned, ?_⟩
  · unfold carve
    show (Gmsh.groupPreserving clos o.gm [(2, 1)] ((fresh o.next (tools (K := K)).length).map fun t => ((2, t) : DimTag)) map []).bind _ = _
    rw [V.next, c1]
    exact g1
  · refine ⟨hwf, H.dims, ?_, ?_, fun x _ => g3 x, ?_, H.small⟩
    · intro g hg e he
      have := howned g.dim g.name e ⟨g, hg, rfl, rfl, he⟩
      rw [this.1]; exact this.2.2
    · intro g hg
      rcases (hname g hg).2 with h | h <;> rw [h] <;> decide
    · have hnd : (gm.groups.map (·.name)).Nodup := by
        refine List.Nodup.map_on ?_ ?_
        · intro a ha b hb hab
          exact hdist a ha b hb (hname a ha).1 (hname b hb).1 hab
        · exact hwf.sorted.imp fun {a b} hab e => by subst e; rcases hab with hab | hab <;> omega
      have hsub : gm.groups.map (·.name) ⊆ [material (MFiles.str "SS304"), material (MFiles.str "Water")] := by
        intro n hn
        obtain ⟨g, hg, rfl⟩ := List.mem_map.1 hn
        rcases (hname g hg).2 with h | h <;> rw [h] <;> simp
      have := (List.subperm_of_subset hnd hsub).length_le
      simp only [List.length_map, List.length_cons, List.length_nil] at this
      omega
  · intro x P
    constructor
    · rintro ⟨e, he, hP⟩
      obtain ⟨-, k, nm, hn, hx, h⟩ := (hin _ _ _).1 ((hin' _ _ _).1 he)
      have hx := ProgramsL.material_inj hx
      have hk := (hk5 k nm hn).1
      rcases h with ⟨rfl, c, hc, rfl⟩ | ⟨h0, rfl⟩
      · have hmem : P ∈ {P | P ∈ ringSet o 1 ∧ ∀ T ∈ tools, P ∉ T} := by rw [H.pieces l hl]; exact ⟨c, hc, hP⟩
        obtain ⟨r, hr, h1, h2⟩ := (ringSet_vessel V 0 P).1 hmem.1
        exact ⟨0, r, nm, hr, hn, hx, h1, h2, fun _ => hmem.2⟩
      · obtain ⟨R, hR, hRt⟩ := hring k hk
        have hs := H.others R hR (by omega)
        rw [hRt] at hs
        rw [hs] at hP
        obtain ⟨r, hr, h1, h2⟩ := (ringSet_vessel V k P).1 hP
        exact ⟨k, r, nm, hr, hn, hx, h1, h2, fun h => absurd h h0⟩
    · rintro ⟨k, r, nm, hr, hn, rfl, h1, h2, h3⟩
      have hk := (hk5 k nm hn).1
      have hP : P ∈ ringSet o (1 + k) := (ringSet_vessel V k P).2 ⟨r, hr, h1, h2⟩
      by_cases h0 : k = 0
      · subst h0
        have hmem : P ∈ {P | P ∈ ringSet o 1 ∧ ∀ T ∈ tools, P ∉ T} := ⟨hP, h3 rfl⟩
        rw [H.pieces l hl] at hmem
        obtain ⟨c, hc, hPc⟩ := hmem
        exact ⟨c.2, (hin' _ _ _).2 ((hin _ _ _).2 ⟨rfl, 0, nm, hn, rfl, Or.inl ⟨rfl, c, hc, rfl⟩⟩), hPc⟩
      · obtain ⟨R, hR, hRt⟩ := hring k hk
        have hs := H.others R hR (by omega)
        rw [hRt] at hs
        refine ⟨1 + k, (hin' _ _ _).2 ((hin _ _ _).2 ⟨rfl, k, nm, hn, rfl, Or.inr ⟨h0, rfl⟩⟩), ?_⟩
        rw [hs]; exact hP

theorem number_inj (ents : List DimTag) {a b : ℤ} (ha : ((2, a) : DimTag) ∈ ents) (hb : ((2, b) : DimTag) ∈ ents)
    (h : newNumber ents 2 a = newNumber ents 2 b) : a = b := by
  rcases lt_trichotomy a b with hab | hab | hab
  · have := (InfoSpec.C96_numbers ents 2 a b ha hb).1.2 hab; omega
  · exact hab
  · have := (InfoSpec.C96_numbers ents 2 b a hb ha).1.2 hab; omega

/-- The vessel after opening. -/
theorem reopen_ok (gm : Gm Name Col) (ents : List DimTag) (shape : ℤ → Set (K × K)) (hs : Storable gm ents) (hd : Distinct gm 2)
    (ho : ∀ d n e, In gm d n e → d = 2 ∧ (∃ x, n = material x) ∧ (2, e) ∈ ents) (hne : ∃ e, ((2, e) : DimTag) ∈ ents) :
    ∃ o : Occ K Col, reopen gm ents = .ok o ∧ CleanOn (base ents) o ∧ o.rings = [] ∧ base ents ≠ [] ∧
      ∀ x P, (∃ b ∈ base ents, In o.gm 2 (material x) b ∧ P ∈ renumbered ents shape b) ↔ ∃ e, In gm 2 (material x) e ∧ P ∈ shape e := by
  obtain ⟨s', h1, h2, h3, h4⟩ := reopen_in gm ⟨[], fun _ => (0, 0, 255, 0)⟩ ents hs rfl hd
  have hmem : ∀ e, ((2, e) : DimTag) ∈ ents → newNumber ents 2 e ∈ base ents := by
    intro e he
    obtain ⟨-, k1, k2⟩ := InfoSpec.C96_numbers ents 2 e e he he
    refine (mem_fresh _ _ _).2 ⟨(newNumber ents 2 e - 1).toNat, ?_, ?_⟩
    · have : newNumber ents 2 e ≤ (count ents : ℤ) := k2
      omega
    · omega
  refine ⟨⟨s', [], count ents + 1⟩, ?_, ⟨h2, h3, ?_, ?_, ?_, ?_, ?_⟩, rfl, ?_, ?_⟩
  · unfold reopen; rw [h1]; rfl
  · intro e he
    obtain ⟨i, hi, rfl⟩ := (mem_fresh _ _ e).1 he
    show (1 : ℤ) + i < count ents + 1
    omega
  · intro R hR; cases hR
  · intro R hR; cases hR
  · intro R hR; cases hR
  · intro d n b hb
    obtain ⟨e, he, rfl⟩ := (h4 d n b).1 hb
    obtain ⟨rfl, k2, k3⟩ := ho d n e he
    exact ⟨rfl, k2, Or.inl (hmem e k3)⟩
  · obtain ⟨e, he⟩ := hne
    exact List.ne_nil_of_mem (hmem e he)
  · intro x P
    constructor
    · rintro ⟨b, -, hin, e', he', hb, hP⟩
      obtain ⟨e, he, rfl⟩ := (h4 2 _ b).1 hin
      obtain rfl := number_inj ents he' (ho _ _ e he).2.2 hb
      exact ⟨e', he, hP⟩
    · rintro ⟨e, he, hP⟩
      have hme := (ho _ _ e he).2.2
      exact ⟨_, hmem e hme, (h4 2 _ _).2 ⟨e, he, rfl⟩, e, hme, rfl, hP⟩

end Verif.NuscaleL
