import Verif.Lemmas.SveaRun
import Verif.Lemmas.SinglePins
import Verif.Lemmas.SceneRanked
import Verif.Lemmas.Fnr
import Mathlib.Tactic.FinCases

/-! The pins and the groups of the SVEA assembly (C119). -/

namespace Verif.SveaL

open Verif.XSLib (Res)
open Verif.Gmsh (Gm DimTag)
open Verif.GmshSpec
open Verif.Overlay (Name matName)
open Verif.OverlayGroupsSpec (material)
open Verif.Pins (Occ)
open Verif.PinsSpec (within)
open Verif.ProgramsL (Has material_inj)
open Verif.Vera1 (Single addPins mat)
open Verif.Vera1Spec (name PinShows)
open Verif.ProgramsSpec Verif.Scene Verif.SceneSpec Verif.SceneL Verif.SingleL
open Verif.Svea Verif.SveaSpec

set_option linter.unusedSectionVars false

noncomputable section

variable {C : Type}

/-! ### Pins -/

/-- The names of groups after pins. -/
theorem pins_names {K : Type} [Field K] [LinearOrder K] [IsStrictOrderedRing K] (clos : DimTag → List DimTag) (hself : ∀ e, (2, e) ∈ clos (2, e))
    (hother : ∀ e e', (2, e) ∈ clos (2, e') → e = e') (base : List ℤ) (ps : List (Single K C)) (o o' : Occ K C) (hc : CleanOn base o) (hp : ∀ p ∈ ps, Fine p)
    (h : addPins clos ps o = .ok o') (d : ℤ) (n : Name) (e : ℤ) (hin : In o'.gm d n e) : In o.gm d n e ∨ ∃ p ∈ ps, ∃ m ∈ p.mats, n = material m.1 := by
  induction ps generalizing o with
  | nil => cases h; exact Or.inl hin
  | cons p ps ih =>
    obtain ⟨o1, out, h1, h2, -⟩ := one_pin clos hself hother base o hc p (hp p (by simp))
    rw [addPins, h1] at h
    have h6 := (PinsP.C94_pin clos hself hother o hc.wf hc.distinct _ _ _ _ o1 out h1).2.2.2.2.2.1
    rcases ih o1 h2 (fun q hq => hp q (by simp [hq])) h with k | ⟨q, hq, k⟩
    · rcases (h6 d n e).1 k with k | ⟨-, k, m, hm, hx, -⟩
      · exact Or.inl k
      · exact Or.inr ⟨p, by simp, m, List.mem_of_getElem? hm, hx⟩
    · exact Or.inr ⟨q, by simp [hq], k⟩

/-- A pin of the assembly. -/
def pin (col : String → C) (i j : Nat) (f : String) : Single ℝ C := ⟨(spot j, spot i), [424 / 1000, 492 / 1000], [mat col f, mat col "Clad"]⟩

/-- The table that is read. -/
def table : List (List ℤ) :=
  [[0, 1, 2, 2, 1, 2, 4, 4, 2, 1], [1, 4, 4, 5, 5, 5, 5, 3, 5, 2], [2, 3, 4, 5, 5, 5, 5, 5, 3, 4], [2, 5, 5, 5, 4, 4, 5, 5, 5, 4],
   [1, 4, 5, 4, 9, 9, 4, 5, 5, 2], [1, 4, 5, 4, 9, 9, 4, 5, 5, 2], [2, 5, 5, 5, 4, 4, 5, 5, 5, 4], [2, 3, 4, 5, 5, 5, 5, 5, 3, 4],
   [1, 4, 4, 5, 5, 5, 5, 3, 5, 2], [0, 1, 2, 2, 1, 2, 4, 4, 2, 1]]

theorem read : Bench.lattice text = some table := by
  refine LatticeText.lattice_eq ?_
  decide +kernel

theorem table_fuel : ∀ i < 10, ∀ j < 10, ((table[i]?).bind (·[j]?)).bind fuelOf = some (fuelAt i j) := by
  decide +kernel

theorem mapM_some {α β : Type} (f : α → Option β) (g : α → β) (l : List α) (h : ∀ a ∈ l, f a = some (g a)) : l.mapM f = some (l.map g) := by
  induction l with
  | nil => rfl
  | cons a l ih =>
    rw [List.mapM_cons, h a (by simp), ih fun b hb => h b (by simp [hb])]
    rfl

theorem pin_list (col : String → C) : ∃ pins, pinList col = some pins ∧ ∀ p, p ∈ pins ↔ ∃ i j f, fuelAt i j = some f ∧ p = pin col i j f := by
  have hrow : ∀ i ∈ List.range 10, ((table[i]?).bind fun row =>
      ((List.range 10).mapM fun j => ((row[j]?).bind fuelOf).map (pinOf col i j)).map List.flatten) =
      some (((List.range 10).map fun j => pinOf col i j (fuelAt i j)).flatten) := by
    intro i hi
    rw [List.mem_range] at hi
    have hlen : i < table.length := hi
    rw [List.getElem?_eq_getElem hlen, Option.bind_some]
    rw [mapM_some _ (fun j => pinOf col i j (fuelAt i j))]
    · rfl
    · intro j hj
      rw [List.mem_range] at hj
      have := table_fuel i hi j hj
      rw [List.getElem?_eq_getElem hlen, Option.bind_some] at this
      rw [this]
      rfl
  refine ⟨((List.range 10).map fun i => ((List.range 10).map fun j => pinOf col i j (fuelAt i j)).flatten).flatten, ?_, ?_⟩
  · unfold pinList
    rw [read, Option.bind_some, mapM_some _ _ _ hrow]
    rfl
  · intro p
    have hof : ∀ i j q, i < 10 → j < 10 → (q ∈ pinOf col i j (fuelAt i j) ↔ ∃ f, fuelAt i j = some f ∧ q = pin col i j f) := by
      intro i j q hi hj
      have e1 := spot_place hi
      have e2 := spot_place hj
      cases hf : fuelAt i j with
      | none => simp [pinOf]
      | some f =>
        simp only [pinOf, pin, rFuel, rClad, List.mem_singleton, Option.some.injEq, exists_eq_left', e1, e2]
    simp only [List.mem_flatten, List.mem_map, List.mem_range]
    constructor
    · rintro ⟨_, ⟨i, hi, rfl⟩, hp⟩
      obtain ⟨l, hl, hp⟩ := List.mem_flatten.1 hp
      obtain ⟨j, hj, rfl⟩ := List.mem_map.1 hl
      rw [List.mem_range] at hj
      obtain ⟨f, h1, h2⟩ := (hof i j p hi hj).1 hp
      exact ⟨i, j, f, h1, h2⟩
    · rintro ⟨i, j, f, h1, h2⟩
      obtain ⟨hi, hj, -⟩ := fuelAt_lt h1
      refine ⟨_, ⟨i, hi, rfl⟩, List.mem_flatten.2 ⟨_, List.mem_map.2 ⟨j, List.mem_range.2 hj, rfl⟩, (hof i j p hi hj).2 ⟨f, h1, h2⟩⟩⟩

theorem pin_fine (col : String → C) (i j : Nat) (f : String) : Fine (pin col i j f) := by
  refine ⟨by simp [pin], rfl, ?_, ?_⟩ <;> simp only [pin] <;> norm_num

/-- What a pin shows. -/
theorem pin_shows (col : String → C) (i j : Nat) (f : String) (P : Pt) (x : Name) : PinShows (pin col i j f) P x ↔
    (x = name f ∧ dist2 P (spot j, spot i) ≤ (424 / 1000) ^ 2) ∨
    (x = name "Clad" ∧ (424 / 1000) ^ 2 < dist2 P (spot j, spot i) ∧ dist2 P (spot j, spot i) ≤ (492 / 1000) ^ 2) := by
  simp only [PinShows, pin]
  generalize dist2 P (spot j, spot i) = D
  constructor
  · rintro ⟨k, r, c, h1, h2, h3, h4⟩
    rcases k with _ | _ | k
    · cases h1; cases h2
      exact Or.inl ⟨rfl, h3⟩
    · cases h1; cases h2
      exact Or.inr ⟨rfl, h4 _ rfl, h3⟩
    · cases h1
  · rintro (⟨rfl, h⟩ | ⟨rfl, h, h'⟩)
    · exact ⟨0, _, _, rfl, rfl, h, fun r' h => by cases h⟩
    · exact ⟨1, _, _, rfl, rfl, h', fun r' h'' => by cases h''; exact h⟩

/-- The names of the fuel. -/
theorem fuel_names {i j : Nat} {f : String} (h : fuelAt i j = some f) : f ∈ fuels := by
  unfold fuelAt at h
  obtain ⟨k, -, hk⟩ := Option.bind_eq_some_iff.1 h
  unfold fuelName at hk
  split at hk <;> first | (cases hk; simp [fuels]) | cases hk

theorem names_apart : ∀ f ∈ "Clad" :: fuels, name f ≠ name "Coolant" ∧ name f ≠ name "Moderator" := by
  decide +kernel

/-! ### Groups -/

theorem add_end' (s : Gm Name C) (d : ℤ) (l : List ℤ) (n : Name) (hl : l ≠ []) (hd : ∀ g ∈ s.groups, g.dim ≤ d) :
    (s.add d l (-1) n).groups = s.groups ++ [⟨d, s.newTag d, n, Gm.entSet l⟩] := by
  have hb : ∀ g ∈ s.groups, Gm.before g ⟨d, s.newTag d, n, []⟩ = true := by
    intro g hg
    rw [Gmsh.before_iff]
    have h1 := (Gmsh.newTag_gt s d).2 g hg
    have h2 := hd g hg
    rcases lt_or_eq_of_le h2 with h | h
    · exact Or.inl h
    · exact Or.inr ⟨h, h1 h⟩
  unfold Gm.add Gm.addTagged
  rw [if_pos (show (-1 : ℤ) < 0 by norm_num), if_neg hl]
  dsimp only
  rw [List.takeWhile_eq_self_iff.2 hb, List.dropWhile_eq_nil_iff.2 hb]

/-- The names of the groups. -/
theorem names_of (s : Gm Name C) (hs : WF s) (hd : Distinct s 2) (ho : ∀ d n e, In s d n e → d = 2 ∧ ∃ x, n = material x) :
    ∃ L : List Name, s.groups.map (·.name) = L.map material ∧ L.Nodup ∧ (∀ g ∈ s.groups, g.dim = 2) ∧ ∀ x, x ∈ L ↔ ∃ e, In s 2 (material x) e := by
  have hg : ∀ g ∈ s.groups, g.dim = 2 ∧ g.name = material (g.name.drop 9) := by
    intro g hg
    obtain ⟨e, he⟩ := List.exists_mem_of_ne_nil _ (hs.ents g hg).2
    obtain ⟨h1, x, h2⟩ := ho g.dim g.name e ⟨g, hg, rfl, rfl, he⟩
    refine ⟨h1, ?_⟩
    rw [h2]; rfl
  refine ⟨s.groups.map (fun g => g.name.drop 9), ?_, ?_, fun g h => (hg g h).1, ?_⟩
  · rw [List.map_map]
    refine List.map_congr_left fun g h => ?_
    exact (hg g h).2
  · have hn : s.groups.Nodup := hs.sorted.imp fun h => by rintro rfl; omega
    refine List.Nodup.map_on ?_ hn
    intro a ha b hb hab
    refine hd a ha b hb (hg a ha).1 (hg b hb).1 ?_
    rw [(hg a ha).2, (hg b hb).2, hab]
  · intro x
    rw [List.mem_map]
    constructor
    · rintro ⟨g, h, rfl⟩
      obtain ⟨e, he⟩ := List.exists_mem_of_ne_nil _ (hs.ents g h).2
      exact ⟨e, g, h, (hg g h).1, (hg g h).2, he⟩
    · rintro ⟨e, g, h, -, h2, -⟩
      refine ⟨g, h, ?_⟩
      rw [h2]; rfl

/-- A new group goes to the end. -/
theorem add_new (s : Gm Name C) (L : List Name) (hs : WF s) (hd : Distinct s 2) (hL : s.groups.map (·.name) = L.map material) (hdim : ∀ g ∈ s.groups, g.dim = 2)
    (l : List ℤ) (hl : l ≠ []) (x : Name) (hx : x ∉ L) :
    ∃ s', Gmsh.addToPhysicalGroup s 2 l (-1) (material x) = .ok s' ∧ WF s' ∧ Distinct s' 2 ∧ s'.groups.map (·.name) = (L ++ [x]).map material ∧
      (∀ g ∈ s'.groups, g.dim = 2) ∧ ∀ d n e, In s' d n e ↔ In s d n e ∨ (d = 2 ∧ n = material x ∧ e ∈ l) := by
  have hne : ∀ g ∈ s.groups, g.name ≠ material x := by
    intro g hg h
    have : g.name ∈ L.map material := by rw [← hL]; exact List.mem_map.2 ⟨g, hg, rfl⟩
    obtain ⟨y, hy, he⟩ := List.mem_map.1 this
    rw [← he] at h
    exact hx (material_inj h ▸ hy)
  obtain ⟨h1, h2, -, h4⟩ := FnrL.add_groups s l (material x) hs hd hne
  have h5 := add_end' s 2 l (material x) hl fun g hg => (hdim g hg).le
  refine ⟨s.add 2 l (-1) (material x), ?_, h1, h2, ?_, ?_, h4⟩
  · unfold Gmsh.addToPhysicalGroup
    split
    · rename_i g hfind
      have h6 := List.find?_some hfind
      simp only [Bool.and_eq_true, beq_iff_eq] at h6
      exact absurd h6.2 (hne g (List.mem_of_find?_eq_some hfind))
    · rfl
  · rw [h5]; simp [hL]
  · intro g hg
    rw [h5] at hg
    rcases List.mem_append.1 hg with hg | hg
    · exact hdim g hg
    · rw [List.mem_singleton] at hg; rw [hg]

theorem mem_sorted (l : List ℤ) (t : ℤ) : t ∈ (l.dedup).insertionSort (· ≤ ·) ↔ t ∈ l := by
  rw [List.mem_insertionSort, List.mem_dedup]

/-- The groups of the box. -/
theorem dress_ok (clos : DimTag → List DimTag) (col : String → C) (o : Occ ℝ C) (hc : CleanOn [] o)
    (hn : ∀ x e, In o.gm 2 (material x) e → ∃ f ∈ "Clad" :: fuels, x = name f) (box : ℤ) (c : Canvas) (out : List ℤ) (hf : Final (canvasOf o) box c out)
    (h8 : 8 ≤ out.length) : ∃ b S L, sortOut box c out = some b ∧ dress clos col o.gm b = .ok S ∧ Drawn S ∧
      S.gm.groups.map (·.name) = ((L ++ [name "Coolant"]) ++ [name "Moderator"]).map material ∧ ((L ++ [name "Coolant"]) ++ [name "Moderator"]).Nodup ∧
      (∀ P x, Has o P x → x ∈ L) ∧ name "Clad" ∈ L ∧
      ∀ P x, Lies S c.shape P x ↔ Has o P x ∨ (x = name "Clad" ∧ P ∈ boxSheet) ∨ (x = name "Coolant" ∧ ∃ t ∈ out.take 4, P ∈ c.shape t) ∨
        (x = name "Moderator" ∧ ∃ t ∈ (out.drop 4).take 4, P ∈ c.shape t) := by
  have m1 : matName (mat col "Clad").1 = material (name "Clad") := rfl
  have m2 : matName (mat col "Coolant").1 = material (name "Coolant") := rfl
  have m3 : matName (mat col "Moderator").1 = material (name "Moderator") := rfl
  obtain ⟨s1, a1⟩ := GmshGroups.C89_add_defined o.gm 2 [box] (material (name "Clad")) (by simp)
  obtain ⟨a2, a3, -, a4⟩ := GmshGroups.C89_add o.gm s1 hc.wf 2 hc.distinct [box] (material (name "Clad")) a1
  obtain ⟨L, l1, l2, l3, l4⟩ := names_of s1 a2 a3 (by
    intro d n e h
    rcases (a4 d n e).1 h with h | ⟨h, h', -⟩
    · exact ⟨(hc.owned d n e h).1, (hc.owned d n e h).2.1⟩
    · exact ⟨h, _, h'⟩)
  have hL : ∀ x ∈ L, ∃ f ∈ "Clad" :: fuels, x = name f := by
    intro x hx
    obtain ⟨e, he⟩ := (l4 x).1 hx
    rcases (a4 2 _ e).1 he with h | ⟨-, h, -⟩
    · exact hn x e h
    · exact ⟨"Clad", by simp, material_inj h⟩
  have n1 : name "Coolant" ∉ L := fun h => by
    obtain ⟨f, hf, he⟩ := hL _ h
    exact (names_apart f hf).1 he.symm
  have n2 : name "Moderator" ∉ L ++ [name "Coolant"] := fun h => by
    rcases List.mem_append.1 h with h | h
    · obtain ⟨f, hf, he⟩ := hL _ h
      exact (names_apart f hf).2 he.symm
    · exact absurd (List.mem_singleton.1 h) (by decide)
  have t1 : out.take 4 ≠ [] := by rw [Ne, List.take_eq_nil_iff]; rintro (h | rfl); · omega
                                  · simp at h8
  have t2 : (out.drop 4).take 4 ≠ [] := by
    intro h
    have := congrArg List.length h
    rw [List.length_take, List.length_drop, List.length_nil] at this
    omega
  obtain ⟨s2, b1, b2, b3, b4, b5, b6⟩ := add_new s1 L a2 a3 l1 l3 (out.take 4) t1 (name "Coolant") n1
  obtain ⟨s3, c1, c2, c3, c4, c5, c6⟩ := add_new s2 _ b2 b3 b4 b5 ((out.drop 4).take 4) t2 (name "Moderator") n2
  obtain ⟨s4, d1, d2, -⟩ := ReopenL.colorMaterials_all (Q := fun _ : C => True) clos s3
    ([mat col "Clad", mat col "Coolant", mat col "Moderator"].map fun m => (matName m.1, m.2)) (fun _ => trivial) (fun _ _ => trivial) (by
      intro h
      rw [h] at c4
      simp at c4)
  have hin : ∀ d n e, In s4 d n e ↔ In o.gm d n e ∨ (d = 2 ∧ n = material (name "Clad") ∧ e = box) ∨ (d = 2 ∧ n = material (name "Coolant") ∧ e ∈ out.take 4) ∨
      (d = 2 ∧ n = material (name "Moderator") ∧ e ∈ (out.drop 4).take 4) := by
    intro d n e
    rw [ReopenL.colorMaterials_in d2, c6, b6, a4, List.mem_singleton]
    tauto
  have hbase : ∀ d n e, In o.gm d n e → e ∈ (canvasOf o).tags := by
    intro d n e h
    obtain ⟨-, -, h | ⟨R, hR, rfl⟩⟩ := hc.owned d n e h
    · cases h
    · exact List.mem_map.2 ⟨R, hR, rfl⟩
  have htags : ∀ d n e, In s4 d n e → e ∈ c.tags := by
    intro d n e h
    rw [hf.tags]
    rcases (hin d n e).1 h with h | ⟨-, -, h⟩ | ⟨-, -, h⟩ | ⟨-, -, h⟩
    · exact Or.inr (Or.inl (hbase d n e h))
    · exact Or.inr (Or.inr h)
    · exact Or.inl (List.mem_of_mem_take h)
    · exact Or.inl (List.mem_of_mem_drop (List.mem_of_mem_take h))
  have hhas : ∀ P x, Has o P x ↔ ∃ e, In o.gm 2 (material x) e ∧ P ∈ c.shape e := by
    intro P x
    constructor
    · rintro ⟨R, hR, hcov, h⟩
      refine ⟨R.tag, h, ?_⟩
      rw [hf.kept R.tag (hbase _ _ _ h)]
      exact ⟨R, hR, rfl, hcov⟩
    · rintro ⟨e, h, hP⟩
      rw [hf.kept e (hbase _ _ _ h)] at hP
      obtain ⟨R, hR, rfl, hcov⟩ := hP
      exact ⟨R, hR, hcov, h⟩
  refine ⟨⟨c, [box], out.take 4, (out.drop 4).take 4⟩, ⟨s4, (c.tags.dedup).insertionSort (· ≤ ·), c.next⟩, L, ?_, ?_, ?_, ?_, ?_, ?_, ?_, ?_⟩
  · unfold sortOut
    rw [if_neg (by omega)]
  · unfold dress
    rw [m1, m2, m3, a1]
    show (Gmsh.addToPhysicalGroup s1 2 (out.take 4) (-1) (material (name "Coolant"))).bind _ = _
    rw [b1]
    show (Gmsh.addToPhysicalGroup s2 2 ((out.drop 4).take 4) (-1) (material (name "Moderator"))).bind _ = _
    rw [c1]
    show (Gmsh.colorMaterials clos s3 _).bind _ = _
    rw [d1]
    rfl
  · refine ⟨⟨?_, ?_, ?_⟩, ?_, ?_, ?_, ?_, ?_⟩
    · show s4.groups.Pairwise _
      rw [d2]; exact c2.sorted
    · show ∀ g ∈ s4.groups, _
      rw [d2]; exact c2.pos
    · show ∀ g ∈ s4.groups, _
      rw [d2]; exact c2.ents
    · show ∀ g ∈ s4.groups, ∀ h ∈ s4.groups, _
      rw [d2]; exact c3
    · exact List.ne_nil_of_mem ((mem_sorted c.tags box).2 ((hf.tags box).2 (Or.inr (Or.inr rfl))))
    · have h1 := List.pairwise_insertionSort (· ≤ ·) c.tags.dedup
      have h2 : (c.tags.dedup.insertionSort (· ≤ ·)).Nodup := (List.perm_insertionSort (· ≤ ·) _).nodup_iff.2 (List.nodup_dedup _)
      exact h1.imp₂ (fun a b hle hne => lt_of_le_of_ne hle hne) h2
    · intro e he
      exact hf.bound e ((mem_sorted c.tags e).1 he)
    · intro d n e h
      refine ⟨?_, ?_, (mem_sorted c.tags e).2 (htags d n e h)⟩
      · rcases (hin d n e).1 h with h | ⟨h, -⟩ | ⟨h, -⟩ | ⟨h, -⟩
        · exact (hc.owned d n e h).1
        all_goals exact h
      · rcases (hin d n e).1 h with h | ⟨-, h, -⟩ | ⟨-, h, -⟩ | ⟨-, h, -⟩
        · exact (hc.owned d n e h).2.1
        all_goals exact ⟨_, h⟩
  · show s4.groups.map _ = _
    rw [d2]; exact c4
  · rw [List.nodup_append]
    refine ⟨?_, by simp, ?_⟩
    · rw [List.nodup_append]
      refine ⟨l2, by simp, ?_⟩
      intro a ha b hb hab
      rw [List.mem_singleton] at hb
      exact n1 (hb ▸ hab ▸ ha)
    · intro a ha b hb hab
      rw [List.mem_singleton] at hb
      exact n2 (hb ▸ hab ▸ ha)
  · rintro P x ⟨R, hR, hcov, h⟩
    exact (l4 x).2 ⟨R.tag, (a4 _ _ _).2 (Or.inl h)⟩
  · exact (l4 _).2 ⟨box, (a4 _ _ _).2 (Or.inr ⟨rfl, rfl, by simp⟩)⟩
  · intro P x
    rw [hhas]
    constructor
    · rintro ⟨e, h, hP⟩
      rcases (hin _ _ _).1 h with h | ⟨-, h, rfl⟩ | ⟨-, h, h'⟩ | ⟨-, h, h'⟩
      · exact Or.inl ⟨e, h, hP⟩
      · rw [hf.shape] at hP
        exact Or.inr (Or.inl ⟨material_inj h, hP⟩)
      · exact Or.inr (Or.inr (Or.inl ⟨material_inj h, e, h', hP⟩))
      · exact Or.inr (Or.inr (Or.inr ⟨material_inj h, e, h', hP⟩))
    · rintro (⟨e, h, hP⟩ | ⟨rfl, hP⟩ | ⟨rfl, e, h, hP⟩ | ⟨rfl, e, h, hP⟩)
      · exact ⟨e, (hin _ _ _).2 (Or.inl h), hP⟩
      · exact ⟨box, (hin _ _ _).2 (Or.inr (Or.inl ⟨rfl, rfl, rfl⟩)), by rw [hf.shape]; exact hP⟩
      · exact ⟨e, (hin _ _ _).2 (Or.inr (Or.inr (Or.inl ⟨rfl, rfl, h⟩))), hP⟩
      · exact ⟨e, (hin _ _ _).2 (Or.inr (Or.inr (Or.inr ⟨rfl, rfl, h⟩))), hP⟩

end

end Verif.SveaL
