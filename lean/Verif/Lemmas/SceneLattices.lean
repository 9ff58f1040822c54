import Verif.Lemmas.Scene

/-! Lemmas on lattices of pins on a model that has surfaces already. -/

namespace Verif.SceneL

open Verif.XSLib (Res)
open Verif.Gmsh (Gm DimTag)
open Verif.GmshSpec Verif.PinsSpec Verif.PinsP Verif.Pins
open Verif.Overlay (Name)
open Verif.OverlayGroupsSpec (material)
open Verif.Programs (Placement addAll)
open Verif.ProgramsSpec Verif.ProgramsL Verif.Scene Verif.SceneSpec

set_option linter.unusedSectionVars false
variable {K C : Type} [Field K] [LinearOrder K] [IsStrictOrderedRing K]

/-- What every state between the calls satisfies; `base` are the surfaces from before. -/
structure CleanOn (base : List ℤ) (o : Occ K C) : Prop where
  wf : WF o.gm
  distinct : Distinct o.gm 2
  under : ∀ e ∈ base, e < o.next
  below : ∀ R ∈ o.rings, R.tag < o.next
  apart : ∀ R ∈ o.rings, R.tag ∉ base
  once : ∀ R ∈ o.rings, ∀ R' ∈ o.rings, R.tag = R'.tag → R = R'
  owned : ∀ d n e, In o.gm d n e → d = 2 ∧ (∃ x, n = material x) ∧ (e ∈ base ∨ ∃ R ∈ o.rings, R.tag = e)

/-- One call. -/
theorem one_call_on (clos : DimTag → List DimTag) (hself : ∀ e, (2, e) ∈ clos (2, e)) (hother : ∀ e e', (2, e) ∈ clos (2, e') → e = e')
    (sort : List K → List K) (hsort : ∀ l, IsStdSort (fun a b => decide (a < b)) l (sort l)) (eps : K) (he : 0 < eps)
    (base : List ℤ) (o : Occ K C) (hc : CleanOn base o) (pl : Placement K C) (hg : Good eps pl) :
    ∃ o' out, addLattice clos sort eps o pl.ids (List.replicate pl.radii.length pl.pitch) pl.radii pl.mats pl.off = .ok (o', out) ∧
      CleanOn base o' ∧ (∀ n, ∀ e ∈ base, In o'.gm 2 n e ↔ In o.gm 2 n e) ∧ (∀ R ∈ o.rings, R ∈ o'.rings) ∧
      (∀ P x, Has o' P x ↔ Has o P x ∨ Shows pl P x) ∧
      ((∃ i j p k r, Stands pl.ids.reverse pl.radii i j p k r) → o'.rings ≠ []) := by
  obtain ⟨n, hn, hcols⟩ := hg.cols
  have hm : pl.ids.length ≠ 0 := fun h => hg.rows (List.length_eq_zero_iff.1 h)
  have hlt : ∀ i j p, idAt pl.ids.reverse i j = some p → i < n ∧ j < pl.ids.length ∧ 0 ≤ p ∧ p < pl.radii.length := by
    intro i j p h
    unfold idAt at h
    rw [Option.bind_eq_some_iff] at h
    obtain ⟨row, h1, h2⟩ := h
    have hmem := List.mem_reverse.1 (List.mem_of_getElem? h1)
    refine ⟨?_, ?_, hg.known row hmem p (List.mem_of_getElem? h2)⟩
    · rw [← hcols row hmem]; exact (List.getElem?_eq_some_iff.1 h2).1
    · rw [← List.length_reverse]; exact (List.getElem?_eq_some_iff.1 h1).1
  obtain ⟨o', out, tag, h1, A⟩ := C95_lattice clos hself hother sort hsort eps he o hc.wf hc.distinct pl.ids
    (List.replicate pl.radii.length pl.pitch) pl.radii pl.mats pl.off (List.replicate n pl.pitch.1) (List.replicate pl.ids.length pl.pitch.2)
    (by rw [Ne, List.replicate_eq_nil_iff]; omega) (by rw [Ne, List.replicate_eq_nil_iff]; omega)
    (by intro w hw; rw [List.eq_of_mem_replicate hw]; exact hg.pitch.1)
    (by intro w hw; rw [List.eq_of_mem_replicate hw]; exact hg.pitch.2)
    (by
      unfold PinsP.Fits
      refine forall₂_replicate (by simp) fun row hrow => forall₂_replicate (hcols row (List.mem_reverse.1 hrow)) fun id hid => ?_
      obtain ⟨k1, k2⟩ := hg.known row (List.mem_reverse.1 hrow) id hid
      refine ⟨k1, ?_⟩
      rw [List.getElem?_replicate_of_lt (by omega)])
    (by simp) hg.mats
  have hnext := addLattice_next clos sort eps o _ _ _ _ _ o' out h1
  have hring : ∀ i j p k r, Stands pl.ids.reverse pl.radii i j p k r → ringOf pl.radii (mid (List.replicate n pl.pitch.1))
      (mid (List.replicate pl.ids.length pl.pitch.2)) pl.off (tag i j k) i j p k r =
      ⟨tag i j k, (centre pl i j).1, (centre pl i j).2, within (pl.radii.getD p []) k, r⟩ := by
    rintro i j p k r ⟨h, _⟩
    obtain ⟨k1, k2, _⟩ := hlt i j p h
    unfold ringOf centre
    rw [mid_replicate _ k1, mid_replicate _ k2, add_comm, add_comm pl.off.2]
  have hPs : ∀ i j p k r, Stands pl.ids.reverse pl.radii i j p k r → p < pl.radii.length := by
    rintro i j p k r ⟨h, _⟩
    have := (hlt i j p h).2.2.2
    omega
  have hold : ∀ R ∈ o.rings, R ∈ o'.rings := fun R hR => (A.rings R).2 (Or.inl hR)
  have hlen := hg.mats.length_eq
  refine ⟨o', out, h1, ⟨A.wf, A.distinct, fun e he => (hc.under e he).trans_le hnext, ?_, ?_, ?_, ?_⟩, ?_, hold, ?_, ?_⟩
  · intro R hR
    rcases (A.rings R).1 hR with hR | ⟨i, j, p, k, r, hp, hs, rfl⟩
    · have := hc.below R hR; omega
    · exact (A.fresh i j p k r hp hs).2
  · intro R hR hb
    rcases (A.rings R).1 hR with hR | ⟨i, j, p, k, r, hp, hs, rfl⟩
    · exact hc.apart R hR hb
    · have h1 := (A.fresh i j p k r hp hs).1
      have h2 := hc.under _ hb
      have h3 : tag i j k < o.next := h2
      omega
  · intro R hR R' hR' ht
    rcases (A.rings R).1 hR with hR | ⟨i, j, p, k, r, hp, hs, rfl⟩ <;> rcases (A.rings R').1 hR' with hR' | ⟨i', j', p', k', r', hp', hs', rfl⟩
    · exact hc.once R hR R' hR' ht
    · have := hc.below R hR
      have h2 := (A.fresh i' j' p' k' r' hp' hs').1
      have h3 : R.tag = tag i' j' k' := ht
      omega
    · have := hc.below R' hR'
      have h2 := (A.fresh i j p k r hp hs).1
      have h3 : tag i j k = R'.tag := ht
      omega
    · have h3 : tag i j k = tag i' j' k' := ht
      obtain ⟨rfl, rfl, rfl⟩ := A.inj i j p k r i' j' p' k' r' hp hp' hs hs' h3
      obtain ⟨s1, rad, s2, s3⟩ := hs
      obtain ⟨s1', rad', s2', s3'⟩ := hs'
      rw [s1] at s1'
      have : p = p' := by simpa using s1'
      subst this
      rw [s2] at s2'; cases s2'
      rw [s3] at s3'; cases s3'
      rfl
  · intro d nm e hin
    rcases (A.groups d nm e).1 hin with hin | ⟨rfl, i, j, p, k, r, ms, m, hp, hs, -, -, rfl, rfl⟩
    · obtain ⟨k1, k2, k3⟩ := hc.owned d nm e hin
      exact ⟨k1, k2, k3.imp id fun ⟨R, k3, k4⟩ => ⟨R, hold R k3, k4⟩⟩
    · exact ⟨rfl, ⟨_, rfl⟩, Or.inr ⟨_, (A.rings _).2 (Or.inr ⟨i, j, p, k, r, hp, hs, rfl⟩), rfl⟩⟩
  · intro nm e he
    refine ⟨fun h => ?_, fun h => (A.groups _ _ _).2 (Or.inl h)⟩
    rcases (A.groups 2 nm e).1 h with h | ⟨-, i, j, p, k, r, ms, m, hp, hs, -, -, -, rfl⟩
    · exact h
    · have h1 := (A.fresh i j p k r hp hs).1
      have h2 := hc.under _ he
      omega
  · intro P x
    constructor
    · rintro ⟨R, hR, hcov, hin⟩
      rcases (A.groups _ _ _).1 hin with hin | ⟨-, i, j, p, k, r, ms, m, hp, hs, hms, hmk, hx, ht⟩
      · left
        refine ⟨R, ?_, hcov, hin⟩
        rcases (A.rings R).1 hR with hR | ⟨i, j, p, k, r, hp, hs, rfl⟩
        · exact hR
        · have h2 := (A.fresh i j p k r hp hs).1
          rcases (hc.owned _ _ _ hin).2.2 with k3 | ⟨R', k3, k4⟩
          · have h3 : tag i j k < o.next := hc.under _ k3
            omega
          · have h3 := hc.below R' k3
            have h4 : R'.tag = tag i j k := k4
            omega
      · right
        have hx := material_inj hx
        have hR' : ringOf pl.radii (mid (List.replicate n pl.pitch.1)) (mid (List.replicate pl.ids.length pl.pitch.2)) pl.off (tag i j k) i j p k r = R := by
          rcases (A.rings R).1 hR with hR0 | ⟨i', j', p', k', r', hp', hs', rfl⟩
          · have h2 := (A.fresh i j p k r hp hs).1
            have h3 := hc.below R hR0
            omega
          · have h3 : tag i' j' k' = tag i j k := ht
            obtain ⟨rfl, rfl, rfl⟩ := A.inj _ _ _ _ _ _ _ _ _ _ hp' hp hs' hs h3
            obtain ⟨s1, rad, s2, s3⟩ := hs
            obtain ⟨s1', rad', s2', s3'⟩ := hs'
            rw [s1] at s1'
            have : p = p' := by simpa using s1'
            subst this
            rw [s2] at s2'; cases s2'
            rw [s3] at s3'; cases s3'
            rfl
        rw [hring i j p k r hs] at hR'
        subst hR'
        obtain ⟨s1, rad, s2, s3⟩ := hs
        have hd : pl.radii.getD p [] = rad := by rw [List.getD_eq_getElem?_getD, s2]; rfl
        rw [hd] at hcov
        exact ⟨i, j, p, k, rad, r, ms, m.2, s1, s2, hms, s3, by rw [hmk, hx], hcov.1, hcov.2⟩
    · rintro (⟨R, hR, hcov, hin⟩ | ⟨i, j, p, k, rad, r, ms, c, s1, s2, s3, s4, s5, s6, s7⟩)
      · exact ⟨R, hold R hR, hcov, (A.groups _ _ _).2 (Or.inl hin)⟩
      · have hs : Stands pl.ids.reverse pl.radii i j p k r := ⟨s1, rad, s2, s4⟩
        have hp := hPs i j p k r hs
        refine ⟨_, (A.rings _).2 (Or.inr ⟨i, j, p, k, r, hp, hs, rfl⟩), ?_, (A.groups _ _ _).2 (Or.inr ⟨rfl, i, j, p, k, r, ms, (x, c), hp, hs, s3, s5, rfl, rfl⟩)⟩
        rw [hring i j p k r hs]
        have hd : pl.radii.getD p [] = rad := by rw [List.getD_eq_getElem?_getD, s2]; rfl
        rw [hd]
        exact ⟨s6, s7⟩
  · rintro ⟨i, j, p, k, r, hs⟩
    exact List.ne_nil_of_mem ((A.rings _).2 (Or.inr ⟨i, j, p, k, r, hPs i j p k r hs, hs, rfl⟩))

/-- All calls. -/
theorem all_calls_on (clos : DimTag → List DimTag) (hself : ∀ e, (2, e) ∈ clos (2, e)) (hother : ∀ e e', (2, e) ∈ clos (2, e') → e = e')
    (sort : List K → List K) (hsort : ∀ l, IsStdSort (fun a b => decide (a < b)) l (sort l)) (eps : K) (he : 0 < eps)
    (base : List ℤ) (pls : List (Placement K C)) : ∀ (o : Occ K C), CleanOn base o → (∀ pl ∈ pls, Good eps pl) →
    ∃ o', addAll clos sort eps pls o = .ok o' ∧ CleanOn base o' ∧ (∀ n, ∀ e ∈ base, In o'.gm 2 n e ↔ In o.gm 2 n e) ∧ (∀ R ∈ o.rings, R ∈ o'.rings) ∧
      (∀ P x, Has o' P x ↔ Has o P x ∨ ∃ pl ∈ pls, Shows pl P x) ∧
      ((∃ pl ∈ pls, ∃ i j p k r, Stands pl.ids.reverse pl.radii i j p k r) → o'.rings ≠ []) := by
  induction pls with
  | nil =>
    intro o hc _
    exact ⟨o, rfl, hc, fun n e he => Iff.rfl, fun R h => h, by simp, by simp⟩
  | cons pl pls ih =>
    intro o hc hg
    obtain ⟨o1, out, h1, c1, b1, r1, p1, n1⟩ := one_call_on clos hself hother sort hsort eps he base o hc pl (hg pl (by simp))
    obtain ⟨o2, h2, c2, b2, r2, p2, n2⟩ := ih o1 c1 fun q hq => hg q (by simp [hq])
    refine ⟨o2, ?_, c2, fun n e he => (b2 n e he).trans (b1 n e he), fun R h => r2 R (r1 R h), ?_, ?_⟩
    · rw [addAll, h1]; exact h2
    · intro P x
      rw [p2, p1]
      constructor
      · rintro ((h | h) | ⟨q, hq, h⟩)
        · exact Or.inl h
        · exact Or.inr ⟨pl, by simp, h⟩
        · exact Or.inr ⟨q, by simp [hq], h⟩
      · rintro (h | ⟨q, hq, h⟩)
        · exact Or.inl (Or.inl h)
        · rcases List.mem_cons.1 hq with rfl | hq
          · exact Or.inl (Or.inr h)
          · exact Or.inr ⟨q, hq, h⟩
    · rintro ⟨q, hq, hs⟩
      rcases List.mem_cons.1 hq with rfl | hq
      · obtain ⟨R, hR⟩ := List.exists_mem_of_ne_nil _ (n1 hs)
        exact List.ne_nil_of_mem (r2 R hR)
      · exact n2 ⟨q, hq, hs⟩

theorem mem_ofOcc (base : List ℤ) (o : Occ K C) (e : ℤ) : e ∈ (ofOcc base o).tags ↔ e ∈ base ∨ ∃ R ∈ o.rings, R.tag = e := by
  unfold ofOcc
  rw [List.mem_insertionSort, List.mem_dedup, List.mem_append, List.mem_map]

theorem drawn_of (base : List ℤ) (o : Occ K C) (hc : CleanOn base o) (hne : base ≠ [] ∨ o.rings ≠ []) : Drawn (ofOcc base o) := by
  refine ⟨hc.wf, hc.distinct, ?_, ?_, ?_, ?_⟩
  · rcases hne with h | h
    · obtain ⟨e, he⟩ := List.exists_mem_of_ne_nil _ h
      exact List.ne_nil_of_mem ((mem_ofOcc base o e).2 (Or.inl he))
    · obtain ⟨R, hR⟩ := List.exists_mem_of_ne_nil _ h
      exact List.ne_nil_of_mem ((mem_ofOcc base o R.tag).2 (Or.inr ⟨R, hR, rfl⟩))
  · have h1 := List.pairwise_insertionSort (· ≤ ·) (base ++ o.rings.map (·.tag)).dedup
    have h2 : ((base ++ o.rings.map (·.tag)).dedup.insertionSort (· ≤ ·)).Nodup :=
      (List.perm_insertionSort (· ≤ ·) _).nodup_iff.2 (List.nodup_dedup _)
    exact h1.imp₂ (fun a b hle hne => lt_of_le_of_ne hle hne) h2
  · intro e he
    rcases (mem_ofOcc base o e).1 he with he | ⟨R, hR, rfl⟩
    · exact hc.under e he
    · exact hc.below R hR
  · intro d n e h
    obtain ⟨h1, h2, h3⟩ := hc.owned d n e h
    exact ⟨h1, h2, (mem_ofOcc base o e).2 h3⟩

theorem lies_of (base : List ℤ) (shape : ℤ → Set (K × K)) (o : Occ K C) (hc : CleanOn base o) (P : K × K) (x : Name) :
    Lies (ofOcc base o) (shapeOn base shape o) P x ↔ (∃ e ∈ base, In o.gm 2 (material x) e ∧ P ∈ shape e) ∨ Has o P x := by
  constructor
  · rintro ⟨e, hin, ⟨hb, hP⟩ | ⟨hb, R, hR, rfl, hP⟩⟩
    · exact Or.inl ⟨e, hb, hin, hP⟩
    · exact Or.inr ⟨R, hR, hP, hin⟩
  · rintro (⟨e, hb, hin, hP⟩ | ⟨R, hR, hP, hin⟩)
    · exact ⟨e, hin, Or.inl ⟨hb, hP⟩⟩
    · exact ⟨R.tag, hin, Or.inr ⟨hc.apart R hR, R, hR, rfl, hP⟩⟩

/-- All lattices on a model with surfaces already. -/
theorem on_base (clos : DimTag → List DimTag) (hself : ∀ e, (2, e) ∈ clos (2, e)) (hother : ∀ e e', (2, e) ∈ clos (2, e') → e = e')
    (sort : List K → List K) (hsort : ∀ l, IsStdSort (fun a b => decide (a < b)) l (sort l)) (eps : K) (he : 0 < eps)
    (base : List ℤ) (shape : ℤ → Set (K × K)) (pls : List (Placement K C)) (o : Occ K C) (hc : CleanOn base o) (h0 : o.rings = [])
    (hne : base ≠ []) (hg : ∀ pl ∈ pls, Good eps pl) :
    ∃ o', addAll clos sort eps pls o = .ok o' ∧ Drawn (ofOcc base o') ∧ ∀ P x, Lies (ofOcc base o') (shapeOn base shape o') P x ↔
      (∃ e ∈ base, In o.gm 2 (material x) e ∧ P ∈ shape e) ∨ ∃ pl ∈ pls, Shows pl P x := by
  obtain ⟨o', h1, h2, h3, -, h5, -⟩ := all_calls_on clos hself hother sort hsort eps he base pls o hc hg
  refine ⟨o', h1, drawn_of base o' h2 (Or.inl hne), fun P x => ?_⟩
  rw [lies_of base shape o' h2, h5]
  have hno : ¬ Has o P x := by rintro ⟨R, hR, _⟩; rw [h0] at hR; cases hR
  constructor
  · rintro (⟨e, he, hin, hP⟩ | h | h)
    · exact Or.inl ⟨e, he, (h3 _ e he).1 hin, hP⟩
    · exact absurd h hno
    · exact Or.inr h
  · rintro (⟨e, he, hin, hP⟩ | h)
    · exact Or.inl ⟨e, he, (h3 _ e he).2 hin, hP⟩
    · exact Or.inr (Or.inr h)

end Verif.SceneL
