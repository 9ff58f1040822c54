import Verif.Props.LatticeProgramsSpec
import Verif.Props.GmshPins

/-! Lemmas on programs that add lattices of pins (C107). -/

namespace Verif.ProgramsL

open Verif.XSLib (Res)
open Verif.Gmsh (Gm DimTag)
open Verif.GmshSpec Verif.PinsSpec Verif.PinsP Verif.Pins
open Verif.Overlay (Name Cut cuts overlay)
open Verif.OverlayGroupsSpec (material)
open Verif.Programs Verif.ProgramsSpec

set_option linter.unusedSectionVars false
variable {K C : Type} [Field K] [LinearOrder K]

theorem bind_ok {α β : Type} {a : Res α} {f : α → Res β} {b : β} (h : a.bind f = .ok b) : ∃ x, a = .ok x ∧ f x = .ok b := by
  cases a with
  | undef => cases h
  | refused => cases h
  | ok x => exact ⟨x, rfl, h⟩

theorem latticeLoop_next (clos : DimTag → List DimTag) (xs ys : List K) (off : K × K) (rows : List (List ℤ)) (ncol : Nat)
    (radii : List (List K)) (mats : List (List (Name × C))) (ps : List Nat) : ∀ (o : Occ K C) (out : List ℤ) (o' : Occ K C) (out' : List ℤ),
    latticeLoop clos xs ys off rows ncol radii mats ps o out = .ok (o', out') → o.next ≤ o'.next := by
  induction ps with
  | nil =>
    intro o out o' out' h
    rw [latticeLoop] at h
    cases h
    exact le_refl _
  | cons p ps ih =>
    intro o out o' out' h
    rw [latticeLoop] at h
    cases hr : radii[p]? with
    | none => rw [hr] at h; cases h
    | some rad =>
      rw [hr] at h
      dsimp only at h
      by_cases he : rad = []
      · rw [if_pos he] at h; exact ih _ _ _ _ h
      · rw [if_neg he] at h
        obtain ⟨new, -, h⟩ := bind_ok h
        obtain ⟨ms, -, h⟩ := bind_ok h
        obtain ⟨s, -, h⟩ := bind_ok h
        have := ih _ _ _ _ h
        dsimp only at this
        omega

theorem addLattice_next (clos : DimTag → List DimTag) (sort : List K → List K) (eps : K) (o : Occ K C)
    (ids : List (List ℤ)) (dxdy : List (K × K)) (radii : List (List K)) (mats : List (List (Name × C))) (off : K × K) (o' : Occ K C)
    (out : List ℤ) (h : addLattice clos sort eps o ids dxdy radii mats off = .ok (o', out)) : o.next ≤ o'.next := by
  unfold addLattice at h
  split at h
  · cases h
  split at h
  · cases h
  split at h
  · cases h
  split at h
  · cases h
  split at h
  · cases h
  split at h
  · cases h
  split at h
  · cases h
  exact latticeLoop_next _ _ _ _ _ _ _ _ _ _ _ _ _ h

theorem forall₂_replicate {α β : Type} {R : α → β → Prop} {b : β} : ∀ {l : List α} {n : Nat}, l.length = n → (∀ a ∈ l, R a b) →
    List.Forall₂ R l (List.replicate n b)
  | [], n, h, _ => by subst h; exact .nil
  | a :: l, n, h, hr => by
    subst h
    rw [List.length_cons, List.replicate_succ]
    exact .cons (hr a (by simp)) (forall₂_replicate rfl fun a ha => hr a (by simp [ha]))

theorem mid_replicate [CharZero K] {n i : Nat} (w : K) (h : i < n) : mid (List.replicate n w) i = (i + 1 / 2) * w := by
  unfold mid
  rw [List.take_replicate, List.sum_replicate, Nat.min_eq_left h.le, List.getD_eq_getElem?_getD, List.getElem?_replicate_of_lt h,
    Option.getD_some, nsmul_eq_mul]
  ring

/-- What every state between the calls satisfies. -/
structure Clean (o : Occ K C) : Prop where
  wf : WF o.gm
  distinct : Distinct o.gm 2
  below : ∀ R ∈ o.rings, R.tag < o.next
  once : ∀ R ∈ o.rings, ∀ R' ∈ o.rings, R.tag = R'.tag → R = R'
  owned : ∀ d n e, In o.gm d n e → d = 2 ∧ (∃ x, n = material x) ∧ ∃ R ∈ o.rings, R.tag = e

theorem start_clean (color : DimTag → C) : Clean (start color : Occ K C) := by
  refine ⟨⟨List.Pairwise.nil, ?_, ?_⟩, ?_, ?_, ?_, ?_⟩
  · intro g hg; cases hg
  · intro g hg; cases hg
  · intro g hg; cases hg
  · intro R hR; cases hR
  · intro R hR; cases hR
  · rintro d n e ⟨g, hg, _⟩; cases hg

/-- The point is in a surface of material `x`. -/
def Has (o : Occ K C) (P : K × K) (x : Name) : Prop := ∃ R ∈ o.rings, covers R P ∧ In o.gm 2 (material x) R.tag

variable [IsStrictOrderedRing K]

theorem material_inj {x y : Name} (h : material x = material y) : x = y := List.append_cancel_left h

/-- One call. -/
theorem one_call (clos : DimTag → List DimTag) (hself : ∀ e, (2, e) ∈ clos (2, e)) (hother : ∀ e e', (2, e) ∈ clos (2, e') → e = e')
    (sort : List K → List K) (hsort : ∀ l, IsStdSort (fun a b => decide (a < b)) l (sort l)) (eps : K) (he : 0 < eps)
    (o : Occ K C) (hc : Clean o) (pl : Placement K C) (hg : Good eps pl) :
    ∃ o' out, addLattice clos sort eps o pl.ids (List.replicate pl.radii.length pl.pitch) pl.radii pl.mats pl.off = .ok (o', out) ∧
      Clean o' ∧ (∀ R ∈ o.rings, R ∈ o'.rings) ∧
      (∀ P x, Has o' P x ↔ Has o P x ∨ Shows pl P x) ∧
      ((∃ i j p k r, Stands pl.ids.reverse pl.radii i j p k r) → o'.rings ≠ []) := by
  obtain ⟨n, hn, hcols⟩ := hg.cols
  have hm : pl.ids.length ≠ 0 := fun h => hg.rows (List.length_eq_zero_iff.1 h)
  have hlt : ∀ i j p, idAt pl.ids.reverse i j = some p → i < n ∧ j < pl.ids.length ∧ 0 ≤ p ∧ p < pl.radii.length := by
    intro i j p h
    unfold idAt at h
    rw [Option.bind_eq_some_iff] at h
    obtain ⟨row, h1, h2⟩ := h
    have hmem := List.mem_reverse.1 (List.mem_of_getElem? h1)
    refine ⟨?_, ?_, hg.known row hmem p (List.mem_of_getElem? h2)⟩
    · rw [← hcols row hmem]; exact (List.getElem?_eq_some_iff.1 h2).1
    · rw [← List.length_reverse]; exact (List.getElem?_eq_some_iff.1 h1).1
  obtain ⟨o', out, tag, h1, A⟩ := C95_lattice clos hself hother sort hsort eps he o hc.wf hc.distinct pl.ids
    (List.replicate pl.radii.length pl.pitch) pl.radii pl.mats pl.off (List.replicate n pl.pitch.1) (List.replicate pl.ids.length pl.pitch.2)
    (by rw [Ne, List.replicate_eq_nil_iff]; omega) (by rw [Ne, List.replicate_eq_nil_iff]; omega)
    (by intro w hw; rw [List.eq_of_mem_replicate hw]; exact hg.pitch.1)
    (by intro w hw; rw [List.eq_of_mem_replicate hw]; exact hg.pitch.2)
    (by
      unfold PinsP.Fits
      refine forall₂_replicate (by simp) fun row hrow => forall₂_replicate (hcols row (List.mem_reverse.1 hrow)) fun id hid => ?_
      obtain ⟨k1, k2⟩ := hg.known row (List.mem_reverse.1 hrow) id hid
      refine ⟨k1, ?_⟩
      rw [List.getElem?_replicate_of_lt (by omega)])
    (by simp) hg.mats
  have hnext := addLattice_next clos sort eps o _ _ _ _ _ o' out h1
  have hring : ∀ i j p k r, Stands pl.ids.reverse pl.radii i j p k r → ringOf pl.radii (mid (List.replicate n pl.pitch.1))
      (mid (List.replicate pl.ids.length pl.pitch.2)) pl.off (tag i j k) i j p k r =
      ⟨tag i j k, (centre pl i j).1, (centre pl i j).2, within (pl.radii.getD p []) k, r⟩ := by
    rintro i j p k r ⟨h, _⟩
    obtain ⟨k1, k2, _⟩ := hlt i j p h
    unfold ringOf centre
    rw [mid_replicate _ k1, mid_replicate _ k2, add_comm, add_comm pl.off.2]
  have hPs : ∀ i j p k r, Stands pl.ids.reverse pl.radii i j p k r → p < pl.radii.length := by
    rintro i j p k r ⟨h, _⟩
    have := (hlt i j p h).2.2.2
    omega
  have hold : ∀ R ∈ o.rings, R ∈ o'.rings := fun R hR => (A.rings R).2 (Or.inl hR)
  have hlen := hg.mats.length_eq
  refine ⟨o', out, h1, ⟨A.wf, A.distinct, ?_, ?_, ?_⟩, hold, ?_, ?_⟩
  · intro R hR
    rcases (A.rings R).1 hR with hR | ⟨i, j, p, k, r, hp, hs, rfl⟩
    · have := hc.below R hR; omega
    · exact (A.fresh i j p k r hp hs).2
  · intro R hR R' hR' ht
    rcases (A.rings R).1 hR with hR | ⟨i, j, p, k, r, hp, hs, rfl⟩ <;> rcases (A.rings R').1 hR' with hR' | ⟨i', j', p', k', r', hp', hs', rfl⟩
    · exact hc.once R hR R' hR' ht
    · have := hc.below R hR
      have h2 := (A.fresh i' j' p' k' r' hp' hs').1
      have h3 : R.tag = tag i' j' k' := ht
      omega
    · have := hc.below R' hR'
      have h2 := (A.fresh i j p k r hp hs).1
      have h3 : tag i j k = R'.tag := ht
      omega
    · have h3 : tag i j k = tag i' j' k' := ht
      obtain ⟨rfl, rfl, rfl⟩ := A.inj i j p k r i' j' p' k' r' hp hp' hs hs' h3
      obtain ⟨s1, rad, s2, s3⟩ := hs
      obtain ⟨s1', rad', s2', s3'⟩ := hs'
      rw [s1] at s1'
      have : p = p' := by simpa using s1'
      subst this
      rw [s2] at s2'; cases s2'
      rw [s3] at s3'; cases s3'
      rfl
  · intro d nm e hin
    rcases (A.groups d nm e).1 hin with hin | ⟨rfl, i, j, p, k, r, ms, m, hp, hs, -, -, rfl, rfl⟩
    · obtain ⟨k1, k2, R, k3, k4⟩ := hc.owned d nm e hin
      exact ⟨k1, k2, R, hold R k3, k4⟩
    · exact ⟨rfl, ⟨_, rfl⟩, _, (A.rings _).2 (Or.inr ⟨i, j, p, k, r, hp, hs, rfl⟩), rfl⟩
  · intro P x
    constructor
    · rintro ⟨R, hR, hcov, hin⟩
      rcases (A.groups _ _ _).1 hin with hin | ⟨-, i, j, p, k, r, ms, m, hp, hs, hms, hmk, hx, ht⟩
      · obtain ⟨-, -, R', k3, k4⟩ := hc.owned _ _ _ hin
        left
        refine ⟨R, ?_, hcov, hin⟩
        rcases (A.rings R).1 hR with hR | ⟨i, j, p, k, r, hp, hs, rfl⟩
        · exact hR
        · have h2 := (A.fresh i j p k r hp hs).1
          have h3 := hc.below R' k3
          have h4 : R'.tag = tag i j k := k4
          omega
      · right
        have hx := material_inj hx
        have hR' : ringOf pl.radii (mid (List.replicate n pl.pitch.1)) (mid (List.replicate pl.ids.length pl.pitch.2)) pl.off (tag i j k) i j p k r = R := by
          rcases (A.rings R).1 hR with hR0 | ⟨i', j', p', k', r', hp', hs', rfl⟩
          · have h2 := (A.fresh i j p k r hp hs).1
            have h3 := hc.below R hR0
            omega
          · have h3 : tag i' j' k' = tag i j k := ht
            obtain ⟨rfl, rfl, rfl⟩ := A.inj _ _ _ _ _ _ _ _ _ _ hp' hp hs' hs h3
            obtain ⟨s1, rad, s2, s3⟩ := hs
            obtain ⟨s1', rad', s2', s3'⟩ := hs'
            rw [s1] at s1'
            have : p = p' := by simpa using s1'
            subst this
            rw [s2] at s2'; cases s2'
            rw [s3] at s3'; cases s3'
            rfl
        rw [hring i j p k r hs] at hR'
        subst hR'
        obtain ⟨s1, rad, s2, s3⟩ := hs
        have hd : pl.radii.getD p [] = rad := by rw [List.getD_eq_getElem?_getD, s2]; rfl
        rw [hd] at hcov
        exact ⟨i, j, p, k, rad, r, ms, m.2, s1, s2, hms, s3, by rw [hmk, hx], hcov.1, hcov.2⟩
    · rintro (⟨R, hR, hcov, hin⟩ | ⟨i, j, p, k, rad, r, ms, c, s1, s2, s3, s4, s5, s6, s7⟩)
      · exact ⟨R, hold R hR, hcov, (A.groups _ _ _).2 (Or.inl hin)⟩
      · have hs : Stands pl.ids.reverse pl.radii i j p k r := ⟨s1, rad, s2, s4⟩
        have hp := hPs i j p k r hs
        refine ⟨_, (A.rings _).2 (Or.inr ⟨i, j, p, k, r, hp, hs, rfl⟩), ?_, (A.groups _ _ _).2 (Or.inr ⟨rfl, i, j, p, k, r, ms, (x, c), hp, hs, s3, s5, rfl, rfl⟩)⟩
        rw [hring i j p k r hs]
        have hd : pl.radii.getD p [] = rad := by rw [List.getD_eq_getElem?_getD, s2]; rfl
        rw [hd]
        exact ⟨s6, s7⟩
  · rintro ⟨i, j, p, k, r, hs⟩
    exact List.ne_nil_of_mem ((A.rings _).2 (Or.inr ⟨i, j, p, k, r, hPs i j p k r hs, hs, rfl⟩))

/-- All calls. -/
theorem all_calls (clos : DimTag → List DimTag) (hself : ∀ e, (2, e) ∈ clos (2, e)) (hother : ∀ e e', (2, e) ∈ clos (2, e') → e = e')
    (sort : List K → List K) (hsort : ∀ l, IsStdSort (fun a b => decide (a < b)) l (sort l)) (eps : K) (he : 0 < eps)
    (pls : List (Placement K C)) : ∀ (o : Occ K C), Clean o → (∀ pl ∈ pls, Good eps pl) →
    ∃ o', addAll clos sort eps pls o = .ok o' ∧ Clean o' ∧ (∀ R ∈ o.rings, R ∈ o'.rings) ∧
      (∀ P x, Has o' P x ↔ Has o P x ∨ ∃ pl ∈ pls, Shows pl P x) ∧
      ((∃ pl ∈ pls, ∃ i j p k r, Stands pl.ids.reverse pl.radii i j p k r) → o'.rings ≠ []) := by
  induction pls with
  | nil =>
    intro o hc _
    exact ⟨o, rfl, hc, fun R h => h, by simp, by simp⟩
  | cons pl pls ih =>
    intro o hc hg
    obtain ⟨o1, out, h1, c1, r1, p1, n1⟩ := one_call clos hself hother sort hsort eps he o hc pl (hg pl (by simp))
    obtain ⟨o2, h2, c2, r2, p2, n2⟩ := ih o1 c1 fun q hq => hg q (by simp [hq])
    refine ⟨o2, ?_, c2, fun R h => r2 R (r1 R h), ?_, ?_⟩
    · rw [addAll, h1]; exact h2
    · intro P x
      rw [p2, p1]
      constructor
      · rintro ((h | h) | ⟨q, hq, h⟩)
        · exact Or.inl h
        · exact Or.inr ⟨pl, by simp, h⟩
        · exact Or.inr ⟨q, by simp [hq], h⟩
      · rintro (h | ⟨q, hq, h⟩)
        · exact Or.inl (Or.inl h)
        · rcases List.mem_cons.1 hq with rfl | hq
          · exact Or.inl (Or.inr h)
          · exact Or.inr ⟨q, hq, h⟩
    · rintro ⟨q, hq, hs⟩
      rcases List.mem_cons.1 hq with rfl | hq
      · obtain ⟨R, hR⟩ := List.exists_mem_of_ne_nil _ (n1 hs)
        exact List.ne_nil_of_mem (r2 R hR)
      · exact n2 ⟨q, hq, hs⟩

end Verif.ProgramsL
