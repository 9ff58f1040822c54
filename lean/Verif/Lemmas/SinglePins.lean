import Verif.Props.Vera1Spec
import Verif.Lemmas.SceneLattices

/-! Lemmas on single pins (C118, C119). -/

namespace Verif.SingleL

open Verif.XSLib (Res)
open Verif.Gmsh (Gm DimTag)
open Verif.GmshSpec Verif.PinsSpec Verif.PinsP Verif.Pins
open Verif.Overlay (Name)
open Verif.OverlayGroupsSpec (material)
open Verif.ProgramsSpec Verif.Scene Verif.SceneSpec Verif.SceneL Verif.Vera1 Verif.Vera1Spec
open Verif.ProgramsL (Has material_inj)

set_option linter.unusedSectionVars false
variable {K C : Type} [Field K] [LinearOrder K] [IsStrictOrderedRing K]

/-- The pin is accepted. -/
def Fine (p : Single K C) : Prop :=
  p.radii ≠ [] ∧ p.radii.length = p.mats.length ∧ (∀ r ∈ p.radii, 0 < r) ∧ p.radii.Pairwise (· ≤ ·)

theorem one_pin (clos : DimTag → List DimTag) (hself : ∀ e, (2, e) ∈ clos (2, e)) (hother : ∀ e e', (2, e) ∈ clos (2, e') → e = e')
    (base : List ℤ) (o : Occ K C) (hc : CleanOn base o) (p : Single K C) (hp : Fine p) :
    ∃ o' out, addPin clos o p.centre.1 p.centre.2 p.radii p.mats = .ok (o', out) ∧ CleanOn base o' ∧ o'.rings ≠ [] ∧
      (∀ n, ∀ e ∈ base, In o'.gm 2 n e ↔ In o.gm 2 n e) ∧ ∀ P x, Has o' P x ↔ Has o P x ∨ PinShows p P x := by
  obtain ⟨⟨o', out⟩, hq⟩ := (C94_accepts clos hself hother o hc.wf hc.distinct p.centre.1 p.centre.2 p.radii p.mats).1 hp
  obtain ⟨h1, h2, h3, -, h5, h6, -, -⟩ := C94_pin clos hself hother o hc.wf hc.distinct _ _ _ _ o' out hq
  have hold : ∀ R ∈ o.rings, R ∈ o'.rings := fun R hR => (h5 R).2 (Or.inl hR)
  have hlt : ∀ (k : Nat) r, p.radii[k]? = some r → k < p.radii.length := fun k r h => (List.getElem?_eq_some_iff.1 h).1
  have hmat : ∀ (k : Nat) m, p.mats[k]? = some m → ∃ r, p.radii[k]? = some r := by
    intro k m h
    have := (List.getElem?_eq_some_iff.1 h).1
    exact ⟨_, List.getElem?_eq_getElem (by rw [hp.2.1]; exact this)⟩
  refine ⟨o', out, hq, ⟨h1, h2, ?_, ?_, ?_, ?_, ?_⟩, ?_, ?_, ?_⟩
  · intro e he; have := hc.under e he; omega
  · intro R hR
    rcases (h5 R).1 hR with hR | ⟨k, r, hk, rfl⟩
    · have := hc.below R hR; omega
    · have := hlt k r hk
      show o.next + (k : ℤ) < o'.next
      omega
  · intro R hR hb
    rcases (h5 R).1 hR with hR | ⟨k, r, hk, rfl⟩
    · exact hc.apart R hR hb
    · have h2 : o.next + (k : ℤ) < o.next := hc.under _ hb
      omega
  · intro R hR R' hR' ht
    rcases (h5 R).1 hR with hR | ⟨k, r, hk, rfl⟩ <;> rcases (h5 R').1 hR' with hR' | ⟨k', r', hk', rfl⟩
    · exact hc.once R hR R' hR' ht
    · have := hc.below R hR
      have h3 : R.tag = o.next + k' := ht
      omega
    · have := hc.below R' hR'
      have h3 : o.next + k = R'.tag := ht
      omega
    · have h3 : o.next + (k : ℤ) = o.next + k' := ht
      obtain rfl : k = k' := by omega
      rw [hk] at hk'; cases hk'; rfl
  · intro d n e hin
    rcases (h6 d n e).1 hin with hin | ⟨rfl, k, m, hm, rfl, rfl⟩
    · obtain ⟨k1, k2, k3⟩ := hc.owned d n e hin
      exact ⟨k1, k2, k3.imp id fun ⟨R, a, b⟩ => ⟨R, hold R a, b⟩⟩
    · obtain ⟨r, hr⟩ := hmat k m hm
      exact ⟨rfl, ⟨_, rfl⟩, Or.inr ⟨_, (h5 _).2 (Or.inr ⟨k, r, hr, rfl⟩), rfl⟩⟩
  · obtain ⟨r, hr⟩ := List.exists_mem_of_ne_nil _ hp.1
    obtain ⟨k, hk⟩ := List.mem_iff_getElem?.1 hr
    exact List.ne_nil_of_mem ((h5 _).2 (Or.inr ⟨k, r, hk, rfl⟩))
  · intro n e he
    refine ⟨fun h => ?_, fun h => (h6 _ _ _).2 (Or.inl h)⟩
    rcases (h6 2 n e).1 h with h | ⟨-, k, m, hm, -, rfl⟩
    · exact h
    · have := hc.under _ he; omega
  · intro P x
    constructor
    · rintro ⟨R, hR, hcov, hin⟩
      rcases (h6 _ _ _).1 hin with hin | ⟨-, k, m, hm, hx, ht⟩
      · left
        refine ⟨R, ?_, hcov, hin⟩
        rcases (h5 R).1 hR with hR | ⟨k, r, hk, rfl⟩
        · exact hR
        · obtain ⟨-, -, k3⟩ := hc.owned _ _ _ hin
          rcases k3 with k3 | ⟨R', k3, k4⟩
          · have h2 : o.next + (k : ℤ) < o.next := hc.under _ k3
            omega
          · have h3 := hc.below R' k3
            have h4 : R'.tag = o.next + k := k4
            omega
      · right
        have hx := material_inj hx
        rcases (h5 R).1 hR with hR | ⟨k', r, hk, rfl⟩
        · have := hc.below R hR; omega
        · have h3 : o.next + (k' : ℤ) = o.next + k := ht
          obtain rfl : k' = k := by omega
          exact ⟨k', r, m.2, hk, by rw [hm, hx], hcov.1, hcov.2⟩
    · rintro (⟨R, hR, hcov, hin⟩ | ⟨k, r, c, hk, hm, d1, d2⟩)
      · exact ⟨R, hold R hR, hcov, (h6 _ _ _).2 (Or.inl hin)⟩
      · exact ⟨_, (h5 _).2 (Or.inr ⟨k, r, hk, rfl⟩), ⟨d1, d2⟩, (h6 _ _ _).2 (Or.inr ⟨rfl, k, _, hm, rfl, rfl⟩)⟩

theorem all_pins (clos : DimTag → List DimTag) (hself : ∀ e, (2, e) ∈ clos (2, e)) (hother : ∀ e e', (2, e) ∈ clos (2, e') → e = e')
    (base : List ℤ) (ps : List (Single K C)) (o : Occ K C) (hc : CleanOn base o) (hp : ∀ p ∈ ps, Fine p) :
    ∃ o', addPins clos ps o = .ok o' ∧ CleanOn base o' ∧ (ps ≠ [] ∨ o.rings ≠ [] → o'.rings ≠ []) ∧
      (∀ n, ∀ e ∈ base, In o'.gm 2 n e ↔ In o.gm 2 n e) ∧ ∀ P x, Has o' P x ↔ Has o P x ∨ ∃ p ∈ ps, PinShows p P x := by
  induction ps generalizing o with
  | nil => exact ⟨o, rfl, hc, by simp, fun _ _ _ => Iff.rfl, by simp⟩
  | cons p ps ih =>
    obtain ⟨o1, out, h1, h2, h3, h4, h5⟩ := one_pin clos hself hother base o hc p (hp p (by simp))
    obtain ⟨o2, g1, g2, g3, g4, g5⟩ := ih o1 h2 fun q hq => hp q (by simp [hq])
    refine ⟨o2, ?_, g2, fun _ => g3 (Or.inr h3), fun n e he => (g4 n e he).trans (h4 n e he), fun P x => ?_⟩
    · rw [addPins, h1]; exact g1
    · rw [g5, h5]
      simp only [List.mem_cons, exists_eq_or_imp, or_assoc]

theorem start_on (color : DimTag → C) : CleanOn [] (Programs.start color : Occ K C) := by
  have h := ProgramsL.start_clean (K := K) color
  exact ⟨h.wf, h.distinct, by simp, h.below, by simp, h.once, fun d n e he => by obtain ⟨a, b, c⟩ := h.owned d n e he; exact ⟨a, b, Or.inr c⟩⟩

theorem shapeOn_nil (o : Occ K C) (shape : ℤ → Set (K × K)) : shapeOn [] shape o = ringSet o := by
  funext e; ext P; simp [shapeOn]

end Verif.SingleL
