import Verif.Lemmas.GmshPins
import Verif.Props.Mpact
import Verif.Props.RectGrid
import Mathlib.Data.List.Sort
import Mathlib.Tactic.Linarith
import Mathlib.Tactic.NormNum

/-!
# C94 A pin, C95 a lattice of pins
-/

namespace Verif.PinsP

open Verif.XSLib (Res)
open Verif.Gmsh (Gm DimTag)
open Verif.GmshSpec Verif.PinsSpec Verif.PinsL Verif.Pins
open Verif.Overlay (Name)
open Verif.OverlayGroupsSpec (material)

set_option linter.unusedSectionVars false
variable {K C : Type} [Field K] [LinearOrder K]

/-! ## One pin -/

/-- The pin is accepted exactly if there is a radius, there are as many materials as radii, and the radii are positive and do not
decrease; otherwise the program ends with an error. -/
theorem C94_accepts (clos : DimTag → List DimTag) (hself : ∀ e, (2, e) ∈ clos (2, e)) (hother : ∀ e e', (2, e) ∈ clos (2, e') → e = e')
    (o : Occ K C) (hw : WF o.gm) (hd : Distinct o.gm 2) (x y : K) (radii : List K) (mats : List (Name × C)) :
    (radii ≠ [] ∧ radii.length = mats.length ∧ (∀ r ∈ radii, 0 < r) ∧ radii.Pairwise (· ≤ ·) →
      ∃ q, addPin clos o x y radii mats = .ok q) ∧
    (¬ (radii ≠ [] ∧ radii.length = mats.length ∧ (∀ r ∈ radii, 0 < r) ∧ radii.Pairwise (· ≤ ·)) →
      addPin clos o x y radii mats = .refused) := by
  constructor
  · rintro ⟨h1, h2, h3, h4⟩
    cases radii with
    | nil => exact absurd rfl h1
    | cons r0 rs =>
      rw [addPin, if_neg (by simpa using h2), if_neg (by simpa using h3 r0 (by simp)), if_neg (by rw [(isSorted_iff _).2 h4]; simp)]
      obtain ⟨s', g1, _⟩ := pinMats_spec clos hself hother ((ringsAt x y none (r0 :: rs) o.next).map (·.tag)) mats o.gm hw hd
        (by rw [ringsAt_tags]; exact List.Nodup.map (fun a b h => by simpa using h) List.nodup_range)
        (by rw [List.length_map, ringsAt_length, h2])
      dsimp only
      rw [g1]
      exact ⟨_, rfl⟩
  · intro h
    cases radii with
    | nil => rfl
    | cons r0 rs =>
      rw [addPin]
      by_cases h2 : (r0 :: rs).length = mats.length
      · rw [if_neg (by simpa using h2)]
        by_cases h3 : r0 ≤ 0
        · rw [if_pos h3]
        · rw [if_neg h3]
          by_cases h4 : (r0 :: rs).Pairwise (· ≤ ·)
          · refine absurd ⟨by simp, h2, ?_, h4⟩ h
            intro r hr
            rcases List.mem_cons.1 hr with rfl | hr
            · exact not_le.1 h3
            · exact lt_of_lt_of_le (not_le.1 h3) ((List.pairwise_cons.1 h4).1 r hr)
          · rw [if_pos (by rw [isSorted_iff]; exact h4)]
      · rw [if_pos h2]

/-- The result of an accepted pin: the tags of the new surfaces are returned from the inside to the outside and are new; the surfaces
are the disk and the annuli around the centre; each is in the group of its material and has its colour; nothing else changes. -/
theorem C94_pin (clos : DimTag → List DimTag) (hself : ∀ e, (2, e) ∈ clos (2, e)) (hother : ∀ e e', (2, e) ∈ clos (2, e') → e = e')
    (o : Occ K C) (hw : WF o.gm) (hd : Distinct o.gm 2) (x y : K) (radii : List K) (mats : List (Name × C)) (o' : Occ K C) (out : List ℤ)
    (h : addPin clos o x y radii mats = .ok (o', out)) :
    WF o'.gm ∧ Distinct o'.gm 2 ∧ o'.next = o.next + radii.length ∧
    out = (List.range radii.length).map (fun k : Nat => o.next + k) ∧
    (∀ R, R ∈ o'.rings ↔ R ∈ o.rings ∨ ∃ (k : Nat) (r : K), radii[k]? = some r ∧ R = ⟨o.next + k, x, y, within radii k, r⟩) ∧
    (∀ d n e, In o'.gm d n e ↔ In o.gm d n e ∨ (d = 2 ∧ ∃ (k : Nat) (m : Name × C), mats[k]? = some m ∧ n = material m.1 ∧ e = o.next + k)) ∧
    (∀ (k : Nat) (m : Name × C), mats[k]? = some m → o'.gm.color (2, o.next + k) = m.2) ∧
    (∀ e, e < o.next → o'.gm.color (2, e) = o.gm.color (2, e)) := by
  cases radii with
  | nil => cases h
  | cons r0 rs =>
    rw [addPin] at h
    split at h
    · cases h
    rename_i h2
    rw [not_not] at h2
    split at h
    · cases h
    split at h
    · cases h
    obtain ⟨s', g1, g2, g3, g4, g5⟩ := pinMats_spec clos hself hother ((ringsAt x y none (r0 :: rs) o.next).map (·.tag)) mats o.gm hw hd
      (by rw [ringsAt_tags]; exact List.Nodup.map (fun a b h => by simpa using h) List.nodup_range)
      (by rw [List.length_map, ringsAt_length, h2])
    dsimp only at h
    rw [g1] at h
    cases h
    have htag : ∀ (k : Nat) (e : ℤ), ((ringsAt x y none (r0 :: rs) o.next).map (·.tag))[k]? = some e ↔ k < (r0 :: rs).length ∧ e = o.next + k := by
      intro k e
      rw [ringsAt_tags, List.getElem?_map]
      by_cases hk : k < (r0 :: rs).length
      · rw [List.getElem?_range hk, Option.map_some, Option.some.injEq]
        exact ⟨fun h => ⟨hk, h.symm⟩, fun h => h.2.symm⟩
      · rw [List.getElem?_eq_none (by rw [List.length_range]; omega)]; simp at hk ⊢; omega
    refine ⟨g2, g3, rfl, ringsAt_tags x y _ none o.next, ?_, ?_, ?_, ?_⟩
    · intro R
      dsimp only
      rw [List.mem_append]
      refine or_congr_right ?_
      rw [List.mem_iff_getElem?]
      simp only [ringsAt_get, Option.map_eq_some_iff]
      constructor
      · rintro ⟨k, r, hr, rfl⟩; exact ⟨k, r, hr, rfl⟩
      · rintro ⟨k, r, hr, rfl⟩; exact ⟨k, r, hr, rfl⟩
    · intro d n e
      rw [g4]
      refine or_congr_right (and_congr_right fun _ => ?_)
      simp only [htag]
      constructor
      · rintro ⟨k, m, ⟨_, he⟩, hm, hn⟩; exact ⟨k, m, hm, hn, he⟩
      · rintro ⟨k, m, hm, hn, he⟩
        exact ⟨k, m, ⟨by rw [h2]; exact (List.getElem?_eq_some_iff.1 hm).1, he⟩, hm, hn⟩
    · intro k m hm
      exact (g5 _).1 k m ((htag k _).2 ⟨by rw [h2]; exact (List.getElem?_eq_some_iff.1 hm).1, rfl⟩) hm
    · intro e he
      refine (g5 e).2 fun hmem => ?_
      obtain ⟨k, hk⟩ := List.mem_iff_getElem?.1 hmem
      have := ((htag k e).1 hk).2
      omega

/-! ## The points of a pin -/

section
variable [IsStrictOrderedRing K]

/-- Of the rings of a pin exactly the first whose radius reaches a point covers it. -/
theorem first_ring (rad : List K) (hpos : ∀ r ∈ rad, 0 < r) (hs : rad.Pairwise (· ≤ ·)) (D : K) (k : Nat) (r : K) (hr : rad[k]? = some r) :
    (D ≤ r ^ 2 ∧ ∀ r', within rad k = some r' → r' ^ 2 < D) ↔ D ≤ r ^ 2 ∧ ∀ (k' : Nat) r', k' < k → rad[k']? = some r' → r' ^ 2 < D := by
  refine and_congr_right fun _ => ?_
  constructor
  · intro h k' r' hk' hr'
    have hk0 : k ≠ 0 := by omega
    obtain ⟨hlt, _⟩ := List.getElem?_eq_some_iff.1 hr
    have h1 : rad[k - 1]? = some rad[k - 1] := List.getElem?_eq_getElem (by omega)
    have h2 := h _ (by unfold PinsSpec.within; rw [if_neg hk0]; exact h1)
    obtain ⟨hlt', rfl⟩ := List.getElem?_eq_some_iff.1 hr'
    have hle : rad[k'] ≤ rad[k - 1] := by
      rcases Nat.lt_or_ge k' (k - 1) with hc | hc
      · exact List.pairwise_iff_getElem.1 hs k' (k - 1) _ _ hc
      · have : k' = k - 1 := by omega
        subst this; exact le_refl _
    have := hpos _ (List.getElem_mem hlt')
    nlinarith
  · intro h r' hr'
    unfold PinsSpec.within at hr'
    split at hr'
    · cases hr'
    · exact h (k - 1) r' (by omega) hr'

theorem first_exists (rad : List K) (D : K) (h : ∃ r ∈ rad, D ≤ r ^ 2) :
    ∃ (k : Nat) (r : K), rad[k]? = some r ∧ D ≤ r ^ 2 ∧ ∀ (k' : Nat) r', k' < k → rad[k']? = some r' → r' ^ 2 < D := by
  obtain ⟨r, hr, hD⟩ := h
  obtain ⟨k, hk⟩ := List.mem_iff_getElem?.1 hr
  have hex : ∃ k : Nat, ∃ r, rad[k]? = some r ∧ D ≤ r ^ 2 := ⟨k, r, hk, hD⟩
  classical
  obtain ⟨r0, h1, h2⟩ := Nat.find_spec hex
  refine ⟨Nat.find hex, r0, h1, h2, fun k' r' hk' hr' => ?_⟩
  by_contra hc
  exact Nat.find_min hex hk' ⟨r', hr', not_lt.1 hc⟩

theorem first_unique (rad : List K) (D : K) (k1 k2 : Nat) (r1 r2 : K) (h1 : rad[k1]? = some r1) (h2 : rad[k2]? = some r2)
    (c1 : D ≤ r1 ^ 2 ∧ ∀ (k' : Nat) r', k' < k1 → rad[k']? = some r' → r' ^ 2 < D)
    (c2 : D ≤ r2 ^ 2 ∧ ∀ (k' : Nat) r', k' < k2 → rad[k']? = some r' → r' ^ 2 < D) : k1 = k2 := by
  rcases Nat.lt_trichotomy k1 k2 with h | h | h
  · exact absurd c1.1 (not_le.2 (c2.2 k1 r1 h h1))
  · exact h
  · exact absurd c2.1 (not_le.2 (c1.2 k2 r2 h h2))

/-- Every point of the largest disk is in exactly one of the new surfaces, that of the first radius that reaches it, and points outside
are in none. -/
theorem C94_points (clos : DimTag → List DimTag) (hself : ∀ e, (2, e) ∈ clos (2, e)) (hother : ∀ e e', (2, e) ∈ clos (2, e') → e = e')
    (o : Occ K C) (hw : WF o.gm) (hd : Distinct o.gm 2) (x y : K) (radii : List K) (mats : List (Name × C)) (o' : Occ K C) (out : List ℤ)
    (h : addPin clos o x y radii mats = .ok (o', out)) (hold : ∀ R ∈ o.rings, R.tag < o.next) (P : K × K) :
    ((∃ r ∈ radii, (P.1 - x) ^ 2 + (P.2 - y) ^ 2 ≤ r ^ 2) →
      ∃! R, R ∈ o'.rings ∧ o.next ≤ R.tag ∧ covers R P) ∧
    (∀ (k : Nat) (m : Name × C) (r : K), radii[k]? = some r → mats[k]? = some m → (P.1 - x) ^ 2 + (P.2 - y) ^ 2 ≤ r ^ 2 →
      (∀ (k' : Nat) r', k' < k → radii[k']? = some r' → r' ^ 2 < (P.1 - x) ^ 2 + (P.2 - y) ^ 2) →
      ∃ R ∈ o'.rings, covers R P ∧ o.next ≤ R.tag ∧ In o'.gm 2 (material m.1) R.tag) ∧
    ((∀ r ∈ radii, r ^ 2 < (P.1 - x) ^ 2 + (P.2 - y) ^ 2) → ∀ R ∈ o'.rings, o.next ≤ R.tag → ¬ covers R P) := by
  have hacc : radii ≠ [] ∧ radii.length = mats.length ∧ (∀ r ∈ radii, 0 < r) ∧ radii.Pairwise (· ≤ ·) := by
    by_contra hc
    rw [(C94_accepts clos hself hother o hw hd x y radii mats).2 hc] at h
    cases h
  obtain ⟨-, -, -, -, h5, h6, -, -⟩ := C94_pin clos hself hother o hw hd x y radii mats o' out h
  have hcov : ∀ (k : Nat) (r : K), radii[k]? = some r → (covers ⟨o.next + k, x, y, within radii k, r⟩ P ↔
      (P.1 - x) ^ 2 + (P.2 - y) ^ 2 ≤ r ^ 2 ∧ ∀ (k' : Nat) r', k' < k → radii[k']? = some r' → r' ^ 2 < (P.1 - x) ^ 2 + (P.2 - y) ^ 2) :=
    fun k r hr => first_ring radii hacc.2.2.1 hacc.2.2.2 _ k r hr
  have hnew : ∀ R, R ∈ o'.rings → o.next ≤ R.tag → ∃ (k : Nat) (r : K), radii[k]? = some r ∧ R = ⟨o.next + k, x, y, within radii k, r⟩ := by
    intro R hR ht
    rcases (h5 R).1 hR with hR | hR
    · have := hold R hR; omega
    · exact hR
  refine ⟨fun hex => ?_, ?_, ?_⟩
  · obtain ⟨k, r, hr, hc⟩ := first_exists radii _ hex
    refine ⟨⟨o.next + k, x, y, within radii k, r⟩, ⟨(h5 _).2 (Or.inr ⟨k, r, hr, rfl⟩), by dsimp only; omega, (hcov k r hr).2 hc⟩, ?_⟩
    rintro R ⟨hR, ht, hRc⟩
    obtain ⟨k', r', hr', rfl⟩ := hnew R hR ht
    have := first_unique radii _ k' k r' r hr' hr ((hcov k' r' hr').1 hRc) hc
    subst this
    rw [hr] at hr'; cases hr'; rfl
  · intro k m r hr hm h1 h2
    exact ⟨_, (h5 _).2 (Or.inr ⟨k, r, hr, rfl⟩), (hcov k r hr).2 ⟨h1, h2⟩, by dsimp only; omega, (h6 _ _ _).2 (Or.inr ⟨rfl, k, m, hm, rfl, rfl⟩)⟩
  · intro hout R hR ht hc
    obtain ⟨k, r, hr, rfl⟩ := hnew R hR ht
    exact absurd hc.1 (not_le.2 (hout r (List.mem_of_getElem? hr)))

end

/-! ## The lattice -/

/-- The middle of column `i` of columns with widths `W`, from the left; and for rows. -/
def mid (W : List K) (i : Nat) : K := (W.take i).sum + W.getD i 0 / 2

theorem rectCell_sums' (W : List K) : ∀ (x : K) (i : Nat) (w : K), W[i]? = some w →
    Grid.rectCell (Grid.sums x W) i = some (x + (W.take i).sum, x + (W.take i).sum + w) := by
  induction W with
  | nil => intro x i w h; simp at h
  | cons v W ih =>
    intro x i w h
    cases i with
    | zero =>
      simp only [List.getElem?_cons_zero, Option.some.injEq] at h
      subst h
      cases W <;> simp [Grid.sums, Grid.rectCell]
    | succ i =>
      have := ih (x + v) i w h
      unfold Grid.rectCell at this ⊢
      simp only [Grid.sums, List.getElem?_cons_succ, List.take_succ_cons, List.sum_cons]
      rw [this, add_assoc]

section
variable [IsStrictOrderedRing K]

theorem middle_sums (W H : List K) (i j : Nat) (hi : i < W.length) (hj : j < H.length) :
    middle (Grid.sums 0 W) (Grid.sums 0 H) i j = some (mid W i, mid H j) := by
  unfold middle mid
  rw [rectCell_sums' W 0 i _ (List.getElem?_eq_getElem hi), rectCell_sums' H 0 j _ (List.getElem?_eq_getElem hj),
    List.getD_eq_getElem?_getD, List.getD_eq_getElem?_getD, List.getElem?_eq_getElem hi, List.getElem?_eq_getElem hj]
  simp only [Option.bind_some, Option.getD_some, Option.some.injEq, Prod.mk.injEq]
  constructor <;> ring

/-- The pin in column `i` and row `j` from the bottom has width `W[i]` and height `H[j]`. -/
def Fits (ids : List (List ℤ)) (dxdy : List (K × K)) (W H : List K) : Prop :=
  List.Forall₂ (fun row h => List.Forall₂ (fun (id : ℤ) w => 0 ≤ id ∧ dxdy[id.toNat]? = some (w, h)) row W) ids.reverse H

/-- A lattice whose columns have widths `W` and whose rows, from the bottom, heights `H` is accepted.  One surface is added for each ring
of each pin in the lattice, around the middle of its cell, in the group of the material of the ring, in the colour of the material;
there is nothing else that is new (`Added`). -/
theorem C95_lattice (clos : DimTag → List DimTag) (hself : ∀ e, (2, e) ∈ clos (2, e)) (hother : ∀ e e', (2, e) ∈ clos (2, e') → e = e')
    (sort : List K → List K) (hsort : ∀ l, IsStdSort (fun a b => decide (a < b)) l (sort l)) (eps : K) (he : 0 < eps)
    (o : Occ K C) (hw : WF o.gm) (hd : Distinct o.gm 2) (ids : List (List ℤ)) (dxdy : List (K × K)) (radii : List (List K))
    (mats : List (List (Name × C))) (off : K × K) (W H : List K) (hW : W ≠ []) (hH : H ≠ []) (hWe : ∀ w ∈ W, eps ≤ w) (hHe : ∀ h ∈ H, eps ≤ h)
    (hfits : Fits ids dxdy W H) (hlen : radii.length = dxdy.length)
    (hmats : List.Forall₂ (fun rad ms => rad.length ≤ ms.length) radii mats) :
    ∃ o' out tag, addLattice clos sort eps o ids dxdy radii mats off = .ok (o', out) ∧
      Added o o' out ids.reverse radii mats (mid W) (mid H) off (· < radii.length) tag := by
  have hrow : ∀ row ∈ ids, row.length = W.length := by
    intro row hr
    obtain ⟨j, hj⟩ := List.mem_iff_getElem?.1 (List.mem_reverse.2 hr)
    obtain ⟨hlt, rfl⟩ := List.getElem?_eq_some_iff.1 hj
    have := List.Forall₂.get hfits hlt (by rw [← hfits.length_eq]; exact hlt)
    exact this.length_eq
  have hid : ∀ row ∈ ids, ∀ id ∈ row, 0 ≤ id ∧ id < radii.length := by
    intro row hr id hm
    obtain ⟨j, hj⟩ := List.mem_iff_getElem?.1 (List.mem_reverse.2 hr)
    obtain ⟨hlt, rfl⟩ := List.getElem?_eq_some_iff.1 hj
    have := List.Forall₂.get hfits hlt (by rw [← hfits.length_eq]; exact hlt)
    obtain ⟨i, hi⟩ := List.mem_iff_getElem?.1 hm
    obtain ⟨hlt', rfl⟩ := List.getElem?_eq_some_iff.1 hi
    have := List.Forall₂.get this hlt' (by rw [← this.length_eq]; exact hlt')
    simp only [List.get_eq_getElem] at this
    refine ⟨this.1, ?_⟩
    have := (List.getElem?_eq_some_iff.1 this.2).1
    omega
  have hl' : List.Forall₂ (fun row h => List.Forall₂ (fun id w => dxdy[id]? = some (w, h)) row W)
      (ids.map fun r => r.map (·.toNat)).reverse H := by
    rw [← List.map_reverse, List.forall₂_map_left_iff]
    refine hfits.imp fun row h hr => ?_
    rw [List.forall₂_map_left_iff]
    exact hr.imp fun id w hw => hw.2
  obtain ⟨⟨_, _, b, hb, _, _⟩, huniq⟩ := Grid.C38_ids he dxdy (ids.map fun r => r.map (·.toNat)) W H hW hH hWe hHe hl'
  have hgrid : Mpact.mkGrid sort eps dxdy (ids.map fun r => r.map (·.toNat)) = some (Grid.sums 0 W, Grid.sums 0 H) := by
    have := huniq _ _ ⟨b, hb, hsort _, hsort _⟩
    unfold Mpact.mkGrid
    rw [hb, Option.map_some, this.1, this.2.1]
  cases ids with
  | nil => unfold Fits at hfits; rw [List.reverse_nil] at hfits; cases hfits; exact absurd rfl hH
  | cons row0 rows =>
    have hrow0 := hrow row0 (by simp)
    have hrad0 : radii ≠ [] := by
      intro h
      have h1 : 0 < row0.length := by rw [hrow0]; exact List.length_pos_iff.2 hW
      have := hid row0 (by simp) row0[0] (List.getElem_mem h1)
      rw [h] at this
      simp at this
      omega
    have hany1 : ((row0 :: rows).any fun row => row.length ≠ row0.length) = false := by
      rw [List.any_eq_false]
      intro row hr
      simp [hrow row hr, hrow0]
    have hany2 : ((row0 :: rows).flatten.any fun id => decide (id < 0) || decide (id ≥ (radii.length : ℤ))) = false := by
      rw [List.any_eq_false]
      intro id hm
      obtain ⟨row, hr, hm⟩ := List.mem_flatten.1 hm
      have := hid row hr id hm
      simp; omega
    obtain ⟨o', more, tag, h1, h2, h3⟩ := latticeLoop_spec clos hself hother (Grid.sums 0 W) (Grid.sums 0 H) off (row0 :: rows).reverse row0.length
      (fun r hr => by rw [hrow r (List.mem_reverse.1 hr), hrow0]) radii mats (mid W) (mid H) (by
        intro i j hij
        unfold idAt at hij
        cases hr : (row0 :: rows).reverse[j]? with
        | none => rw [hr] at hij; simp at hij
        | some row =>
          rw [hr] at hij
          have hj : j < H.length := by
            rw [← hfits.length_eq]; exact (List.getElem?_eq_some_iff.1 hr).1
          have hi : i < W.length := by
            rw [← hrow row (List.mem_reverse.1 (List.mem_of_getElem? hr))]
            by_contra hc
            exact hij (List.getElem?_eq_none (by omega))
          exact middle_sums W H i j hi hj) (by
        intro p rad hp
        obtain ⟨hlt, rfl⟩ := List.getElem?_eq_some_iff.1 hp
        have := List.Forall₂.get hmats hlt (by rw [← hmats.length_eq]; exact hlt)
        exact ⟨_, List.getElem?_eq_getElem (by rw [← hmats.length_eq]; exact hlt), this⟩) (List.range radii.length) o [] List.nodup_range
      (fun p hp => List.mem_range.1 hp) hw hd
    refine ⟨o', more, tag, ?_, ?_⟩
    · unfold addLattice
      rw [if_neg hrad0, if_neg (by rw [hmats.length_eq]; simp), if_neg (by rw [hlen]; simp)]
      dsimp only
      rw [hany1, hany2, hgrid]
      simpa using h1
    · have : (fun p => p < radii.length) = (· ∈ List.range radii.length) := by funext p; simp
      rw [this]; exact h3

/-- Otherwise: no pin, different numbers of radii, materials and extents, rows of different lengths, and ids that are no pins end the
program with an error. -/
theorem C95_refuses (clos : DimTag → List DimTag) (sort : List K → List K) (eps : K) (o : Occ K C) (ids : List (List ℤ))
    (dxdy : List (K × K)) (radii : List (List K)) (mats : List (List (Name × C))) (off : K × K) (hne : ids ≠ [])
    (h : radii = [] ∨ radii.length ≠ mats.length ∨ radii.length ≠ dxdy.length ∨ (∃ r ∈ ids, ∃ r' ∈ ids, r.length ≠ r'.length) ∨
      ∃ r ∈ ids, ∃ id ∈ r, id < 0 ∨ (radii.length : ℤ) ≤ id) :
    addLattice clos sort eps o ids dxdy radii mats off = .refused := by
  unfold addLattice
  by_cases h1 : radii = []
  · rw [if_pos h1]
  rw [if_neg h1]
  by_cases h2 : radii.length = mats.length
  swap
  · rw [if_pos h2]
  rw [if_neg (by simpa using h2)]
  by_cases h3 : radii.length = dxdy.length
  swap
  · rw [if_pos h3]
  rw [if_neg (by simpa using h3)]
  cases ids with
  | nil => exact absurd rfl hne
  | cons row0 rows =>
    dsimp only
    by_cases h4 : ((row0 :: rows).any fun row => row.length ≠ row0.length) = true
    · rw [if_pos h4]
    rw [if_neg h4]
    have hlen : ∀ r ∈ row0 :: rows, r.length = row0.length := by
      intro r hr
      rw [Bool.not_eq_true, List.any_eq_false] at h4
      simpa using h4 r hr
    rw [if_pos]
    rcases h with h | h | h | ⟨r, hr, r', hr', h⟩ | ⟨r, hr, id, hid, h⟩
    · exact absurd h h1
    · exact absurd h2 h
    · exact absurd h3 h
    · exact absurd ((hlen r hr).trans (hlen r' hr').symm) h
    · rw [List.any_eq_true]
      exact ⟨id, List.mem_flatten.2 ⟨r, hr, hid⟩, by simpa using h⟩

/-! ## The points of a lattice -/

theorem take_sum_le (W : List K) (hpos : ∀ w ∈ W, 0 < w) (i i' : Nat) (h : i < i') (hi : i < W.length) :
    (W.take i).sum + W.getD i 0 ≤ (W.take i').sum := by
  have h1 : (W.take (i + 1)).sum = (W.take i).sum + W.getD i 0 := by
    rw [List.take_add_one, List.sum_append, List.getD_eq_getElem?_getD]
    cases W[i]? <;> simp
  rw [← h1]
  obtain ⟨d, rfl⟩ := Nat.exists_eq_add_of_le h
  have e : (W.take (i + 1 + d)).sum = (W.take (i + 1)).sum + ((W.drop (i + 1)).take d).sum := by rw [List.take_add, List.sum_append]
  have : 0 ≤ ((W.drop (i + 1)).take d).sum :=
    List.sum_nonneg fun x hx => (hpos x (List.mem_of_mem_drop (List.mem_of_mem_take hx))).le
  show _ ≤ (W.take (i + 1 + d)).sum
  rw [e]
  linarith

/-- A coordinate nearer to the middle of a column than half its width belongs to one column. -/
theorem column_unique (W : List K) (hpos : ∀ w ∈ W, 0 < w) (i i' : Nat) (hi : i < W.length) (hi' : i' < W.length) (x : K)
    (h : |x - mid W i| < W.getD i 0 / 2) (h' : |x - mid W i'| < W.getD i' 0 / 2) : i = i' := by
  rw [abs_lt] at h h'
  unfold mid at h h'
  rcases Nat.lt_trichotomy i i' with hc | hc | hc
  · have := take_sum_le W hpos i i' hc hi; linarith [h.1, h.2, h'.1, h'.2]
  · exact hc
  · have := take_sum_le W hpos i' i hc hi'; linarith [h.1, h.2, h'.1, h'.2]

/-- If the radii of the pins are positive, do not decrease and stay inside the cells, a point at squared distance `D` of the middle of a
cell is in exactly one of the new surfaces, that of the first radius of the pin of the cell that reaches it, and so in the group of the
material of this ring. -/
theorem C95_points (o o' : Occ K C) (out : List ℤ) (ids : List (List ℤ)) (radii : List (List K)) (mats : List (List (Name × C)))
    (off : K × K) (W H : List K) (tag : Nat → Nat → Nat → ℤ)
    (h : Added o o' out ids.reverse radii mats (mid W) (mid H) off (· < radii.length) tag)
    (hrows : ids.length = H.length) (hcols : ∀ r ∈ ids, r.length = W.length) (hWp : ∀ w ∈ W, 0 < w) (hHp : ∀ h ∈ H, 0 < h)
    (hrad : ∀ rad ∈ radii, (∀ r ∈ rad, 0 < r) ∧ rad.Pairwise (· ≤ ·))
    (hin : ∀ i j p k r, Stands ids.reverse radii i j p k r → r < W.getD i 0 / 2 ∧ r < H.getD j 0 / 2)
    (hold : ∀ R ∈ o.rings, R.tag < o.next) (i j p : Nat) (hp : idAt ids.reverse i j = some (p : ℤ)) (rad : List K)
    (hr : radii[p]? = some rad) (ms : List (Name × C)) (hms : mats[p]? = some ms) (P : K × K) (D : K)
    (hD : D = (P.1 - (mid W i + off.1)) ^ 2 + (P.2 - (mid H j + off.2)) ^ 2) (k : Nat) (r : K) (m : Name × C) (hk : rad[k]? = some r)
    (hm : ms[k]? = some m) (hreach : D ≤ r ^ 2) (hfirst : ∀ (k' : Nat) r', k' < k → rad[k']? = some r' → r' ^ 2 < D) :
    (∃! R, R ∈ o'.rings ∧ o.next ≤ R.tag ∧ covers R P) ∧
    ∀ R, R ∈ o'.rings ∧ o.next ≤ R.tag ∧ covers R P → R.tag = tag i j k ∧ In o'.gm 2 (material m.1) R.tag := by
  have hget : ∀ (p : Nat) rad, radii[p]? = some rad → radii.getD p [] = rad := by
    intro p rad h; rw [List.getD_eq_getElem?_getD, h]; rfl
  have hlt : ∀ i j p, idAt ids.reverse i j = some (p : ℤ) → i < W.length ∧ j < H.length := by
    intro i j p h
    unfold idAt at h
    rw [Option.bind_eq_some_iff] at h
    obtain ⟨row, h1, h2⟩ := h
    refine ⟨?_, ?_⟩
    · rw [← hcols row (List.mem_reverse.1 (List.mem_of_getElem? h1))]; exact (List.getElem?_eq_some_iff.1 h2).1
    · rw [← hrows, ← List.length_reverse]; exact (List.getElem?_eq_some_iff.1 h1).1
  have hst : Stands ids.reverse radii i j p k r := ⟨hp, rad, hr, hk⟩
  have hplt : p < radii.length := (List.getElem?_eq_some_iff.1 hr).1
  have hpr := hrad rad (List.mem_of_getElem? hr)
  have hcov : covers (ringOf radii (mid W) (mid H) off (tag i j k) i j p k r) P := by
    unfold ringOf covers
    rw [hget p rad hr]
    dsimp only
    rw [← hD]
    exact (first_ring rad hpr.1 hpr.2 D k r hk).2 ⟨hreach, hfirst⟩
  have hmem : ringOf radii (mid W) (mid H) off (tag i j k) i j p k r ∈ o'.rings := (h.rings _).2 (Or.inr ⟨i, j, p, k, r, hplt, hst, rfl⟩)
  have hnear : ∀ i j p k r (t : ℤ), Stands ids.reverse radii i j p k r → covers (ringOf radii (mid W) (mid H) off t i j p k r) P →
      |(P.1 - off.1) - mid W i| < W.getD i 0 / 2 ∧ |(P.2 - off.2) - mid H j| < H.getD j 0 / 2 := by
    intro i j p k r t hst hc
    obtain ⟨hc1, _⟩ := hc
    unfold ringOf at hc1
    dsimp only at hc1
    obtain ⟨h1, h2⟩ := hin i j p k r hst
    obtain ⟨_, rad, hr, hk⟩ := hst
    have hrp := (hrad rad (List.mem_of_getElem? hr)).1 r (List.mem_of_getElem? hk)
    have e1 : ((P.1 - off.1) - mid W i) ^ 2 ≤ r ^ 2 := by
      have : P.1 - (mid W i + off.1) = (P.1 - off.1) - mid W i := by ring
      rw [this] at hc1
      nlinarith [sq_nonneg (P.2 - (mid H j + off.2))]
    have e2 : ((P.2 - off.2) - mid H j) ^ 2 ≤ r ^ 2 := by
      have : P.2 - (mid H j + off.2) = (P.2 - off.2) - mid H j := by ring
      rw [this] at hc1
      nlinarith [sq_nonneg (P.1 - (mid W i + off.1))]
    exact ⟨lt_of_le_of_lt (abs_le_of_sq_le_sq e1 hrp.le) h1, lt_of_le_of_lt (abs_le_of_sq_le_sq e2 hrp.le) h2⟩
  have huniq : ∀ R, R ∈ o'.rings ∧ o.next ≤ R.tag ∧ covers R P → R = ringOf radii (mid W) (mid H) off (tag i j k) i j p k r := by
    rintro R ⟨hR, ht, hc⟩
    rcases (h.rings R).1 hR with hR | ⟨i', j', p', k', r', hp', hst', rfl⟩
    · have := hold R hR; omega
    obtain ⟨n1, n2⟩ := hnear i j p k r _ hst hcov
    obtain ⟨n1', n2'⟩ := hnear i' j' p' k' r' _ hst' hc
    have hi : i = i' := column_unique W hWp i i' (hlt i j p hp).1 (hlt i' j' p' hst'.1).1 _ n1 n1'
    have hj : j = j' := column_unique H hHp j j' (hlt i j p hp).2 (hlt i' j' p' hst'.1).2 _ n2 n2'
    subst hi hj
    obtain ⟨hid', rad', hr', hk'⟩ := hst'
    rw [hp] at hid'
    simp only [Option.some.injEq, Nat.cast_inj] at hid'
    subst hid'
    rw [hr] at hr'
    cases hr'
    unfold ringOf covers at hc
    rw [hget p rad hr] at hc
    dsimp only at hc
    rw [← hD] at hc
    have hkk := first_unique rad D k' k r' r hk' hk ((first_ring rad hpr.1 hpr.2 D k' r' hk').1 hc) ⟨hreach, hfirst⟩
    subst hkk
    rw [hk] at hk'
    cases hk'
    rfl
  refine ⟨⟨_, ⟨hmem, (h.fresh i j p k r hplt hst).1, hcov⟩, huniq⟩, fun R hR => ?_⟩
  rw [huniq R hR]
  exact ⟨rfl, (h.groups _ _ _).2 (Or.inr ⟨rfl, i, j, p, k, r, ms, m, hplt, hst, hms, hm, rfl, rfl⟩)⟩

end

/-! ## Examples -/

/-- Groups, surfaces, next tag and tags, for evaluation. -/
def outcome (r : Res (Occ ℚ Nat × List ℤ)) : Option (List (Gmsh.Group Name) × List (Annulus ℚ) × ℤ × List ℤ) :=
  match r with
  | .ok (o, out) => some (o.gm.groups, o.rings, o.next, out)
  | _ => none

def undefined (r : Res (Occ ℚ Nat × List ℤ)) : Bool :=
  match r with
  | .undef => true
  | _ => false

/-- No group and no surface. -/
def ex0 : Occ ℚ Nat := ⟨⟨[], fun _ => 0⟩, [], 1⟩

example : WF ex0.gm ∧ Distinct ex0.gm 2 :=
  ⟨⟨by unfold ex0; decide, by unfold ex0; decide, by unfold ex0; decide⟩, by unfold Distinct ex0; decide⟩

example : (∀ e : ℤ, ((2, e) : DimTag) ∈ (fun x : DimTag => [x, (1, 0)]) (2, e)) ∧
    ∀ e e' : ℤ, ((2, e) : DimTag) ∈ (fun x : DimTag => [x, (1, 0)]) (2, e') → e = e' := by
  constructor
  · intro e; simp
  · intro e e' h; simpa using h

/-- Fuel "U" in a pin of radius 1, clad "C" up to radius 2. -/
example : outcome (addPin (fun x => [x]) ex0 3 4 [1, 2] [([85], 7), ([67], 8)]) =
    some ([⟨2, 1, material [85], [1]⟩, ⟨2, 2, material [67], [2]⟩], [⟨1, 3, 4, none, 1⟩, ⟨2, 3, 4, some 1, 2⟩], 3, [1, 2]) := by decide +kernel

/-- The radii need not be strictly increasing, as the message says: with equal radii there is a surface without points. -/
theorem C94_equal_fails : outcome (addPin (fun x => [x]) ex0 3 4 [1, 1] [([85], 7), ([67], 8)]) =
      some ([⟨2, 1, material [85], [1]⟩, ⟨2, 2, material [67], [2]⟩], [⟨1, 3, 4, none, 1⟩, ⟨2, 3, 4, some 1, 1⟩], 3, [1, 2]) ∧
    ∀ P, ¬ covers (⟨2, 3, 4, some 1, 1⟩ : Annulus ℚ) P := by
  refine ⟨by decide +kernel, ?_⟩
  rintro P ⟨h1, h2⟩
  have := h2 1 rfl
  dsimp only at h1 this
  linarith

def exSort (l : List ℚ) : List ℚ := l.insertionSort (· ≤ ·)

/-- Pins 0 and 1 below, pin 1 twice above. Pin 0 is empty, pin 1 has fuel "U" and clad "C". -/
def exIds : List (List ℤ) := [[1, 1], [0, 1]]
def exRadii : List (List ℚ) := [[], [1, 2]]
def exMats : List (List (Name × Nat)) := [[], [([85], 7), ([67], 8)]]
def exExt : List (ℚ × ℚ) := [(6, 6), (6, 6)]

example : Fits exIds exExt [6, 6] [6, 6] := by
  unfold Fits exIds exExt
  simp

example : List.Forall₂ (fun rad ms => rad.length ≤ ms.length) exRadii exMats := by
  unfold exRadii exMats
  simp

example : ∀ l, IsStdSort (fun a b => decide (a < b)) l (exSort l) := by
  intro l
  refine ⟨List.perm_insertionSort _ _, ?_⟩
  refine (List.pairwise_insertionSort (r := fun a b : ℚ => a ≤ b) l).imp ?_
  intro a b h
  simpa using h

/-- The rings stay in the cells. -/
example : ∀ rad ∈ exRadii, ∀ r ∈ rad, 0 < r ∧ r < ([6, 6] : List ℚ).getD 0 0 / 2 := by unfold exRadii; decide +kernel

example : outcome (addLattice (fun x => [x]) exSort (1 / 100) ex0 exIds exExt exRadii exMats (0, 10)) =
    some ([⟨2, 1, material [85], [1, 3, 5]⟩, ⟨2, 2, material [67], [2, 4, 6]⟩],
      [⟨1, 9, 13, none, 1⟩, ⟨2, 9, 13, some 1, 2⟩, ⟨3, 3, 19, none, 1⟩, ⟨4, 3, 19, some 1, 2⟩, ⟨5, 9, 19, none, 1⟩, ⟨6, 9, 19, some 1, 2⟩],
      7, [1, 2, 3, 4, 5, 6]) := by decide +kernel

/-- The lattice does not check the radii: radii that `addCylindricalPin2D` refuses are accepted. -/
theorem C95_radii_fails :
    outcome (addPin (fun x => [x]) ex0 3 3 [2, -1] [([85], 7), ([67], 8)]) = none ∧
    outcome (addLattice (fun x => [x]) exSort (1 / 100) ex0 [[0]] [(6, 6)] [[2, -1]] [[([85], 7), ([67], 8)]] (0, 0)) =
      some ([⟨2, 1, material [85], [1]⟩, ⟨2, 2, material [67], [2]⟩], [⟨1, 3, 3, none, 2⟩, ⟨2, 3, 3, some 2, -1⟩], 3, [1, 2]) := by
  constructor <;> decide +kernel

/-- Nor the number of materials of a pin: a missing one is read outside the vector. -/
theorem C95_materials_fails :
    undefined (addLattice (fun x => [x]) exSort (1 / 100) ex0 [[0]] [(6, 6)] [[1, 2]] [[([85], 7)]] (0, 0)) = true := by decide +kernel

/-- Without rows the first row is read outside the vector. -/
theorem C95_empty_fails :
    undefined (addLattice (fun x => [x]) exSort (1 / 100) ex0 [] [(6, 6)] [[1]] [[([85], 7)]] (0, 0)) = true := by decide +kernel

end Verif.PinsP
