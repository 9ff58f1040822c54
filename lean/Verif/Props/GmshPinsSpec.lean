import Verif.Props.OverlayGroupsSpec
import Verif.Model.GmshPins

/-! Specification of pins and lattices of pins (C94, C95). -/

namespace Verif.PinsSpec

open Verif.GmshSpec
open Verif.Overlay (Name)
open Verif.OverlayGroupsSpec (material)
open Verif.Pins (Annulus Occ)

variable {K C : Type}

/-- The radius inside of ring `k`. -/
def within (radii : List K) (k : Nat) : Option K := if k = 0 then none else radii[k - 1]?

/-- The points of a surface, by coordinates: closed on the outside, open on the inside. -/
def covers [Field K] [LinearOrder K] (R : Annulus K) (p : K × K) : Prop :=
  (p.1 - R.x) ^ 2 + (p.2 - R.y) ^ 2 ≤ R.outer ^ 2 ∧ ∀ r, R.inner = some r → r ^ 2 < (p.1 - R.x) ^ 2 + (p.2 - R.y) ^ 2

/-- The id in column `i` of row `j`; rows are counted from the bottom. -/
def idAt (rows : List (List ℤ)) (i j : Nat) : Option ℤ := (rows[j]?).bind fun row => row[i]?

/-- Annulus `k` with radius `r` of pin `p` stands in column `i` and row `j`. -/
def Stands (rows : List (List ℤ)) (radii : List (List K)) (i j p k : Nat) (r : K) : Prop :=
  idAt rows i j = some (p : ℤ) ∧ ∃ rad, radii[p]? = some rad ∧ rad[k]? = some r

/-- The surface of ring `k` of pin `p`: its tag, its centre, the radius inside and its radius. -/
def ringOf [Add K] (radii : List (List K)) (cx cy : Nat → K) (off : K × K) (tag : ℤ) (i j p k : Nat) (r : K) : Annulus K :=
  ⟨tag, cx i + off.1, cy j + off.2, within (radii.getD p []) k, r⟩

/-- `o'` arises from `o` by adding the pins `p` with `P p`: `tag i j k` is the surface of ring `k` in column `i` and row `j`. -/
structure Added [Add K] (o o' : Occ K C) (out : List ℤ) (rows : List (List ℤ)) (radii : List (List K))
    (mats : List (List (Name × C))) (cx cy : Nat → K) (off : K × K) (P : Nat → Prop) (tag : Nat → Nat → Nat → ℤ) : Prop where
  wf : WF o'.gm
  distinct : Distinct o'.gm 2
  /-- The surfaces are the old ones and one for each ring of each pin, around the middle of its cell. -/
  rings : ∀ R, R ∈ o'.rings ↔ R ∈ o.rings ∨
    ∃ i j p k r, P p ∧ Stands rows radii i j p k r ∧ R = ringOf radii cx cy off (tag i j k) i j p k r
  /-- The tags are new and different. -/
  fresh : ∀ i j p k r, P p → Stands rows radii i j p k r → o.next ≤ tag i j k ∧ tag i j k < o'.next
  inj : ∀ i j p k r i' j' p' k' r', P p → P p' → Stands rows radii i j p k r → Stands rows radii i' j' p' k' r' →
    tag i j k = tag i' j' k' → i = i' ∧ j = j' ∧ k = k'
  /-- Every ring is in the group of its material, and no other group changes. -/
  groups : ∀ d n e, In o'.gm d n e ↔ In o.gm d n e ∨ (d = 2 ∧ ∃ i j p k r ms m, P p ∧ Stands rows radii i j p k r ∧
    mats[p]? = some ms ∧ ms[k]? = some m ∧ n = material m.1 ∧ e = tag i j k)
  /-- The tags are returned. -/
  returned : ∀ e, e ∈ out ↔ ∃ i j p k r, P p ∧ Stands rows radii i j p k r ∧ e = tag i j k
  nodup : out.Nodup
  /-- Every ring has the colour of its material, and older surfaces keep theirs. -/
  colors : ∀ i j p k r ms m, P p → Stands rows radii i j p k r → mats[p]? = some ms → ms[k]? = some m → o'.gm.color (2, tag i j k) = m.2
  kept : ∀ e, e < o.next → o'.gm.color (2, e) = o.gm.color (2, e)

end Verif.PinsSpec
