import Verif.Props.SceneSpec
import Verif.Model.Vera1

/-! Specification of the pin cell of VERA problem 1A (C118).  Lengths are in centimetres. -/

namespace Verif.Vera1Spec

open Verif.Gmsh (Gm DimTag)
open Verif.Overlay (Name)
open Verif.Pins (Occ)
open Verif.PinsSpec (within)
open Verif.ProgramsSpec Verif.Scene Verif.SceneSpec

/-- The name as bytes. -/
def name (s : String) : Name := s.toList.map fun c => UInt8.ofNat c.toNat

section
variable {K C M : Type} [Field K] [LinearOrder K]

/-- The point is in a ring of material `x` of the pin: ring `k` is the first circle of the pin that it is in. -/
def PinShows (p : Vera1.Single K C) (P : K × K) (x : Name) : Prop :=
  ∃ (k : Nat) (r : K) (c : C), p.radii[k]? = some r ∧ p.mats[k]? = some (x, c) ∧ dist2 P p.centre ≤ r ^ 2 ∧
    ∀ r', within p.radii k = some r' → r' ^ 2 < dist2 P p.centre

/-- The pellet, the gap around it, the clad and the water in a cell of 1.26 cm; without a gap the clad reaches to the pellet.  `mat` is the
material of a point. -/
def Cell (gap : Bool) (mat : K × K → Name → Prop) : Prop :=
  ∀ P : K × K, 0 ≤ P.1 → P.1 < 126 / 100 → 0 ≤ P.2 → P.2 < 126 / 100 →
    let D := dist2 P (63 / 100, 63 / 100)
    (D ≤ (4096 / 10000) ^ 2 → mat P (name "Fuel")) ∧
    ((4096 / 10000) ^ 2 < D → D ≤ (418 / 1000) ^ 2 → mat P (name (if gap then "Gap" else "Clad"))) ∧
    ((418 / 1000) ^ 2 < D → D ≤ (475 / 1000) ^ 2 → mat P (name "Clad")) ∧
    ((475 / 1000) ^ 2 < D → mat P (name "Moderator"))

/-- The program comes to the end of the overlay without an error, whatever the kernel answers to the fragment, and `Q` holds of the groups and
the points of the fragments. -/
def Makes (clos : DimTag → List DimTag) (sort : List K → List K) (eps : K) (col : String → C) (blue : DimTag → C) (gap : Bool)
    (s : Mpact.Model K M) (Q : Gm Name C → (ℤ → Set (K × K)) → Prop) : Prop :=
  ∃ o m cs, Vera1.addPins clos (Vera1.pins col gap) (Programs.start blue) = .ok o ∧ gridCuts sort eps s Vera1.domain 1 1 = .ok (m, cs) ∧
    ∀ map all reg, FragmentsOf (ofOcc [] o).tags (ringSet o) cs map all reg →
      ∃ g gone, Scene.lay clos (ofOcc [] o) cs map all (Vera1.fill col) = .ok (g, gone) ∧ Q g reg

end

/-- The mass per volume of the nuclides, in grams per cubic centimetre: the number densities are per barn and centimetre. -/
def massDensity (m : Phys.Material) : ℚ := ((m.zaid.zip m.num).map fun p => (Phys.massOf p.1).getD 0 * p.2).sum / Phys.nAvo

/-- The density of helium that the comment of the program quotes, 0.012768 kg per cubic metre, in grams per cubic centimetre. -/
def quoted : ℚ := 0.012768 * 1000 / 100 ^ 3

/-- The number density of the nuclides of a kind. -/
def atoms (m : Phys.Material) (kind : ℤ → Bool) : ℚ := (((m.zaid.zip m.num).filter fun p => kind p.1).map (·.2)).sum

/-- The share of the mass of the nuclides of a kind. -/
def share (m : Phys.Material) (kind : ℤ → Bool) : ℚ :=
  (((m.zaid.zip m.num).filter fun p => kind p.1).map fun p => (Phys.massOf p.1).getD 0 * p.2).sum /
    ((m.zaid.zip m.num).map fun p => (Phys.massOf p.1).getD 0 * p.2).sum

/-- The nuclides of an element. -/
def element (z : ℤ) (zaid : ℤ) : Bool := zaid / 1000 == z

/-- The natural abundances of the isotopes of zirconium, tin, iron, chromium and hafnium, in parts of the atoms of the element. -/
def natural : List (ℤ × ℚ) :=
  [(40090, 0.51450), (40091, 0.11220), (40092, 0.17150), (40094, 0.17380), (40096, 0.02800), (50112, 0.00970), (50114, 0.00660),
   (50115, 0.00340), (50116, 0.14540), (50117, 0.07680), (50118, 0.24220), (50119, 0.08590), (50120, 0.32580), (50122, 0.04630),
   (50124, 0.05790), (26054, 0.05845), (26056, 0.91754), (26057, 0.02119), (26058, 0.00282), (24050, 0.04345), (24052, 0.83789),
   (24053, 0.09501), (24054, 0.02365), (72174, 0.00160), (72176, 0.05260), (72177, 0.18600), (72178, 0.27280), (72179, 0.13620),
   (72180, 0.35080)]

end Verif.Vera1Spec
