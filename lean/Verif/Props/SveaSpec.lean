import Verif.Props.Vera1Spec
import Verif.Model.Svea

/-! Specification of the plane model of the SVEA assembly (C119).  Lengths are in centimetres. -/

namespace Verif.SveaSpec

open Verif.Gmsh (Gm DimTag)
open Verif.Overlay (Name)
open Verif.Pins (Occ)
open Verif.Vera1Spec (name)
open Verif.ProgramsSpec Verif.Scene Verif.SceneSpec
open Verif.Svea (Canvas Query Answer Run)

noncomputable section

/-! ### What a program can do -/

/-- Whatever the kernel answers, the program is defined and `Q` holds of its result. -/
def Always {α : Type} (Q : α → Prop) : Run α → Prop
  | .ret a => Q a
  | .undef => False
  | .ask q k => ∀ c out, Answer q c out → Always Q (k c out)

/-- With some answers of the kernel the result is `a`. -/
def Possible {α : Type} (a : α) : Run α → Prop
  | .ret b => a = b
  | .undef => False
  | .ask q k => ∃ c out, Answer q c out ∧ Possible a (k c out)

/-! ### The assembly -/

/-- The width of the assembly. -/
def width : ℝ := 1561 / 100

/-- How far a coordinate is beyond the middles of the rounded corners. -/
def dent (x : ℝ) : ℝ := max 0 (max (133 / 100 - x) (x - (width - 133 / 100)))

/-- A square with rounded corners of radius `r`. -/
def Rounded (r : ℝ) (P : ℝ × ℝ) : Prop :=
  133 / 100 - r ≤ P.1 ∧ P.1 < width - 133 / 100 + r ∧
  133 / 100 - Real.sqrt (r ^ 2 - dent P.1 ^ 2) ≤ P.2 ∧ P.2 < width - 133 / 100 + Real.sqrt (r ^ 2 - dent P.1 ^ 2)

/-- In the following `u` and `v` are the distances from the middle of the assembly.  A square of width `2 h`, turned by 45 degrees. -/
def Diamond (h u v : ℝ) : Prop := -h ≤ (u + v) / Real.sqrt 2 ∧ (u + v) / Real.sqrt 2 < h ∧ -h ≤ (v - u) / Real.sqrt 2 ∧ (v - u) / Real.sqrt 2 < h

/-- The water in the wing on the left side. -/
def Hole (u v : ℝ) : Prop := -(611 / 100) ≤ u ∧ u < -(286 / 100) ∧ -(5 / 100) ≤ v ∧ v < 5 / 100

/-- The sheet of the wing on the left side: 0.4 mm from the box to the diamond, and 0.4 mm around the water. -/
def Wing (u v : ℝ) : Prop :=
  ((-(6975 / 1000) ≤ u ∧ u < 83 / 100 ∧ -(2 / 100) ≤ v ∧ v < 2 / 100 ∧ ¬ Diamond (7625 / 10000) u v) ∨
    (-(615 / 100) ≤ u ∧ u < -(282 / 100) ∧ -(9 / 100) ≤ v ∧ v < 9 / 100)) ∧ ¬ Hole u v

/-- One of the four wings, each turned by 90 degrees. -/
def Turned (S : ℝ → ℝ → Prop) (u v : ℝ) : Prop := S u v ∨ S v (-u) ∨ S (-u) (-v) ∨ S (-v) u

/-- The sheets in the box. -/
def Cross (u v : ℝ) : Prop := (Diamond (7625 / 10000) u v ∧ ¬ Diamond (7425 / 10000) u v) ∨ Turned Wing u v

/-- The channel box with the cross. -/
def Box (P : ℝ × ℝ) : Prop := (Rounded (64 / 100) P ∧ ¬ Rounded (5 / 10) P) ∨ Cross (P.1 - width / 2) (P.2 - width / 2)

/-- The water in the cross. -/
def Water (P : ℝ × ℝ) : Prop := Diamond (7425 / 10000) (P.1 - width / 2) (P.2 - width / 2) ∨ Turned Hole (P.1 - width / 2) (P.2 - width / 2)

/-- The space for pins and coolant. -/
def Inside (P : ℝ × ℝ) : Prop := Rounded (5 / 10) P ∧ ¬ Box P ∧ ¬ Water P

/-- The enrichment of the fuel in hundredths of a percent, the first row at the bottom. -/
def figure : List (List Nat) :=
  [[300, 380, 410, 410, 380, 410, 470, 470, 410, 380],
   [380, 470, 470, 495, 495, 495, 495, 460, 495, 410],
   [410, 460, 470, 495, 495, 495, 495, 495, 460, 470],
   [410, 495, 495, 495, 470, 470, 495, 495, 495, 470],
   [380, 470, 495, 470,   0,   0, 470, 495, 495, 410],
   [380, 470, 495, 470,   0,   0, 470, 495, 495, 410],
   [410, 495, 495, 495, 470, 470, 495, 495, 495, 470],
   [410, 460, 470, 495, 495, 495, 495, 495, 460, 470],
   [380, 470, 470, 495, 495, 495, 495, 460, 495, 410],
   [300, 380, 410, 410, 380, 410, 470, 470, 410, 380]]

/-- The name of the fuel. -/
def fuelName : Nat → Option String
  | 300 => some "UO2_300"
  | 380 => some "UO2_380"
  | 410 => some "UO2_410Gd"
  | 460 => some "UO2_460"
  | 470 => some "UO2_470Gd"
  | 495 => some "UO2_495"
  | _ => none

/-- The fuel of the pin in row `i` and column `j`. -/
def fuelAt (i j : Nat) : Option String := ((figure[i]?).bind (·[j]?)).bind fuelName

/-- The place of a row or column: pins with a pitch of 1.3 cm, from both sides of the box. -/
def spot (i : Nat) : ℝ := if i < 5 then 83 / 100 + (i + 1 / 2) * (13 / 10) else width - (83 / 100 + (9 - i + 1 / 2) * (13 / 10))

/-- The assembly: `mat` is the material of a point. -/
def Assembly (mat : ℝ × ℝ → Name → Prop) : Prop :=
  ∀ P : ℝ × ℝ, 0 ≤ P.1 → P.1 < width → 0 ≤ P.2 → P.2 < width →
    (∀ i j f, fuelAt i j = some f → dist2 P (spot j, spot i) ≤ (424 / 1000) ^ 2 → mat P (name f)) ∧
    (∀ i j f, fuelAt i j = some f → (424 / 1000) ^ 2 < dist2 P (spot j, spot i) → dist2 P (spot j, spot i) ≤ (492 / 1000) ^ 2 → mat P (name "Clad")) ∧
    (Box P → mat P (name "Clad")) ∧
    ((∀ i j f, fuelAt i j = some f → (492 / 1000) ^ 2 < dist2 P (spot j, spot i)) →
      (Inside P → mat P (name "Coolant")) ∧ (¬ Inside P → ¬ Box P → mat P (name "Moderator")))

/-- What does not depend on the order of the surfaces: pins, box and the water outside the box. -/
def Frame (mat : ℝ × ℝ → Name → Prop) : Prop :=
  ∀ P : ℝ × ℝ, 0 ≤ P.1 → P.1 < width → 0 ≤ P.2 → P.2 < width →
    (∀ i j f, fuelAt i j = some f → dist2 P (spot j, spot i) ≤ (424 / 1000) ^ 2 → mat P (name f)) ∧
    (∀ i j f, fuelAt i j = some f → (424 / 1000) ^ 2 < dist2 P (spot j, spot i) → dist2 P (spot j, spot i) ≤ (492 / 1000) ^ 2 → mat P (name "Clad")) ∧
    (Box P → mat P (name "Clad")) ∧
    (¬ Rounded (5 / 10) P → ¬ Box P → mat P (name "Moderator")) ∧
    (Rounded (5 / 10) P → (∀ i j f, fuelAt i j = some f → (492 / 1000) ^ 2 < dist2 P (spot j, spot i)) → ¬ Box P →
      mat P (name "Coolant") ∨ mat P (name "Moderator"))

/-! ### The program -/

/-- The surfaces after the pins. -/
def canvasOf {C : Type} (o : Occ ℝ C) : Canvas := ⟨o.rings.map (·.tag), ringSet o, o.next⟩

/-- The order of the surfaces that the comment in the code relies on: first the four surfaces with coolant, then the water. -/
def Ordered (c : Canvas) (out : List ℤ) : Prop :=
  8 ≤ out.length ∧ (∀ t ∈ out.take 4, ∀ P ∈ c.shape t, ¬ Water P) ∧ ∀ t ∈ out.drop 4, ∀ P ∈ c.shape t, Water P

variable {M C : Type}

/-- After the answers of the kernel to the booleans the program comes to the end of the overlay without an error, whatever the kernel answers to
the fragment, and `Q` holds of the groups and the points of the fragments. -/
def Ends (clos : DimTag → List DimTag) (col : String → C) (o : Occ ℝ C) (cs : List (Overlay.Cut ℝ)) (box : ℤ) (c : Canvas) (out : List ℤ)
    (Q : Gm Name C → (ℤ → Set (ℝ × ℝ)) → Prop) : Prop :=
  ∃ b S, Svea.sortOut box c out = some b ∧ Svea.dress clos col o.gm b = .ok S ∧
    ∀ map all reg, FragmentsOf S.tags c.shape cs map all reg → ∃ g gone, Scene.lay clos S cs map all (Svea.fill col) = .ok (g, gone) ∧ Q g reg

/-- The program, as far as the booleans: `Q` holds of the result of the pins and the rectangles of the grid. -/
def Starts (clos : DimTag → List DimTag) (sort : List ℝ → List ℝ) (eps : ℝ) (col : String → C) (blue : DimTag → C) (s : Mpact.Model ℝ M) (n : Nat)
    (Q : Occ ℝ C → List (Overlay.Cut ℝ) → Prop) : Prop :=
  ∃ pins o m cs, Svea.pinList col = some pins ∧ Vera1.addPins clos pins (Programs.start blue) = .ok o ∧
    gridCuts sort eps s Svea.domain n n = .ok (m, cs) ∧ Q o cs

end

end Verif.SveaSpec
