import Verif.Props.SceneSpec
import Verif.Model.Fnr

/-! Specification of the plane models of the Ford Nuclear Reactor (C117).  Lengths are in centimetres; most are given in inches. -/

namespace Verif.FnrSpec

open Verif.Gmsh (Gm DimTag)
open Verif.Overlay (Name)
open Verif.ProgramsSpec Verif.Scene Verif.SceneSpec Verif.Fnr

noncomputable section

/-- Inches in centimetres. -/
def inches (x : ℝ) : ℝ := x * (254 / 100)

/-- The name as bytes. -/
def name (s : String) : Name := s.toList.map fun c => UInt8.ofNat c.toNat

/-! ### Elements -/

/-- The widths of the fuel plates and of the side plates, and the thickness of the meat and of the clad. -/
structure Elem where
  plate : ℝ
  side : ℝ
  meat : ℝ
  clad : ℝ

/-- The element with low enrichment. -/
def lowElem : Elem := ⟨inches (2564 / 1000), inches (315 / 100), inches (32 / 1000), inches (15 / 1000)⟩

/-- The element with high enrichment. -/
def highElem : Elem := ⟨inches (2562 / 1000), inches (317 / 100), inches (22 / 1000), inches (20 / 1000)⟩

/-- The radius of the plates. -/
def R : ℝ := inches (55 / 10)

/-- The height of a circle with this radius over its middle. -/
def dome (u : ℝ) : ℝ := Real.sqrt (R ^ 2 - u ^ 2)

/-- The lower edge of the plates at the side plates, from the lower side of the cell of the element. -/
def foot (E : Elem) (k : Nat) : ℝ := (inches (3189 / 1000) - E.side) / 2 + inches (115 / 1000) / 2 + k * inches (177 / 1000)

/-- The middle of the circle in the middle of a plate, over the lower side of the cell. -/
def hub (E : Elem) (k : Nat) : ℝ := foot E k + (E.meat + 2 * E.clad) / 2 - dome (E.plate / 2)

/-- Half the angle of the meat: it has 2.4 inches on the circle in the middle of the plate. -/
def α : ℝ := inches (24 / 10) / R / 2

/-- The height over the hub of the arc with the radius of the plates that ends in the points at distance `r` and angles `α` and `-α`. -/
def arcThrough (r u : ℝ) : ℝ := r * Real.cos α - dome (r * Real.sin α) + dome u

/-- In the following `u` is the distance from the middle of the element to the right and `v` from the lower side of its cell.  The plate `k`:
bent between the side plates. -/
def Plate (E : Elem) (k : Nat) (u v : ℝ) : Prop :=
  -(E.plate / 2) ≤ u ∧ u < E.plate / 2 ∧ foot E k ≤ v - (dome u - dome (E.plate / 2)) ∧
  v - (dome u - dome (E.plate / 2)) < foot E k + (E.meat + 2 * E.clad)

/-- The meat as it is drawn: between arcs of the radius of the plates. -/
def Meat (E : Elem) (k : Nat) (u v : ℝ) : Prop :=
  |u| * Real.cos α ≤ (v - hub E k) * Real.sin α ∧ arcThrough (R - E.meat / 2) u ≤ v - hub E k ∧ v - hub E k < arcThrough (R + E.meat / 2) u

/-- Meat of the thickness of the flat plate. -/
def EvenMeat (E : Elem) (k : Nat) (u v : ℝ) : Prop :=
  |u| * Real.cos α ≤ (v - hub E k) * Real.sin α ∧ (R - E.meat / 2) ^ 2 ≤ u ^ 2 + (v - hub E k) ^ 2 ∧ u ^ 2 + (v - hub E k) ^ 2 < (R + E.meat / 2) ^ 2

/-- The side plates. -/
def Sides (E : Elem) (u v : ℝ) : Prop :=
  ((-(E.plate / 2) - inches (189 / 1000) ≤ u ∧ u < -(E.plate / 2)) ∨ (E.plate / 2 ≤ u ∧ u < E.plate / 2 + inches (189 / 1000))) ∧
  (inches (3189 / 1000) - E.side) / 2 ≤ v ∧ v < (inches (3189 / 1000) + E.side) / 2

/-- The guide plates of an element for rods. -/
def Guides (E : Elem) (u v : ℝ) : Prop :=
  -(E.plate / 2) ≤ u ∧ u < E.plate / 2 ∧ ((foot E 6 ≤ v ∧ v < foot E 6 + inches (125 / 1000)) ∨ (foot E 13 ≤ v ∧ v < foot E 13 + inches (125 / 1000)))

/-- The radius of the corners of a rod. -/
def ρ : ℝ := 1099 / 1000 * (999 / 1000)

/-- A rod of 5.668 cm by 2.198 cm with rounded corners, in its middle. -/
def RodAt (u w : ℝ) : Prop :=
  -(2834 / 1000) ≤ u ∧ u < 2834 / 1000 ∧ -(1099 / 1000) ≤ w ∧ w < 1099 / 1000 ∧
  max 0 (|u| - (2834 / 1000 - ρ)) ^ 2 + max 0 (|w| - (1099 / 1000 - ρ)) ^ 2 ≤ ρ ^ 2

/-- The rod half way between the guide plates. -/
def RodShape (E : Elem) (u v : ℝ) : Prop := RodAt u (v - (foot E 6 + inches (125 / 1000) + foot E 13) / 2)

/-! ### The core -/

inductive Kind
  | empty
  | regular
  | shim
  | control
  deriving DecidableEq

/-- The core seen from above, the first row at the top. -/
def figure : List (List Kind) :=
  let o := Kind.empty
  let f := Kind.regular
  let s := Kind.shim
  let c := Kind.control
  [[o, o, o, o, o, o],
   [o, o, o, f, o, o],
   [o, f, f, f, f, f],
   [o, f, s, f, s, f],
   [o, f, f, f, f, f],
   [o, f, c, f, s, f],
   [o, f, f, f, f, f],
   [o, o, o, o, o, o]]

/-- The element in column `c` and row `r` from below. -/
def kindAt (c r : Nat) : Option Kind := ((figure.reverse)[r]?).bind (·[c]?)

/-- The plates of an element. -/
def HasPlate : Kind → Nat → Prop
  | .empty, _ => False
  | .regular, k => k < 18
  | _, k => k < 5 ∨ 14 ≤ k ∧ k < 18

/-- The element takes a rod. -/
def Rodded (K : Kind) : Prop := K = .shim ∨ K = .control

/-- The corner of the core in the domain of 100 cm by 100 cm. -/
def corner : ℝ × ℝ := (1919438 / 100000, 1759958 / 100000)

/-- The place of a point in the cell of the element in column `c` and row `r`: from the middle and from below. -/
def local_ (c r : Nat) (P : ℝ × ℝ) : ℝ × ℝ :=
  (P.1 - (corner.1 + (c + 1 / 2) * inches (3031 / 1000)), P.2 - (corner.2 + r * inches (3189 / 1000)))

/-- There is an element of kind `K` for which `Q` holds of the place of the point. -/
def Somewhere (P : ℝ × ℝ) (Q : Kind → ℝ → ℝ → Prop) : Prop := ∃ c r K, kindAt c r = some K ∧ Q K (local_ c r P).1 (local_ c r P).2

/-- The tank right of the core, without a border of `t`. -/
def Tank (t : ℝ) (P : ℝ × ℝ) : Prop :=
  corner.1 + 6 * inches (3031 / 1000) + t ≤ P.1 ∧ P.1 < corner.1 + 6 * inches (3031 / 1000) + 308356 / 10000 - t ∧
  corner.2 + t ≤ P.2 ∧ P.2 < corner.2 + 6480084 / 100000 - t

def Fuel (P : ℝ × ℝ) : Prop := Somewhere P fun K u v => ∃ k, HasPlate K k ∧ Meat lowElem k u v

def Aluminum (P : ℝ × ℝ) : Prop :=
  (Somewhere P fun K u v => Sides lowElem u v ∨ (∃ k, HasPlate K k ∧ Plate lowElem k u v ∧ ¬ Meat lowElem k u v) ∨ (Rodded K ∧ Guides lowElem u v)) ∨
  (Tank 0 P ∧ ¬ Tank (inches (1 / 2)) P)

def BoratedSteel (P : ℝ × ℝ) : Prop := Somewhere P fun K u v => K = .shim ∧ RodShape lowElem u v

def Steel (P : ℝ × ℝ) : Prop := Somewhere P fun K u v => K = .control ∧ RodShape lowElem u v

def HeavyWater (P : ℝ × ℝ) : Prop := Tank (inches (1 / 2)) P

/-- The core: `mat` is the material of a point. -/
def Core (mat : ℝ × ℝ → Name → Prop) : Prop :=
  ∀ P : ℝ × ℝ, 0 ≤ P.1 → P.1 < 100 → 0 ≤ P.2 → P.2 < 100 →
    (Fuel P → mat P (name "Fuel")) ∧ (Aluminum P → mat P (name "Aluminum")) ∧ (BoratedSteel P → mat P (name "BoratedSteel")) ∧
    (Steel P → mat P (name "Steel")) ∧ (HeavyWater P → mat P (name "HeavyWater")) ∧
    (¬ Fuel P → ¬ Aluminum P → ¬ BoratedSteel P → ¬ Steel P → ¬ HeavyWater P → mat P (name "Water"))

/-! ### The single element -/

/-- The domain of the single element. -/
def single : ℝ × ℝ := (105 / 100 * inches (3031 / 1000), 11 / 10 * inches (3189 / 1000))

/-- The place of a point in the cell of the single element, in the middle of the domain. -/
def inSingle (P : ℝ × ℝ) : ℝ × ℝ := (P.1 - single.1 / 2, P.2 - (single.2 - inches (3189 / 1000)) / 2)

/-- The element in water. -/
def Single (mat : ℝ × ℝ → Name → Prop) : Prop :=
  ∀ P : ℝ × ℝ, 0 ≤ P.1 → P.1 < single.1 → 0 ≤ P.2 → P.2 < single.2 →
    let u := (inSingle P).1
    let v := (inSingle P).2
    let fuel := ∃ k < 18, Meat highElem k u v
    let clad := Sides highElem u v ∨ ∃ k < 18, Plate highElem k u v ∧ ¬ Meat highElem k u v
    (fuel → mat P (name "Fuel")) ∧ (clad → mat P (name "Aluminum")) ∧ (¬ fuel → ¬ clad → mat P (name "Water"))

/-! ### The programs -/

/-- The points of the surfaces. -/
def shapeOf (d : Draw) (e : ℤ) : Set (ℝ × ℝ) := {P | 1 ≤ e ∧ ∃ S, d.surfs[(e - 1).toNat]? = some S ∧ P ∈ S}

/-- The program comes to the end of the overlay without an error, whatever the kernel answers to the fragment, and `Q` holds of the groups and
the points of the fragments. -/
def Makes {M C : Type} (clos : DimTag → List DimTag) (sort : List ℝ → List ℝ) (eps : ℝ) (col : String → C) (blue : DimTag → C) (d : Draw)
    (groups : List (List ℤ × String)) (s : Mpact.Model ℝ M) (ext : ℝ × ℝ) (nx ny : ℤ) (Q : Gm Name C → (ℤ → Set (ℝ × ℝ)) → Prop) : Prop :=
  ∃ S m cs, sheet clos col blue groups d = .ok S ∧ gridCuts sort eps s ext nx ny = .ok (m, cs) ∧
    ∀ map all reg, FragmentsOf S.tags (shapeOf d) cs map all reg →
      ∃ g gone, lay clos S cs map all (MFiles.str "Water", col "Water") = .ok (g, gone) ∧ Q g reg

end

end Verif.FnrSpec
