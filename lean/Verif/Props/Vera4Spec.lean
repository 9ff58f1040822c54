import Verif.Props.LatticeProgramsSpec

/-! Specification of the plane models of VERA problem 4 (C110): the quarter, with corners in the middles of assemblies, of three by three
assemblies of 17 by 17 pins; the middle of the core is at (0, 32.25). -/

namespace Verif.Vera4Spec

variable {K : Type} [Field K] [LinearOrder K]

inductive Rod
  | fuel2110
  | fuel2619
  | tube
  | instrument
  | pyrex
  | aic
  deriving DecidableEq

/-- The circles of a pin and the materials in them, from the inside. -/
def layers : Rod → List (K × String)
  | .fuel2110 => [(4096 / 10000, "Fuel_2.11%"), (475 / 1000, "Clad")]
  | .fuel2619 => [(4096 / 10000, "Fuel_2.619%"), (475 / 1000, "Clad")]
  | .tube => [(561 / 1000, "Moderator"), (602 / 1000, "Clad")]
  | .instrument => [(559 / 1000, "Moderator"), (605 / 1000, "Clad")]
  | .pyrex => [(214 / 1000, "Gap"), (241 / 1000, "SS304"), (427 / 1000, "Pyrex"), (484 / 1000, "SS304"), (559 / 1000, "Moderator"), (605 / 1000, "Clad")]
  | .aic => [(382 / 1000, "AIC"), (484 / 1000, "SS304")]

/-- The material at a distance with the square `D` from the middle of a pin. -/
def layerAt : List (K × String) → K → String
  | [], _ => "Moderator"
  | (r, n) :: l, D => if D ≤ r ^ 2 then n else layerAt l D

/-- The distance from the middle pin, in pins. -/
def away (i : Nat) : Nat := if i ≤ 8 then 8 - i else i - 8

/-- The places that are not fuel, by the distances from the middle pin. -/
def tubes : List (Nat × Nat) := [(6, 0), (0, 6), (6, 3), (3, 6), (3, 0), (0, 3), (3, 3), (5, 5)]

/-- The pins of the assembly in column `c` and row `r` from the bottom: in the middle of the core control rods, if there are any, beside it
2.619 % with pyrex, in the corner 2.11 % with empty tubes. -/
def rod (rodded : Bool) (c r u v : Nat) : Rod :=
  if u = 0 ∧ v = 0 then .instrument else
  if (u, v) ∈ tubes then (if c = r then .pyrex else if c = 0 ∧ r = 1 ∧ rodded then .aic else .tube) else
  if c = r then .fuel2619 else .fuel2110

/-- The name as bytes. -/
def name (s : String) : Overlay.Name := s.toList.map fun c => UInt8.ofNat c.toNat

/-- The middle of the pin in column `i` and row `j` of the assembly in column `c` and row `r`. -/
def middle (c r i j : Nat) : K × K :=
  (c * (2150 / 100) + ((i : K) - 8) * (126 / 100), r * (2150 / 100) + 1075 / 100 + ((j : K) - 8) * (126 / 100))

/-- The point is in the cell of the pin, with its left and its lower side. -/
def InPin (c r i j : Nat) (P : K × K) : Prop :=
  c < 2 ∧ r < 2 ∧ i < 17 ∧ j < 17 ∧ (middle c r i j).1 - 63 / 100 ≤ P.1 ∧ P.1 < (middle c r i j).1 + 63 / 100 ∧
  (middle c r i j).2 - 63 / 100 ≤ P.2 ∧ P.2 < (middle c r i j).2 + 63 / 100

/-- The model: `mat` is the material of a point. -/
def Core (rodded : Bool) (mat : K × K → Overlay.Name → Prop) : Prop :=
  ∀ P : K × K, 0 ≤ P.1 → P.1 < 3225 / 100 → 0 ≤ P.2 → P.2 < 3225 / 100 →
    (∀ c r i j, InPin c r i j P →
      mat P (name (layerAt (layers (rod rodded c r (away i) (away j))) ((P.1 - (middle c r i j).1) ^ 2 + (P.2 - (middle c r i j).2) ^ 2)))) ∧
    ((∀ c r i j, ¬ InPin c r i j P) → mat P (name "Moderator"))

/-- A rod in a guide tube leaves the tube: between 0.561 and 0.602 cm from the middle of all these places there is clad. -/
def Tubes (mat : K × K → Overlay.Name → Prop) : Prop :=
  ∀ P : K × K, 0 ≤ P.1 → P.1 < 3225 / 100 → 0 ≤ P.2 → P.2 < 3225 / 100 → ∀ c r i j, InPin c r i j P → (away i, away j) ∈ tubes →
    (561 / 1000) ^ 2 < (P.1 - (middle c r i j).1) ^ 2 + (P.2 - (middle c r i j).2) ^ 2 →
    (P.1 - (middle c r i j).1) ^ 2 + (P.2 - (middle c r i j).2) ^ 2 ≤ (602 / 1000) ^ 2 → mat P (name "Clad")

end Verif.Vera4Spec
