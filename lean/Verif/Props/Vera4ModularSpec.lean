import Verif.Props.Vera4Spec

/-! Specification of the pin-modular model of VERA problem 4 (C111): two by two assemblies of 17 by 17 pins, without gaps. -/

namespace Verif.Vera4MSpec

open Verif.Vera4Spec

variable {K : Type} [Field K] [LinearOrder K]

/-- The pins of the assembly in column `c` and row `r` from the bottom: as with the variable grid, but the four tubes nearest to the corners of the
middle are empty in the assemblies with pyrex. -/
def rod (c r u v : Nat) : Rod := if c = r ∧ u = 3 ∧ v = 3 then .tube else Vera4Spec.rod true c r u v

/-- The middle of the pin in column `i` and row `j` of the assembly in column `c` and row `r`. -/
def middle (c r i j : Nat) : K × K := ((c * 17 + i + 1 / 2) * (126 / 100), (r * 17 + j + 1 / 2) * (126 / 100))

/-- The point is in the cell of the pin, with its left and its lower side. -/
def InPin (c r i j : Nat) (P : K × K) : Prop :=
  c < 2 ∧ r < 2 ∧ i < 17 ∧ j < 17 ∧ (middle c r i j).1 - 63 / 100 ≤ P.1 ∧ P.1 < (middle c r i j).1 + 63 / 100 ∧
  (middle c r i j).2 - 63 / 100 ≤ P.2 ∧ P.2 < (middle c r i j).2 + 63 / 100

/-- The model: `mat` is the material of a point.  Every point of the core is in a pin, and it has the material of the pin at its distance from
the middle of the pin, and no other. -/
def Core (mat : K × K → Overlay.Name → Prop) : Prop :=
  ∀ P : K × K, 0 ≤ P.1 → P.1 < 4284 / 100 → 0 ≤ P.2 → P.2 < 4284 / 100 → ∃ c r i j, InPin c r i j P ∧
    ∀ x, mat P x ↔ x = name (layerAt (layers (rod c r (away i) (away j))) ((P.1 - (middle c r i j).1) ^ 2 + (P.2 - (middle c r i j).2) ^ 2))

/-- Two models have the same pins: `mat` is the material in the model with the variable grid, `mat'` in the pin-modular one; `d` is the way from
the middle of the pin. -/
def SamePins (mat mat' : K × K → Overlay.Name → Prop) : Prop :=
  ∀ c r i j, ∀ d : K × K, InPin c r i j (middle c r i j + d) →
    0 ≤ (Vera4Spec.middle c r i j + d : K × K).1 → 0 ≤ (Vera4Spec.middle c r i j + d : K × K).2 →
    (Vera4Spec.middle c r i j + d : K × K).1 < 3225 / 100 → (Vera4Spec.middle c r i j + d : K × K).2 < 3225 / 100 →
    ∀ x, mat (Vera4Spec.middle c r i j + d) x ↔ mat' (middle c r i j + d) x

end Verif.Vera4MSpec
