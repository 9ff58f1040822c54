import Verif.Props.LatticeProgramsSpec

/-! Specification of the plane CROCUS model (C109): in a square of water of side 116.68 cm, rods of uranium oxide at the places of a square
lattice of 1.837 cm, and around them rods of uranium metal at the places of a square lattice of 2.917 cm, both lattices with the same
middle as the square. -/

namespace Verif.CrocusSpec

/-- The distance of place `i` from the middle of `n + 1` places, in half pitches. -/
def away (n i : Nat) : Nat := if 2 * i ≤ n then n - 2 * i else 2 * i - n

/-- The places of the oxide rods among 22 by 22: four crossed rectangles. -/
def uo2At (i j : Nat) : Bool :=
  [(21, 5), (17, 11), (11, 17), (5, 21)].any fun q => decide (away 21 i ≤ q.1) && decide (away 21 j ≤ q.2)

/-- The runs of metal rods in the upper ten rows of 20 by 20 places: from a column up to, not including, another. -/
def runs : List (List (Nat × Nat)) :=
  [[(7, 13)], [(4, 15)], [(3, 17)], [(2, 8), (12, 18)], [(1, 6), (14, 18)], [(1, 6), (14, 19)], [(0, 4), (16, 19)], [(0, 4), (16, 20)],
    [(0, 3), (17, 20)], [(0, 3), (17, 20)]]

def inRuns (i j : Nat) : Bool := (runs.getD j []).any fun r => decide (r.1 ≤ i) && decide (i < r.2)

/-- The places of the metal rods; rows are counted from the top, the lower half is the upper half turned by half a turn. -/
def metalAt (i j : Nat) : Bool := if j < 10 then inRuns i j else inRuns (19 - i) (19 - j)

/-- The name as bytes. -/
def name (s : String) : Overlay.Name := s.toList.map fun c => UInt8.ofNat c.toNat

variable {K : Type} [Field K] [LinearOrder K]

/-- The square of the distance of `P` from the middle of place `(i, j)`, rows from the top, of a lattice of `n + 1` by `n + 1` places with
the pitch `w` around the point (58.34, 58.34). -/
def off2 (n : Nat) (w : K) (i j : Nat) (P : K × K) : K :=
  (P.1 - (5834 / 100 + (2 * (i : K) - n) / 2 * w)) ^ 2 + (P.2 - (5834 / 100 - (2 * (j : K) - n) / 2 * w)) ^ 2

/-- The oxide rod at `(i, j)` with its clad has the point. -/
def InUO2 (i j : Nat) (P : K × K) : Prop := i < 22 ∧ j < 22 ∧ uo2At i j ∧ off2 21 (1837 / 1000) i j P ≤ (63 / 100) ^ 2

/-- The metal rod at `(i, j)` with its clad has the point. -/
def InMetal (i j : Nat) (P : K × K) : Prop := i < 20 ∧ j < 20 ∧ metalAt i j ∧ off2 19 (2917 / 1000) i j P ≤ (9675 / 10000) ^ 2

/-- The model: `mat` is the material of a point. -/
def Core (mat : K × K → Overlay.Name → Prop) : Prop :=
  ∀ P : K × K, 0 ≤ P.1 → P.1 < 11668 / 100 → 0 ≤ P.2 → P.2 < 11668 / 100 →
    (∀ i j, InUO2 i j P → mat P (name (if off2 21 (1837 / 1000) i j P ≤ (526 / 1000) ^ 2 then "UO2" else "Clad"))) ∧
    (∀ i j, InMetal i j P → mat P (name (if off2 19 (2917 / 1000) i j P ≤ (85 / 100) ^ 2 then "Umetal" else "Clad"))) ∧
    ((∀ i j, ¬ InUO2 i j P ∧ ¬ InMetal i j P) → mat P (name "Water"))

end Verif.CrocusSpec
