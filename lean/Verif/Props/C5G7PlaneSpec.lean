import Verif.Props.LatticeProgramsSpec

/-! Specification of the plane C5G7 benchmark (C108), after NEA/NSC/DOC(2001)4: three by three squares of side 21.42 cm, each an
assembly of 17 by 17 pin cells of side 1.26 cm, or water. -/

namespace Verif.C5G7Spec

inductive Square
  | uo2
  | mox
  | water
  deriving DecidableEq

/-- The squares; columns are counted from the left, rows from the top. -/
def square : Nat → Nat → Square
  | 0, 0 => .uo2
  | 1, 0 => .mox
  | 0, 1 => .mox
  | 1, 1 => .uo2
  | _, _ => .water

/-- The distance from the middle pin, in pins. -/
def away (i : Nat) : Nat := if i ≤ 8 then 8 - i else i - 8

/-- The guide tubes, by the distances from the middle pin. -/
def tubes : List (Nat × Nat) := [(6, 0), (0, 6), (6, 3), (3, 6), (3, 0), (0, 3), (3, 3), (5, 5)]

/-- The material of the cylinder of a pin, by the distances from the middle pin: the fission chamber is in the middle; the outermost
pins of a MOX assembly have 4.3 %, the pins in the octagon inside 8.7 %, those between 7.0 %. -/
def pin (s : Square) (u v : Nat) : String :=
  if u = 0 ∧ v = 0 then "Fission_Chamber" else
  if (u, v) ∈ tubes then "Guide_Tube" else
  match s with
  | .uo2 => "UO2"
  | .mox => if u = 8 ∨ v = 8 then "MOX_4.3" else if u ≤ 5 ∧ v ≤ 5 ∧ u + v ≤ 8 then "MOX_8.7" else "MOX_7.0"
  | .water => "Moderator"

/-- The name as bytes. -/
def name (s : String) : Overlay.Name := s.toList.map fun c => UInt8.ofNat c.toNat

variable {K : Type} [Field K] [LinearOrder K]

/-- The interval number `i` of length `w` after `a`, with its left end. -/
def In (a w : K) (i : Nat) (x : K) : Prop := a + i * w ≤ x ∧ x < a + (i + 1) * w

/-- The benchmark: `mat` is the material of a point, and the lower left corner of the domain is at the origin.  In the square in column
`c` and row `r` (from the bottom), in the pin cell in column `i` and row `j` of it, there is the material of the pin within 0.54 cm of
the middle of the cell, and moderator elsewhere; outside of the four assemblies there is moderator. -/
def Benchmark (mat : K × K → Overlay.Name → Prop) : Prop :=
  ∀ P : K × K, ∀ c < 3, ∀ r < 3, In 0 (2142 / 100) c P.1 → In 0 (2142 / 100) r P.2 →
    (square c (2 - r) = .water → mat P (name "Moderator")) ∧
    (square c (2 - r) ≠ .water → ∀ i < 17, ∀ j < 17,
      In ((c : K) * (2142 / 100)) (126 / 100) i P.1 → In ((r : K) * (2142 / 100)) (126 / 100) j P.2 →
      mat P (name
        (if (P.1 - (c * (2142 / 100) + (i + 1 / 2) * (126 / 100))) ^ 2 + (P.2 - (r * (2142 / 100) + (j + 1 / 2) * (126 / 100))) ^ 2 ≤ (54 / 100) ^ 2
          then pin (square c (2 - r)) (away i) (away j) else "Moderator")))

end Verif.C5G7Spec
