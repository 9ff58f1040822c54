import Verif.Props.SceneSpec
import Verif.Props.GmshInfo
import Verif.Model.Nuscale

/-! Specification of the plane model of the NuScale core (C114): the quarter with the middle of the core in the corner (0, 0). -/

namespace Verif.NuscaleSpec

open Verif.XSLib (Res)
open Verif.Gmsh (Gm DimTag)
open Verif.Overlay (Name)
open Verif.InfoSpec (newNumber)
open Verif.Info (Col)
open Verif.Pins (Occ)
open Verif.ProgramsSpec Verif.Scene Verif.SceneSpec Verif.Nuscale

variable {K M : Type} [Field K] [LinearOrder K]

inductive Asm
  | a01
  | a04
  | a05
  | a06
  | a07
  | a08
  deriving DecidableEq

/-- The assemblies, by column and row from the middle of the core. -/
def asmAt (c r : Nat) : Option Asm :=
  ([[.a01, .a01, .a04, .a06], [.a01, .a01, .a05, .a08], [.a04, .a05, .a07], [.a06, .a08]][r]?).bind (·[c]?)

inductive Rod
  | tube
  | plain
  | edge
  | gad
  deriving DecidableEq

/-- The distance from the middle pin, in pins. -/
def away (i : Nat) : Nat := if i ≤ 8 then 8 - i else i - 8

/-- The guide tubes, by the distances from the middle pin. -/
def tubes : List (Nat × Nat) := [(0, 0), (6, 0), (0, 6), (6, 3), (3, 6), (3, 0), (0, 3), (3, 3), (5, 5)]

/-- The pins with gadolinia that the program builds. -/
def gads : Asm → List (Nat × Nat)
  | .a05 => [(4, 4)]
  | .a06 => [(4, 4)]
  | _ => []

/-- The pins with gadolinia of the comments on the lattices, lines 471-491. -/
def documentedGads : Asm → List (Nat × Nat)
  | .a05 => [(4, 4)]
  | .a06 => [(5, 4), (4, 5)]
  | _ => []

/-- The pin at a place: the outermost pins of A05 to A08 have less enrichment. -/
def rod (g : Asm → List (Nat × Nat)) (a : Asm) (u v : Nat) : Rod :=
  if (u, v) ∈ tubes then .tube else
  if (u = 8 ∨ v = 8) ∧ a ≠ .a01 ∧ a ≠ .a04 then .edge else
  if (u, v) ∈ g a then .gad else .plain

/-- The fuel; the number is a hundred times the enrichment in percent. -/
def fuelOf : Asm → Rod → String
  | .a01, _ => "U175"
  | .a04, _ => "U200"
  | .a05, .edge => "U208"
  | .a05, .gad => "G260"
  | .a05, _ => "U260"
  | .a06, .edge => "U280"
  | .a06, .gad => "G350"
  | .a06, _ => "U350"
  | .a07, .edge => "U292"
  | .a07, _ => "U365"
  | .a08, .edge => "U300"
  | .a08, _ => "U375"

/-- The circles of a pin and the materials in them, from the inside. -/
def layers (noGap : Bool) (a : Asm) : Rod → List (K × String)
  | .tube => [(57150 / 100000, "Water"), (61214 / 100000, "Zirc4")]
  | R => (405765 / 1000000, fuelOf a R) :: (if noGap then [] else [(41402 / 100000, "Gap")]) ++ [(47498 / 100000, "M5")]

/-- The material at a distance with the square `D` from the middle of a pin. -/
def layerAt : List (K × String) → K → String
  | [], _ => "Water"
  | (r, n) :: l, D => if D ≤ r ^ 2 then n else layerAt l D

/-- The name as bytes. -/
def name (s : String) : Name := s.toList.map fun c => UInt8.ofNat c.toNat

/-- The left side of the pins of an assembly as built; the same for the lower side. -/
def left (c : Nat) : K := if c = 0 then -1071 / 100 else ((c : K) - 1 / 2) * (2150364 / 100000)

/-- The left side of the pins of an assembly with its middle at a multiple of the assembly pitch. -/
def pitchedLeft (c : Nat) : K := (c : K) * (2150364 / 100000) - 1071 / 100

/-- The middle of the pin in column `i` and row `j` of the assembly in column `c` and row `r`. -/
def middle (lf : Nat → K) (c r i j : Nat) : K × K := (lf c + ((i : K) + 1 / 2) * (126 / 100), lf r + ((j : K) + 1 / 2) * (126 / 100))

/-- The point is in the cell of the pin, with its left and its lower side. -/
def InPin (lf : Nat → K) (c r i j : Nat) (P : K × K) : Prop :=
  i < 17 ∧ j < 17 ∧ (middle lf c r i j).1 - 63 / 100 ≤ P.1 ∧ P.1 < (middle lf c r i j).1 + 63 / 100 ∧
  (middle lf c r i j).2 - 63 / 100 ≤ P.2 ∧ P.2 < (middle lf c r i j).2 + 63 / 100

/-- The point is in the domain. -/
def InDomain (P : K × K) : Prop := 0 ≤ P.1 ∧ P.1 < 14994 / 100 ∧ 0 ≤ P.2 ∧ P.2 < 14994 / 100

/-- The pins: `mat` is the material of a point. -/
def Pins (g : Asm → List (Nat × Nat)) (lf : Nat → K) (noGap : Bool) (mat : K × K → Name → Prop) : Prop :=
  ∀ P, InDomain P → ∀ c r a, asmAt c r = some a → ∀ i j, InPin lf c r i j P →
    mat P (name (layerAt (layers noGap a (rod g a (away i) (away j)))
      ((P.1 - (middle lf c r i j).1) ^ 2 + (P.2 - (middle lf c r i j).2) ^ 2)))

/-- Middle and radius of the holes in the reflector above the diagonal and on it, in micrometres. -/
def upperHoles : List (Nat × Nat × Nat) :=
  [(0, 798046, 6300), (52500, 798046, 6300), (105000, 798046, 6300), (157500, 798046, 6300), (210000, 798046, 6300), (262500, 798046, 6300),
   (315000, 798046, 6300), (367073, 743387, 6300), (367073, 689627, 6300), (367073, 635868, 6300), (367073, 582109, 12600), (420832, 582109, 6300),
   (474591, 582109, 6300), (528350, 582109, 6300), (582109, 582109, 6300), (26880, 844655, 6300), (79380, 844655, 6300), (131880, 844655, 6300),
   (184380, 844655, 6300), (236880, 858605, 6300), (289380, 844655, 6300), (405086, 620123, 6300), (447711, 628666, 6300), (413630, 662748, 6300),
   (490337, 637209, 6300), (422173, 705373, 6300), (615504, 660047, 6300), (511182, 743774, 6300), (398918, 811753, 6300), (142355, 893646, 6300),
   (55650, 888124, 6300)]

/-- The point is in the hole. -/
def InHole (h : Nat × Nat × Nat) (P : K × K) : Prop :=
  (P.1 - (h.1 : K) / 10000) ^ 2 + (P.2 - (h.2.1 : K) / 10000) ^ 2 ≤ ((h.2.2 : K) / 10000) ^ 2

/-- The openings of the reflector: a square of the size of the assembly pitch for each assembly, and the holes on both sides of the
diagonal. -/
def Opening (P : K × K) : Prop :=
  (∃ c r a, asmAt c r = some a ∧ left c ≤ P.1 ∧ P.1 < left c + 2150364 / 100000 ∧ left r ≤ P.2 ∧ P.2 < left r + 2150364 / 100000) ∨
  ∃ h ∈ upperHoles, InHole h P ∨ InHole h (P.2, P.1)

/-- Reflector, barrel and vessel. -/
def Steel (P : K × K) : Prop :=
  (P.1 ^ 2 + P.2 ^ 2 ≤ (9368 / 100) ^ 2 ∧ ¬ Opening P) ∨
  ((9398 / 100) ^ 2 < P.1 ^ 2 + P.2 ^ 2 ∧ P.1 ^ 2 + P.2 ^ 2 ≤ (9906 / 100) ^ 2) ∨
  ((13462 / 100) ^ 2 < P.1 ^ 2 + P.2 ^ 2 ∧ P.1 ^ 2 + P.2 ^ 2 ≤ (1470025 / 10000) ^ 2)

/-- The model as built. -/
def Core (noGap : Bool) (mat : K × K → Name → Prop) : Prop :=
  Pins gads left noGap mat ∧ ∀ P, InDomain P → (∀ c r a, asmAt c r = some a → ∀ i j, ¬ InPin left c r i j P) →
    (Steel P → mat P (name "SS304")) ∧ (¬ Steel P → mat P (name "Water"))

/-- What is assumed of the kernel for the cut of the surface `t` with tools: `map[0]` lists the pieces that are left of it, `ents` are
the entities afterwards, in which the surfaces are these pieces and the other surfaces, and `shape` are the points of the surfaces. -/
structure Cutting (o : Occ K Col) (t : ℤ) (tools : List (Set (K × K))) (map : List (List DimTag)) (ents : List DimTag) (shape : ℤ → Set (K × K)) :
    Prop where
  full : map.length = 1 + tools.length
  pieces : ∀ l, map[0]? = some l → {P | P ∈ ringSet o t ∧ ∀ T ∈ tools, P ∉ T} = {P | ∃ c ∈ l, P ∈ shape c.2}
  others : ∀ R ∈ o.rings, R.tag ≠ t → shape R.tag = ringSet o R.tag
  surfs : ∀ e, ((2, e) : DimTag) ∈ ents ↔ (∃ l, map[0]? = some l ∧ ∃ c ∈ l, c.2 = e) ∨ ∃ R ∈ o.rings, R.tag ≠ t ∧ R.tag = e
  dims : ∀ x ∈ ents, 0 ≤ x.1 ∧ x.1 ≤ 3
  once : ents.Nodup
  small : ents.length + 1 < 2 ^ 31

/-- The points of the surfaces after writing and opening, which gives them new tags. -/
def renumbered (ents : List DimTag) (shape : ℤ → Set (K × K)) (b : ℤ) : Set (K × K) :=
  {P | ∃ e, ((2, e) : DimTag) ∈ ents ∧ newNumber ents 2 e = b ∧ P ∈ shape e}

/-- The program comes to the end of the overlay without an error, whatever the kernel answers to the cut and then to the fragment, and
`Q` holds of the groups and the points of the fragments. -/
def Makes (clos : DimTag → List DimTag) (sort : List K → List K) (eps : K) (col : String → Col) (noGap : Bool) (s : Mpact.Model K M) (n : ℤ)
    (Q : Gm Name Col → (ℤ → Set (K × K)) → Prop) : Prop :=
  ∃ o out t, vessel clos col = .ok (o, out) ∧ out[0]? = some t ∧
    ∀ map ents shape, Cutting o t tools map ents shape → ∃ gm o', carve clos col o out map = .ok gm ∧
      core clos sort eps col noGap gm ents = .ok o' ∧ ∃ m cs, gridCuts sort eps s domain n n = .ok (m, cs) ∧
      ∀ map' all reg, FragmentsOf (ofOcc (base ents) o').tags (shapeOn (base ents) (renumbered ents shape) o') cs map' all reg →
        ∃ g gone, lay clos (ofOcc (base ents) o') cs map' all (fill col) = .ok (g, gone) ∧ Q g reg

end Verif.NuscaleSpec
