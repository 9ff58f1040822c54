import Verif.Model.Scene
import Verif.Model.GmshInfo
import Verif.Model.LatticeText

/-!
# The plane model of the NuScale core

The program models/nuscale/nuscale_2d.cpp (cited without a name below), on a first run, when neither vessel.brep nor the file of the
model exists; a run that finds vessel.brep starts with `reopen` on the file of an earlier run.  The program warns on line 378 that Gmsh may
crash at `finalize`; it is assumed not to.  The mesh generation is not part of this model.

Numbers are exact; lengths in the tables are in micrometres.  `col` stands for the colours of the materials.  What the geometry kernel
does is outside the model: `map` is its answer to the cut, `ents` are the entities after it.
-/

namespace Verif.Nuscale

open Verif.XSLib (Res)
open Verif.Gmsh (Gm DimTag)
open Verif.Overlay (Name Cut matName)
open Verif.Pins (Occ addPin)
open Verif.Programs
open Verif.Scene
open Verif.MFiles (str)
open Verif.Bench (lattice)
open Verif.Info (Col)

/-- The text of `lat_a01`, 451-469. -/
def text01 : List String :=
  ["",
   "        1 1 1 1 1 1 1 1 1 1 1 1 1 1 1 1 1",
   "        1 1 1 1 1 1 1 1 1 1 1 1 1 1 1 1 1",
   "        1 1 1 1 1 0 1 1 0 1 1 0 1 1 1 1 1",
   "        1 1 1 0 1 1 1 1 1 1 1 1 1 0 1 1 1",
   "        1 1 1 1 1 1 1 1 1 1 1 1 1 1 1 1 1",
   "        1 1 0 1 1 0 1 1 0 1 1 0 1 1 0 1 1",
   "        1 1 1 1 1 1 1 1 1 1 1 1 1 1 1 1 1",
   "        1 1 1 1 1 1 1 1 1 1 1 1 1 1 1 1 1",
   "        1 1 0 1 1 0 1 1 0 1 1 0 1 1 0 1 1",
   "        1 1 1 1 1 1 1 1 1 1 1 1 1 1 1 1 1",
   "        1 1 1 1 1 1 1 1 1 1 1 1 1 1 1 1 1",
   "        1 1 0 1 1 0 1 1 0 1 1 0 1 1 0 1 1",
   "        1 1 1 1 1 1 1 1 1 1 1 1 1 1 1 1 1",
   "        1 1 1 0 1 1 1 1 1 1 1 1 1 0 1 1 1",
   "        1 1 1 1 1 0 1 1 0 1 1 0 1 1 1 1 1",
   "        1 1 1 1 1 1 1 1 1 1 1 1 1 1 1 1 1",
   "        1 1 1 1 1 1 1 1 1 1 1 1 1 1 1 1 1",
   "      "]

/-- The text of `lat_a05`, 493-511. -/
def text05 : List String :=
  ["",
   "        2 2 2 2 2 2 2 2 2 2 2 2 2 2 2 2 2",
   "        2 1 1 1 1 1 1 1 1 1 1 1 1 1 1 1 2",
   "        2 1 1 1 1 0 1 1 0 1 1 0 1 1 1 1 2",
   "        2 1 1 0 1 1 1 1 1 1 1 1 1 0 1 1 2",
   "        2 1 1 1 3 1 1 1 1 1 1 1 3 1 1 1 2",
   "        2 1 0 1 1 0 1 1 0 1 1 0 1 1 0 1 2",
   "        2 1 1 1 1 1 1 1 1 1 1 1 1 1 1 1 2",
   "        2 1 1 1 1 1 1 1 1 1 1 1 1 1 1 1 2",
   "        2 1 0 1 1 0 1 1 0 1 1 0 1 1 0 1 2",
   "        2 1 1 1 1 1 1 1 1 1 1 1 1 1 1 1 2",
   "        2 1 1 1 1 1 1 1 1 1 1 1 1 1 1 1 2",
   "        2 1 0 1 1 0 1 1 0 1 1 0 1 1 0 1 2",
   "        2 1 1 1 3 1 1 1 1 1 1 1 3 1 1 1 2",
   "        2 1 1 0 1 1 1 1 1 1 1 1 1 0 1 1 2",
   "        2 1 1 1 1 0 1 1 0 1 1 0 1 1 1 1 2",
   "        2 1 1 1 1 1 1 1 1 1 1 1 1 1 1 1 2",
   "        2 2 2 2 2 2 2 2 2 2 2 2 2 2 2 2 2",
   "      "]

/-- The text of `lat_a07`, 535-553. -/
def text07 : List String :=
  ["",
   "        2 2 2 2 2 2 2 2 2 2 2 2 2 2 2 2 2",
   "        2 1 1 1 1 1 1 1 1 1 1 1 1 1 1 1 2",
   "        2 1 1 1 1 0 1 1 0 1 1 0 1 1 1 1 2",
   "        2 1 1 0 1 1 1 1 1 1 1 1 1 0 1 1 2",
   "        2 1 1 1 1 1 1 1 1 1 1 1 1 1 1 1 2",
   "        2 1 0 1 1 0 1 1 0 1 1 0 1 1 0 1 2",
   "        2 1 1 1 1 1 1 1 1 1 1 1 1 1 1 1 2",
   "        2 1 1 1 1 1 1 1 1 1 1 1 1 1 1 1 2",
   "        2 1 0 1 1 0 1 1 0 1 1 0 1 1 0 1 2",
   "        2 1 1 1 1 1 1 1 1 1 1 1 1 1 1 1 2",
   "        2 1 1 1 1 1 1 1 1 1 1 1 1 1 1 1 2",
   "        2 1 0 1 1 0 1 1 0 1 1 0 1 1 0 1 2",
   "        2 1 1 1 1 1 1 1 1 1 1 1 1 1 1 1 2",
   "        2 1 1 0 1 1 1 1 1 1 1 1 1 0 1 1 2",
   "        2 1 1 1 1 0 1 1 0 1 1 0 1 1 1 1 2",
   "        2 1 1 1 1 1 1 1 1 1 1 1 1 1 1 1 2",
   "        2 2 2 2 2 2 2 2 2 2 2 2 2 2 2 2 2",
   "      "]

/-- `hole_xyr`, 295-357: middle and radius. -/
def holes : List (Nat × Nat × Nat) :=
  [(0, 798046, 6300), (52500, 798046, 6300), (105000, 798046, 6300), (157500, 798046, 6300), (210000, 798046, 6300), (262500, 798046, 6300),
   (315000, 798046, 6300), (367073, 743387, 6300), (367073, 689627, 6300), (367073, 635868, 6300), (367073, 582109, 12600), (420832, 582109, 6300),
   (474591, 582109, 6300), (528350, 582109, 6300), (582109, 582109, 6300), (26880, 844655, 6300), (79380, 844655, 6300), (131880, 844655, 6300),
   (184380, 844655, 6300), (236880, 858605, 6300), (289380, 844655, 6300), (405086, 620123, 6300), (447711, 628666, 6300), (413630, 662748, 6300),
   (490337, 637209, 6300), (422173, 705373, 6300), (615504, 660047, 6300), (511182, 743774, 6300), (398918, 811753, 6300), (142355, 893646, 6300),
   (55650, 888124, 6300), (798046, 0, 6300), (798046, 52500, 6300), (798046, 105000, 6300), (798046, 157500, 6300), (798046, 210000, 6300),
   (798046, 262500, 6300), (798046, 315000, 6300), (743387, 367073, 6300), (689627, 367073, 6300), (635868, 367073, 6300), (582109, 367073, 12600),
   (582109, 420832, 6300), (582109, 474591, 6300), (582109, 528350, 6300), (844655, 26880, 6300), (844655, 79380, 6300), (844655, 131880, 6300),
   (844655, 184380, 6300), (858605, 236880, 6300), (844655, 289380, 6300), (620123, 405086, 6300), (628666, 447711, 6300), (662748, 413630, 6300),
   (637209, 490337, 6300), (705373, 422173, 6300), (660047, 615504, 6300), (743774, 511182, 6300), (811753, 398918, 6300), (893646, 142355, 6300),
   (888124, 55650, 6300)]

/-- `names`, 90-91. -/
def names : List String := ["U175", "U200", "U208", "U260", "U280", "U292", "U300", "U350", "U365", "U375"]

/-- The name of `materials[k]`, 90-100. -/
def fuel (k : Nat) : String := names.getD k ""

/-- A material, by its name, 71-226. -/
def mat (col : String → Col) (n : String) : Name × Col := (str n, col n)

variable {K M : Type} [Field K] [LinearOrder K]

/-- `pin_pitch`, 20. -/
def pinPitch : K := 126 / 100

/-- `asy_pitch`, 22. -/
def asyPitch : K := 2150364 / 100000

/-- The radii of the vessel, 265. -/
def vesselRadii : List K := [9368 / 100, 9398 / 100, 9906 / 100, 13462 / 100, 1470025 / 10000]

/-- The materials of the vessel, 266. -/
def vesselMats (col : String → Col) : List (Name × Col) :=
  [mat col "SS304", mat col "Water", mat col "SS304", mat col "Water", mat col "SS304"]

/-- `asy_offsets`, 272-286. -/
def cutouts : List (K × K) :=
  [(-17 * pinPitch / 2, -17 * pinPitch / 2), (asyPitch / 2, -17 * pinPitch / 2), (asyPitch / 2, asyPitch / 2), (-17 * pinPitch / 2, asyPitch / 2),
   (3 / 2 * asyPitch, -17 * pinPitch / 2), (-17 * pinPitch / 2, 3 / 2 * asyPitch), (3 / 2 * asyPitch, 1 / 2 * asyPitch),
   (1 / 2 * asyPitch, 3 / 2 * asyPitch), (5 / 2 * asyPitch, -17 * pinPitch / 2), (-17 * pinPitch / 2, 5 / 2 * asyPitch),
   (3 / 2 * asyPitch, 3 / 2 * asyPitch), (5 / 2 * asyPitch, 1 / 2 * asyPitch), (1 / 2 * asyPitch, 5 / 2 * asyPitch)]

/-- The points of a square that is cut out, 288-292, with its left and its lower side. -/
def squareSet (q : K × K) : Set (K × K) := {P | q.1 ≤ P.1 ∧ P.1 < q.1 + asyPitch ∧ q.2 ≤ P.2 ∧ P.2 < q.2 + asyPitch}

/-- The points of a hole, 359-362. -/
def diskSet (h : Nat × Nat × Nat) : Set (K × K) :=
  {P | (P.1 - (h.1 : K) / 10000) ^ 2 + (P.2 - (h.2.1 : K) / 10000) ^ 2 ≤ ((h.2.2 : K) / 10000) ^ 2}

/-- The tools of the cut, 288-362, in the order of their tags. -/
def tools : List (Set (K × K)) := cutouts.map squareSet ++ holes.map diskSet

/-- The vessel, 263-267: the surfaces and their tags. -/
def vessel (clos : DimTag → List DimTag) (col : String → Col) : Res (Occ K Col × List ℤ) :=
  addPin clos (start fun _ => (0, 0, 255, 0)) 0 0 vesselRadii (vesselMats col)

/-- The cut and the colours, 359-373; `out` are `vessel_tags`. -/
def carve (clos : DimTag → List DimTag) (col : String → Col) (o : Occ K Col) (out : List ℤ) (map : List (List DimTag)) : Res (Gm Name Col) :=
  (Res.ofOption out[0]?).bind fun t =>
  (Gmsh.groupPreserving clos o.gm [(2, t)] ((fresh o.next (tools (K := K)).length).map fun t => (2, t)) map []).bind fun s =>
  Gmsh.colorMaterials clos s ([mat col "Water", mat col "SS304"].map fun m => (matName m.1, m.2))

/-- The number of surfaces. -/
def count (ents : List DimTag) : Nat := (ents.filter fun x => x.1 = 2).length

/-- Writing the model, `finalize`, `initialize` and opening it, 375-383. -/
def reopen (s : Gm Name Col) (ents : List DimTag) : Res (Occ K Col) :=
  (Info.openInfo ⟨[], fun _ => (0, 0, 255, 0)⟩ (Info.write s ents)).bind fun s => .ok ⟨s, [], count ents + 1⟩

/-- The surfaces after opening. -/
def base (ents : List DimTag) : List ℤ := fresh 1 (count ents)

/-- `gt_radii` and `fuel_radii`, 396, 399 and 414, for guide tubes and `n` kinds of fuel pins. -/
def radii (noGap : Bool) (n : Nat) : List (List K) :=
  [57150 / 100000, 61214 / 100000] ::
    List.replicate n (if noGap then [405765 / 1000000, 47498 / 100000] else [405765 / 1000000, 41402 / 100000, 47498 / 100000])

/-- `pin_gt_mats`, 397, and the materials of the fuel pins, 400-427. -/
def mats (col : String → Col) (noGap : Bool) (fuels : List String) : List (List (Name × Col)) :=
  [mat col "Water", mat col "Zirc4"] ::
    fuels.map fun f => if noGap then [mat col f, mat col "M5"] else [mat col f, mat col "Gap", mat col "M5"]

/-- A call of `addCylindricalPinLattice2D`, 569-668. -/
def place (col : String → Col) (noGap : Bool) (fuels : List String) (ids : List (List ℤ)) (x y : K) : Placement K Col where
  ids := ids
  pitch := (pinPitch, pinPitch)
  radii := radii noGap fuels.length
  mats := mats col noGap fuels
  off := (x, y)

/-- The thirteen calls, 571-667; `noGap` is `omit_gap`, line 11. -/
def placements (col : String → Col) (noGap : Bool) : Option (List (Placement K Col)) := do
  let a ← lattice text01
  let b ← lattice text05
  let c ← lattice text07
  let A01 := place (K := K) col noGap [fuel 0] a
  let A04 := place (K := K) col noGap [fuel 1] a
  let A05 := place (K := K) col noGap [fuel 3, fuel 2, "G260"] b
  let A06 := place (K := K) col noGap [fuel 7, fuel 4, "G350"] b
  let A07 := place (K := K) col noGap [fuel 8, fuel 5] c
  let A08 := place (K := K) col noGap [fuel 9, fuel 6] c
  some
    [A01 (-17 * pinPitch / 2) (-17 * pinPitch / 2), A01 (asyPitch / 2) (-17 * pinPitch / 2), A01 (asyPitch / 2) (asyPitch / 2),
     A01 (-17 * pinPitch / 2) (asyPitch / 2),
     A04 (3 / 2 * asyPitch) (-17 * pinPitch / 2), A04 (-17 * pinPitch / 2) (3 / 2 * asyPitch),
     A05 (3 / 2 * asyPitch) (1 / 2 * asyPitch), A05 (1 / 2 * asyPitch) (3 / 2 * asyPitch),
     A06 (5 / 2 * asyPitch) (-17 * pinPitch / 2), A06 (-17 * pinPitch / 2) (5 / 2 * asyPitch),
     A07 (3 / 2 * asyPitch) (3 / 2 * asyPitch),
     A08 (5 / 2 * asyPitch) (1 / 2 * asyPitch), A08 (1 / 2 * asyPitch) (5 / 2 * asyPitch)]

/-- The program from the opening of the vessel to the overlay, 383-684. -/
def core (clos : DimTag → List DimTag) (sort : List K → List K) (eps : K) (col : String → Col) (noGap : Bool) (s : Gm Name Col)
    (ents : List DimTag) : Res (Occ K Col) :=
  (reopen s ents).bind fun o =>
  (Res.ofOption (placements col noGap)).bind fun pls => addAll clos sort eps pls o

/-- `domain_extents`, 682. -/
def domain : K × K := (7 * 17 * (126 / 100), 7 * 17 * (126 / 100))

/-- `num_coarse_cells`, 61. -/
def cells : Nat := 119

/-- The fill material, 689. -/
def fill (col : String → Col) : Name × Col := mat col "Water"

end Verif.Nuscale
