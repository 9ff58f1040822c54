import Verif.Model.PinModular
import Verif.Model.C5G7Plane

/-!
# The C5G7 core with standard meshes

The program models/c5g7/3d/c5g7_3d_standard_moc.cpp up to `addCore` (what follows, lines 212-215, writes the model).

Numbers are exact.  The results of `addMaterial`, `addCoarseCell`, `addRTM`, `addLattice`, `addAssembly` and `addCore` are ignored, as in
the program; the numbers of the two meshes are used.
-/

namespace Verif.C5G7Core

open Verif.Pin (Libm)
open Verif.Mpact
open Verif.Bench (lattice)
open Verif.ElemTypes (MeshType)

/-- The text of the moderator lattice, c5g7_3d_standard_moc.cpp 143-161; there is a space behind the opening bracket.  The texts of the
other lattices, lines 99-140, are those of the plane models. -/
def h2oText : List String :=
  [" ",
   "      6 6 6 6 6 6 6 6 6 6 6 6 6 6 6 6 6",
   "      6 6 6 6 6 6 6 6 6 6 6 6 6 6 6 6 6",
   "      6 6 6 6 6 6 6 6 6 6 6 6 6 6 6 6 6",
   "      6 6 6 6 6 6 6 6 6 6 6 6 6 6 6 6 6",
   "      6 6 6 6 6 6 6 6 6 6 6 6 6 6 6 6 6",
   "      6 6 6 6 6 6 6 6 6 6 6 6 6 6 6 6 6",
   "      6 6 6 6 6 6 6 6 6 6 6 6 6 6 6 6 6",
   "      6 6 6 6 6 6 6 6 6 6 6 6 6 6 6 6 6",
   "      6 6 6 6 6 6 6 6 6 6 6 6 6 6 6 6 6",
   "      6 6 6 6 6 6 6 6 6 6 6 6 6 6 6 6 6",
   "      6 6 6 6 6 6 6 6 6 6 6 6 6 6 6 6 6",
   "      6 6 6 6 6 6 6 6 6 6 6 6 6 6 6 6 6",
   "      6 6 6 6 6 6 6 6 6 6 6 6 6 6 6 6 6",
   "      6 6 6 6 6 6 6 6 6 6 6 6 6 6 6 6 6",
   "      6 6 6 6 6 6 6 6 6 6 6 6 6 6 6 6 6",
   "      6 6 6 6 6 6 6 6 6 6 6 6 6 6 6 6 6",
   "      6 6 6 6 6 6 6 6 6 6 6 6 6 6 6 6 6",
   "    "]

/-- The text of the core, c5g7_3d_standard_moc.cpp 203-207. -/
def coreText : List String :=
  ["",
   "      0 1 2",
   "      1 0 2",
   "      2 2 2",
   "  "]

variable {K M : Type} [Field K] [LinearOrder K]

/-- The calls of `addMaterial`, c5g7_3d_standard_moc.cpp 22-37; `materials[k]` behind the end is undefined. -/
def addMaterials (mats : List M) : List Nat → Model K M → Option (Model K M)
  | [], s => some s
  | k :: ks, s => mats[k]?.bind fun m => (addMaterial s m).bind fun r => addMaterials mats ks r.1

/-- The calls of `addCoarseCell`, c5g7_3d_standard_moc.cpp 78-87, each with the type and number of the mesh and the materials. -/
def addCells (ext : K × K) : List (MeshType × ℤ × List Int8) → Model K M → Option (Model K M)
  | [], s => some s
  | q :: qs, s => (addCoarseCell s ext q.1 q.2.1 q.2.2).bind fun r => addCells ext qs r.1

/-- The arguments of these calls: `mat_ids` has 48 numbers, of which the first 24 are the pin's; then 25 for the moderator. -/
def cells (cyl rect : ℤ) : List (MeshType × ℤ × List Int8) :=
  (List.range 6).map (fun i => (MeshType.QuadraticQuad, cyl, List.replicate 24 (Int8.ofNat i) ++ List.replicate 24 6)) ++
    [(MeshType.Quad, rect, List.replicate 25 6)]

/-- The calls of `addRTM`, c5g7_3d_standard_moc.cpp 93-97. -/
def addRTMs (sort : List K → List K) (eps : K) : List Nat → Model K M → Option (Model K M)
  | [], s => some s
  | i :: is, s => (addRTM sort eps s [[(i : ℤ)]]).bind fun r => addRTMs sort eps is r.1

/-- `z_slices`, c5g7_3d_standard_moc.cpp 180-186. -/
def heights : List K := (List.range 11).map fun i : Nat => (i : K) * (2142 / 10) / 10

/-- The arguments of `addAssembly`, c5g7_3d_standard_moc.cpp 181-198: the lowest nine slices are filled, the tenth stays moderator. -/
def assemblies : List (Assembly K) :=
  [⟨heights, List.replicate 9 0 ++ [2]⟩, ⟨heights, List.replicate 9 1 ++ [2]⟩, ⟨heights, List.replicate 10 2⟩]

/-- The program, c5g7_3d_standard_moc.cpp 16-211, with the materials `mats` of `getC5G7Materials`. -/
def program (m : Libm K) (sort : List K → List K) (eps : K) (mats : List M) : Option (Model K M) := do
  let s ← addMaterials mats [0, 1, 2, 3, 4, 5, 6] (Model.empty K M)
  let (s, cyl) ← addCylindricalPinMesh m s (126 / 100) [54 / 100, 62 / 100] [3, 2] 8 2
  let (s, rect) ← addRectangularPinMesh s (126 / 100, 126 / 100) 5 5
  let s ← addCells (126 / 100, 126 / 100) (cells cyl rect) s
  let s ← addRTMs sort eps (List.range 7) s
  let uo2 ← lattice C5G7.uo2Text
  let mox ← lattice C5G7.moxText
  let h2o ← lattice h2oText
  let core ← lattice coreText
  Modular.addRest sort eps [uo2, mox, h2o] assemblies core s

end Verif.C5G7Core
