import Verif.Model.LatticePrograms
import Verif.Model.LatticeText
import Verif.Model.XSValid

/-!
# The plane C5G7 model

The programs models/c5g7/2d/c5g7_2d_variable_grid.cpp and c5g7_2d_advanced_mesh.cpp.  They differ in the number of coarse cells (an
argument, or 51 by 51) and in the mesh generation, which is not part of this model.

Numbers are exact.  `col` stands for the colours of the materials.
-/

namespace Verif.C5G7

open Verif.XSLib (Res)
open Verif.Gmsh (DimTag)
open Verif.Overlay (Name Cut)
open Verif.Programs
open Verif.MFiles (str)
open Verif.Bench (lattice)

/-- The text of the UO2 lattice, c5g7_2d_variable_grid.cpp 74-92 (c5g7_2d_advanced_mesh.cpp 85-103). -/
def uo2Text : List String :=
  ["",
   "      0 0 0 0 0 0 0 0 0 0 0 0 0 0 0 0 0",
   "      0 0 0 0 0 0 0 0 0 0 0 0 0 0 0 0 0",
   "      0 0 0 0 0 5 0 0 5 0 0 5 0 0 0 0 0",
   "      0 0 0 5 0 0 0 0 0 0 0 0 0 5 0 0 0",
   "      0 0 0 0 0 0 0 0 0 0 0 0 0 0 0 0 0",
   "      0 0 5 0 0 5 0 0 5 0 0 5 0 0 5 0 0",
   "      0 0 0 0 0 0 0 0 0 0 0 0 0 0 0 0 0",
   "      0 0 0 0 0 0 0 0 0 0 0 0 0 0 0 0 0",
   "      0 0 5 0 0 5 0 0 4 0 0 5 0 0 5 0 0",
   "      0 0 0 0 0 0 0 0 0 0 0 0 0 0 0 0 0",
   "      0 0 0 0 0 0 0 0 0 0 0 0 0 0 0 0 0",
   "      0 0 5 0 0 5 0 0 5 0 0 5 0 0 5 0 0",
   "      0 0 0 0 0 0 0 0 0 0 0 0 0 0 0 0 0",
   "      0 0 0 5 0 0 0 0 0 0 0 0 0 5 0 0 0",
   "      0 0 0 0 0 5 0 0 5 0 0 5 0 0 0 0 0",
   "      0 0 0 0 0 0 0 0 0 0 0 0 0 0 0 0 0",
   "      0 0 0 0 0 0 0 0 0 0 0 0 0 0 0 0 0",
   "    "]

/-- The text of the MOX lattice, c5g7_2d_variable_grid.cpp 95-113 (c5g7_2d_advanced_mesh.cpp 106-124). -/
def moxText : List String :=
  ["",
   "      1 1 1 1 1 1 1 1 1 1 1 1 1 1 1 1 1",
   "      1 2 2 2 2 2 2 2 2 2 2 2 2 2 2 2 1",
   "      1 2 2 2 2 5 2 2 5 2 2 5 2 2 2 2 1",
   "      1 2 2 5 2 3 3 3 3 3 3 3 2 5 2 2 1",
   "      1 2 2 2 3 3 3 3 3 3 3 3 3 2 2 2 1",
   "      1 2 5 3 3 5 3 3 5 3 3 5 3 3 5 2 1",
   "      1 2 2 3 3 3 3 3 3 3 3 3 3 3 2 2 1",
   "      1 2 2 3 3 3 3 3 3 3 3 3 3 3 2 2 1",
   "      1 2 5 3 3 5 3 3 4 3 3 5 3 3 5 2 1",
   "      1 2 2 3 3 3 3 3 3 3 3 3 3 3 2 2 1",
   "      1 2 2 3 3 3 3 3 3 3 3 3 3 3 2 2 1",
   "      1 2 5 3 3 5 3 3 5 3 3 5 3 3 5 2 1",
   "      1 2 2 2 3 3 3 3 3 3 3 3 3 2 2 2 1",
   "      1 2 2 5 2 3 3 3 3 3 3 3 2 5 2 2 1",
   "      1 2 2 2 2 5 2 2 5 2 2 5 2 2 2 2 1",
   "      1 2 2 2 2 2 2 2 2 2 2 2 2 2 2 2 1",
   "      1 1 1 1 1 1 1 1 1 1 1 1 1 1 1 1 1",
   "    "]

variable {K C : Type} [Field K] [LinearOrder K]

/-- Material `k` of `getC5G7Materials`, c5g7_2d_variable_grid.cpp 43-50. -/
def mat (col : Nat → C) (k : Nat) : Name × C := (str (XSValid.c5g7Names.getD k ""), col k)

/-- `assembly_pitch`, c5g7_2d_variable_grid.cpp 37. -/
def side : K := 2142 / 100

/-- A call of `addCylindricalPinLattice2D`, c5g7_2d_variable_grid.cpp 35-36, 67-72, 140-149: six pins of one ring each. -/
def place (col : Nat → C) (ids : List (List ℤ)) (x y : Nat) : Placement K C where
  ids := ids
  pitch := (126 / 100, 126 / 100)
  radii := List.replicate 6 [54 / 100]
  mats := [[mat col 0], [mat col 1], [mat col 2], [mat col 3], [mat col 4], [mat col 5]]
  off := (side * x, side * y)

/-- The four calls, c5g7_2d_variable_grid.cpp 140-149. -/
def placements (col : Nat → C) : Option (List (Placement K C)) := do
  let uo2 ← lattice uo2Text
  let mox ← lattice moxText
  some [place col uo2 0 2, place col uo2 1 1, place col mox 0 1, place col mox 1 2]

/-- `domain_extents`, c5g7_2d_variable_grid.cpp 166. -/
def domain : K × K := (3 * side, 3 * side)

/-- The fill material, c5g7_2d_variable_grid.cpp 169. -/
def fill (col : Nat → C) : Name × C := mat col 6

end Verif.C5G7
