import Verif.Model.LatticePrograms
import Verif.Model.LatticeText

/-!
# The plane CROCUS model

The programs models/crocus/crocus_2d_variable_grid.cpp and crocus_2d_advanced_mesh.cpp.  They differ in the number of coarse cells (an
argument, or 64 by 64) and in the mesh generation, which is not part of this model.

Numbers are exact.  `col` stands for the colours of the materials.
-/

namespace Verif.Crocus

open Verif.Overlay (Name)
open Verif.Programs
open Verif.MFiles (str)
open Verif.Bench (lattice)

/-- The text of the lattice of oxide rods, crocus_2d_variable_grid.cpp 116-139 (crocus_2d_advanced_mesh.cpp 127-150). -/
def uo2Text : List String :=
  ["",
   "    0 0 0 0 0 0 0 0 1 1 1 1 1 1 0 0 0 0 0 0 0 0",
   "    0 0 0 0 0 0 0 0 1 1 1 1 1 1 0 0 0 0 0 0 0 0",
   "    0 0 0 0 0 1 1 1 1 1 1 1 1 1 1 1 1 0 0 0 0 0",
   "    0 0 0 0 0 1 1 1 1 1 1 1 1 1 1 1 1 0 0 0 0 0",
   "    0 0 0 0 0 1 1 1 1 1 1 1 1 1 1 1 1 0 0 0 0 0",
   "    0 0 1 1 1 1 1 1 1 1 1 1 1 1 1 1 1 1 1 1 0 0",
   "    0 0 1 1 1 1 1 1 1 1 1 1 1 1 1 1 1 1 1 1 0 0",
   "    0 0 1 1 1 1 1 1 1 1 1 1 1 1 1 1 1 1 1 1 0 0",
   "    1 1 1 1 1 1 1 1 1 1 1 1 1 1 1 1 1 1 1 1 1 1",
   "    1 1 1 1 1 1 1 1 1 1 1 1 1 1 1 1 1 1 1 1 1 1",
   "    1 1 1 1 1 1 1 1 1 1 1 1 1 1 1 1 1 1 1 1 1 1",
   "    1 1 1 1 1 1 1 1 1 1 1 1 1 1 1 1 1 1 1 1 1 1",
   "    1 1 1 1 1 1 1 1 1 1 1 1 1 1 1 1 1 1 1 1 1 1",
   "    1 1 1 1 1 1 1 1 1 1 1 1 1 1 1 1 1 1 1 1 1 1",
   "    0 0 1 1 1 1 1 1 1 1 1 1 1 1 1 1 1 1 1 1 0 0",
   "    0 0 1 1 1 1 1 1 1 1 1 1 1 1 1 1 1 1 1 1 0 0",
   "    0 0 1 1 1 1 1 1 1 1 1 1 1 1 1 1 1 1 1 1 0 0",
   "    0 0 0 0 0 1 1 1 1 1 1 1 1 1 1 1 1 0 0 0 0 0",
   "    0 0 0 0 0 1 1 1 1 1 1 1 1 1 1 1 1 0 0 0 0 0",
   "    0 0 0 0 0 1 1 1 1 1 1 1 1 1 1 1 1 0 0 0 0 0",
   "    0 0 0 0 0 0 0 0 1 1 1 1 1 1 0 0 0 0 0 0 0 0",
   "    0 0 0 0 0 0 0 0 1 1 1 1 1 1 0 0 0 0 0 0 0 0",
   "  "]

/-- The text of the lattice of metal rods, crocus_2d_variable_grid.cpp 141-161 (crocus_2d_advanced_mesh.cpp 152-172). -/
def umetalText : List String :=
  ["",
   "    0 0 0 0 0 0 0 1 1 1 1 1 1 0 0 0 0 0 0 0",
   "    0 0 0 0 1 1 1 1 1 1 1 1 1 1 1 0 0 0 0 0",
   "    0 0 0 1 1 1 1 1 1 1 1 1 1 1 1 1 1 0 0 0",
   "    0 0 1 1 1 1 1 1 0 0 0 0 1 1 1 1 1 1 0 0",
   "    0 1 1 1 1 1 0 0 0 0 0 0 0 0 1 1 1 1 0 0",
   "    0 1 1 1 1 1 0 0 0 0 0 0 0 0 1 1 1 1 1 0",
   "    1 1 1 1 0 0 0 0 0 0 0 0 0 0 0 0 1 1 1 0",
   "    1 1 1 1 0 0 0 0 0 0 0 0 0 0 0 0 1 1 1 1",
   "    1 1 1 0 0 0 0 0 0 0 0 0 0 0 0 0 0 1 1 1",
   "    1 1 1 0 0 0 0 0 0 0 0 0 0 0 0 0 0 1 1 1",
   "    1 1 1 0 0 0 0 0 0 0 0 0 0 0 0 0 0 1 1 1",
   "    1 1 1 0 0 0 0 0 0 0 0 0 0 0 0 0 0 1 1 1",
   "    1 1 1 1 0 0 0 0 0 0 0 0 0 0 0 0 1 1 1 1",
   "    0 1 1 1 0 0 0 0 0 0 0 0 0 0 0 0 1 1 1 1",
   "    0 1 1 1 1 1 0 0 0 0 0 0 0 0 1 1 1 1 1 0",
   "    0 0 1 1 1 1 0 0 0 0 0 0 0 0 1 1 1 1 1 0",
   "    0 0 1 1 1 1 1 1 0 0 0 0 1 1 1 1 1 1 0 0",
   "    0 0 0 1 1 1 1 1 1 1 1 1 1 1 1 1 1 0 0 0",
   "    0 0 0 0 0 1 1 1 1 1 1 1 1 1 1 1 0 0 0 0",
   "    0 0 0 0 0 0 0 1 1 1 1 1 1 0 0 0 0 0 0 0"]

variable {K C : Type} [Field K] [LinearOrder K]

/-- The materials by name, crocus_2d_variable_grid.cpp 46-89. -/
def uo2 (col : Nat → C) : Name × C := (str "UO2", col 0)

/-- crocus_2d_variable_grid.cpp 58-65. -/
def clad (col : Nat → C) : Name × C := (str "Clad", col 1)

/-- crocus_2d_variable_grid.cpp 67-75. -/
def umetal (col : Nat → C) : Name × C := (str "Umetal", col 2)

/-- crocus_2d_variable_grid.cpp 77-86; the fill material, 206. -/
def water (col : Nat → C) : Name × C := (str "Water", col 3)

/-- `center`, crocus_2d_variable_grid.cpp 165. -/
def center : K := 20 * (2917 / 1000)

/-- A call of `addCylindricalPinLattice2D`, crocus_2d_variable_grid.cpp 95-114, 168-189: a lattice of `ids` in the middle of the domain;
pin 0 is empty, pin 1 has a fuel and a clad of the diameters `f` and `c`. -/
def place (ids : List (List ℤ)) (pitch f c : K) (fuel cl : Name × C) : Placement K C where
  ids := ids
  pitch := (pitch, pitch)
  radii := [[], [f / 2, c / 2]]
  mats := [[], [fuel, cl]]
  off := (center - 1 / 2 * ids.length * pitch, center - 1 / 2 * ids.length * pitch)

/-- The two calls, crocus_2d_variable_grid.cpp 173-189. -/
def placements (col : Nat → C) : Option (List (Placement K C)) := do
  let a ← lattice uo2Text
  let b ← lattice umetalText
  some [place a (1837 / 1000) (1052 / 1000) (1260 / 1000) (uo2 col) (clad col),
    place b (2917 / 1000) (1700 / 1000) (1935 / 1000) (umetal col) (clad col)]

/-- `domain_extents`, crocus_2d_variable_grid.cpp 203. -/
def domain : K × K := (2 * center, 2 * center)

end Verif.Crocus
