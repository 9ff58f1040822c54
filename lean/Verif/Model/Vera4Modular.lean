import Verif.Model.PinModular
import Verif.Model.Vera4

/-!
# The pin-modular model of VERA problem 4

The program models/vera/problem_4/2d/vera_4_rodded_2d_advanced_mesh.cpp, cited without a name below.  The texts of the lattices with 2.11 %
(273-291, 314-332), the radii (216-227, 236, 242, 247, 253-255, 261, 269-270) and the materials (237-238, 243, 248, 256-257, 262, 266-268) are those of
the program with the variable grid.  The mesh generation is not part of this model.

Numbers are exact.  `col` stands for the colours of the materials.
-/

namespace Verif.Vera4M

open Verif.Overlay (Name)
open Verif.Programs
open Verif.Bench (lattice)
open Verif.Vera4 (text2110 textAic radii mats)

/-- The text of the lattice of 2.619 %, 293-311. -/
def text2619 : List String :=
  ["",
   "      3 3 3 3 3 3 3 3 3 3 3 3 3 3 3 3 3",
   "      3 3 3 3 3 3 3 3 3 3 3 3 3 3 3 3 3",
   "      3 3 3 3 3 4 3 3 4 3 3 4 3 3 3 3 3",
   "      3 3 3 4 3 3 3 3 3 3 3 3 3 4 3 3 3",
   "      3 3 3 3 3 3 3 3 3 3 3 3 3 3 3 3 3",
   "      3 3 4 3 3 1 3 3 4 3 3 1 3 3 4 3 3",
   "      3 3 3 3 3 3 3 3 3 3 3 3 3 3 3 3 3",
   "      3 3 3 3 3 3 3 3 3 3 3 3 3 3 3 3 3",
   "      3 3 4 3 3 4 3 3 2 3 3 4 3 3 4 3 3",
   "      3 3 3 3 3 3 3 3 3 3 3 3 3 3 3 3 3",
   "      3 3 3 3 3 3 3 3 3 3 3 3 3 3 3 3 3",
   "      3 3 4 3 3 1 3 3 4 3 3 1 3 3 4 3 3",
   "      3 3 3 3 3 3 3 3 3 3 3 3 3 3 3 3 3",
   "      3 3 3 4 3 3 3 3 3 3 3 3 3 4 3 3 3",
   "      3 3 3 3 3 4 3 3 4 3 3 4 3 3 3 3 3",
   "      3 3 3 3 3 3 3 3 3 3 3 3 3 3 3 3 3",
   "      3 3 3 3 3 3 3 3 3 3 3 3 3 3 3 3 3",
   "    "]

/-- The text of the core, 392-395. -/
def textCore : List String :=
  ["",
   "    2 1",
   "    1 0",
   "  "]

variable {K C : Type} [Field K] [LinearOrder K]

/-- `pin_size`, 228, 231. -/
def size : K × K := (126 / 100, 126 / 100)

/-- `assembly_pitch`, 230. -/
def side : K := 2142 / 100

/-- A call of `addCylindricalPinLattice2D`, 271, 345-355. -/
def place (col : String → C) (ids : List (List ℤ)) (x y : K) : Placement K C where
  ids := ids
  pitch := size
  radii := radii true
  mats := mats col true
  off := (x, y)

/-- What the program makes of its texts: the four calls, 345-355, the arguments of `addLattice`, 386-388, and of `addCore`, 392-396. -/
def inputs (col : String → C) : Option (List (Placement K C) × List (List (List ℤ)) × List (List ℤ)) := do
  let a ← lattice text2110
  let b ← lattice text2619
  let c ← lattice textAic
  let core ← lattice textCore
  some ([place col a side 0, place col b 0 0, place col b side side, place col c 0 side], [a, b, c], core)

/-- The arguments of `addAssembly`, 389-391, with the default heights, model.hpp 262. -/
def assemblies : List (Mpact.Assembly K) := [⟨[-1 / 2, 1 / 2], [0]⟩, ⟨[-1 / 2, 1 / 2], [1]⟩, ⟨[-1 / 2, 1 / 2], [2]⟩]

end Verif.Vera4M
