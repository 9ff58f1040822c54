import Verif.Model.LatticePrograms
import Verif.Model.LatticeText

/-!
# The plane models of VERA problem 4

The programs models/vera/problem_4/2d/vera_4_rodded_2d_variable_grid.cpp (cited without a name below) and
vera_4_unrodded_2d_variable_grid.cpp.  The mesh generation is not part of this model.

Numbers are exact.  `col` stands for the colours of the materials.
-/

namespace Verif.Vera4

open Verif.Overlay (Name)
open Verif.Programs
open Verif.MFiles (str)
open Verif.Bench (lattice)

/-- The text of the lattice of 2.11 %, 261-279 (unrodded 238-256). -/
def text2110 : List String :=
  ["",
   "      0 0 0 0 0 0 0 0 0 0 0 0 0 0 0 0 0",
   "      0 0 0 0 0 0 0 0 0 0 0 0 0 0 0 0 0",
   "      0 0 0 0 0 1 0 0 1 0 0 1 0 0 0 0 0",
   "      0 0 0 1 0 0 0 0 0 0 0 0 0 1 0 0 0",
   "      0 0 0 0 0 0 0 0 0 0 0 0 0 0 0 0 0",
   "      0 0 1 0 0 1 0 0 1 0 0 1 0 0 1 0 0",
   "      0 0 0 0 0 0 0 0 0 0 0 0 0 0 0 0 0",
   "      0 0 0 0 0 0 0 0 0 0 0 0 0 0 0 0 0",
   "      0 0 1 0 0 1 0 0 2 0 0 1 0 0 1 0 0",
   "      0 0 0 0 0 0 0 0 0 0 0 0 0 0 0 0 0",
   "      0 0 0 0 0 0 0 0 0 0 0 0 0 0 0 0 0",
   "      0 0 1 0 0 1 0 0 1 0 0 1 0 0 1 0 0",
   "      0 0 0 0 0 0 0 0 0 0 0 0 0 0 0 0 0",
   "      0 0 0 1 0 0 0 0 0 0 0 0 0 1 0 0 0",
   "      0 0 0 0 0 1 0 0 1 0 0 1 0 0 0 0 0",
   "      0 0 0 0 0 0 0 0 0 0 0 0 0 0 0 0 0",
   "      0 0 0 0 0 0 0 0 0 0 0 0 0 0 0 0 0",
   "    "]

/-- The text of the lattice of 2.619 %, 281-299 (unrodded 258-276). -/
def text2619 : List String :=
  ["",
   "      3 3 3 3 3 3 3 3 3 3 3 3 3 3 3 3 3",
   "      3 3 3 3 3 3 3 3 3 3 3 3 3 3 3 3 3",
   "      3 3 3 3 3 4 3 3 4 3 3 4 3 3 3 3 3",
   "      3 3 3 4 3 3 3 3 3 3 3 3 3 4 3 3 3",
   "      3 3 3 3 3 3 3 3 3 3 3 3 3 3 3 3 3",
   "      3 3 4 3 3 4 3 3 4 3 3 4 3 3 4 3 3",
   "      3 3 3 3 3 3 3 3 3 3 3 3 3 3 3 3 3",
   "      3 3 3 3 3 3 3 3 3 3 3 3 3 3 3 3 3",
   "      3 3 4 3 3 4 3 3 2 3 3 4 3 3 4 3 3",
   "      3 3 3 3 3 3 3 3 3 3 3 3 3 3 3 3 3",
   "      3 3 3 3 3 3 3 3 3 3 3 3 3 3 3 3 3",
   "      3 3 4 3 3 4 3 3 4 3 3 4 3 3 4 3 3",
   "      3 3 3 3 3 3 3 3 3 3 3 3 3 3 3 3 3",
   "      3 3 3 4 3 3 3 3 3 3 3 3 3 4 3 3 3",
   "      3 3 3 3 3 4 3 3 4 3 3 4 3 3 3 3 3",
   "      3 3 3 3 3 3 3 3 3 3 3 3 3 3 3 3 3",
   "      3 3 3 3 3 3 3 3 3 3 3 3 3 3 3 3 3",
   "    "]

/-- The text of the lattice with control rods, 302-320. -/
def textAic : List String :=
  ["",
   "      0 0 0 0 0 0 0 0 0 0 0 0 0 0 0 0 0",
   "      0 0 0 0 0 0 0 0 0 0 0 0 0 0 0 0 0",
   "      0 0 0 0 0 5 0 0 5 0 0 5 0 0 0 0 0",
   "      0 0 0 5 0 0 0 0 0 0 0 0 0 5 0 0 0",
   "      0 0 0 0 0 0 0 0 0 0 0 0 0 0 0 0 0",
   "      0 0 5 0 0 5 0 0 5 0 0 5 0 0 5 0 0",
   "      0 0 0 0 0 0 0 0 0 0 0 0 0 0 0 0 0",
   "      0 0 0 0 0 0 0 0 0 0 0 0 0 0 0 0 0",
   "      0 0 5 0 0 5 0 0 2 0 0 5 0 0 5 0 0",
   "      0 0 0 0 0 0 0 0 0 0 0 0 0 0 0 0 0",
   "      0 0 0 0 0 0 0 0 0 0 0 0 0 0 0 0 0",
   "      0 0 5 0 0 5 0 0 5 0 0 5 0 0 5 0 0",
   "      0 0 0 0 0 0 0 0 0 0 0 0 0 0 0 0 0",
   "      0 0 0 5 0 0 0 0 0 0 0 0 0 5 0 0 0",
   "      0 0 0 0 0 5 0 0 5 0 0 5 0 0 0 0 0",
   "      0 0 0 0 0 0 0 0 0 0 0 0 0 0 0 0 0",
   "      0 0 0 0 0 0 0 0 0 0 0 0 0 0 0 0 0",
   "    "]

variable {K C : Type} [Field K] [LinearOrder K]

/-- A material, by its name, 44-188. -/
def mat (col : String → C) (n : String) : Name × C := (str n, col n)

/-- `assembly_pitch`, 217. -/
def side : K := 2150 / 100

/-- `inter_assembly_gap`, 218. -/
def gap : K := 4 / 100

/-- The radii of the pins, 203-215, 223, 229, 234, 240-242, 248, 256-257 (unrodded 233-234: without the last). -/
def radii (rodded : Bool) : List (List K) :=
  [[4096 / 10000, 475 / 1000], [561 / 1000, 602 / 1000], [559 / 1000, 605 / 1000], [4096 / 10000, 475 / 1000],
    [214 / 1000, 241 / 1000, 427 / 1000, 484 / 1000, 559 / 1000, 605 / 1000]] ++ if rodded then [[382 / 1000, 484 / 1000]] else []

/-- The materials of the pins, 224-225, 230, 235, 243-244, 249, 253-255 (unrodded 230-232: without the last). -/
def mats (col : String → C) (rodded : Bool) : List (List (Name × C)) :=
  [[mat col "Fuel_2.11%", mat col "Clad"], [mat col "Moderator", mat col "Clad"], [mat col "Moderator", mat col "Clad"],
    [mat col "Fuel_2.619%", mat col "Clad"],
    [mat col "Gap", mat col "SS304", mat col "Pyrex", mat col "SS304", mat col "Moderator", mat col "Clad"]] ++
  if rodded then [[mat col "AIC", mat col "SS304"]] else []

/-- A call of `addCylindricalPinLattice2D`, 216, 258, 333-348. -/
def place (col : String → C) (rodded : Bool) (ids : List (List ℤ)) (x y : K) : Placement K C where
  ids := ids
  pitch := (126 / 100, 126 / 100)
  radii := radii rodded
  mats := mats col rodded
  off := (x, y)

/-- The four calls, 333-348 (unrodded 287-302). -/
def placements (col : String → C) (rodded : Bool) : Option (List (Placement K C)) := do
  let a ← lattice text2110
  let b ← lattice text2619
  let c ← if rodded then lattice textAic else some a
  some [place col rodded a (side / 2 + gap) gap, place col rodded b (-side / 2 + gap) gap,
    place col rodded b (side / 2 + gap) (side + gap), place col rodded c (-side / 2 + gap) (side + gap)]

/-- `domain_extents`, 367. -/
def domain : K × K := (3 / 2 * side, 3 / 2 * side)

/-- The fill material, 370. -/
def fill (col : String → C) : Name × C := mat col "Moderator"

end Verif.Vera4
