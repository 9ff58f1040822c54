import Verif.Model.Scene
import Verif.Model.Material
import Verif.Model.LatticeText

/-!
# The pin cell of VERA problem 1A

Model of models/vera/problem_1/vera_1a.cpp (lines in the comments) and of vera_1a_nogap.cpp, which has no gap.  The cross sections of the
materials, the mesh and the files are not part of this model.  Numbers are exact.
-/

namespace Verif.Vera1

open Verif.XSLib (Res)
open Verif.Gmsh (DimTag)
open Verif.Overlay (Name)
open Verif.Pins (Occ addPin)
open Verif.MFiles (str)

/-- The arguments of one call of `addCylindricalPin2D`. -/
structure Single (K C : Type) where
  centre : K × K
  radii : List K
  mats : List (Name × C)

/-- A material, by its name, 24-93. -/
def mat {C : Type} (col : String → C) (n : String) : Name × C := (str n, col n)

section
variable {K C : Type} [Field K] [LinearOrder K]

/-- Calls of `addCylindricalPin2D` one after the other. -/
def addPins (clos : DimTag → List DimTag) : List (Single K C) → Occ K C → Res (Occ K C)
  | [], o => .ok o
  | p :: ps, o => (addPin clos o p.centre.1 p.centre.2 p.radii p.mats).bind fun r => addPins clos ps r.1

/-- `pitch`, 104. -/
def pitch : K := 126 / 100

/-- `radii`, 107; vera_1a_nogap.cpp 95. -/
def radii (gap : Bool) : List K := if gap then [4096 / 10000, 418 / 1000, 475 / 1000] else [4096 / 10000, 475 / 1000]

/-- `materials`, 108; vera_1a_nogap.cpp 96. -/
def mats (col : String → C) (gap : Bool) : List (Name × C) :=
  if gap then [mat col "Fuel", mat col "Gap", mat col "Clad"] else [mat col "Fuel", mat col "Clad"]

/-- The pin, 106-110; vera_1a_nogap.cpp 94-98. -/
def pins (col : String → C) (gap : Bool) : List (Single K C) := [⟨(pitch / 2, pitch / 2), radii gap, mats col gap⟩]

/-- The extents of the coarse grid, 121: it has one cell. -/
def domain : K × K := (pitch, pitch)

/-- `moderator`, 122. -/
def fill (col : String → C) : Name × C := mat col "Moderator"

end

/-! ### The compositions -/

open Verif.Phys in
/-- `addNuclide` for each nuclide of a list, for example 29-33. The symbols are resolved. -/
def compose (density : ℚ) (l : List (ℤ × ℚ)) : Material := l.foldl (fun m p => addNuclide m p.1 p.2) ⟨density, [], []⟩

/-- The fuel, 24-33. -/
def fuel : Phys.Material :=
  compose 10.257 [(92234, 6.11864e-6), (92235, 7.18132e-4), (92236, 3.29861e-6), (92238, 2.21546e-2), (8016, 4.57642e-2)]

/-- The gap, 37-44. -/
def helium : Phys.Material := Phys.addNuclideWt ⟨0.00012768, [], []⟩ 2004 1

/-- The clad, 48-81. -/
def clad : Phys.Material :=
  compose 6.56
    [(40090, 2.18865e-02), (40091, 4.77292e-03), (40092, 7.29551e-03), (40094, 7.39335e-03), (40096, 1.19110e-03), (50112, 4.68066e-06),
     (50114, 3.18478e-06), (50115, 1.64064e-06), (50116, 7.01616e-05), (50117, 3.70592e-05), (50118, 1.16872e-04), (50119, 4.14504e-05),
     (50120, 1.57212e-04), (50122, 2.23417e-05), (50124, 2.79392e-05), (26054, 8.68307e-06), (26056, 1.36306e-04), (26057, 3.14789e-06),
     (26058, 4.18926e-07), (24050, 3.30121e-06), (24052, 6.36606e-05), (24053, 7.21860e-06), (24054, 1.79686e-06), (72174, 3.54138e-09),
     (72176, 1.16423e-07), (72177, 4.11686e-07), (72178, 6.03806e-07), (72179, 3.01460e-07), (72180, 7.76449e-07)]

/-- The moderator, 84-93. -/
def water : Phys.Material := compose 0.743 [(8016, 2.48112e-02), (1001, 4.96224e-02), (5010, 1.07070e-05), (5011, 4.30971e-05)]

end Verif.Vera1
