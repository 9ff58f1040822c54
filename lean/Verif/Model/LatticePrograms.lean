import Verif.Model.GmshPins
import Verif.Model.OverlayGrid

/-!
# Programs that build a plane model from lattices of pins

The programs c5g7_2d_variable_grid.cpp, crocus_2d_variable_grid.cpp and vera_4_*_2d_variable_grid.cpp under models/ have the same
form: calls of `addCylindricalPinLattice2D` on an empty Gmsh model, `addCoarseGrid` on an MPACT model without cells, and
`overlayCoarseGrid`.  The mesh generator and what comes after it are not part of this model.

Numbers are exact.  The pins of a lattice all have the same extents, as in these programs.  New surfaces get consecutive tags
(assumed of Gmsh).
-/

namespace Verif.Programs

open Verif.XSLib (Res)
open Verif.Gmsh (Gm DimTag)
open Verif.Overlay (Name Cut cuts overlay)
open Verif.Pins

variable {K C : Type}

/-- The arguments of one call of `addCylindricalPinLattice2D`: the ids of the pins, the extents of all pins, radii and materials by id,
and the offset. -/
structure Placement (K C : Type) where
  ids : List (List ℤ)
  pitch : K × K
  radii : List (List K)
  mats : List (List (Name × C))
  off : K × K

variable [Field K] [LinearOrder K]

/-- The calls of `addCylindricalPinLattice2D` one after the other, for example c5g7_2d_variable_grid.cpp 140-149,
crocus_2d_variable_grid.cpp 173-189, vera_4_rodded_2d_variable_grid.cpp 333-348. -/
def addAll (clos : DimTag → List DimTag) (sort : List K → List K) (eps : K) : List (Placement K C) → Occ K C → Res (Occ K C)
  | [], o => .ok o
  | p :: ps, o =>
    (addLattice clos sort eps o p.ids (List.replicate p.radii.length p.pitch) p.radii p.mats p.off).bind fun r =>
    addAll clos sort eps ps r.1

/-- The Gmsh model after `initialize`: nothing in it. -/
def start (color : DimTag → C) : Occ K C := ⟨⟨[], color⟩, [], 1⟩

/-- The program up to the search for the rectangles of the coarse cells, for example c5g7_2d_variable_grid.cpp 140-169; `s` is the
MPACT model with the materials. -/
def build {M : Type} (clos : DimTag → List DimTag) (sort : List K → List K) (eps : K) (color : DimTag → C) (pls : List (Placement K C))
    (s : Mpact.Model K M) (ext : K × K) (nx ny : ℤ) : Res (Occ K C × Mpact.Model K M × List (Cut K)) :=
  (addAll clos sort eps pls (start color)).bind fun o =>
  (Res.ofOption (Mpact.addCoarseGrid sort eps s ext nx ny)).bind fun m =>
  (cuts m).bind fun cs => .ok (o, m, cs)

/-- `getEntities(entities, 2)`: the tags of the surfaces in increasing order. -/
def surfaces (o : Occ K C) : List ℤ := ((o.rings.map (·.tag)).dedup).insertionSort (· ≤ ·)

/-- The tags that `addRectangle` gives to the rectangles of the coarse cells. -/
def cellTags (o : Occ K C) (cs : List (Cut K)) : List ℤ := (List.range cs.length).map fun i : Nat => o.next + i

/-- The rest of `overlayCoarseGrid`, in which the kernel has answered the fragment with `map` and the surfaces `all`. -/
def lay (clos : DimTag → List DimTag) (o : Occ K C) (cs : List (Cut K)) (map : List (List DimTag)) (all : List ℤ) (fill : Name × C) :
    Res (Gm Name C × List ℤ) :=
  overlay clos o.gm 2 (surfaces o) (cellTags o cs) map all fill

end Verif.Programs
