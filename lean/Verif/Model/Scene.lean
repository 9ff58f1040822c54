import Verif.Model.LatticePrograms

/-!
# Programs that build a plane model from any surfaces

The programs nuscale_2d.cpp and fnr_*_2d_*.cpp under models/ lay the coarse grid over a Gmsh model that has other surfaces beside the
rings of pins.  Here a Gmsh model is its groups, the tags of its surfaces and the next free tag; the points of the surfaces are
outside the model.  New surfaces get consecutive tags (assumed of Gmsh).
-/

namespace Verif.Scene

open Verif.XSLib (Res)
open Verif.Gmsh (Gm DimTag)
open Verif.Overlay (Name Cut cuts overlay)
open Verif.Pins (Occ)

variable {K C M : Type}

/-- A Gmsh model: the groups and colours, the tags of the surfaces in increasing order (`getEntities(entities, 2)`), and the next tag. -/
structure Sheet (C : Type) where
  gm : Gm Name C
  tags : List ℤ
  next : ℤ

/-- The tags of the next `n` surfaces. -/
def fresh (next : ℤ) (n : Nat) : List ℤ := (List.range n).map fun i : Nat => next + i

/-- The surfaces `base` and the rings of pins that were added later. -/
def ofOcc (base : List ℤ) (o : Occ K C) : Sheet C := ⟨o.gm, ((base ++ o.rings.map (·.tag)).dedup).insertionSort (· ≤ ·), o.next⟩

/-- `addCoarseGrid` and the search for the rectangles of the coarse cells, for example nuscale_2d.cpp 641-652; `s` is the MPACT model with
the materials. -/
def gridCuts [Field K] [LinearOrder K] (sort : List K → List K) (eps : K) (s : Mpact.Model K M) (ext : K × K) (nx ny : ℤ) :
    Res (Mpact.Model K M × List (Cut K)) :=
  (Res.ofOption (Mpact.addCoarseGrid sort eps s ext nx ny)).bind fun m => (cuts m).bind fun cs => .ok (m, cs)

/-- The rest of `overlayCoarseGrid`, in which the kernel has answered the fragment with `map` and the surfaces `all`. -/
def lay (clos : DimTag → List DimTag) (S : Sheet C) (cs : List (Cut K)) (map : List (List DimTag)) (all : List ℤ) (fill : Name × C) :
    Res (Gm Name C × List ℤ) :=
  overlay clos S.gm 2 S.tags (fresh S.next cs.length) map all fill

end Verif.Scene
