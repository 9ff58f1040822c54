import Verif.Model.OverlayGroups

/-!
# The coarse grid in three dimensions: from volumes to surfaces

Model of the last part of `overlayCoarseGrid`, src/gmsh/model.cpp 1319-1410.  The surfaces around a volume (`getAdjacencies`), the
children of the intersection and the entities before and after are arguments.  The physical groups of the volumes, which are removed
at 1371-1372, play no further part: `groupPreservingIntersect` removes all groups and adds those of the surfaces.
-/

namespace Verif.Overlay

open Verif.XSLib (Res)
open Verif.Gmsh (Gm DimTag insertTag)

variable {C : Type}

/-- The surfaces around the volumes of a group, model.cpp 1335-1349. -/
def around (adj : ℤ → List ℤ) (ents : List ℤ) : List ℤ := (ents.flatMap adj).foldl insertTag []

/-- A group of surfaces for every group of volumes, model.cpp 1322-1352. -/
def surfaceGroups (adj : ℤ → List ℤ) : List (Gmsh.Group Name) → Gm Name C → Gm Name C
  | [], s => s
  | g :: gs, s => surfaceGroups adj gs (s.add 2 (around adj g.ents) (-1) g.name)

/-- The children of the rectangles, model.cpp 1378-1389. -/
def gridChildren (nModel nGrid : Nat) (map : List (List DimTag)) : List ℤ :=
  ((((map.drop nModel).take nGrid).flatten).map (·.2)).foldl insertTag []

/-- `overlayCoarseGrid`, model.cpp 1319-1410. `model` are the surfaces, `grid` the rectangles, `all` the surfaces after the
intersection, `mats` the materials with the fill material at the end. -/
def overlaySurfaces (clos : DimTag → List DimTag) (adj : ℤ → List ℤ) (s : Gm Name C) (model grid : List ℤ) (map : List (List DimTag))
    (all : List ℤ) (mats : List (Name × C)) : Res (Gm Name C × List ℤ) :=
  (Gmsh.groupPreserving clos (surfaceGroups adj s.groups s) (model.map fun t => (2, t))
    ((grid.insertionSort (· ≤ ·)).map fun t => (2, t)) map (mats.map fun m => (matName m.1, m.2))).bind fun s =>
  if map.length < model.length + grid.length then .undef else
  let gone := Gmsh.setDiff all (gridChildren model.length grid.length map)
  .ok (removeEnts s 2 gone, gone)

end Verif.Overlay
