import Mathlib.Data.List.Lex
import Verif.Model.GmshGroups
import Verif.Model.Names

/-!
# The coarse grid and the physical groups

Model of `getMaterials`, src/gmsh/model.cpp 77-109, and of the part of `overlayCoarseGrid` that handles materials, groups and
entities, 1207-1233 and 1258-1328 (the part that two and three dimensions share).

As in `Gmsh.Gm`, Gmsh is assumed: a removed entity leaves its groups, and a group without entities is gone.  The tags of the
rectangles, the children of the fragments and the entities afterwards are arguments.  Names are lists of bytes.
-/

namespace Verif.Overlay

open Verif.Str (Byte)
open Verif.XSLib (Res)
open Verif.Gmsh (Gm DimTag)

/-- Bytes are compared as numbers. -/
instance byteOrder : LinearOrder UInt8 := LinearOrder.lift' (fun x => x.toNat) fun _ _ h => UInt8.toNat_inj.1 h

abbrev Name := List Byte

/-- `"Material"`. -/
def preMaterial : Name := [77, 97, 116, 101, 114, 105, 97, 108]

/-- `"Coarse_Cell"`. -/
def preCoarse : Name := [67, 111, 97, 114, 115, 101, 95, 67, 101, 108, 108]

/-- `"Material_" + name`. -/
def matName (n : Name) : Name := preMaterial ++ 95 :: n

/-- `"Coarse_Cell_00000"`. -/
def cell0 : Name := preCoarse ++ [95, 48, 48, 48, 48, 48]

section
variable {C : Type}

/-- `getMaterials`, model.cpp 77-109: `substr(9)` of a shorter name throws, an empty group has no first entity. -/
def getMaterials (color : DimTag → C) : List (Gmsh.Group Name) → List (Name × C) → Res (List (Name × C))
  | [], mats => .ok mats
  | g :: gs, mats =>
    if preMaterial.isPrefixOf g.name then
      if g.name.length < 9 then .refused else
      if mats.any fun m => m.1 == g.name.drop 9 then getMaterials color gs mats else
      match g.ents with
      | [] => .undef
      | e :: _ => getMaterials color gs (mats ++ [(g.name.drop 9, color (g.dim, e))])
    else getMaterials color gs mats

/-- The fill material goes to the end, model.cpp 1214-1233: it changes places with the last one, or is appended. -/
def moveFill (mats : List (Name × C)) (fill : Name × C) : List (Name × C) :=
  match mats.findIdx? fun m => m.1 == fill.1 with
  | none => mats ++ [fill]
  | some i =>
    match mats[i]?, mats.getLast? with
    | some a, some b => (mats.set i b).set (mats.length - 1) a
    | _, _ => mats

/-- The groups of the coarse cells, model.cpp 1265-1271. -/
def cellGroups (d : ℤ) : List ℤ → Name → Gm Name C → Res (Gm Name C)
  | [], _, s => .ok s
  | t :: ts, name, s =>
    (Res.ofOption (Names.increment name)).bind fun next => cellGroups d ts next (s.add d [t] (-1) name)

/-- Without repetitions of neighbours, model.cpp 1305-1313. -/
def dedupAdjacent : List ℤ → List ℤ
  | a :: b :: l => if b = a then dedupAdjacent (b :: l) else a :: dedupAdjacent (b :: l)
  | l => l

/-- `dont_remove`, model.cpp 1284-1313. -/
def keepTags (d : ℤ) (groups : List (Gmsh.Group Name)) : List ℤ :=
  dedupAdjacent (((groups.filter fun g => g.dim == d && preCoarse.isPrefixOf g.name).flatMap (·.ents)).insertionSort (· ≤ ·))

/-- The groups of Gmsh after the removal of entities. -/
def removeEnts (s : Gm Name C) (d : ℤ) (l : List ℤ) : Gm Name C :=
  let rest := s.groups.map fun g => if g.dim = d then { g with ents := g.ents.filter fun e => decide (e ∉ l) } else g
  { s with groups := rest.filter fun g => decide (g.ents ≠ []) }

/-- `overlayCoarseGrid`, model.cpp 1207-1233, 1258-1328. `model` are the entities before, by tag; `cc` the tags of the rectangles or
boxes of the coarse cells; `map` the children; `all` the entities after the fragment, by tag. The result is the model and the
entities that were removed. -/
def overlay (clos : DimTag → List DimTag) (s : Gm Name C) (d : ℤ) (model cc : List ℤ) (map : List (List DimTag)) (all : List ℤ)
    (fill : Name × C) : Res (Gm Name C × List ℤ) :=
  (getMaterials s.color s.groups []).bind fun mats =>
  (Gmsh.addToPhysicalGroup s d cc (-1) (matName fill.1)).bind fun s =>
  (cellGroups d cc cell0 s).bind fun s =>
  (Gmsh.groupPreserving clos s (model.map fun t => (d, t)) ((cc.insertionSort (· ≤ ·)).map fun t => (d, t)) map
    ((moveFill mats fill).map fun m => (matName m.1, m.2))).bind fun s =>
  let gone := Gmsh.setDiff all (keepTags d s.groups)
  Res.ok (removeEnts s d gone, gone)

end

end Verif.Overlay
