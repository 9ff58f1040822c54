import Verif.Props.GmshGroupsSpec
import Verif.Model.OverlayGroups

/-! Specification of the groups under the coarse grid (C92). -/

namespace Verif.OverlayGroupsSpec

open Verif.Gmsh (Gm DimTag)
open Verif.GmshSpec
open Verif.Overlay (Name)

/-- `"Material_"` and a name. -/
def material (x : Name) : Name := [77, 97, 116, 101, 114, 105, 97, 108, 95] ++ x

/-- `"Coarse_Cell_"` and a number of five digits. -/
def cell (i : Nat) : Name := [67, 111, 97, 114, 115, 101, 95, 67, 101, 108, 108, 95] ++ Names.getASCIINumber i

/-- The fragments of entity `e`. -/
def pieces (d : ℤ) (model cc : List ℤ) (map : List (List DimTag)) (e : ℤ) : List ℤ :=
  become (model.map (fun t => (d, t)) ++ cc.map fun t => (d, t)) map e

/-- What the overlay finds: entities `model` in groups, new entities `cc`, one for each coarse cell, and the fragments of both. -/
structure Setting {C : Type} (s : Gm Name C) (d : ℤ) (model cc : List ℤ) (map : List (List DimTag)) (all : List ℤ) : Prop where
  solid : d = 2 ∨ d = 3
  wf : WF s
  distinct : Distinct s d
  /-- The name of a material is not cut short. -/
  named : ∀ g ∈ s.groups, g.name ≠ [77, 97, 116, 101, 114, 105, 97, 108]
  /-- No grid was laid over the model before. -/
  first : ∀ g ∈ s.groups, ¬ [67, 111, 97, 114, 115, 101, 95, 67, 101, 108, 108] <+: g.name
  objs : model ≠ [] ∧ model.Pairwise (· < ·)
  cells : cc ≠ [] ∧ cc.Pairwise (· < ·)
  new : ∀ t ∈ cc, t ∉ model
  count : cc.length ≤ 100000
  owned : ∀ n e, In s d n e → e ∈ model
  full : map.length = model.length + cc.length
  /-- Every coarse cell has fragments. -/
  some : ∀ t ∈ cc, pieces d model cc map t ≠ []
  sorted : all.Pairwise (· < ·)
  after : ∀ c ∈ map.flatten, c.2 ∈ all

/-- Entity `e` is a fragment of the grid. -/
def InGrid (d : ℤ) (model cc : List ℤ) (map : List (List DimTag)) (e : ℤ) : Prop := ∃ t ∈ cc, e ∈ pieces d model cc map t

/-- Entity `e` is a fragment of something in group `n`. -/
def Was {C : Type} (s : Gm Name C) (d : ℤ) (model cc : List ℤ) (map : List (List DimTag)) (n : Name) (e : ℤ) : Prop :=
  ∃ e0, In s d n e0 ∧ e ∈ pieces d model cc map e0

end Verif.OverlayGroupsSpec
