import Verif.Model.GmshGroups

/-! Specification of the physical groups of Gmsh under boolean operations (C89, C90). -/

namespace Verif.GmshSpec

open Verif.Gmsh (Gm Group DimTag)

variable {N C : Type}

/-- What holds of every model that Gmsh returns: groups in the order of dimension and tag, positive tags, entities in increasing
order, no empty group. -/
structure WF (s : Gm N C) : Prop where
  sorted : s.groups.Pairwise fun g h => g.dim < h.dim ∨ (g.dim = h.dim ∧ g.tag < h.tag)
  pos : ∀ g ∈ s.groups, 0 < g.tag
  ents : ∀ g ∈ s.groups, g.ents.Pairwise (· < ·) ∧ g.ents ≠ []

/-- No two groups of dimension `d` share a name. -/
def Distinct (s : Gm N C) (d : ℤ) : Prop := ∀ g ∈ s.groups, ∀ h ∈ s.groups, g.dim = d → h.dim = d → g.name = h.name → g = h

/-- Entity `e` of dimension `d` is in a group named `n`. -/
def In (s : Gm N C) (d : ℤ) (n : N) (e : ℤ) : Prop := ∃ g ∈ s.groups, g.dim = d ∧ g.name = n ∧ e ∈ g.ents

/-- The inputs that are accepted: two non-empty lists of surfaces, or of volumes, by increasing tag. -/
structure Accepted (obj tool : List DimTag) (d : ℤ) : Prop where
  objs : obj ≠ [] ∧ (obj.map (·.2)).Pairwise (· < ·)
  tools : tool ≠ [] ∧ (tool.map (·.2)).Pairwise (· < ·)
  dim : ∀ x ∈ obj ++ tool, x.1 = d
  solid : d = 2 ∨ d = 3

/-- What entity `e` becomes: the children of the input with this tag; itself, if it is no input. -/
def become (inputs : List DimTag) (map : List (List DimTag)) (e : ℤ) : List ℤ :=
  match inputs.findIdx? (fun x => x.2 == e) with
  | some k => (map.getD k []).map (·.2)
  | none => [e]

/-- The points of the entities of the groups named `n`. -/
def region {P : Type} (reg : ℤ → Set P) (s : Gm N C) (d : ℤ) (n : N) : Set P := {p | ∃ e, In s d n e ∧ p ∈ reg e}

end Verif.GmshSpec
