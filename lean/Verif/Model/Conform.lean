import Mathlib.Data.List.Nodup

/-!
# Conforming meshes of quadrilaterals

Specification used by C60 and C62; nothing here is a model of code.
-/

namespace Verif.Conform

/-- A directed edge of a face: from `a` to `b`, with a midpoint for quadratic faces. -/
structure Edge (V : Type) where
  a : V
  b : V
  mid : Option V
deriving DecidableEq

/-- The same edge in the other direction. -/
def Edge.rev {V : Type} (e : Edge V) : Edge V := ⟨e.b, e.a, e.mid⟩

/-- The edges of a linear quadrilateral. -/
def quadEdges : List Nat → List (Edge Nat)
  | [a, b, c, d] => [⟨a, b, none⟩, ⟨b, c, none⟩, ⟨c, d, none⟩, ⟨d, a, none⟩]
  | _ => []

/-- The edges of a quadratic quadrilateral: four corners, then the midpoint of the edge that begins at each corner. -/
def quad8Edges : List Nat → List (Edge Nat)
  | [a, b, c, d, ab, bc, cd, da] => [⟨a, b, some ab⟩, ⟨b, c, some bc⟩, ⟨c, d, some cd⟩, ⟨d, a, some da⟩]
  | _ => []

/-- A mesh with `n` vertices is conforming, with boundary `loop`. -/
structure Conforming (n : Nat) (edges : List Nat → List (Edge Nat)) (faces : List (List Nat)) (loop : List (Edge Nat)) : Prop where
  /-- every face has four edges -/
  quad : ∀ f ∈ faces, (edges f).length = 4
  /-- connectivity is in range -/
  inRange : ∀ f ∈ faces, ∀ v ∈ f, v < n
  /-- no face uses a vertex twice -/
  nodup : ∀ f ∈ faces, f.Nodup
  /-- every vertex belongs to a face -/
  used : ∀ v < n, ∃ f ∈ faces, v ∈ f
  /-- an edge with a direction belongs to one face only -/
  unique : ∀ (p q k l : Nat) (f g : List Nat) (e e' : Edge Nat), faces[p]? = some f → faces[q]? = some g → (edges f)[k]? = some e → (edges g)[l]? = some e' →
    e.a = e'.a → e.b = e'.b → p = q ∧ k = l
  /-- an edge not on the boundary belongs, in the other direction and with the same midpoint, to another face -/
  paired : ∀ f ∈ faces, ∀ e ∈ edges f, e ∈ loop ∨ ∃ g ∈ faces, g ≠ f ∧ e.rev ∈ edges g
  /-- an edge on the boundary belongs to a face … -/
  boundary : ∀ e ∈ loop, ∃ f ∈ faces, e ∈ edges f
  /-- … but not in the other direction -/
  single : ∀ e ∈ loop, ∀ f ∈ faces, ∀ e' ∈ edges f, ¬ (e'.a = e.b ∧ e'.b = e.a)
  /-- the boundary passes each of its vertices once … -/
  simple : (loop.map (·.a)).Nodup
  /-- … and is closed: each edge begins where the previous one ends -/
  closed : loop.map (·.b) = (loop.map (·.a)).rotate 1

end Verif.Conform
