import Verif.Model.Scene
import Verif.Props.LatticeProgramsSpec

/-! Specification of plane models made of any surfaces. -/

namespace Verif.SceneSpec

open Verif.Gmsh (DimTag)
open Verif.GmshSpec
open Verif.Overlay (Name Cut)
open Verif.OverlayGroupsSpec (material)
open Verif.Pins (Occ)
open Verif.ProgramsSpec Verif.Scene

variable {K C : Type} [Field K] [LinearOrder K]

/-- What is assumed of the kernel, for surfaces with the points `shape`: `map` lists for each surface and then for each rectangle its
fragments, `reg` are the points of the fragments; a surface is the union of its fragments, different fragments have no common point, and
all fragments are in the list of surfaces afterwards. -/
structure FragmentsOf (tags : List ℤ) (shape : ℤ → Set (K × K)) (cs : List (Cut K)) (map : List (List DimTag)) (all : List ℤ)
    (reg : ℤ → Set (K × K)) : Prop where
  full : map.length = tags.length + cs.length
  surfs : ∀ (i : Nat) e l, tags[i]? = some e → map[i]? = some l → shape e = {P | ∃ c ∈ l, P ∈ reg c.2}
  rects : ∀ (i : Nat) c l, cs[i]? = some c → map[tags.length + i]? = some l → rectSet c = {P | ∃ c ∈ l, P ∈ reg c.2}
  apart : ∀ a ∈ map.flatten, ∀ b ∈ map.flatten, a.2 ≠ b.2 → Disjoint (reg a.2) (reg b.2)
  sorted : all.Pairwise (· < ·)
  after : ∀ c ∈ map.flatten, c.2 ∈ all

/-- The groups of the model are materials of its surfaces. -/
structure Drawn (S : Sheet C) : Prop where
  wf : WF S.gm
  distinct : Distinct S.gm 2
  some : S.tags ≠ []
  sorted : S.tags.Pairwise (· < ·)
  below : ∀ e ∈ S.tags, e < S.next
  owned : ∀ d n e, In S.gm d n e → d = 2 ∧ (∃ x, n = material x) ∧ e ∈ S.tags

/-- The point is in a surface of material `x`. -/
def Lies (S : Sheet C) (shape : ℤ → Set (K × K)) (P : K × K) (x : Name) : Prop := P ∈ region shape S.gm 2 (material x)

/-- The points of a surface: of one from before, or of a ring. -/
def shapeOn (base : List ℤ) (shape : ℤ → Set (K × K)) (o : Occ K C) (e : ℤ) : Set (K × K) :=
  {P | e ∈ base ∧ P ∈ shape e ∨ e ∉ base ∧ P ∈ ringSet o e}

end Verif.SceneSpec
