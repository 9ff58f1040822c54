import Verif.Model.CApi
import Verif.Props.OverlayGridSpec
import Verif.Props.MpactTotals

/-! Specification of the C interface (C115). -/

namespace Verif.CApi

open Verif.Mpact (Model CoarseCell IsMeshOf)
open Verif.Pin (Mesh)

variable {K M : Type}

/-- The indices of a place, by level of the hierarchy. -/
def Spot.path (p : Spot) : OverlaySpec.Path := ⟨p.ix, p.iy, p.iz, p.jx, p.jy, p.kx, p.ky⟩

/-- The faces of a mesh refer to its vertices. -/
def Refers (mesh : Mesh K) : Prop := ∀ f ∈ mesh.faces, ∀ v ∈ f, v < mesh.verts.length

/-- The corners of face `i`. -/
def Corners (mesh : Mesh K) (i : Nat) (vs : List (K × K)) : Prop :=
  ∃ f, mesh.faces[i]? = some f ∧ f.map (fun v => mesh.verts[v]?) = vs.map some

/-- Coarse cell `cc` is `c`. -/
def IsCell (s : Model K M) (cc : ℤ) (c : CoarseCell K) : Prop := 0 ≤ cc ∧ s.cells[cc.toNat]? = some c

/-- Coarse cell `cc` is `c`, has a mesh with a material for every face, and the mesh is `mesh`. -/
def Meshed (s : Model K M) (cc : ℤ) (c : CoarseCell K) (mesh : Mesh K) : Prop :=
  IsCell s cc c ∧ IsMeshOf s c mesh ∧ mesh.faces.length = c.mats.length ∧ Refers mesh

end Verif.CApi
