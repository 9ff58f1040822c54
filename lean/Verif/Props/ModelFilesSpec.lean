import Verif.Props.MpactTotals

/-!
# C87 The volume of a material: specification
-/

namespace Verif.MFiles

open Verif.Pin (Mesh)
open Verif.Mpact

set_option linter.unusedSectionVars false
variable {K M : Type} [Field K] [LinearOrder K]

/-- The thicknesses of the slabs between ascending planes. -/
def thick (zs : List K) : List K := List.zipWith (fun hi lo => hi - lo) zs.tail zs

/-- The lattices of the assemblies of the core, each with the thickness of its slab. -/
def placedSlabs (s : Model K M) : List (ℤ × K) :=
  s.core.children.flatMap fun a => (s.assemblies[a.toNat]?).elim [] fun asy => asy.children.zip (thick asy.zs)

/-- The coarse cells of a lattice. -/
def slabCells (s : Model K M) (l : ℤ) : List ℤ := below s.rtms (fun r => r.children) (below s.lattices (fun l => l.children) [l])

/-- `F c` are the materials and the areas of the faces of the coarse cell `c`. -/
def FaceAreas (area : Mesh K → Nat → K) (s : Model K M) (F : ℤ → List (Int8 × K)) : Prop :=
  ∀ c ∈ placedCells s, ∃ cell mesh, s.cells[c.toNat]? = some cell ∧ IsMeshOf s cell mesh ∧
    F c = cell.mats.zip ((List.range mesh.faces.length).map (area mesh))

/-- The area of the material `m` in a coarse cell. -/
def matArea (F : ℤ → List (Int8 × K)) (m : Nat) (c : ℤ) : K := (((F c).filter fun q => q.1.toInt = (m : ℤ)).map (·.2)).sum

/-- The volume of the material `m` in the core: over all slabs, the area in the cells of the slab times the thickness. -/
def volume (s : Model K M) (F : ℤ → List (Int8 × K)) (m : Nat) : K :=
  ((placedSlabs s).map fun p => ((slabCells s p.1).map (matArea F m)).sum * p.2).sum

/-- The volume of everything. -/
def totalVolume (s : Model K M) (F : ℤ → List (Int8 × K)) : K :=
  ((placedSlabs s).map fun p => ((slabCells s p.1).map fun c => ((F c).map (·.2)).sum).sum * p.2).sum

/-- Some face in the core has the material `m`. -/
def Used (s : Model K M) (F : ℤ → List (Int8 × K)) (m : Nat) : Prop := ∃ c ∈ placedCells s, ∃ q ∈ F c, q.1.toInt = (m : ℤ)

end Verif.MFiles
