import Verif.Props.C5G7PlaneSpec
import Verif.Props.CmfdInfoSpec
import Verif.Props.PinArea
import Verif.Props.RectPin

/-! Specification of the C5G7 core in space (C113): the plane benchmark up to nine tenths of the height, water above, and pin cells with
the benchmark's amount of every material. -/

namespace Verif.C5G7CoreSpec

open Verif.C5G7Spec
open Verif.CmfdInfo (Tile IsTile)
open Verif.Mpact (Model)
open Verif.ElemTypes (MeshType)

variable {M : Type}

/-- The areas of the faces of a coarse cell, with their materials. -/
def Faces (s : Model ℝ M) (id : Nat) (fs : List (ℝ × M)) : Prop :=
  ∃ (cell : Mpact.CoarseCell ℝ) (meshes : List (Pin.Mesh ℝ)) (mesh : Pin.Mesh ℝ), s.cells[id]? = some cell ∧ s.meshes cell.meshType = some meshes ∧ 0 ≤ cell.meshId ∧
    meshes[cell.meshId.toNat]? = some mesh ∧ mesh.faces.length = cell.mats.length ∧ fs.length = cell.mats.length ∧
    ∀ (k : Nat) (face : List Nat) (mat : Int8), mesh.faces[k]? = some face → cell.mats[k]? = some mat →
      0 ≤ mat.toInt ∧ ∃ area m, fs[k]? = some (area, m) ∧ s.materials[mat.toInt.toNat]? = some m ∧
        (if cell.meshType = MeshType.QuadraticQuad then PropsPinArea.faceArea8 mesh face else PropsRectPin.faceArea mesh face) = some area

/-- The area with a material. -/
noncomputable def amount (nm : M → Overlay.Name) (fs : List (ℝ × M)) (x : Overlay.Name) : ℝ :=
  ((fs.filter fun f => nm f.2 = x).map Prod.fst).sum

/-- What is in the cylinder of a pin cell: the square in column `c` and row `r` from the bottom, slice `k` from the bottom, pin in column `i`
and row `j`. -/
def content (c r k i j : Nat) : String :=
  if k = 9 ∨ square c (2 - r) = .water then "Moderator" else pin (square c (2 - r)) (away i) (away j)

/-- The core: three by three squares of ten slices of 21.42 cm, of 17 by 17 cells of 1.26 cm, which the model has with all their sides.  A cell
with a pin has the area of the benchmark's circle in the material of the pin and the rest in moderator, a cell without only moderator. -/
def Core (nm : M → Overlay.Name) (s : Model ℝ M) : Prop :=
  (∀ t, IsTile s t → t.path.asy.1 < 3 ∧ t.path.asy.2 < 3 ∧ t.path.lev < 10 ∧ t.path.rtm.1 < 17 ∧ t.path.rtm.2 < 17 ∧ t.path.cell = (0, 0)) ∧
  ∀ c < 3, ∀ r < 3, ∀ k < 10, ∀ i < 17, ∀ j < 17, ∃ t, IsTile s t ∧ t.path = ⟨(c, r), k, (i, j), (0, 0)⟩ ∧
    t.lo = ((c : ℝ) * (2142 / 100) + i * (126 / 100), (r : ℝ) * (2142 / 100) + j * (126 / 100)) ∧
    t.hi = ((c : ℝ) * (2142 / 100) + (i + 1) * (126 / 100), (r : ℝ) * (2142 / 100) + (j + 1) * (126 / 100)) ∧
    t.z = ((k : ℝ) + 1 / 2) * (2142 / 100) ∧
    ∃ fs, Faces s t.id fs ∧
      (∀ f ∈ fs, nm f.2 = name (content c r k i j) ∨ nm f.2 = name "Moderator") ∧
      (content c r k i j ≠ "Moderator" → amount nm fs (name (content c r k i j)) = Real.pi * (54 / 100) ^ 2 ∧
        amount nm fs (name "Moderator") = (126 / 100) ^ 2 - Real.pi * (54 / 100) ^ 2) ∧
      (content c r k i j = "Moderator" → amount nm fs (name "Moderator") = (126 / 100) ^ 2)

end Verif.C5G7CoreSpec
