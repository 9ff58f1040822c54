import Mathlib.Data.Int.Basic

/-!
# Element and mesh type codes

Model of `include/um2/mesh/element_types.hpp`.  A value of one of the three scoped enumerations
(underlying type `int8_t`) is its integer code, so that values which are not enumerators are
covered too.  `ASSERT(false)` in a `default:` branch is compiled out; the value after it is
returned.
-/

namespace Verif.ElemTypes

/-- `enum class VTKElemType`, element_types.hpp 14-23. -/
abbrev VTK := ℤ
def VTK.Invalid : VTK := 0
def VTK.Vertex : VTK := 1
def VTK.Line : VTK := 3
def VTK.Triangle : VTK := 5
def VTK.Quad : VTK := 9
def VTK.QuadraticEdge : VTK := 21
def VTK.QuadraticTriangle : VTK := 22
def VTK.QuadraticQuad : VTK := 23

/-- `enum class XDMFElemType`, element_types.hpp 26-35. -/
abbrev XDMF := ℤ
def XDMF.Invalid : XDMF := 0
def XDMF.Vertex : XDMF := 1
def XDMF.Line : XDMF := 2
def XDMF.Triangle : XDMF := 4
def XDMF.Quad : XDMF := 5
def XDMF.QuadraticEdge : XDMF := 34
def XDMF.QuadraticTriangle : XDMF := 36
def XDMF.QuadraticQuad : XDMF := 37

/-- `enum class MeshType`, element_types.hpp 37-45. -/
abbrev MeshType := ℤ
def MeshType.Invalid : MeshType := 0
def MeshType.Tri : MeshType := 3
def MeshType.Quad : MeshType := 4
def MeshType.TriQuad : MeshType := 7
def MeshType.QuadraticTri : MeshType := 6
def MeshType.QuadraticQuad : MeshType := 8
def MeshType.QuadraticTriQuad : MeshType := 14

/-- `verticesPerElem`, element_types.hpp 47-69. -/
def verticesPerElem (t : VTK) : ℤ :=
  if t = VTK.Vertex then 1
  else if t = VTK.Line then 2
  else if t = VTK.Triangle then 3
  else if t = VTK.Quad then 4
  else if t = VTK.QuadraticEdge then 3
  else if t = VTK.QuadraticTriangle then 6
  else if t = VTK.QuadraticQuad then 8
  else -1000

/-- `inferVTKElemType`, element_types.hpp 73-93. -/
def inferVTKElemType (n : ℤ) : VTK :=
  if n = 1 then VTK.Vertex
  else if n = 2 then VTK.Line
  else if n = 3 then VTK.Triangle
  else if n = 4 then VTK.Quad
  else if n = 6 then VTK.QuadraticTriangle
  else if n = 8 then VTK.QuadraticQuad
  else VTK.Invalid

/-- `xdmfToVTKElemType`, element_types.hpp 95-117. -/
def xdmfToVTK (x : XDMF) : VTK :=
  if x = XDMF.Vertex then VTK.Vertex
  else if x = XDMF.Line then VTK.Line
  else if x = XDMF.Triangle then VTK.Triangle
  else if x = XDMF.Quad then VTK.Quad
  else if x = XDMF.QuadraticEdge then VTK.QuadraticEdge
  else if x = XDMF.QuadraticTriangle then VTK.QuadraticTriangle
  else if x = XDMF.QuadraticQuad then VTK.QuadraticQuad
  else VTK.Invalid

/-- `vtkToXDMFElemType`, element_types.hpp 119-141. -/
def vtkToXDMF (x : VTK) : XDMF :=
  if x = VTK.Vertex then XDMF.Vertex
  else if x = VTK.Line then XDMF.Line
  else if x = VTK.Triangle then XDMF.Triangle
  else if x = VTK.Quad then XDMF.Quad
  else if x = VTK.QuadraticEdge then XDMF.QuadraticEdge
  else if x = VTK.QuadraticTriangle then XDMF.QuadraticTriangle
  else if x = VTK.QuadraticQuad then XDMF.QuadraticQuad
  else XDMF.Invalid

/-- `getMeshType`, element_types.hpp 143-178. -/
def getMeshType : List VTK → MeshType
  | [e] =>
    if e = VTK.Triangle then MeshType.Tri
    else if e = VTK.Quad then MeshType.Quad
    else if e = VTK.QuadraticTriangle then MeshType.QuadraticTri
    else if e = VTK.QuadraticQuad then MeshType.QuadraticQuad
    else MeshType.Invalid
  | [a, b] =>
    let (e0, e1) := if a > b then (b, a) else (a, b)
    if e0 = VTK.Triangle ∧ e1 = VTK.Quad then MeshType.TriQuad
    else if e0 = VTK.QuadraticTriangle ∧ e1 = VTK.QuadraticQuad then MeshType.QuadraticTriQuad
    else MeshType.Invalid
  | _ => MeshType.Invalid

end Verif.ElemTypes
