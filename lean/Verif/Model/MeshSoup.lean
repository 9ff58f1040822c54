import Verif.Model.Mesh
import Verif.Model.Soup
import Verif.Model.ElementTypes
import Verif.Model.Quadratic

/-!
# Conversion between FaceVertexMesh and PolytopeSoup, and the orientation pass of `validate`

src/mesh/face_vertex_mesh.cpp 32-96, 222-266.  Exact arithmetic.
-/

namespace Verif.Mesh

open Verif.Polytope Verif.ElemTypes Verif.Geom

variable {K : Type} [Field K] [LinearOrder K] {N : Nat} {α Nm D : Type}

/-- `getVTKElemType<P, N>`, face_vertex_mesh.cpp 34-50. -/
def vtkElemType (P N : Nat) : VTK :=
  if P = 1 ∧ N = 3 then VTK.Triangle
  else if P = 1 ∧ N = 4 then VTK.Quad
  else if P = 2 ∧ N = 6 then VTK.QuadraticTriangle
  else if P = 2 ∧ N = 8 then VTK.QuadraticQuad
  else VTK.Invalid

/-- The vertex loop of the constructor, face_vertex_mesh.cpp 74-83: vertex `i` and the following ones.  The elements of the
resized vector that the loop does not reach keep their indeterminate values `junk`. -/
def copyVerts (eps z : K) (junk : Nat → Pt 2 K) : Nat → List (Pt 3 K) → List (Pt 2 K)
  | _, [] => []
  | i, p :: ps =>
    ![p 0, p 1] ::
      (if eps < |p 2 - z| then (List.range ps.length).map fun k => junk (i + 1 + k)
       else copyVerts eps z junk (i + 1) ps)

/-- Face `i` of the connectivity loop, face_vertex_mesh.cpp 88-92. -/
def readFace (N : Nat) (conn : List Nat) (i : Nat) : Option (Fin N → Nat) :=
  if h : ∀ j : Fin N, i * N + j.val < conn.length then some fun j => conn[i * N + j.val]'(h j) else none

/-- `FaceVertexMesh(soup, validate = false)`, face_vertex_mesh.cpp 53-96.  The inner `none` is the end of the program by
`LOG_ERROR`, which happens if `exitOnError` is set (the default). -/
def ofSoup (N : Nat) (ty : VTK) (exitOnError : Bool) (eps : K) (junk : Nat → Pt 2 K) (s : Soup (Pt 3 K) VTK Nm D) :
    Option (Option (FVM (Pt 2 K) N)) :=
  let types := getElemTypes s
  if types.length ≠ 1 ∧ exitOnError then some none
  else (types[0]?).bind fun t =>
    if t ≠ ty ∧ exitOnError then some none
    else (s.verts[0]?).bind fun p0 =>
      ((List.range s.types.length).mapM (readFace N s.conn)).map fun fv =>
        some { v := copyVerts eps (p0 2) junk 0 s.verts, fv := fv }

/-- `operator PolytopeSoup`, face_vertex_mesh.cpp 223-245. -/
def toSoup (ty : VTK) (m : FVM (Pt 2 K) N) : Soup (Pt 3 K) VTK Nm D :=
  let s := m.v.foldl (fun s p => (Polytope.addVertex s ![p 0, p 1, 0]).1) Polytope.empty
  m.fv.foldl (fun s c => (Polytope.addElement s ty (List.ofFn c)).1) s

/-- `checkCCWFaces`, face_vertex_mesh.cpp 250-266. -/
def checkCCW (isCCW : (Fin N → α) → Bool) (flip : (Fin N → Nat) → Fin N → Nat) (m : FVM α N) : Option (FVM α N) :=
  (List.range m.fv.length).foldlM (fun m i => do
    let c ← m.fv[i]?
    let f ← loadFace m.v c
    if isCCW f then pure m else flipFace flip m i) m

/-- `QuadraticQuadrilateral::isCCW`, quadratic_quadrilateral.hpp 321-327. -/
def quad8IsCCW (eps : K) (v : Poly 8 2 K) : Bool := quadIsCCW eps (linearPolygon (m := 4) v)

end Verif.Mesh
