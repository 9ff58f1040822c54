import Verif.Model.FpGeom
import Verif.Model.Pin

/-!
# Finding the face of a point in floating-point arithmetic

`FaceVertexMesh::faceContaining` for meshes of triangles and of quadrilaterals, with `float` or `double`. The assertions that the faces are counterclockwise or convex are
compiled out in a release build.
-/

namespace Verif.Fp

variable {K : Type} [Field K] [LinearOrder K] {p : ℕ} (R : Rounding K p)

/-- `Quadrilateral2::contains`, quadrilateral.hpp 383-394. -/
def quadContains (a b c d q : P2 K) : Bool := areCCW R a b q && areCCW R b c q && areCCW R c d q && areCCW R d a q

/-- `contains` of a face with the given corners, triangle.hpp 337-349 or quadrilateral.hpp 383-394. -/
def faceContains (vs : List (P2 K)) (q : P2 K) : Option Bool :=
  match vs with
  | [a, b, c] => some (triContains R a b c q)
  | [a, b, c, d] => some (quadContains R a b c d q)
  | _ => none

/-- The loop of `faceContaining`, face_vertex_mesh.hpp 462-467, from face `i` on; `none`: a corner is not a vertex of the mesh. -/
def locateFrom (mesh : Pin.Mesh K) (q : P2 K) : ℕ → List (List ℕ) → Option ℤ
  | _, [] => some (-1)
  | i, f :: fs =>
    match (f.mapM fun v => mesh.verts[v]?).bind fun vs => faceContains R vs q with
    | none => none
    | some true => some i
    | some false => locateFrom mesh q (i + 1) fs

/-- `faceContaining`, face_vertex_mesh.hpp 458-468. -/
def locate (mesh : Pin.Mesh K) (q : P2 K) : Option ℤ := locateFrom R mesh q 0 mesh.faces

end Verif.Fp
