import Verif.Model.MortonPoints
import Verif.Model.Box
import Verif.Model.Geom

/-!
# Model of FaceVertexMesh: include/um2/mesh/face_vertex_mesh.hpp, src/mesh/face_vertex_mesh.cpp

Vertex ids are natural numbers: a negative id is, like one that is too large, an access outside
`_v`, and every access outside an array is undefined behaviour (`none`).  The vertex type `α` is
arbitrary where the code only moves vertices around.  The 32-bit range of the offsets is not
modelled (the number of entries `N * numFaces()` is assumed to fit, as it does for any vector).
-/

namespace Verif.Mesh

/-- `FaceVertexMesh<P, N>`, face_vertex_mesh.hpp 66-72. -/
structure FVM (α : Type) (N : Nat) where
  isMorton : Bool := false
  hasVF : Bool := false
  v : List α
  fv : List (Fin N → Nat)
  vfOffsets : List Nat := []
  vf : List Nat := []

variable {α : Type} {N : Nat}

/-- `getFace(i)`, face_vertex_mesh.hpp 372-379, for a face with connectivity `c`: `Face{conn, data}`
reads every vertex. -/
def loadFace (v : List α) (c : Fin N → Nat) : Option (Fin N → α) :=
  if h : ∀ j, c j < v.length then some fun j => v[c j]'(h j) else none

/-- `addVertex`, face_vertex_mesh.hpp 394-400. -/
def addVertex (m : FVM α N) (p : α) : FVM α N := { m with hasVF := false, v := m.v ++ [p] }

/-- `addFace`, face_vertex_mesh.hpp 402-408. -/
def addFace (m : FVM α N) (c : Fin N → Nat) : FVM α N := { m with hasVF := false, fv := m.fv ++ [c] }

/-- `flipFace(i)`, face_vertex_mesh.hpp 410-426; `flip` is `triFlip`, `quadFlip`, `tri6Flip` or
`quad8Flip` on vertex ids. -/
def flipFace (flip : (Fin N → Nat) → Fin N → Nat) (m : FVM α N) (i : Nat) : Option (FVM α N) := do
  let c ← m.fv[i]?
  pure { m with hasVF := false, fv := m.fv.set i (flip c) }

/-! ## populateVF -/

/-- `++vert_counts[vert]`. -/
def bump (counts : List Nat) (vert : Nat) : Option (List Nat) := do
  let x ← counts[vert]?
  pure (counts.set vert (x + 1))

/-- The counting loop, face_vertex_mesh.cpp 185-192. -/
def countVerts (nv : Nat) (fv : List (Fin N → Nat)) : Option (List Nat) :=
  fv.foldlM (fun counts c => (List.finRange N).foldlM (fun counts j => bump counts (c j)) counts)
    (List.replicate nv 0)

/-- `std::inclusive_scan`. -/
def inclusiveScan : Nat → List Nat → List Nat
  | _, [] => []
  | acc, x :: xs => (acc + x) :: inclusiveScan (acc + x) xs

/-- `_vf[vert_offsets[vert]] = i; ++vert_offsets[vert];`, face_vertex_mesh.cpp 209-211; the state is
`(_vf, vert_offsets)`. -/
def place (i : Nat) (st : List Nat × List Nat) (vert : Nat) : Option (List Nat × List Nat) := do
  let o ← st.2[vert]?
  if o < st.1.length then some (st.1.set o i, st.2.set vert (o + 1)) else none

/-- The filling loop, face_vertex_mesh.cpp 205-213. -/
def fillVF (fv : List (Fin N → Nat)) (st : List Nat × List Nat) : Option (List Nat × List Nat) :=
  fv.zipIdx.foldlM (fun st (c, i) => (List.finRange N).foldlM (fun st j => place i st (c j)) st) st

/-- `Vector::resize(n)` of a vector of ints: old elements stay, new ones are zero. -/
def resize (l : List Nat) (n : Nat) : List Nat := l.take n ++ List.replicate (n - l.length) 0

/-- `populateVF`, face_vertex_mesh.cpp 178-217.  The old contents of `_vf_offsets` are all
overwritten. -/
def populateVF (m : FVM α N) : Option (FVM α N) := do
  let counts ← countVerts m.v.length m.fv
  let offsets := 0 :: inclusiveScan 0 counts
  let total ← offsets[m.v.length]?
  let (vf, _) ← fillVF m.fv (resize m.vf total, offsets)
  pure { m with hasVF := true, vfOffsets := offsets, vf := vf }

/-! ## mortonSort -/

/-- The part of `mortonSortVertices` after `mortonSortPermutation`, face_vertex_mesh.cpp 164-175.
`mapFace` relabels one face and fails if an id is out of range. -/
def mapFace (inv : List Nat) (c : Fin N → Nat) : Option (Fin N → Nat) :=
  if h : ∀ j, c j < inv.length then some fun j => inv[c j]'(h j) else none

def sortVerticesWith (perm : List Nat) (m : FVM α N) : Option (FVM α N) := do
  let inv ← Alg.invertPermutation perm (List.replicate m.v.length 0)
  let v ← Alg.applyPermutation m.v perm
  let fv ← m.fv.mapM (mapFace inv)
  pure { m with hasVF := false, v := v, fv := fv }

/-- The last step of `mortonSortFaces`, face_vertex_mesh.cpp 143. -/
def sortFacesWith (perm : List Nat) (m : FVM α N) : Option (FVM α N) := do
  let fv ← Alg.applyPermutation m.fv perm
  pure { m with hasVF := false, fv := fv }

/-- `mortonSortVertices`, face_vertex_mesh.cpp 146-176: `r` is a possible outcome.  `enc m p` is the
Morton code of `p * inv_scale` where `inv_scale` is computed from the bounding box of `m`; `none`
means that computing it is undefined behaviour, which happens as soon as `std::sort` has two
elements to compare.  The bounding box reads the first vertex (linear meshes) or the first face
(quadratic meshes); a mesh without vertices or without faces is counted as undefined for both. -/
def MortonSortVertices (enc : FVM α N → α → Option (BitVec 32)) (m : FVM α N)
    (r : Option (FVM α N)) : Prop :=
  if m.v = [] ∨ m.fv = [] ∨ (2 ≤ m.v.length ∧ ∃ p ∈ m.v, enc m p = none) then r = none
  else ∃ perm, MortonPoints.IsMortonSortPermutation (enc m) m.v perm ∧ r = sortVerticesWith perm m

/-- `mortonSortFaces`, face_vertex_mesh.cpp 118-144: `r` is a possible outcome.  `cen` is the
centroid of a face. -/
def MortonSortFaces (enc : FVM α N → α → Option (BitVec 32)) (cen : (Fin N → α) → α) (m : FVM α N)
    (r : Option (FVM α N)) : Prop :=
  match m.fv.mapM (fun c => (loadFace m.v c).map cen) with
  | none => r = none
  | some cs =>
    if 2 ≤ cs.length ∧ ∃ p ∈ cs, enc m p = none then r = none
    else ∃ perm, MortonPoints.IsMortonSortPermutation (enc m) cs perm ∧ r = sortFacesWith perm m

/-- `mortonSort`, face_vertex_mesh.cpp 102-116: `r` is a possible outcome. -/
def MortonSort (enc : FVM α N → α → Option (BitVec 32)) (cen : (Fin N → α) → α) (m : FVM α N)
    (r : Option (FVM α N)) : Prop :=
  ∃ r1, MortonSortVertices enc m r1 ∧
    match r1 with
    | none => r = none
    | some m1 => ∃ r2, MortonSortFaces enc cen m1 r2 ∧
      match r2 with
      | none => r = none
      | some m2 =>
        if m.hasVF then r = populateVF { m2 with isMorton := true }
        else r = some { m2 with isMorton := true }

/-- The code of a vertex of a linear mesh: `mortonEncode(p * (1 / boundingBox().extents()))`,
face_vertex_mesh.cpp 154-155, 134-135 with `boundingBox(LinearFVM)`, face_vertex_mesh.hpp 432-438.
`enc2` is `mortonEncode(Point2)`.  A box of zero width divides by zero; the coordinate handed to
`mortonEncode` is then infinite or NaN, which is not in `[0, 1]`. -/
def scaledCode {K : Type} [Field K] [LinearOrder K] (enc2 : K × K → Option (BitVec 32))
    (m : FVM (Geom.Pt 2 K) N) (p : Geom.Pt 2 K) : Option (BitVec 32) := do
  let box ← Box.boundingBox m.v
  let w := box.max 0 - box.min 0
  let h := box.max 1 - box.min 1
  if w = 0 ∨ h = 0 then none
  else enc2 (p 0 * (1 / w), p 1 * (1 / h))

/-! ## faceContaining -/

/-- `faceContaining`, face_vertex_mesh.hpp 458-468; `i` is the loop counter. -/
def faceContainingLoop (contains : (Fin N → α) → Bool) (v : List α) :
    Nat → List (Fin N → Nat) → Option ℤ
  | _, [] => some (-1)
  | i, c :: cs => do
    let f ← loadFace v c
    if contains f then some (i : ℤ) else faceContainingLoop contains v (i + 1) cs

def faceContaining (contains : (Fin N → α) → Bool) (m : FVM α N) : Option ℤ :=
  faceContainingLoop contains m.v 0 m.fv

end Verif.Mesh
