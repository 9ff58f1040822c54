import Verif.Model.Mem
import Verif.Model.Algorithm
import Mathlib.Algebra.Order.Field.Basic

/-!
# Ray-mesh intersection lists

Source: `src/mesh/face_vertex_mesh.cpp` 531-591 (`sortRayMeshIntersections`) and
`include/um2/mesh/face_vertex_mesh.hpp` 470-500 (`intersect` with offsets).

The arrays are lists of fixed length; an access outside its array is undefined behaviour (`none`).
Coordinates live in a linearly ordered field: exact arithmetic, no NaN.  Offsets are natural
numbers; a decreasing offset (negative block size) is also the outcome `none`.
-/

namespace Verif.RaySort

variable {R : Type}

/-- `buf[i] = v`. -/
def put {α : Type} (buf : List α) (i : Nat) (v : α) : Option (List α) :=
  if i < buf.length then some (buf.set i v) else none

section Model

variable [Field R] [LinearOrder R]

/-- One step of the search for the two smallest coordinates, face_vertex_mesh.cpp 562-568. -/
def keyStep (s : R × R) (r : R) : R × R :=
  if r < s.1 then (r, s.1) else if r < s.2 then (s.1, r) else s

/-- The sort key of a face, face_vertex_mesh.cpp 556-570. -/
def keyOf (coords : List R) (offsets : List Nat) (i : Nat) : Option R :=
  (offsets[i]?).bind fun o => (offsets[i + 1]?).bind fun n => (coords[o]?).bind fun c =>
    ((List.range' (o + 1) (n - (o + 1))).foldlM
      (fun (s : R × R) j => (coords[j]?).map fun r => keyStep s r) (c, c)).map
        fun s => (s.1 + s.2) / 2

/-- The loop that stores the keys in the `sorted_coords` buffer, face_vertex_mesh.cpp 555-571. -/
def keyPass (coords : List R) (offsets : List Nat) (nf : Nat) (buf : List R) : Option (List R) :=
  (List.range nf).foldlM (fun b i => (keyOf coords offsets i).bind fun k => put b i k) buf

/-- The three output buffers. -/
structure Out (R : Type) where
  coords : List R
  offsets : List Nat
  faces : List Nat

/-- Copying one block of coordinates, face_vertex_mesh.cpp 583-585. -/
def copyBlock (coords : List R) (o a size : Nat) (buf : List R) : Option (List R) :=
  (List.range size).foldlM (fun b i => (coords[o + i]?).bind fun c => put b (a + i) c) buf

/-- One iteration of the copy loop, face_vertex_mesh.cpp 578-589; `sorter` is the `std::sort`
implementation. -/
def copyStep (sorter : List R → List R) (coords : List R) (offsets faces p : List Nat) (st : Out R)
    (i : Nat) : Option (Out R) :=
  (p[i]?).bind fun ind => (offsets[ind]?).bind fun o => (offsets[ind + 1]?).bind fun n =>
    if n < o then none else
      (st.offsets[i]?).bind fun a => (put st.offsets (i + 1) (a + (n - o))).bind fun so =>
        (faces[ind]?).bind fun f => (put st.faces i f).bind fun sf =>
          (copyBlock coords o a (n - o) st.coords).map fun sc =>
            { coords := sc.take a ++ sorter ((sc.drop a).take (n - o)) ++ sc.drop (a + (n - o))
              offsets := so
              faces := sf }

/-- The comparator `std::less` on keys. -/
def lessB (a b : R) : Bool := decide (a < b)

/-- `sortRayMeshIntersections`: `r` is a possible result for the buffers `buf`.  The permutation
comes from `sortPermutation` on the first `nf` entries of the key buffer. -/
def SortsTo (sorter : List R → List R) (coords : List R) (offsets faces : List Nat) (nf : Nat)
    (buf : Out R) (r : Option (Out R)) : Prop :=
  match keyPass coords offsets nf buf.coords with
  | none => r = none
  | some kb => ∃ p, Alg.IsSortPermutation lessB (kb.take nf) p ∧
      r = (put buf.offsets 0 0).bind fun so =>
        (List.range nf).foldlM (copyStep sorter coords offsets faces p)
          { coords := kb, offsets := so, faces := buf.faces }

/-- `FaceVertexMesh::intersect` with offsets, face_vertex_mesh.hpp 482-500.  `hits` lists, per face,
the coordinates its own `intersect` writes; the buffers are large enough, so only the part written
is kept. -/
def intersect (hits : List (List R)) : Out R :=
  (hits.zipIdx).foldl
    (fun st (h : List R × Nat) =>
      if 0 < h.1.length then
        { coords := st.coords ++ h.1
          offsets := st.offsets ++ [st.coords.length + h.1.length]
          faces := st.faces ++ [h.2] }
      else st)
    { coords := [], offsets := [0], faces := [] }

end Model

end Verif.RaySort
