import Verif.Model.Mpact
import Verif.Model.XSLib

/-!
# The C interface to an MPACT model

Model of src/um2c.cpp 97-407 and 603-687, release build: the assertions are compiled out.  The model a handle points to is an argument;
creating, reading and deleting it (73-95) are left out.  `undef` is undefined behaviour, here always an access outside an array, and
`refused` the end of the program by `LOG_ERROR`.  What the geometry of a face gives is a parameter, by type of the mesh and vertices of the
face.  Numbers are exact, and numbers of things are below 2^31.
-/

namespace Verif.CApi

open Verif.XSLib (Res)
open Verif.Mpact (Model Assembly Lattice Rect CoarseCell at?)
open Verif.Pin (Mesh)
open Verif.ElemTypes (MeshType)

variable {K M α : Type}

/-! ### Numbers and children -/

/-- `um2MPACTNumCoarseCells`, um2c.cpp 99-105. -/
def numCoarseCells (s : Model K M) : ℤ := s.cells.length

/-- `um2MPACTNumRTMs`, um2c.cpp 107-113. -/
def numRTMs (s : Model K M) : ℤ := s.rtms.length

/-- `um2MPACTNumLattices`, um2c.cpp 115-121. -/
def numLattices (s : Model K M) : ℤ := s.lattices.length

/-- `um2MPACTNumAssemblies`, um2c.cpp 123-129. -/
def numAssemblies (s : Model K M) : ℤ := s.assemblies.length

/-- `numCells` of a rectilinear grid, rectilinear_grid.hpp 281-299. -/
def divCells (l : List K) : ℤ := (l.length : ℤ) - 1

/-- `um2MPACTCoreNumCells`, um2c.cpp 134-143. -/
def coreNumCells (s : Model K M) : ℤ × ℤ := (divCells s.core.xs, divCells s.core.ys)

/-- `um2MPACTAssemblyNumCells`, um2c.cpp 145-151. -/
def asyNumCells (s : Model K M) (asy : ℤ) : Res ℤ := (Res.ofOption (at? s.assemblies asy)).bind fun a => .ok (divCells a.zs)

/-- `um2MPACTLatticeNumCells`, um2c.cpp 153-163. -/
def latNumCells (s : Model K M) (lat : ℤ) : Res (ℤ × ℤ) :=
  (Res.ofOption (at? s.lattices lat)).bind fun l => .ok ((l.nx : ℤ), (l.ny : ℤ))

/-- `um2MPACTRTMNumCells`, um2c.cpp 165-174. -/
def rtmNumCells (s : Model K M) (rtm : ℤ) : Res (ℤ × ℤ) :=
  (Res.ofOption (at? s.rtms rtm)).bind fun r => .ok (divCells r.xs, divCells r.ys)

/-- `getChild` of a plane partition, rectilinear_partition.hpp 141-159 and regular_partition.hpp 119-135, with `getFlatIndex`,
rectilinear_grid.hpp 348-372: `nx` is the number of cells in x. -/
def child2 (children : List ℤ) (nx ix iy : ℤ) : Res ℤ := Res.ofOption (at? children (ix + iy * nx))

/-- `um2MPACTCoreGetChild`, um2c.cpp 179-185. -/
def coreGetChild (s : Model K M) (ix iy : ℤ) : Res ℤ := child2 s.core.children (divCells s.core.xs) ix iy

/-- `um2MPACTAssemblyGetChild`, um2c.cpp 187-194. -/
def asyGetChild (s : Model K M) (asy ix : ℤ) : Res ℤ :=
  (Res.ofOption (at? s.assemblies asy)).bind fun a => Res.ofOption (at? a.children ix)

/-- `um2MPACTLatticeGetChild`, um2c.cpp 196-203. -/
def latGetChild (s : Model K M) (lat ix iy : ℤ) : Res ℤ :=
  (Res.ofOption (at? s.lattices lat)).bind fun l => child2 l.children l.nx ix iy

/-- `um2MPACTRTMGetChild`, um2c.cpp 205-212. -/
def rtmGetChild (s : Model K M) (rtm ix iy : ℤ) : Res ℤ :=
  (Res.ofOption (at? s.rtms rtm)).bind fun r => child2 r.children (divCells r.xs) ix iy

/-! ### Coarse cells -/

/-- `um2MPACTCoarseCellNumFaces`, um2c.cpp 218-224; `numFaces`, model.hpp 68-72. -/
def cellNumFaces (s : Model K M) (cc : ℤ) : Res ℤ := (Res.ofOption (at? s.cells cc)).bind fun c => .ok (c.mats.length : ℤ)

/-- `um2MPACTCoarseCellWidth`, um2c.cpp 226-232. -/
def cellWidth (s : Model K M) (cc : ℤ) : Res K := (Res.ofOption (at? s.cells cc)).bind fun c => .ok c.ext.1

/-- `um2MPACTCoarseCellHeight`, um2c.cpp 234-239. -/
def cellHeight (s : Model K M) (cc : ℤ) : Res K := (Res.ofOption (at? s.cells cc)).bind fun c => .ok c.ext.2

/-- The `switch` over the type of the mesh, um2c.cpp 247-275, 284-305, 314-343, 369-392, 614-685: what is done with the mesh gets the type. -/
def withMesh (s : Model K M) (c : CoarseCell K) (f : MeshType → Mesh K → Res α) : Res α :=
  if c.meshType = MeshType.Tri then (Res.ofOption (at? s.tris c.meshId)).bind (f MeshType.Tri)
  else if c.meshType = MeshType.Quad then (Res.ofOption (at? s.quads c.meshId)).bind (f MeshType.Quad)
  else if c.meshType = MeshType.QuadraticTri then (Res.ofOption (at? s.tri6s c.meshId)).bind (f MeshType.QuadraticTri)
  else if c.meshType = MeshType.QuadraticQuad then (Res.ofOption (at? s.quad8s c.meshId)).bind (f MeshType.QuadraticQuad)
  else .refused

/-- `getFace`, face_vertex_mesh.hpp 251-358: the vertices of a face. -/
def face (mesh : Mesh K) (i : ℤ) : Res (List (K × K)) :=
  (Res.ofOption (at? mesh.faces i)).bind fun c => Res.ofOption (c.mapM fun v => mesh.verts[v]?)

/-- `buf[i] = v`. -/
def put (buf : List α) (i : Nat) (v : α) : Res (List α) := if i < buf.length then .ok (buf.set i v) else .undef

/-- A loop that writes `f i` to `buf[i]`, from `i` on for `n` rounds. -/
def fillFrom (f : Nat → Res α) : Nat → Nat → List α → Res (List α)
  | _, 0, buf => .ok buf
  | i, n + 1, buf => (f i).bind fun v => (put buf i v).bind fun buf => fillFrom f (i + 1) n buf

/-- `um2MPACTCoarseCellFaceAreas`, um2c.cpp 241-279; `buf` is the array of the caller. -/
def faceAreas (area : MeshType → List (K × K) → K) (s : Model K M) (cc : ℤ) (buf : List K) : Res (List K) :=
  (Res.ofOption (at? s.cells cc)).bind fun c => withMesh s c fun t mesh =>
    fillFrom (fun i => (face mesh i).bind fun vs => .ok (area t vs)) 0 mesh.faces.length buf

/-- The loop of `faceContaining`, face_vertex_mesh.hpp 462-467. -/
def firstFace (inside : List (K × K) → Bool) (mesh : Mesh K) : Nat → Nat → Res ℤ
  | _, 0 => .ok (-1)
  | i, n + 1 => (face mesh i).bind fun vs => if inside vs then .ok i else firstFace inside mesh (i + 1) n

/-- `um2MPACTCoarseCellFaceContaining`, um2c.cpp 281-308. -/
def faceContaining (inside : MeshType → K × K → List (K × K) → Bool) (s : Model K M) (cc : ℤ) (p : K × K) : Res ℤ :=
  (Res.ofOption (at? s.cells cc)).bind fun c => withMesh s c fun t mesh => firstFace (inside t p) mesh 0 mesh.faces.length

/-- `um2MPACTCoarseCellFaceCentroid`, um2c.cpp 310-345. -/
def faceCentroid (centroid : MeshType → List (K × K) → K × K) (s : Model K M) (cc f : ℤ) : Res (K × K) :=
  (Res.ofOption (at? s.cells cc)).bind fun c => withMesh s c fun t mesh => (face mesh f).bind fun vs => .ok (centroid t vs)

/-- `um2MPACTCoarseCellMaterialIDs`, um2c.cpp 347-355. -/
def materialIDs (s : Model K M) (cc : ℤ) (buf : List Int8) : Res (List Int8) :=
  (Res.ofOption (at? s.cells cc)).bind fun c => fillFrom (fun i => Res.ofOption c.mats[i]?) 0 c.mats.length buf

/-- The `intersect` of a face writes its coordinates from `buf[n]` on. -/
def putAll (buf : List α) (n : Nat) : List α → Res (List α)
  | [] => .ok buf
  | v :: vs => (put buf n v).bind fun buf => putAll buf (n + 1) vs

/-- The loop of `FaceVertexMesh::intersect`, face_vertex_mesh.hpp 470-480: the array and the number of entries written. -/
def meshHits (hits : List (K × K) → List K) (mesh : Mesh K) : Nat → Nat → List K → Nat → Res (List K × Nat)
  | _, 0, buf, n => .ok (buf, n)
  | i, r + 1, buf, n => (face mesh i).bind fun vs => (putAll buf n (hits vs)).bind fun buf => meshHits hits mesh (i + 1) r buf (n + (hits vs).length)

/-- `um2MPACTIntersectCoarseCell`, um2c.cpp 357-392: `hits` are the coordinates a face writes for the ray, `sort` stands for `std::sort`. -/
def intersectCell (sort : List K → List K) (hits : MeshType → List (K × K) → List K) (s : Model K M) (cc : ℤ) (buf : List K) :
    Res (List K × Nat) :=
  (Res.ofOption (at? s.cells cc)).bind fun c =>
  (withMesh s c fun t mesh => meshHits (hits t) mesh 0 mesh.faces.length buf 0).bind fun r =>
  .ok (sort (r.1.take r.2) ++ r.1.drop r.2, r.2)

/-- `um2MPACTRTMWidth`, um2c.cpp 394-399: `extents(0)`, the last less the first division. -/
def rtmWidth [Sub K] (s : Model K M) (rtm : ℤ) : Res K :=
  (Res.ofOption (at? s.rtms rtm)).bind fun r => (Res.ofOption r.xs.getLast?).bind fun b => (Res.ofOption r.xs.head?).bind fun a => .ok (b - a)

/-- `um2MPACTRTMHeight`, um2c.cpp 401-406. -/
def rtmHeight [Sub K] (s : Model K M) (rtm : ℤ) : Res K :=
  (Res.ofOption (at? s.rtms rtm)).bind fun r => (Res.ofOption r.ys.getLast?).bind fun b => (Res.ofOption r.ys.head?).bind fun a => .ok (b - a)

/-- What `um2MPACTCoarseCellFaceData` writes: type of the mesh, numbers of vertices and faces, and two arrays. -/
structure FaceData (K : Type) where
  meshType : ℤ
  numVertices : ℤ
  numFaces : ℤ
  vertices : List K
  fv : List Nat

/-- `um2MPACTCoarseCellFaceData`, um2c.cpp 604-686: the arrays are byte copies of the vertices, two numbers each, and of the faces, which
are arrays of `N` indices. -/
def faceData (s : Model K M) (cc : ℤ) : Res (FaceData K) :=
  (Res.ofOption (at? s.cells cc)).bind fun c => withMesh s c fun _ mesh =>
    .ok ⟨c.meshType, mesh.verts.length, mesh.faces.length, mesh.verts.flatMap fun p => [p.1, p.2], mesh.faces.flatten⟩

/-! ### A client

What a program in C or Fortran does with these functions: it goes through the core row by row, through the lattices from below, and so
on. -/

/-- `for (i = 0; i < n; ++i)`, with the outputs one after the other. -/
def loop (n : ℤ) (f : Nat → Res (List α)) : Res (List α) :=
  (List.range n.toNat).foldr (fun i r => (f i).bind fun a => r.bind fun b => .ok (a ++ b)) (.ok [])

/-- A place in the core. -/
structure Spot where
  ix : Nat
  iy : Nat
  iz : Nat
  jx : Nat
  jy : Nat
  kx : Nat
  ky : Nat

/-- All coarse cells with their places. -/
def walk (s : Model K M) : Res (List (Spot × ℤ)) :=
  loop (coreNumCells s).2 fun iy => loop (coreNumCells s).1 fun ix =>
  (coreGetChild s ix iy).bind fun a => (asyNumCells s a).bind fun nz =>
  loop nz fun iz => (asyGetChild s a iz).bind fun l => (latNumCells s l).bind fun n =>
  loop n.2 fun jy => loop n.1 fun jx => (latGetChild s l jx jy).bind fun r => (rtmNumCells s r).bind fun m =>
  loop m.2 fun ky => loop m.1 fun kx => (rtmGetChild s r kx ky).bind fun c => .ok [(⟨ix, iy, iz, jx, jy, kx, ky⟩, c)]

/-- The materials and areas of the faces of a coarse cell, with arrays of the length the interface gives. -/
def faces [Zero K] (area : MeshType → List (K × K) → K) (s : Model K M) (cc : ℤ) : Res (List (Int8 × K)) :=
  (cellNumFaces s cc).bind fun n => (materialIDs s cc (List.replicate n.toNat 0)).bind fun ms =>
  (faceAreas area s cc (List.replicate n.toNat 0)).bind fun as => .ok (ms.zip as)

/-- The materials of all fine cells of the core: for every place, with an array of the length the interface gives. -/
def fineCells (s : Model K M) : Res (List Int8) :=
  (walk s).bind fun w => loop w.length fun i => (Res.ofOption w[i]?).bind fun q =>
  (cellNumFaces s q.2).bind fun n => materialIDs s q.2 (List.replicate n.toNat 0)

/-- The mesh that a client gets from the arrays: vertex `i` at `2 i`, face `i` at `N i`, where the code of the type is the number of
vertices of a face. -/
def rebuild [Zero K] (d : FaceData K) : Mesh K :=
  ⟨(List.range d.numVertices.toNat).map fun i => (d.vertices.getD (2 * i) 0, d.vertices.getD (2 * i + 1) 0),
   (List.range d.numFaces.toNat).map fun i => (List.range d.meshType.toNat).map fun k => d.fv.getD (d.meshType.toNat * i + k) 0⟩

end Verif.CApi
