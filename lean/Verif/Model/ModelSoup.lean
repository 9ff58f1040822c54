import Verif.Model.CmfdInfo

/-!
# An MPACT model as one soup

Model of `Model::operator PolytopeSoup`, src/mpact/model.cpp 1277-1518.

* Numbers are exact.  `chord mesh i` stands for `mesh.getFace(i).meanChordLength()`, `recip x` for `1 / x` (which is infinite
  for zero); the materials are given by their cross sections (`xsec`).
* The conversion of a mesh to a soup is face_vertex_mesh.cpp 223-245 (property C82), for meshes given by lists.
* `logger::error` ends the program, as it does by default: the outcome is `refused`.  `undef` is undefined behaviour.
* Names are lists of bytes.  The sorting functions are arguments, as in the model of the soup.
-/

namespace Verif.ModelSoup

open Verif.Mpact Verif.ModelXdmf Verif.Polytope Verif.Phys Verif.CmfdInfo
open Verif.Pin (Mesh)
open Verif.ElemTypes (MeshType VTK)
open Verif.Str (Byte)
open Verif.XSLib (Res)

abbrev Name := List Byte

/-- A text as bytes. -/
def bytes (s : String) : Name := s.toList.map fun c => UInt8.ofNat c.toNat

/-- What is left to the implementation. -/
structure Env (K : Type) where
  sortNames : List Name → List Name
  sortPairs : List (Name × Nat) → List (Name × Nat)
  sortPerm : List Nat → List Nat
  chord : Mesh K → Nat → K
  recip : K → K

/-- `asy_found`, `lat_found`, `rtm_found` and `cc_found`, model.cpp 1297-1300. -/
structure Found where
  asy : List ℤ
  lat : List ℤ
  rtm : List ℤ
  cell : List ℤ

/-- `++found[id]`, for example model.cpp 1316: the table and the value. -/
def bump (l : List ℤ) (id : ℤ) : Option (List ℤ × ℤ) := (at? l id).bind fun v => some (l.set id.toNat (v + 1), v + 1)

/-- `"Assembly_" + getASCIINumber(asy_id) + "_" + getASCIINumber(asy_id_ctr)`, model.cpp 1319-1320, and the same for the other
levels (1344-1345, 1380-1381, 1416-1417). -/
def visitName (pre : Name) (id ctr : ℤ) : Name := nodeName pre id (95 :: Names.getASCIINumber ctr)

section
variable {K M : Type} [Field K] [LinearOrder K]

/-- The type of the elements of a mesh, face_vertex_mesh.cpp 36-50. -/
def elemType (t : MeshType) : VTK :=
  if t = MeshType.Tri then VTK.Triangle
  else if t = MeshType.Quad then VTK.Quad
  else if t = MeshType.QuadraticTri then VTK.QuadraticTriangle
  else VTK.QuadraticQuad

/-- `cell_soup = _tris[mesh_id]`: `operator PolytopeSoup` of the mesh, face_vertex_mesh.cpp 223-245. -/
def meshSoup (ty : VTK) (m : Mesh K) : CSoup K :=
  m.faces.foldl (fun s c => (addElement s ty c).1) (m.verts.foldl (fun s p => (addVertex s (p.1, p.2, 0)).1) empty)

/-- `mcls`, model.cpp 1430-1462. -/
def chords (E : Env K) (m : Mesh K) (n : Nat) : Option (List K) :=
  (List.range n).mapM fun i => if i < m.faces.length then some (E.chord m i) else none

/-- One coarse cell, model.cpp 1424-1507: `xs` is `one_group_xs`, `off` the offset, the names are those of the cell and of the
module, lattice and assembly around it. -/
def cellSoup (E : Env K) (s : Model K M) (xs : List K) (nC nR nL nA : Name) (off : K × K × K) (id : ℤ) : Res (CSoup K) :=
  (Res.ofOption (at? s.cells id)).bind fun cell =>
  match s.meshes cell.meshType with
  | none => .refused
  | some l =>
    (Res.ofOption (at? l cell.meshId)).bind fun mesh =>
    (Res.ofOption (chords E mesh cell.mats.length)).bind fun mcls =>
    let soup := translate (meshSoup (elemType cell.meshType) mesh) off
    let ids := List.range soup.types.length
    (addSet soup nC ids []).bind fun soup =>
    (addSet soup nR ids []).bind fun soup =>
    (addSet soup nL ids []).bind fun soup =>
    (addSet soup nA ids []).bind fun soup =>
    (addSet soup (bytes "Material_ID") ids (cell.mats.map fun m => ((m.toInt : ℤ) : K))).bind fun soup =>
    (Res.ofOption (cell.mats.mapM fun m => at? xs m.toInt)).bind fun sigma =>
    (addSet soup (bytes "One_Group_XS") ids sigma).bind fun soup =>
    (addSet soup (bytes "Mean_Chord_Length") ids mcls).bind fun soup =>
    (addSet soup (bytes "Knudsen_Number") ids (List.zipWith (fun x c => E.recip (x * c)) sigma mcls)).bind fun soup =>
    Res.ofOption (sortElsets E.sortPairs E.sortPerm soup)

/-- `rtm_soup += cell_soup` and the like. -/
def plus (E : Env K) (a b : CSoup K) : Res (CSoup K) := Res.ofOption (append E.sortNames a b)

/-- One ray tracing module, model.cpp 1386-1509; `off` is the offset of the module, `asy` that of its assembly. -/
def rtmSoup (E : Env K) (s : Model K M) (xs : List K) (nR nL nA : Name) (asy off : K × K) (z : K) (fd : Found) (id : ℤ) :
    Res (Found × CSoup K) :=
  (Res.ofOption (at? s.rtms id)).bind fun r =>
  if r.children = [] then .refused else
  loop (fun (st : Found × CSoup K) p =>
    (Res.ofOption (childAt (r.xs.length - 1) r.children p)).bind fun c =>
    (Res.ofOption (bump st.1.cell c)).bind fun b =>
    (Res.ofOption (corner r.xs r.ys p)).bind fun lo =>
    (cellSoup E s xs (visitName preCell c b.2) nR nL nA (lo.1 + off.1 + asy.1, lo.2 + off.2 + asy.2, z) c).bind fun cs =>
    (plus E st.2 cs).bind fun soup => .ok ({ st.1 with cell := b.1 }, soup))
    (fd, empty) (places (r.xs.length - 1) (r.ys.length - 1))

/-- One lattice, model.cpp 1354-1512. -/
def latSoup (E : Env K) (s : Model K M) (xs : List K) (nL nA : Name) (asy : K × K) (z : K) (fd : Found) (id : ℤ) :
    Res (Found × CSoup K) :=
  (Res.ofOption (at? s.lattices id)).bind fun l =>
  if l.children = [] then .refused else
  loop (fun (st : Found × CSoup K) p =>
    (Res.ofOption (childAt l.nx l.children p)).bind fun c =>
    (Res.ofOption (bump st.1.rtm c)).bind fun b =>
    (rtmSoup E s xs (visitName preRtm c b.2) nL nA asy ((p.1 : K) * l.spacing.1, (p.2 : K) * l.spacing.2) z
      { st.1 with rtm := b.1 } c).bind fun rs =>
    (plus E st.2 rs.2).bind fun soup => .ok (rs.1, soup))
    (fd, empty) (places l.nx l.ny)

/-- One assembly, model.cpp 1326-1514. -/
def asySoup (E : Env K) (s : Model K M) (xs : List K) (nA : Name) (asy : K × K) (fd : Found) (id : ℤ) : Res (Found × CSoup K) :=
  (Res.ofOption (at? s.assemblies id)).bind fun a =>
  if a.children = [] then .refused else
  loop (fun (st : Found × CSoup K) k =>
    (Res.ofOption (a.children[k]?)).bind fun c =>
    (Res.ofOption (bump st.1.lat c)).bind fun b =>
    (Res.ofOption (a.zs[k]?)).bind fun lo =>
    (Res.ofOption (a.zs[k + 1]?)).bind fun hi =>
    (latSoup E s xs (visitName preLat c b.2) nA asy ((lo + hi) / 2) { st.1 with lat := b.1 } c).bind fun ls =>
    (plus E st.2 ls.2).bind fun soup => .ok (ls.1, soup))
    (fd, empty) (List.range (a.zs.length - 1))

/-- The loops over the core, model.cpp 1303-1515, with the tables of 1297-1300. -/
def coreSoup (E : Env K) (s : Model K M) (xs : List K) : Res (Found × CSoup K) :=
  loop (fun (st : Found × CSoup K) p =>
    (Res.ofOption (childAt (s.core.xs.length - 1) s.core.children p)).bind fun c =>
    (Res.ofOption (bump st.1.asy c)).bind fun b =>
    (Res.ofOption (corner s.core.xs s.core.ys p)).bind fun ll =>
    (asySoup E s xs (visitName preAsy c b.2) ll { st.1 with asy := b.1 } c).bind fun as =>
    (plus E st.2 as.2).bind fun soup => .ok (as.1, soup))
    (⟨List.replicate s.assemblies.length (-1), List.replicate s.lattices.length (-1), List.replicate s.rtms.length (-1),
      List.replicate s.cells.length (-1)⟩, empty) (places (s.core.xs.length - 1) (s.core.ys.length - 1))

/-- One entry of `one_group_xs`, model.cpp 1289-1294. -/
def oneGroup (x : XSec K) : Option K :=
  (collapse x).bind fun x => (x.a[0]?).bind fun a => (x.s[0]?).bind fun s => some (a + s)

/-- `Model::operator PolytopeSoup`, model.cpp 1277-1518. -/
def modelSoup (E : Env K) (xsec : M → XSec K) (s : Model K M) : Res (CSoup K) :=
  if s.core.children = [] then .refused else
  (Res.ofOption (s.materials.mapM fun m => oneGroup (xsec m))).bind fun xs =>
  (coreSoup E s xs).bind fun st =>
  if st.2.names.length = 0 then .ok st.2 else Res.ofOption (sortElsets E.sortPairs E.sortPerm st.2)

end

end Verif.ModelSoup
