import Verif.Model.ModelXdmf
import Verif.Model.Soup
import Verif.Model.XSec
import Verif.Model.XSLib
import Verif.Model.ElementTypes

/-!
# The CMFD data of an MPACT model

Model of `Model::writeCMFDInfo`, src/mpact/model.cpp 3249-3517: the soup that is handed to `soup.write`.

* Numbers are exact.  The faces of the mesh of a coarse cell are given by their areas and materials (`meshes`), as for
  `computeCellHomogenizedXSec` (property C55); materials by their cross sections (`mats`).
* `rho w sigma_t c` stands for `spectral_radius(CMFDCellParams(w, 4, sigma_t, c, 1, 0.25), ...).real()` (property C80); `ninf`
  is `-infDistance<Float>()`.
* `logger::error` ends the program, as it does by default: the outcome is `refused`.  `undef` is undefined behaviour or a
  division by zero.  The validation of the homogenised cross sections cannot fail after that of the materials and is left out.
* Names are lists of bytes.
-/

namespace Verif.CmfdInfo

open Verif.Mpact Verif.ModelXdmf Verif.Polytope Verif.Phys
open Verif.Str (Byte)
open Verif.XSLib (Res)

/-- Points are triples of coordinates. -/
abbrev CSoup (K : Type) := Soup (K × K × K) ℤ (List Byte) K

/-- The soup and `coarse_cell_face_ids`. -/
structure St (K : Type) where
  soup : CSoup K
  faces : List (List Nat)

/-- A `for` loop whose body can fail. -/
def loop {α β : Type} (f : β → α → Res β) : β → List α → Res β
  | s, [] => .ok s
  | s, x :: l => (f s x).bind fun s => loop f s l

/-- `"Homogenized_Total_XS_Group_"`, model.cpp 3416. -/
def preTotal : List Byte := "Homogenized_Total_XS_Group_".toList.map fun c => UInt8.ofNat c.toNat

/-- `"Homogenized_Scattering_Ratio_Group_"`, model.cpp 3436. -/
def preRatio : List Byte := "Homogenized_Scattering_Ratio_Group_".toList.map fun c => UInt8.ofNat c.toNat

/-- `"1D_odCMFD_Spectral_Radius_Group_"`, model.cpp 3469. -/
def preRadius : List Byte := "1D_odCMFD_Spectral_Radius_Group_".toList.map fun c => UInt8.ofNat c.toNat

section
variable {K M : Type} [Field K] [LinearOrder K]

/-- One quadrilateral, model.cpp 3374-3393: `ll` is the lower left corner, `ext` the extents. -/
def addQuad (st : St K) (id : ℤ) (ll ext : K × K) (z : K) : Res (St K) :=
  let v0 := addVertex st.soup (ll.1, ll.2, z)
  let v1 := addVertex v0.1 (ll.1 + ext.1, ll.2, z)
  let v2 := addVertex v1.1 (ll.1 + ext.1, ll.2 + ext.2, z)
  let v3 := addVertex v2.1 (ll.1, ll.2 + ext.2, z)
  let e := addElement v3.1 ElemTypes.VTK.Quad [v0.2.toNat, v1.2.toNat, v2.2.toNat, v3.2.toNat]
  (Res.ofOption (at? st.faces id)).bind fun ids =>
  .ok ⟨e.1, st.faces.set id.toNat (ids ++ [e.2.toNat])⟩

/-- One ray tracing module, model.cpp 3339-3396; `off` is the offset of the module, `asy` that of its assembly. -/
def addRtm (s : Model K M) (asy off : K × K) (z : K) (st : St K) (id : ℤ) : Res (St K) :=
  (Res.ofOption (at? s.rtms id)).bind fun r =>
  if r.children = [] then .refused else
  loop (fun st p =>
    (Res.ofOption (childAt (r.xs.length - 1) r.children p)).bind fun c =>
    (Res.ofOption (corner r.xs r.ys p)).bind fun lo =>
    (Res.ofOption (corner r.xs r.ys (p.1 + 1, p.2 + 1))).bind fun hi =>
    addQuad st c (lo.1 + off.1 + asy.1, lo.2 + off.2 + asy.2) (hi.1 - lo.1, hi.2 - lo.2) z)
    st (places (r.xs.length - 1) (r.ys.length - 1))

/-- One lattice, model.cpp 3317-3398. -/
def addLat (s : Model K M) (asy : K × K) (z : K) (st : St K) (id : ℤ) : Res (St K) :=
  (Res.ofOption (at? s.lattices id)).bind fun l =>
  if l.children = [] then .refused else
  loop (fun st p =>
    (Res.ofOption (childAt l.nx l.children p)).bind fun c =>
    addRtm s asy ((p.1 : K) * l.spacing.1, (p.2 : K) * l.spacing.2) z st c)
    st (places l.nx l.ny)

/-- One assembly, model.cpp 3292-3399. -/
def addAsy (s : Model K M) (asy : K × K) (st : St K) (id : ℤ) : Res (St K) :=
  (Res.ofOption (at? s.assemblies id)).bind fun a =>
  if a.children = [] then .refused else
  loop (fun st k =>
    (Res.ofOption (a.children[k]?)).bind fun c =>
    (Res.ofOption (a.zs[k]?)).bind fun lo =>
    (Res.ofOption (a.zs[k + 1]?)).bind fun hi =>
    addLat s asy ((lo + hi) / 2) st c)
    st (List.range (a.zs.length - 1))

/-- The loops over the core, model.cpp 3284-3401, with the tables as declared in 3280. -/
def addCore (s : Model K M) : Res (St K) :=
  loop (fun st p =>
    (Res.ofOption (childAt (s.core.xs.length - 1) s.core.children p)).bind fun c =>
    (Res.ofOption (corner s.core.xs s.core.ys p)).bind fun ll =>
    addAsy s ll st c)
    ⟨empty, List.replicate s.cells.length []⟩ (places (s.core.xs.length - 1) (s.core.ys.length - 1))

/-- `soup.addElset(name, ids, data)`: the error cases end the program. -/
def addSet (soup : CSoup K) (name : List Byte) (ids : List Nat) (data : List K) : Res (CSoup K) :=
  if (addElset soup name ids data).2 = -1 then .refused else .ok (addElset soup name ids data).1

/-- The sets of the coarse cells, model.cpp 3404-3408. -/
def addCellSets (soup : CSoup K) (faces : List (List Nat)) : Res (CSoup K) :=
  loop (fun soup (c : Nat) => (Res.ofOption (faces[c]?)).bind fun ids =>
    addSet soup (preCell ++ Names.getASCIINumber c) ids []) soup (List.range faces.length)

/-- `data[face_id] = v` for the faces of one coarse cell. -/
def paint (data : List K) (ids : List Nat) (v : K) : Res (List K) :=
  loop (fun d i => Res.ofOption (put d i v)) data ids

/-- One family of sets, for example model.cpp 3415-3431: `val c g` is the value for coarse cell `c` in group `g`. -/
def addGroupSets (ninf : K) (soup : CSoup K) (faces : List (List Nat)) (pre : List Byte) (ng : Nat) (val : Nat → Nat → Res K) :
    Res (CSoup K) :=
  loop (fun soup g =>
    (loop (fun d c => (val c g).bind fun v => (Res.ofOption (faces[c]?)).bind fun ids => paint d ids v)
      (List.replicate soup.types.length ninf) (List.range faces.length)).bind fun data =>
    addSet soup (pre ++ Names.getASCIINumber g) (List.range soup.types.length) data) soup (List.range ng)

/-- `coarse_cell_xsecs[icc].t(ig)`, cross_section.hpp 113-118. -/
def total (xs : List (XSec K)) (c g : Nat) : Res K :=
  (Res.ofOption (xs[c]?)).bind fun x => (Res.ofOption (x.a[g]?)).bind fun a => (Res.ofOption (x.s[g]?)).bind fun s => .ok (a + s)

/-- `sigma_s / sigma_t`, model.cpp 3438-3440. -/
def ratio (xs : List (XSec K)) (c g : Nat) : Res K :=
  (total xs c g).bind fun t => (Res.ofOption (xs[c]?)).bind fun x => (Res.ofOption (x.s[g]?)).bind fun s =>
  if t = 0 then .undef else .ok (s / t)

/-- The spectral radius of the one-dimensional problem, model.cpp 3472-3495. -/
def radius (rho : K → K → K → K) (cells : List (CoarseCell K)) (xs : List (XSec K)) (c g : Nat) : Res K :=
  (total xs c g).bind fun t => (ratio xs c g).bind fun q => (Res.ofOption (cells[c]?)).bind fun cell =>
  .ok (if 1 < q then -1 else rho ((cell.ext.1 + cell.ext.2) / 2) t q)

/-- `Material::validateXSec`, material.cpp 357-364, and the errors of `XSec::validate`, cross_section.cpp 18-47. -/
def valid (x : XSec K) : Bool :=
  x.macro_ && decide (0 < x.ng ∧ x.a.length = x.ng ∧ x.f.length = x.ng ∧ x.nuf.length = x.ng ∧ x.tr.length = x.ng ∧
    x.s.length = x.ng ∧ x.ss.length = x.ng * x.ng)

/-- `writeCMFDInfo`, model.cpp 3251-3517, up to `soup.write`. -/
def info (ninf : K) (rho : K → K → K → K) (s : Model K M) (mats : List (XSec K)) (meshes : List (List (K × Nat))) : Res (CSoup K) :=
  (Res.ofOption mats[0]?).bind fun m0 =>
  if !mats.all valid then .refused else
  if s.core.children = [] then .refused else
  (Res.ofOption ((List.range s.cells.length).mapM fun c => (meshes[c]?).bind fun f => homogenize f mats)).bind fun xs =>
  (addCore s).bind fun st =>
  (addCellSets st.soup st.faces).bind fun soup =>
  (addGroupSets ninf soup st.faces preTotal m0.ng (total xs)).bind fun soup =>
  (addGroupSets ninf soup st.faces preRatio m0.ng (ratio xs)).bind fun soup =>
  addGroupSets ninf soup st.faces preRadius m0.ng (radius rho s.cells xs)

end

end Verif.CmfdInfo
