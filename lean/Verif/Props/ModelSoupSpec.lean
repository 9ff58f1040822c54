import Verif.Model.ModelSoup
import Verif.Props.CmfdInfoSpec
import Verif.Props.SoupSort

/-! What is said about the soup of a model. -/

namespace Verif.ModelSoup

open Verif.Mpact Verif.CmfdInfo Verif.Phys Verif.Polytope
open Verif.Pin (Mesh)
open Verif.Str (Byte)

/-- The places of a grid, row by row. -/
def rows (nx ny : Nat) : List (Nat × Nat) := (List.range ny).flatMap fun j => (List.range nx).map fun i => (i, j)

/-- The place of an assembly in the core; of a lattice in an assembly; of a module in a lattice; of a cell in a module. -/
abbrev AsyAt := Nat × Nat
abbrev LatAt := AsyAt × Nat
abbrev RtmAt := LatAt × Nat × Nat
abbrev CellAt := RtmAt × Nat × Nat

def asyAt (p : Path) : AsyAt := p.asy
def latAt (p : Path) : LatAt := (p.asy, p.lev)
def rtmAt (p : Path) : RtmAt := ((p.asy, p.lev), p.rtm)
def cellAt (p : Path) : CellAt := (((p.asy, p.lev), p.rtm), p.cell)

section
variable {K M : Type} [Field K] [LinearOrder K]

/-- The children of a grid with `nx` columns and `ny` rows, row by row, with their places. -/
def kids {κ : Type} (o : κ) (nx ny : Nat) (ch : List ℤ) : List ((κ × Nat × Nat) × Nat) :=
  (rows nx ny).filterMap fun p => (ch[p.1 + p.2 * nx]?).map fun c => ((o, p), c.toNat)

/-- The places of assemblies in the core, with the numbers of the assemblies, in the order of reading. -/
def asyVisits (s : Model K M) : List (AsyAt × Nat) :=
  (kids () (s.core.xs.length - 1) (s.core.ys.length - 1) s.core.children).map fun v => (v.1.2, v.2)

/-- The lattices of one assembly, from below. -/
def latKids (s : Model K M) (v : AsyAt × Nat) : List (LatAt × Nat) :=
  match s.assemblies[v.2]? with
  | none => []
  | some a => a.children.zipIdx.map fun c => ((v.1, c.2), c.1.toNat)

/-- The modules of one lattice. -/
def rtmKids (s : Model K M) (v : LatAt × Nat) : List (RtmAt × Nat) :=
  match s.lattices[v.2]? with
  | none => []
  | some l => kids v.1 l.nx l.ny l.children

/-- The cells of one module. -/
def cellKids (s : Model K M) (v : RtmAt × Nat) : List (CellAt × Nat) :=
  match s.rtms[v.2]? with
  | none => []
  | some r => kids v.1 (r.xs.length - 1) (r.ys.length - 1) r.children

/-- The places of lattices, modules and cells in the core, with the numbers of the lattices, modules and cells. -/
def latVisits (s : Model K M) : List (LatAt × Nat) := (asyVisits s).flatMap (latKids s)
def rtmVisits (s : Model K M) : List (RtmAt × Nat) := (latVisits s).flatMap (rtmKids s)
def cellVisits (s : Model K M) : List (CellAt × Nat) := (rtmVisits s).flatMap (cellKids s)

/-- The visits of a list of places with objects: place, object, and how many visits of the same object there are before. -/
def numbered {κ : Type} (V : List (κ × Nat)) : List (κ × Nat × Nat) :=
  V.zipIdx.map fun v => (v.1.1, v.1.2, ((V.take v.2).filter fun w => w.2 == v.1.2).length)

/-- The name of a set: text, number of the object, number of the visit. -/
def setName (text : String) (id k : Nat) : List Byte := label text id ++ label "_" k

/-- Every coarse cell has a mesh with a face, a material for every face, and the materials exist. -/
def Meshed (s : Model K M) : Prop :=
  ∀ c ∈ s.cells, ∃ l m, s.meshes c.meshType = some l ∧ 0 ≤ c.meshId ∧ l[c.meshId.toNat]? = some m ∧ m.faces ≠ [] ∧
    m.faces.length = c.mats.length ∧ ∀ id ∈ c.mats, 0 ≤ id.toInt ∧ id.toInt < s.materials.length

/-- The mesh of a coarse cell, the type of its elements, its materials. -/
def meshOf (s : Model K M) (c : Nat) : Mesh K :=
  (((s.cells[c]?).bind fun cell => (s.meshes cell.meshType).bind fun l => l[cell.meshId.toNat]?).getD ⟨[], []⟩)

def typeOf (s : Model K M) (c : Nat) : ℤ :=
  match s.cells[c]? with
  | none => -1
  | some cell => if cell.meshType = 3 then 5 else if cell.meshType = 4 then 9 else if cell.meshType = 6 then 22 else 23

def matsOf (s : Model K M) (c : Nat) : List ℤ := ((s.cells[c]?).map fun cell => cell.mats.map (·.toInt)).getD []

/-- The mean over the groups of the total cross section of material `i`. -/
def sigma (xsec : M → XSec K) (s : Model K M) (i : ℤ) : K :=
  match s.materials[i.toNat]? with
  | none => 0
  | some m => ((xsec m).a.sum + (xsec m).s.sum) / ((xsec m).a.length : K)

/-- The numbers of faces and of vertices of a tile. -/
def nf (s : Model K M) (t : Tile K) : Nat := (meshOf s t.id).faces.length
def nv (s : Model K M) (t : Tile K) : Nat := (meshOf s t.id).verts.length

/-- Element `e` is face `f` of tile `t`, one of the tiles `L`. -/
def IsFace (s : Model K M) (L : List (Tile K)) (e : Nat) (t : Tile K) (f : Nat) : Prop :=
  ∃ A B, L = A ++ t :: B ∧ f < nf s t ∧ e = (A.map (nf s)).sum + f

/-- There is a set with this name, without data, whose elements are, in order and without repetition, the faces of the tiles with
`P`. -/
def HasSet (s : Model K M) (L : List (Tile K)) (sets : List (ElSet Name K)) (name : Name) (P : Tile K → Prop) : Prop :=
  ∃ e ∈ sets, e.name = name ∧ e.data = [] ∧ e.ids.Pairwise (· < ·) ∧ ∀ i, i ∈ e.ids ↔ ∃ t f, IsFace s L i t f ∧ P t

/-- There is a set with this name, of all `n` elements, whose value at face `f` of tile `t` is `v t f`. -/
def HasField (s : Model K M) (L : List (Tile K)) (sets : List (ElSet Name K)) (n : Nat) (name : String) (v : Tile K → Nat → Option K) :
    Prop :=
  ∃ e ∈ sets, e.name = bytes name ∧ e.ids = List.range n ∧ e.data.length = n ∧ ∀ i t f, IsFace s L i t f → e.data[i]? = v t f

/-- The soup of a model: `L` are the tiles, `els` the elements and `sets` the sets of the soup. -/
structure IsSoup (chord : Mesh K → Nat → K) (recip : K → K) (lt : Name → Name → Bool) (xsec : M → XSec K) (s : Model K M)
    (soup : CSoup K) (L : List (Tile K)) (els : List (ℤ × List Nat)) (sets : List (ElSet Name K)) : Prop where
  /-- `L` are the coarse cells of the core, in the order of reading. -/
  tiles : ∀ t, t ∈ L ↔ IsTile s t
  order : (L.map fun t => (cellAt t.path, t.id)) = cellVisits s
  /-- Their vertices, moved to their places. -/
  verts : soup.verts = L.flatMap fun t => (meshOf s t.id).verts.map fun p => (p.1 + t.lo.1, p.2 + t.lo.2, t.z)
  rep : Rep soup els sets
  good : GoodSets sets
  sorted : sets.Pairwise fun x y => lt y.name x.name = false
  /-- Their faces, with the numbers of their own vertices. -/
  count : els.length = (L.map (nf s)).sum
  element : ∀ A t B, L = A ++ t :: B → ∀ f c, (meshOf s t.id).faces[f]? = some c →
    els[(A.map (nf s)).sum + f]? = some (typeOf s t.id, c.map (· + (A.map (nv s)).sum))
  /-- A set for every place of an assembly, lattice, module and cell. -/
  asy : ∀ o id k, (o, id, k) ∈ numbered (asyVisits s) → HasSet s L sets (setName "Assembly_" id k) fun t => asyAt t.path = o
  lat : ∀ o id k, (o, id, k) ∈ numbered (latVisits s) → HasSet s L sets (setName "Lattice_" id k) fun t => latAt t.path = o
  rtm : ∀ o id k, (o, id, k) ∈ numbered (rtmVisits s) → HasSet s L sets (setName "RTM_" id k) fun t => rtmAt t.path = o
  cell : ∀ o id k, (o, id, k) ∈ numbered (cellVisits s) → HasSet s L sets (setName "Coarse_Cell_" id k) fun t => cellAt t.path = o
  /-- The values of the faces. -/
  material : HasField s L sets els.length "Material_ID" fun t f => ((matsOf s t.id)[f]?).map fun m : ℤ => (m : K)
  section_ : HasField s L sets els.length "One_Group_XS" fun t f => ((matsOf s t.id)[f]?).map (sigma xsec s)
  chordLength : HasField s L sets els.length "Mean_Chord_Length" fun t f => some (chord (meshOf s t.id) f)
  knudsen : HasField s L sets els.length "Knudsen_Number" fun t f =>
    ((matsOf s t.id)[f]?).map fun m => recip (sigma xsec s m * chord (meshOf s t.id) f)
  /-- There are no other sets. -/
  only : ∀ e ∈ sets, (∃ o id k, (o, id, k) ∈ numbered (asyVisits s) ∧ e.name = setName "Assembly_" id k) ∨
    (∃ o id k, (o, id, k) ∈ numbered (latVisits s) ∧ e.name = setName "Lattice_" id k) ∨
    (∃ o id k, (o, id, k) ∈ numbered (rtmVisits s) ∧ e.name = setName "RTM_" id k) ∨
    (∃ o id k, (o, id, k) ∈ numbered (cellVisits s) ∧ e.name = setName "Coarse_Cell_" id k) ∨
    e.name ∈ ["Material_ID", "One_Group_XS", "Mean_Chord_Length", "Knudsen_Number"].map bytes

/-- No object is at more than 100000 places. -/
def Few {κ : Type} (V : List (κ × Nat)) : Prop := ∀ id, (V.filter fun w => w.2 == id).length ≤ 100000

/-- The sorting functions of the implementation sort; `lt` compares names. -/
structure Sorts (E : Env K) (lt : Name → Name → Bool) : Prop where
  names : ∀ l, IsStdSort lt l (E.sortNames l)
  pairs : ∀ l, IsStdSort (Alg.pairLt lt ltNat) l (E.sortPairs l)
  perm : ∀ v, Alg.IsSortPermutation ltNat v (E.sortPerm v)

end

end Verif.ModelSoup
