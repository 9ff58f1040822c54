import Verif.Model.CmfdInfo
import Verif.Props.XSecMix

/-! What is said about the CMFD data of a model. -/

namespace Verif.CmfdInfo

open Verif.Mpact Verif.Phys
open Verif.Str (Byte)

/-- The way from the core to a coarse cell: column and row of the assembly, number of the lattice in it, column and row of the
module, column and row of the cell. -/
structure Path where
  asy : Nat × Nat
  lev : Nat
  rtm : Nat × Nat
  cell : Nat × Nat

/-- A coarse cell at its place in the core: its number, its rectangle, its height. -/
structure Tile (K : Type) where
  path : Path
  id : Nat
  lo : K × K
  hi : K × K
  z : K

section
variable {K M : Type} [Field K] [LinearOrder K]

/-- The tile is in the core. -/
def IsTile (s : Model K M) (t : Tile K) : Prop :=
  ∃ (aid lid rid : Nat) (a : Assembly K) (l : Mpact.Lattice K) (r : Rect K) (ox oy zlo zhi x0 x1 y0 y1 : K),
    -- the assembly and the lower left corner of its place
    (t.path.asy.1 + 1 < s.core.xs.length ∧ t.path.asy.2 + 1 < s.core.ys.length ∧
      s.core.children[t.path.asy.1 + t.path.asy.2 * (s.core.xs.length - 1)]? = some (aid : ℤ) ∧ s.assemblies[aid]? = some a ∧
      s.core.xs[t.path.asy.1]? = some ox ∧ s.core.ys[t.path.asy.2]? = some oy) ∧
    -- the lattice and its two heights
    (a.children[t.path.lev]? = some (lid : ℤ) ∧ s.lattices[lid]? = some l ∧
      a.zs[t.path.lev]? = some zlo ∧ a.zs[t.path.lev + 1]? = some zhi) ∧
    -- the module
    (t.path.rtm.1 < l.nx ∧ t.path.rtm.2 < l.ny ∧
      l.children[t.path.rtm.1 + t.path.rtm.2 * l.nx]? = some (rid : ℤ) ∧ s.rtms[rid]? = some r) ∧
    -- the cell and its box in the module
    (r.children[t.path.cell.1 + t.path.cell.2 * (r.xs.length - 1)]? = some (t.id : ℤ) ∧
      r.xs[t.path.cell.1]? = some x0 ∧ r.xs[t.path.cell.1 + 1]? = some x1 ∧
      r.ys[t.path.cell.2]? = some y0 ∧ r.ys[t.path.cell.2 + 1]? = some y1) ∧
    -- the place
    t.lo = (ox + t.path.rtm.1 * l.spacing.1 + x0, oy + t.path.rtm.2 * l.spacing.2 + y0) ∧
    t.hi = (ox + t.path.rtm.1 * l.spacing.1 + x1, oy + t.path.rtm.2 * l.spacing.2 + y1) ∧
    t.z = (zlo + zhi) / 2

/-- The four corners of a tile, counterclockwise. -/
def Tile.corners (t : Tile K) : List (K × K × K) :=
  [(t.lo.1, t.lo.2, t.z), (t.hi.1, t.lo.2, t.z), (t.hi.1, t.hi.2, t.z), (t.lo.1, t.hi.2, t.z)]

/-- The faces that are places of coarse cell `c`. -/
def facesOf (L : List (Tile K)) (c : Nat) : List Nat :=
  (List.range L.length).filter fun i => (L[i]?).any fun t => t.id == c

/-- The mean of a reaction over the faces of a mesh, weighted by their areas. -/
def mean (mats : List (XSec K)) (meshes : List (List (K × Nat))) (rx : Rx) (c g : Nat) : K :=
  (((meshes[c]?).getD []).map fun f => f.1 * matVal mats rx g f).sum / (((meshes[c]?).getD []).map (·.1)).sum

/-- Total cross section: absorption and scattering. -/
def sigT (mats : List (XSec K)) (meshes : List (List (K × Nat))) (c g : Nat) : K := mean mats meshes .a c g + mean mats meshes .s c g

/-- The mean side of a coarse cell. -/
def width (s : Model K M) (c : Nat) : K :=
  match s.cells[c]? with
  | some cell => (cell.ext.1 + cell.ext.2) / 2
  | none => 0

end

/-- A text and a number of five digits. -/
def label (text : String) (n : Nat) : List Byte :=
  (text.toList.map fun c => UInt8.ofNat c.toNat) ++
    [n / 10000, n / 1000 % 10, n / 100 % 10, n / 10 % 10, n % 10].map fun d => UInt8.ofNat (48 + d)

end Verif.CmfdInfo
