import Verif.Model.ModelXdmf
import Verif.Model.XSLib

/-!
# The rectangles of the coarse grid

Model of the first part of `overlayCoarseGrid`, src/gmsh/model.cpp 1107-1205 and 1234-1258: the position and the extents of the
rectangle, or box, that cuts the geometry for every coarse cell.

Simplifications.  `Float` is a linearly ordered field.  `LOG_ERROR` ends the program: `refused`.  `undef` is undefined
behaviour: `Vector<Point3F>(n)` leaves its elements uninitialised, so that a coarse cell that is never visited has no
rectangle, and to read it is undefined.
-/

namespace Verif.Overlay

open Verif.Mpact hiding Lattice
open Verif.XSLib (Res)
open Verif.ModelXdmf (places childAt)

/-- `cc_lower_lefts[i]` and `cc_extents[i]`. -/
structure Cut (K : Type) where
  ll : K × K × K
  ext : K × K × K
  deriving DecidableEq

/-- `asy_found`, `lat_found`, `rtm_found`; `cc_found` with what was written, model.cpp 1116-1123. -/
structure Found (K : Type) where
  asy : List Bool
  lat : List Bool
  rtm : List Bool
  cells : List (Option (Cut K))

/-- A loop over a list with a state. -/
def forEach {α σ : Type} (f : α → σ → Res σ) : List α → σ → Res σ
  | [], st => .ok st
  | x :: l, st => (f x st).bind fun st => forEach f l st

section
variable {K M : Type} [Field K] [LinearOrder K]

/-- `grid().getBox(ix, iy)` of a rectilinear grid: minima and extents. -/
def boxAt (xs ys : List K) (p : Nat × Nat) : Option ((K × K) × (K × K)) :=
  (xs[p.1]?).bind fun x0 => (xs[p.1 + 1]?).bind fun x1 => (ys[p.2]?).bind fun y0 => (ys[p.2 + 1]?).bind fun y1 =>
  some ((x0, y0), (x1 - x0, y1 - y0))

/-- One coarse cell, model.cpp 1182-1197. -/
def visitCell (r : Rect K) (ll : K × K) (z dz : K) (p : Nat × Nat) (st : Found K) : Res (Found K) :=
  (Res.ofOption (childAt (r.xs.length - 1) r.children p)).bind fun c =>
  (Res.ofOption (at? st.cells c)).bind fun found =>
  match found with
  | some _ => .ok st
  | none => (Res.ofOption (boxAt r.xs r.ys p)).bind fun b =>
    .ok { st with cells := st.cells.set c.toNat (some ⟨(ll.1 + b.1.1, ll.2 + b.1.2, z), (b.2.1, b.2.2, dz)⟩) }

/-- One ray tracing module, model.cpp 1163-1199: `ll` is the corner of the assembly. -/
def visitRtm (s : Model K M) (l : Mpact.Lattice K) (ll : K × K) (z dz : K) (p : Nat × Nat) (st : Found K) : Res (Found K) :=
  (Res.ofOption (childAt l.nx l.children p)).bind fun i =>
  (Res.ofOption (at? st.rtm i)).bind fun found =>
  if found then .ok st else
  (Res.ofOption (at? s.rtms i)).bind fun r =>
  if r.children = [] then .refused else
  forEach (visitCell r (ll.1 + l.spacing.1 * (p.1 : K), ll.2 + l.spacing.2 * (p.2 : K)) z dz)
    (places (r.xs.length - 1) (r.ys.length - 1)) { st with rtm := st.rtm.set i.toNat true }

/-- One lattice, model.cpp 1142-1201. -/
def visitLat (s : Model K M) (a : Assembly K) (ll : K × K) (k : Nat) (st : Found K) : Res (Found K) :=
  (Res.ofOption (a.children[k]?)).bind fun i =>
  (Res.ofOption (at? st.lat i)).bind fun found =>
  if found then .ok st else
  (Res.ofOption (a.zs[k]?)).bind fun lo => (Res.ofOption (a.zs[k + 1]?)).bind fun hi =>
  (Res.ofOption (at? s.lattices i)).bind fun l =>
  if l.children = [] then .refused else
  forEach (visitRtm s l ll ((lo + hi) / 2) ((hi - lo) / 2)) (places l.nx l.ny) { st with lat := st.lat.set i.toNat true }

/-- One assembly, model.cpp 1125-1203. -/
def visitAsy (s : Model K M) (p : Nat × Nat) (st : Found K) : Res (Found K) :=
  (Res.ofOption (childAt (s.core.xs.length - 1) s.core.children p)).bind fun i =>
  (Res.ofOption (at? st.asy i)).bind fun found =>
  if found then .ok st else
  (Res.ofOption (boxAt s.core.xs s.core.ys p)).bind fun b =>
  (Res.ofOption (at? s.assemblies i)).bind fun a =>
  if a.children = [] then .refused else
  forEach (visitLat s a b.1) (List.range (a.zs.length - 1)) { st with asy := st.asy.set i.toNat true }

/-- The search, model.cpp 1114-1205. -/
def search (s : Model K M) : Res (Found K) :=
  if s.core.children = [] then .refused else
  forEach (visitAsy s) (places (s.core.xs.length - 1) (s.core.ys.length - 1))
    ⟨List.replicate s.assemblies.length false, List.replicate s.lattices.length false, List.replicate s.rtms.length false,
      List.replicate s.cells.length none⟩

/-- All elements, or undefined. -/
def readAll {α : Type} : List (Option α) → Res (List α)
  | [] => .ok []
  | none :: _ => .undef
  | some a :: l => (readAll l).bind fun l => .ok (a :: l)

/-- The rectangles of the coarse cells, in order, model.cpp 1107-1205 and 1234-1258. In three dimensions they are the bottoms of
boxes with the height `ext.2.2`. -/
def cuts (s : Model K M) : Res (List (Cut K)) := (search s).bind fun st => readAll st.cells

end

end Verif.Overlay
