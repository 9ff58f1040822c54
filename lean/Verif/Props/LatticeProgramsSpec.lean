import Verif.Props.GmshPinsSpec
import Verif.Model.LatticePrograms

/-! Specification of plane models made of lattices of pins (C107). -/

namespace Verif.ProgramsSpec

open Verif.Gmsh (DimTag)
open Verif.Overlay (Name Cut)
open Verif.PinsSpec
open Verif.Pins (Annulus Occ)
open Verif.Programs

variable {K C : Type} [Field K] [LinearOrder K]

/-- The square of the distance of two points. -/
def dist2 (p q : K × K) : K := (p.1 - q.1) ^ 2 + (p.2 - q.2) ^ 2

/-- The middle of the cell in column `i` and row `j`, counted from the bottom left. -/
def centre (pl : Placement K C) (i j : Nat) : K × K :=
  (pl.off.1 + (i + 1 / 2) * pl.pitch.1, pl.off.2 + (j + 1 / 2) * pl.pitch.2)

/-- The point is in a ring of material `x` of a pin of the lattice: ring `k` is the first circle of the pin that it is in. -/
def Shows (pl : Placement K C) (P : K × K) (x : Name) : Prop :=
  ∃ (i j p k : Nat) (rad : List K) (r : K) (ms : List (Name × C)) (c : C),
    idAt pl.ids.reverse i j = some (p : ℤ) ∧ pl.radii[p]? = some rad ∧ pl.mats[p]? = some ms ∧ rad[k]? = some r ∧ ms[k]? = some (x, c) ∧
    dist2 P (centre pl i j) ≤ r ^ 2 ∧ ∀ r', within rad k = some r' → r' ^ 2 < dist2 P (centre pl i j)

/-- The lattice is a table of known pins, not empty, with a material for every ring, of pins that are not smaller than the tolerance. -/
structure Good (eps : K) (pl : Placement K C) : Prop where
  rows : pl.ids ≠ []
  cols : ∃ n, 0 < n ∧ ∀ row ∈ pl.ids, row.length = n
  known : ∀ row ∈ pl.ids, ∀ id ∈ row, 0 ≤ id ∧ id < pl.radii.length
  mats : List.Forall₂ (fun rad ms => rad.length ≤ ms.length) pl.radii pl.mats
  pitch : eps ≤ pl.pitch.1 ∧ eps ≤ pl.pitch.2

/-- The points of a surface of the pins. -/
def ringSet (o : Occ K C) (e : ℤ) : Set (K × K) := {P | ∃ R ∈ o.rings, R.tag = e ∧ covers R P}

/-- The points of the rectangle of a coarse cell, with the left and the lower side. -/
def rectSet (c : Cut K) : Set (K × K) :=
  {P | c.ll.1 ≤ P.1 ∧ P.1 < c.ll.1 + c.ext.1 ∧ c.ll.2.1 ≤ P.2 ∧ P.2 < c.ll.2.1 + c.ext.2.1}

/-- What is assumed of the kernel: `map` lists for each surface of the pins and then for each rectangle its fragments, `reg` are the
points of the fragments; a surface is the union of its fragments, different fragments have no common point, and all fragments are in
the list of surfaces afterwards. -/
structure Fragments (o : Occ K C) (cs : List (Cut K)) (map : List (List DimTag)) (all : List ℤ) (reg : ℤ → Set (K × K)) : Prop where
  full : map.length = (surfaces o).length + cs.length
  rings : ∀ (i : Nat) e l, (surfaces o)[i]? = some e → map[i]? = some l → ringSet o e = {P | ∃ c ∈ l, P ∈ reg c.2}
  rects : ∀ (i : Nat) c l, cs[i]? = some c → map[(surfaces o).length + i]? = some l → rectSet c = {P | ∃ c ∈ l, P ∈ reg c.2}
  apart : ∀ a ∈ map.flatten, ∀ b ∈ map.flatten, a.2 ≠ b.2 → Disjoint (reg a.2) (reg b.2)
  sorted : all.Pairwise (· < ·)
  after : ∀ c ∈ map.flatten, c.2 ∈ all

/-- The point is in the cell in column `i` and row `j`, with its left and its lower side. -/
def InCell (pl : Placement K C) (i j : Nat) (P : K × K) : Prop :=
  pl.off.1 + i * pl.pitch.1 ≤ P.1 ∧ P.1 < pl.off.1 + (i + 1) * pl.pitch.1 ∧
  pl.off.2 + j * pl.pitch.2 ≤ P.2 ∧ P.2 < pl.off.2 + (j + 1) * pl.pitch.2

/-- The material at the distance with square `D` from the middle of a pin: that of the first circle that reaches so far. -/
def look : List K → List (Name × C) → K → Option Name
  | r :: rs, m :: ms, D => if D ≤ r ^ 2 then some m.1 else look rs ms D
  | _, _, _ => none

/-- The circles of the pins do not shrink and stay within the cells. -/
structure Inside (pl : Placement K C) : Prop where
  pos : ∀ rad ∈ pl.radii, ∀ r ∈ rad, 0 < r
  order : ∀ rad ∈ pl.radii, rad.Pairwise (· ≤ ·)
  small : ∀ rad ∈ pl.radii, ∀ r ∈ rad, r < pl.pitch.1 / 2 ∧ r < pl.pitch.2 / 2

/-- The program comes to the overlay without an error; whatever fragments the kernel then finds, the overlay succeeds, and `Q` holds of
the groups and the points of the fragments. -/
def Yields {M : Type} (clos : DimTag → List DimTag) (sort : List K → List K) (eps : K) (color : DimTag → C) (pls : List (Placement K C))
    (s : Mpact.Model K M) (ext : K × K) (nx ny : ℤ) (fill : Name × C) (Q : Gmsh.Gm Name C → (ℤ → Set (K × K)) → Prop) : Prop :=
  ∃ o m cs, build clos sort eps color pls s ext nx ny = .ok (o, m, cs) ∧
    ∀ map all reg, Fragments o cs map all reg → ∃ g gone, lay clos o cs map all fill = .ok (g, gone) ∧ Q g reg

/-- The groups of the coarse cells are the `nx` by `ny` equal rectangles of the domain, counted row by row from the bottom left, and
nothing is left outside the domain. -/
def GridCells (ext : K × K) (nx ny : Nat) (g : Gmsh.Gm Name C) (reg : ℤ → Set (K × K)) : Prop :=
  (∀ i < nx, ∀ j < ny, GmshSpec.region reg g 2 (OverlayGroupsSpec.cell (i + j * nx)) =
    {P | i * (ext.1 / nx) ≤ P.1 ∧ P.1 < (i + 1) * (ext.1 / nx) ∧ j * (ext.2 / ny) ≤ P.2 ∧ P.2 < (j + 1) * (ext.2 / ny)}) ∧
  ∀ P n d, P ∈ GmshSpec.region reg g d n → 0 ≤ P.1 ∧ P.1 < ext.1 ∧ 0 ≤ P.2 ∧ P.2 < ext.2

/-- The point has the material `x` and no other. -/
def MaterialAt (g : Gmsh.Gm Name C) (reg : ℤ → Set (K × K)) (P : K × K) (x : Name) : Prop :=
  ∀ y, P ∈ GmshSpec.region reg g 2 (OverlayGroupsSpec.material y) ↔ y = x

end Verif.ProgramsSpec
