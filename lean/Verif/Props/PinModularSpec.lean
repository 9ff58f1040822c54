import Verif.Props.LatticeProgramsSpec
import Verif.Props.CmfdInfoSpec
import Verif.Model.PinModular

/-! Specification of plane models with pin-modular ray tracing (C111): the drawing has every pin of the core, the model keeps one coarse
cell for each kind of pin and repeats it. -/

namespace Verif.ModularSpec

open Verif.Gmsh (DimTag Gm)
open Verif.Overlay (Name)
open Verif.PinsSpec
open Verif.Programs
open Verif.ProgramsSpec
open Verif.CmfdInfo (Tile IsTile)

variable {K C M : Type} [Field K] [LinearOrder K]

/-- A core of `A` by `B` lattices of `nx` by `ny` pins, all of the same size.  `lat a b` is the lattice in column `a` and row `b` of the core,
one of `L`; `pin k i j` is the pin in column `i` and row `j` of lattice `k`; rows are counted from the top, as in the texts. -/
structure Plan (K C : Type) where
  size : K × K
  nx : Nat
  ny : Nat
  A : Nat
  B : Nat
  L : Nat
  radii : List (List K)
  mats : List (List (Name × C))
  pin : Nat → Nat → Nat → Nat
  lat : Nat → Nat → Nat

/-- The rows of a table. -/
def rows (nx ny : Nat) (f : Nat → Nat → Nat) : List (List ℤ) := (List.range ny).map fun j => (List.range nx).map fun i => (f i j : ℤ)

/-- The pin in column `i` and row `j` of the lattice in column `a` and row `b`, rows counted from the bottom. -/
def Plan.pinAt (q : Plan K C) (a b i j : Nat) : Nat := q.pin (q.lat a (q.B - 1 - b)) i (q.ny - 1 - j)

/-- The call that draws the lattice in column `a` and row `b`, rows counted from the bottom. -/
def Plan.call (q : Plan K C) (a b : Nat) : Placement K C where
  ids := rows q.nx q.ny (q.pin (q.lat a (q.B - 1 - b)))
  pitch := q.size
  radii := q.radii
  mats := q.mats
  off := (a * (q.nx * q.size.1), b * (q.ny * q.size.2))

/-- The lattices as given to `addLattice`. -/
def Plan.lattices (q : Plan K C) : List (List (List ℤ)) := (List.range q.L).map fun k => rows q.nx q.ny (q.pin k)

/-- The assemblies as given to `addAssembly`: one for each lattice, of height one. -/
def Plan.assemblies (q : Plan K C) : List (Mpact.Assembly K) := (List.range q.L).map fun k : Nat => ⟨[-1 / 2, 1 / 2], [(k : ℤ)]⟩

/-- The point is in the cell of a pin, with its left and its lower side. -/
def Plan.InPin (q : Plan K C) (a b i j : Nat) (P : K × K) : Prop :=
  a < q.A ∧ b < q.B ∧ i < q.nx ∧ j < q.ny ∧ (a * q.nx + i) * q.size.1 ≤ P.1 ∧ P.1 < (a * q.nx + i + 1) * q.size.1 ∧
  (b * q.ny + j) * q.size.2 ≤ P.2 ∧ P.2 < (b * q.ny + j + 1) * q.size.2

/-- The plan is one of a core: not empty, of known lattices of known pins, and every pin is used; the circles do not shrink and stay within
their cells, and have materials. -/
structure Plan.Sound (eps : K) (q : Plan K C) : Prop where
  pos : 0 < q.nx ∧ 0 < q.ny ∧ 0 < q.A ∧ 0 < q.B
  known : ∀ k < q.L, ∀ i < q.nx, ∀ j < q.ny, q.pin k i j < q.radii.length
  there : ∀ a < q.A, ∀ b < q.B, q.lat a b < q.L
  used : ∀ p < q.radii.length, ∃ a < q.A, ∃ b < q.B, ∃ i < q.nx, ∃ j < q.ny, q.pinAt a b i j = p
  size : eps ≤ q.size.1 ∧ eps ≤ q.size.2
  mats : List.Forall₂ (fun rad ms => rad.length ≤ ms.length) q.radii q.mats
  some : ∃ rad ∈ q.radii, rad ≠ []
  up : ∀ rad ∈ q.radii, ∀ r ∈ rad, 0 < r
  order : ∀ rad ∈ q.radii, rad.Pairwise (· ≤ ·)
  small : ∀ rad ∈ q.radii, ∀ r ∈ rad, r < q.size.1 / 2 ∧ r < q.size.2 / 2
  count : q.radii.length ≤ 100000

/-- The rectangle with a corner and extents, with its left and its lower side. -/
def box (corner ext : K × K) : Set (K × K) :=
  {P | corner.1 ≤ P.1 ∧ P.1 < corner.1 + ext.1 ∧ corner.2 ≤ P.2 ∧ P.2 < corner.2 + ext.2}

/-- What the model has at a point of the core: the point is in the place of a coarse cell; the coarse cell was cut from the drawing
somewhere, as a rectangle of the same extents, and has material `x` at the corresponding point there. -/
def Seen (m : Mpact.Model K M) (g : Gm Name C) (reg : ℤ → Set (K × K)) (P : K × K) (x : Name) : Prop :=
  ∃ (t : Tile K) (corner : K × K), IsTile m t ∧ P ∈ box t.lo (t.hi - t.lo) ∧
    GmshSpec.region reg g 2 (OverlayGroupsSpec.cell t.id) = box corner (t.hi - t.lo) ∧ MaterialAt g reg (corner + (P - t.lo)) x

/-- The program comes to the overlay without an error; whatever fragments the kernel then finds, the overlay succeeds, and `Q` holds of
the MPACT model, the groups and the points of the fragments. -/
def Yields (clos : DimTag → List DimTag) (sort : List K → List K) (eps : K) (color : DimTag → C) (pls : List (Placement K C))
    (s : Mpact.Model K M) (size : K × K) (n : Nat) (lats : List (List (List ℤ))) (asys : List (Mpact.Assembly K)) (core : List (List ℤ))
    (fill : Name × C) (Q : Mpact.Model K M → Gm Name C → (ℤ → Set (K × K)) → Prop) : Prop :=
  ∃ o m cs, Modular.build clos sort eps color pls s size n lats asys core = .ok (o, m, cs) ∧
    ∀ map all reg, Fragments o cs map all reg → ∃ g gone, lay clos o cs map all fill = .ok (g, gone) ∧ Q m g reg

end Verif.ModularSpec
