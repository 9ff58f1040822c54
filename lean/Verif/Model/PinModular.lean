import Verif.Model.LatticePrograms

/-!
# Programs with pin-modular ray tracing

The calls on the MPACT model in models/vera/problem_4/2d/vera_4_rodded_2d_advanced_mesh.cpp 381-397 and, with meshes, in
models/c5g7/3d/c5g7_3d_standard_moc.cpp 82-211: one coarse cell and one module for each pin, the lattices, the assemblies and the core.

Numbers are exact.  The numbers that the calls return are ignored, as in the programs.
-/

namespace Verif.Modular

open Verif.XSLib (Res)
open Verif.Gmsh (Gm DimTag)
open Verif.Overlay (Name Cut cuts)
open Verif.Programs
open Verif.Mpact
open Verif.ElemTypes (MeshType)

variable {K C M : Type} [Field K] [LinearOrder K]

/-- `addCoarseCell(pin_size)` and `addRTM({{i}})` for every pin, vera_4_rodded_2d_advanced_mesh.cpp 382-385. -/
def addPins (sort : List K → List K) (eps : K) (size : K × K) : List Nat → Model K M → Option (Model K M)
  | [], s => some s
  | i :: is, s =>
    (addCoarseCell s size MeshType.Invalid (-1) []).bind fun r =>
    (addRTM sort eps r.1 [[(i : ℤ)]]).bind fun r => addPins sort eps size is r.1

/-- The calls of `addLattice`, vera_4_rodded_2d_advanced_mesh.cpp 386-388. -/
def addLattices : List (List (List ℤ)) → Model K M → Option (Model K M)
  | [], s => some s
  | l :: ls, s => (Mpact.addLattice s l).bind fun r => addLattices ls r.1

/-- The calls of `addAssembly`, each with the lattices from the bottom and the heights, vera_4_rodded_2d_advanced_mesh.cpp 389-391. -/
def addAssemblies (eps : K) : List (Assembly K) → Model K M → Option (Model K M)
  | [], s => some s
  | a :: as, s => (addAssembly eps s a.children a.zs).bind fun r => addAssemblies eps as r.1

/-- Lattices, assemblies and core, vera_4_rodded_2d_advanced_mesh.cpp 386-396. -/
def addRest (sort : List K → List K) (eps : K) (lats : List (List (List ℤ))) (asys : List (Assembly K)) (core : List (List ℤ))
    (s : Model K M) : Option (Model K M) :=
  (addLattices lats s).bind fun s => (addAssemblies eps asys s).bind fun s => (Mpact.addCore sort eps s core).bind fun r => some r.1

/-- The program up to the search for the rectangles of the coarse cells, vera_4_rodded_2d_advanced_mesh.cpp 345-397, with `n` pins. -/
def build (clos : DimTag → List DimTag) (sort : List K → List K) (eps : K) (color : DimTag → C) (pls : List (Placement K C))
    (s : Model K M) (size : K × K) (n : Nat) (lats : List (List (List ℤ))) (asys : List (Assembly K)) (core : List (List ℤ)) :
    Res (Pins.Occ K C × Model K M × List (Cut K)) :=
  (addAll clos sort eps pls (start color)).bind fun o =>
  (Res.ofOption (addPins sort eps size (List.range n) s)).bind fun m =>
  (Res.ofOption (addRest sort eps lats asys core m)).bind fun m =>
  (cuts m).bind fun cs => .ok (o, m, cs)

end Verif.Modular
