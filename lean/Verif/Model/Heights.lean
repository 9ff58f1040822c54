import Verif.Model.Mpact

/-!
# Height listings of the C API

Model of `um2MPACTCoarseCellHeights`, `um2MPACTRTMHeights`, `um2MPACTLatticeHeights` and `um2MPACTAssemblyHeights`,
src/um2c.cpp 411-603, over exact arithmetic; `none` is an out-of-bounds read.  The copy into the two C arrays is left out.
-/

namespace Verif.Heights

open Verif.Mpact (Model Assembly Lattice Rect at? forIds)

variable {K M : Type} [Field K] [LinearOrder K]

/-- "If the id, dz pair is not in the vector, add it", um2c.cpp 447-456, 502-511, 558-567. -/
def addPair (eps : K) (l : List (ℤ × K)) (id : ℤ) (dz : K) : List (ℤ × K) :=
  if l.any fun p => decide (p.1 = id) && decide (|p.2 - dz| < eps) then l else l ++ [(id, dz)]

/-- `assembly.grid().getBox(i).extents(0)`, for example um2c.cpp 435, 600: the thickness of the layer `i`. -/
def layer (a : Assembly K) (i : Nat) : Option K := (a.zs[i]?).bind fun lo => (a.zs[i + 1]?).bind fun hi => some (hi - lo)

/-- The loop over the layers of an assembly, with the work done for a lattice and a thickness. -/
def overLayers (f : ℤ → K → List (ℤ × K) → Option (List (ℤ × K))) (a : Assembly K) : List Nat → List (ℤ × K) → Option (List (ℤ × K))
  | [], l => some l
  | i :: is, l => (layer a i).bind fun dz => (a.children[i]?).bind fun lat => (f lat dz l).bind fun l => overLayers f a is l

/-- The loop over the assemblies. -/
def overAssemblies (f : ℤ → K → List (ℤ × K) → Option (List (ℤ × K))) : List (Assembly K) → List (ℤ × K) → Option (List (ℤ × K))
  | [], l => some l
  | a :: as, l => (overLayers f a (List.range a.children.length) l).bind fun l => overAssemblies f as l

/-- The loops of `um2MPACTLatticeHeights`, 549-569. -/
def latticePairs (eps : K) (s : Model K M) : Option (List (ℤ × K)) :=
  overAssemblies (fun lat dz l => some (addPair eps l lat dz)) s.assemblies []

/-- The loops of `um2MPACTRTMHeights`, 487-514. -/
def rtmPairs (eps : K) (s : Model K M) : Option (List (ℤ × K)) :=
  overAssemblies (fun lat dz l => (at? s.lattices lat).bind fun lattice => forIds (fun r l => some (addPair eps l r dz)) lattice.children l)
    s.assemblies []

/-- The loops of `um2MPACTCoarseCellHeights`, 424-460. -/
def cellPairs (eps : K) (s : Model K M) : Option (List (ℤ × K)) :=
  overAssemblies (fun lat dz l => (at? s.lattices lat).bind fun lattice =>
    forIds (fun r l => (at? s.rtms r).bind fun rtm => forIds (fun c l => some (addPair eps l c dz)) rtm.children l) lattice.children l)
    s.assemblies []

/-- The comparator, um2c.cpp 464-467, 518-521, 574-577. -/
def lt (eps : K) (p q : ℤ × K) : Bool := if |p.2 - q.2| < eps then decide (p.1 < q.1) else decide (p.2 < q.2)

/-- `um2MPACTAssemblyHeights`, 594-603. -/
def assemblyHeights (a : Assembly K) : Option (List K) := (List.range a.children.length).mapM (layer a)

end Verif.Heights
