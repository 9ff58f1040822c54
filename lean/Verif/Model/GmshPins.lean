import Verif.Model.OverlayGroups
import Verif.Model.Mpact

/-!
# Pins

Model of `addCylindricalPin2D`, src/gmsh/model.cpp 665-724, and `addCylindricalPinLattice2D`, 746-855.

Of the kernel only the plane surfaces are kept: a disk or the annulus between two circles around a point.  New surfaces get
consecutive tags (assumed of Gmsh).  Numbers are exact, casts between `float` and `double` do nothing.  `LOG_ERROR` ends the
program: `refused`; `undef` is undefined behaviour.
-/

namespace Verif.Pins

open Verif.XSLib (Res)
open Verif.Gmsh (Gm DimTag)
open Verif.Overlay (Name matName)

variable {K C : Type}

/-- The plane surface between the circles with radii `inner` (none for a disk) and `outer` around (`x`, `y`). -/
structure Annulus (K : Type) where
  tag : ℤ
  x : K
  y : K
  inner : Option K
  outer : K
  deriving DecidableEq

/-- Groups and colours, the surfaces, and the tag of the next surface. -/
structure Occ (K C : Type) where
  gm : Gm Name C
  rings : List (Annulus K)
  next : ℤ

/-- The disk and the annuli of a pin, model.cpp 691-707 and 812-831. -/
def ringsAt (x y : K) : Option K → List K → ℤ → List (Annulus K)
  | _, [], _ => []
  | prev, r :: rs, t => ⟨t, x, y, prev, r⟩ :: ringsAt x y (some r) rs (t + 1)

/-- The materials of a pin, model.cpp 709-721. -/
def pinMats (clos : DimTag → List DimTag) : List ℤ → List (Name × C) → Gm Name C → Res (Gm Name C)
  | t :: ts, m :: ms, s =>
    (Gmsh.addToPhysicalGroup s 2 [t] (-1) (matName m.1)).bind fun s => pinMats clos ts ms (s.setColor clos [(2, t)] m.2)
  | _, _, s => .ok s

section
variable [Field K] [LinearOrder K]

/-- `is_sorted`, as in include/um2/stdlib/algorithm/is_sorted.hpp: no element is less than the one before. -/
def isSorted : List K → Bool
  | a :: b :: l => !decide (b < a) && isSorted (b :: l)
  | _ => true

/-- `addCylindricalPin2D`, model.cpp 665-724. -/
def addPin (clos : DimTag → List DimTag) (o : Occ K C) (x y : K) (radii : List K) (mats : List (Name × C)) : Res (Occ K C × List ℤ) :=
  match radii with
  | [] => .refused
  | r0 :: _ =>
    if radii.length ≠ mats.length then .refused else
    if r0 ≤ 0 then .refused else
    if ¬ isSorted radii then .refused else
    let new := ringsAt x y none radii o.next
    (pinMats clos (new.map (·.tag)) mats o.gm).bind fun s =>
    Res.ok (⟨s, o.rings ++ new, o.next + radii.length⟩, new.map (·.tag))

/-- The places of a pin, model.cpp 802-806: column and row from the bottom, rows from the bottom to the top. -/
def pinPlaces (rows : List (List ℤ)) (ncol : Nat) (p : Nat) : List (Nat × Nat) :=
  (List.range rows.length).flatMap fun j => (List.range ncol).filterMap fun i =>
    if (rows.getD j [])[i]? = some (p : ℤ) then some (i, j) else none

/-- The middle of cell (`i`, `j`) of the grid, model.cpp 807. -/
def middle (xs ys : List K) (i j : Nat) : Option (K × K) :=
  (Grid.rectCell xs i).bind fun cx => (Grid.rectCell ys j).bind fun cy => some ((cx.1 + cx.2) / 2, (cy.1 + cy.2) / 2)

/-- The surfaces of a pin, for each of its places, model.cpp 800-835. -/
def pinRings (xs ys : List K) (off : K × K) (radii : List K) : List (Nat × Nat) → ℤ → Option (List (List (Annulus K)))
  | [], _ => some []
  | (i, j) :: ps, t =>
    (middle xs ys i j).bind fun c =>
    (pinRings xs ys off radii ps (t + radii.length)).bind fun rest =>
    some (ringsAt (c.1 + off.1) (c.2 + off.2) none radii t :: rest)

/-- `material_ids[k]`, model.cpp 800, 817 and 828: the tags of the rings number `k`. -/
def materialIds (new : List (List (Annulus K))) (k : Nat) : List ℤ := new.filterMap fun rs => (rs[k]?).map (·.tag)

/-- The materials of the surfaces of a pin, model.cpp 837-863; `k` is `imat`. A missing material is read outside the vector. -/
def latticeMats (clos : DimTag → List DimTag) (new : List (List (Annulus K))) (mats : List (Name × C)) :
    List Nat → Gm Name C → Res (Gm Name C)
  | [], s => .ok s
  | k :: ks, s =>
    match mats[k]? with
    | none => .undef
    | some m =>
      if materialIds new k = [] then latticeMats clos new mats ks s else
      (Gmsh.addToPhysicalGroup s 2 (materialIds new k) (-1) (matName m.1)).bind fun s =>
      latticeMats clos new mats ks (s.setColor clos ((materialIds new k).map fun t => (2, t)) m.2)

/-- The loop over the pins, model.cpp 794-864. -/
def latticeLoop (clos : DimTag → List DimTag) (xs ys : List K) (off : K × K) (rows : List (List ℤ)) (ncol : Nat)
    (radii : List (List K)) (mats : List (List (Name × C))) : List Nat → Occ K C → List ℤ → Res (Occ K C × List ℤ)
  | [], o, out => .ok (o, out)
  | p :: ps, o, out =>
    match radii[p]? with
    | none => .undef
    | some rad =>
      if rad = [] then latticeLoop clos xs ys off rows ncol radii mats ps o out else
      (Res.ofOption (pinRings xs ys off rad (pinPlaces rows ncol p) o.next)).bind fun new =>
      (Res.ofOption mats[p]?).bind fun ms =>
      (latticeMats clos new ms (List.range rad.length) o.gm).bind fun s =>
      latticeLoop clos xs ys off rows ncol radii mats ps ⟨s, o.rings ++ new.flatten, o.next + new.flatten.length⟩
        (out ++ new.flatten.map (·.tag))

/-- `addCylindricalPinLattice2D`, model.cpp 748-860; `sort` stands for `std::sort` in the constructor of the grid, line 791. -/
def addLattice (clos : DimTag → List DimTag) (sort : List K → List K) (eps : K) (o : Occ K C)
    (ids : List (List ℤ)) (dxdy : List (K × K)) (radii : List (List K)) (mats : List (List (Name × C))) (off : K × K) :
    Res (Occ K C × List ℤ) :=
  if radii = [] then .refused else
  if radii.length ≠ mats.length then .refused else
  if radii.length ≠ dxdy.length then .refused else
  match ids with
  | [] => .undef
  | row0 :: _ =>
    if ids.any fun row => row.length ≠ row0.length then .refused else
    if ids.flatten.any fun id => decide (id < 0) || decide (id ≥ radii.length) then .refused else
    match Mpact.mkGrid sort eps dxdy (ids.map fun r => r.map (·.toNat)) with
    | none => .undef
    | some (xs, ys) => latticeLoop clos xs ys off ids.reverse row0.length radii mats (List.range radii.length) o []

end

end Verif.Pins
