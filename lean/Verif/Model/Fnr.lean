import Mathlib.Analysis.SpecialFunctions.Trigonometric.Basic
import Verif.Model.Scene
import Verif.Model.LatticeText
import Verif.Model.GmshInfo

/-!
# The plane models of the Ford Nuclear Reactor

Model of models/fnr/fnr_leu_2d_variable_grid.cpp (lines in the comments; fnr_leu_2d_advanced_mesh.cpp has the same up to the arguments and
the meshing) and of models/fnr/fnr_heu_2d_single_asy.cpp.

* Numbers are real numbers; `sqrt`, `sin` and `cos` are exact.
* Points, lines, arcs and loops are passed by value; the code passes the tags that Gmsh gives for them.  Surfaces get consecutive tags,
  starting at one (assumed of Gmsh).
* The inside of a loop is given by the number of its curves above a point, so that its lower and its left side belong to it.  An arc is the
  upper one of the circle, as in these programs, in which the centre is below the chord.
-/

namespace Verif.Fnr

open Verif.XSLib (Res)
open Verif.Gmsh (Gm DimTag)
open Verif.Overlay (Name)
open Verif.MFiles (str)
open Verif.Bench (lattice)

noncomputable section

abbrev Pt := ℝ × ℝ

/-! ### What Gmsh draws -/

/-- `addLine(a, b)` and `addCircleArc(a, centre, b)`. -/
inductive Curve
  | line (a b : Pt)
  | arc (a c b : Pt)

/-- The point is below the curve: a vertical ray upwards from it meets the curve. -/
def Curve.above (P : Pt) : Curve → Prop
  | .line a b => (min a.1 b.1 ≤ P.1 ∧ P.1 < max a.1 b.1) ∧ P.2 < a.2 + (P.1 - a.1) / (b.1 - a.1) * (b.2 - a.2)
  | .arc a c b => (min a.1 b.1 ≤ P.1 ∧ P.1 < max a.1 b.1) ∧
      P.2 < c.2 + Real.sqrt ((a.1 - c.1) ^ 2 + (a.2 - c.2) ^ 2 - (P.1 - c.1) ^ 2)

open Classical in
/-- The inside of `addCurveLoop`. -/
def inside (loop : List Curve) : Set Pt := {P | Odd (loop.countP fun k => decide (k.above P))}

/-- `addRectangle(x, y, 0, dx, dy)`. -/
def rectangle (x y dx dy : ℝ) : Set Pt := {P | x ≤ P.1 ∧ P.1 < x + dx ∧ y ≤ P.2 ∧ P.2 < y + dy}

/-- `addRectangle(x, y, 0, dx, dy, -1, r)`: with corners rounded to the radius `r`. -/
def rounded (x y dx dy r : ℝ) : Set Pt :=
  {P | P ∈ rectangle x y dx dy ∧ max 0 (max (x + r - P.1) (P.1 - (x + dx - r))) ^ 2 + max 0 (max (y + r - P.2) (P.2 - (y + dy - r))) ^ 2 ≤ r ^ 2}

/-- The surfaces drawn so far, and the vectors of tags, 76-80. -/
structure Draw where
  surfs : List (Set Pt)
  fuel : List ℤ
  clad : List ℤ
  borated : List ℤ
  steel : List ℤ
  heavy : List ℤ

/-- A new surface and its tag. -/
def Draw.add (d : Draw) (S : Set Pt) : Draw × ℤ := ({ d with surfs := d.surfs ++ [S] }, d.surfs.length + 1)

/-! ### Fuel plates -/

/-- `in_to_cm`, 67. -/
def inch : ℝ := 254 / 100

/-- `fuel_curvature_radius`, 68. -/
def curvature : ℝ := 55 / 10 * inch

/-- `elem_x_pitch` and `elem_y_pitch`, 69-70. -/
def xPitch : ℝ := 3031 / 1000 * inch

def yPitch : ℝ := 3189 / 1000 * inch

/-- The lengths in which the elements with low and with high enrichment differ, 119-122 and 256-258; fnr_heu_2d_single_asy.cpp 91-94 and
228-230. -/
structure Sizes where
  meatWidth : ℝ
  meatThickness : ℝ
  cladThickness : ℝ
  plateToPlate : ℝ
  sideWidth : ℝ

def leu : Sizes := ⟨24 / 10 * inch, 32 / 1000 * inch, 15 / 1000 * inch, 2564 / 1000 * inch, 315 / 100 * inch⟩

def heu : Sizes := ⟨24 / 10 * inch, 22 / 1000 * inch, 20 / 1000 * inch, 2562 / 1000 * inch, 317 / 100 * inch⟩

/-- `getCircleCenter`, 87-106. -/
def circleCenter (p0 p1 : Pt) (r : ℝ) : Pt :=
  let a := Real.sqrt ((p0.1 - p1.1) ^ 2 + (p0.2 - p1.2) ^ 2) / 2
  let b := Real.sqrt (r * r - a * a)
  let p2 : Pt := ((p0.1 + p1.1) / 2, (p0.2 + p1.2) / 2)
  let n := Real.sqrt ((p1.1 - p0.1) ^ 2 + (p1.2 - p0.2) ^ 2)
  let v : Pt := ((p1.1 - p0.1) / n, (p1.2 - p0.2) / n)
  let u : Pt := (v.2, -v.1)
  (p2.1 + b * u.1, p2.2 + b * u.2)

/-- `addCircleArc` with `getCircleCenter`, for example 162-164. -/
def arcOf (p q : Pt) : Curve := .arc p (circleCenter p q curvature) q

/-- The curves of the plate and of the meat, 151-236. -/
def plateLoops (q : Sizes) (x0 y0 : ℝ) : List Curve × List Curve :=
  let plateThickness := q.meatThickness + 2 * q.cladThickness
  let fuelAngle := q.meatWidth / curvature
  let p0 : Pt := (x0, y0)
  let p1 : Pt := (x0 + q.plateToPlate, y0)
  let p2 : Pt := (x0 + q.plateToPlate, y0 + plateThickness)
  let p3 : Pt := (x0, y0 + plateThickness)
  let c0 := circleCenter p0 p1 curvature
  let c1 := circleCenter p3 p2 curvature
  let cc : Pt := ((c0.1 + c1.1) / 2, (c0.2 + c1.2) / 2)
  let v : Pt := (-Real.sin (fuelAngle / 2), Real.cos (fuelAngle / 2))
  let p4 : Pt := (cc.1 + (curvature - q.meatThickness / 2) * v.1, cc.2 + (curvature - q.meatThickness / 2) * v.2)
  let p7 : Pt := (cc.1 + (curvature + q.meatThickness / 2) * v.1, cc.2 + (curvature + q.meatThickness / 2) * v.2)
  let v : Pt := (-v.1, v.2)
  let p5 : Pt := (cc.1 + (curvature - q.meatThickness / 2) * v.1, cc.2 + (curvature - q.meatThickness / 2) * v.2)
  let p6 : Pt := (cc.1 + (curvature + q.meatThickness / 2) * v.1, cc.2 + (curvature + q.meatThickness / 2) * v.2)
  ([arcOf p0 p1, .line p1 p2, arcOf p3 p2, .line p3 p0], [arcOf p4 p5, .line p5 p6, arcOf p7 p6, .line p7 p4])

/-- `makeFuelPlateLEURegular`, 114-244: the tags of the meat and of the clad. -/
def makePlate (q : Sizes) (d : Draw) (x0 y0 : ℝ) : Draw × (ℤ × ℤ) :=
  let loops := plateLoops q x0 y0
  let (d, outer) := d.add (inside loops.1 \ inside loops.2)
  let (d, inner) := d.add (inside loops.2)
  (d, (inner, outer))

/-! ### Elements -/

/-- `side_plate_thickness`, 257. -/
def sideThickness : ℝ := 189 / 1000 * inch

/-- `water_gap` and `unit_cell_thickness`, 259-260. -/
def waterGap : ℝ := 115 / 1000 * inch

def unitCell : ℝ := 177 / 1000 * inch

/-- `x_shift` and `y_shift`, 264-269. -/
def xShift (q : Sizes) : ℝ := (xPitch - (q.plateToPlate + 2 * sideThickness)) / 2

def yShift (q : Sizes) : ℝ := (yPitch - q.sideWidth) / 2

/-- The body of the loops over the plates, 271-277. -/
def addPlate (q : Sizes) (x0 y0 : ℝ) (d : Draw) (i : Nat) : Draw :=
  let x := x0 + sideThickness + xShift q
  let y := y0 + i * unitCell + waterGap / 2 + yShift q
  let (d, tags) := makePlate q d x y
  { d with fuel := d.fuel ++ [tags.1], clad := d.clad ++ [tags.2] }

/-- `clad_tags.push_back(addRectangle(...))`. -/
def addClad (d : Draw) (S : Set Pt) : Draw :=
  let (d, t) := d.add S
  { d with clad := d.clad ++ [t] }

/-- The two side plates, 278-285. -/
def addSides (q : Sizes) (x0 y0 : ℝ) (d : Draw) : Draw :=
  let d := addClad d (rectangle (x0 + xShift q) (y0 + yShift q) sideThickness q.sideWidth)
  addClad d (rectangle (x0 + q.plateToPlate + sideThickness + xShift q) (y0 + yShift q) sideThickness q.sideWidth)

/-- `makeFuelElementLEURegular`, 251-286. -/
def makeRegular (q : Sizes) (x0 y0 : ℝ) (d : Draw) : Draw := addSides q x0 y0 ((List.range 18).foldl (addPlate q x0 y0) d)

/-- `makeFuelElementEmpty`, 293-318. -/
def makeEmpty (q : Sizes) (x0 y0 : ℝ) (d : Draw) : Draw := addSides q x0 y0 d

/-- The rods of borated steel and of steel. -/
inductive Rod
  | borated
  | steel

/-- `rod_tags.push_back`. -/
def Draw.pushRod (d : Draw) (t : ℤ) : Rod → Draw
  | .borated => { d with borated := d.borated ++ [t] }
  | .steel => { d with steel := d.steel ++ [t] }

/-- `makeControlRod`, 325-340. -/
def makeRod (x0 y0 : ℝ) (rod : Rod) (d : Draw) : Draw :=
  let thickness : ℝ := 2198 / 1000
  let width : ℝ := 5668 / 1000
  let (d, t) := d.add (rounded (x0 - width / 2) (y0 - thickness / 2) width thickness (thickness / 2 * (999 / 1000)))
  d.pushRod t rod

/-- `makeFuelElementLEUSpecial`, 347-417, with `make_ctrl`. -/
def makeSpecial (q : Sizes) (x0 y0 : ℝ) (rod : Rod) (d : Draw) : Draw :=
  let guideWidth : ℝ := 2564 / 1000 * inch
  let guideThickness : ℝ := 125 / 1000 * inch
  let d := (List.range 5).foldl (addPlate q x0 y0) d
  let d := ((List.range 18).drop 14).foldl (addPlate q x0 y0) d
  let d := addSides q x0 y0 d
  let x := x0 + sideThickness + xShift q
  let d := addClad d (rectangle x (y0 + 6 * unitCell + waterGap / 2 + yShift q) guideWidth guideThickness)
  let d := addClad d (rectangle x (y0 + 13 * unitCell + waterGap / 2 + yShift q) guideWidth guideThickness)
  let x := x + guideWidth / 2
  let ybot := y0 + 6 * unitCell + waterGap / 2 + yShift q + guideThickness
  let ytop := y0 + 13 * unitCell + waterGap / 2 + yShift q
  makeRod x ((ybot + ytop) / 2) rod d

/-- `makeD2OTank`, 423-473. -/
def makeTank (x0 y0 : ℝ) (d : Draw) : Draw :=
  let t : ℝ := 254 / 100 / 2
  let h : ℝ := 6480084 / 100000
  let w : ℝ := 308356 / 10000
  let p0 : Pt := (x0, y0)
  let p1 : Pt := (x0 + w, y0)
  let p2 : Pt := (x0 + w, y0 + h)
  let p3 : Pt := (x0, y0 + h)
  let p4 : Pt := (x0 + t, y0 + t)
  let p5 : Pt := (x0 + w - t, y0 + t)
  let p6 : Pt := (x0 + w - t, y0 + h - t)
  let p7 : Pt := (x0 + t, y0 + h - t)
  let outerLoop : List Curve := [.line p0 p1, .line p1 p2, .line p2 p3, .line p3 p0]
  let innerLoop : List Curve := [.line p4 p5, .line p5 p6, .line p6 p7, .line p7 p4]
  let (d, outer) := d.add (inside outerLoop \ inside innerLoop)
  let (d, inner) := d.add (inside innerLoop)
  { d with clad := d.clad ++ [outer], heavy := d.heavy ++ [inner] }

/-! ### The core -/

/-- The text of `core_layout`, 619-628. -/
def layoutText : List String :=
  ["",
   "      0 0 0 0 0 0 ",
   "      0 0 0 1 0 0",
   "      0 1 1 1 1 1",
   "      0 1 2 1 2 1",
   "      0 1 1 1 1 1",
   "      0 1 3 1 2 1",
   "      0 1 1 1 1 1",
   "      0 0 0 0 0 0",
   "    "]

/-- `domain_extents`, 611. -/
def leuDomain : ℝ × ℝ := (100, 100)

/-- `core_offset`, 612-614. -/
def coreOffset : ℝ × ℝ :=
  let bounds : ℝ × ℝ := (7702904 / 100000 - 5 / 10 * (308356 / 10000), 6480084 / 100000)
  ((leuDomain.1 - bounds.1) / 2, (leuDomain.2 - bounds.2) / 2)

/-- The choice of the element, 635-643. -/
def makeElement (id : ℤ) (x y : ℝ) (d : Draw) : Draw :=
  if id = 0 then makeEmpty leu x y d
  else if id = 1 then makeRegular leu x y d
  else if id = 2 then makeSpecial leu x y .borated d
  else if id = 3 then makeSpecial leu x y .steel d
  else d

/-- A row of elements, 633-644. -/
def makeRow (y : ℝ) (row : List ℤ) (d : Draw) : Draw :=
  row.zipIdx.foldl (fun d q => makeElement q.1 (coreOffset.1 + q.2 * xPitch) y d) d

/-- The loop over the rows from the last to the first, 631-645. -/
def makeCore (layout : List (List ℤ)) (d : Draw) : Draw :=
  layout.reverse.zipIdx.foldl (fun d q => makeRow (coreOffset.2 + q.2 * yPitch) q.1 d) d

def blank : Draw := ⟨[], [], [], [], [], []⟩

/-- The drawing, 618-647. -/
def leuDraw : Option Draw :=
  (lattice layoutText).map fun layout => makeTank (coreOffset.1 + 6 * xPitch) coreOffset.2 (makeCore layout blank)

/-! ### Groups and grid -/

/-- A material, by its name, 505-599. -/
def mat {C : Type} (col : String → C) (n : String) : Name × C := (Verif.Overlay.matName (str n), col n)

/-- The groups, 651-655, in the order of the calls. -/
def leuGroups (d : Draw) : List (List ℤ × String) :=
  [(d.clad, "Aluminum"), (d.heavy, "HeavyWater"), (d.fuel, "Fuel"), (d.borated, "BoratedSteel"), (d.steel, "Steel")]

/-- The groups, fnr_heu_2d_single_asy.cpp 412-413. -/
def heuGroups (d : Draw) : List (List ℤ × String) := [(d.clad, "Aluminum"), (d.fuel, "Fuel")]

/-- `addPhysicalGroup(2, tags, -1, name)` for each group, and `colorMaterialPhysicalGroupEntities`, 651-661. -/
def dress {C : Type} (clos : DimTag → List DimTag) (col : String → C) (blue : DimTag → C) (groups : List (List ℤ × String)) : Res (Gm Name C) :=
  Gmsh.colorMaterials clos (groups.foldl (fun s g => s.add 2 g.1 (-1) (mat col g.2).1) ⟨[], blue⟩) (groups.map fun g => mat col g.2)

/-- The Gmsh model before the overlay. -/
def sheet {C : Type} (clos : DimTag → List DimTag) (col : String → C) (blue : DimTag → C) (groups : List (List ℤ × String)) (d : Draw) :
    Res (Scene.Sheet C) :=
  (dress clos col blue groups).bind fun gm => .ok ⟨gm, Scene.fresh 1 d.surfs.length, d.surfs.length + 1⟩

/-- `domain_extents`, fnr_heu_2d_single_asy.cpp 404-405. -/
def heuDomain : ℝ × ℝ := (105 / 100 * xPitch, 11 / 10 * yPitch)

/-- The element, fnr_heu_2d_single_asy.cpp 406-408. -/
def heuDraw : Draw := makeRegular heu ((heuDomain.1 - xPitch) / 2) ((heuDomain.2 - yPitch) / 2) blank

/-- `ny`, fnr_heu_2d_single_asy.cpp 431: the conversion drops the fraction. -/
def heuRows (nx : Nat) : Nat := ⌊heuDomain.2 / heuDomain.1 * nx⌋₊

/-! ### Materials -/

/-- The weights of the uranium in the fuel, 550-553 and fnr_heu_2d_single_asy.cpp 351-354, with the mass numbers. -/
def uranium : List (Nat × ℚ) := [(235, 14061 / 100), (234, 151 / 100), (236, 75 / 100), (238, 804 / 100)]

/-- The weights of the aluminum and of the iron, 554-555. -/
def aluminumWeight : ℚ := 908

def ironWeight : ℚ := 37 / 10

/-- The parts of the aluminum, 561-570, in the order of the calls of `addNuclideWt`. -/
def alloy : List (String × ℚ) :=
  [("Al27", 9725 / 10000), ("Mg00", 1 / 100), ("Si00", 6 / 1000), ("Cu63", 205437585615717 / 10 ^ 17), ("Cu65", 94562414384283 / 10 ^ 17),
   ("Cr00", 3 / 1000), ("Ti00", 5 / 10000), ("Mn55", 5 / 10000), ("Fe00", 35 / 10000)]

/-- `heu_wt`, 556. -/
def totalWeight : ℚ := (uranium.map (·.2)).sum + aluminumWeight + ironWeight

/-- The fractions by weight that are given to `addNuclideWt`, 557-570. -/
def fractions : List ℚ :=
  uranium.map (fun q => q.2 / totalWeight) ++ alloy.map fun q => (if q.1 = "Fe00" then ironWeight / totalWeight else 0) + q.2 * aluminumWeight / totalWeight

end

end Verif.Fnr
