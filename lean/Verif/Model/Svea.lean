import Mathlib.Topology.Connected.Basic
import Mathlib.Topology.Instances.Real.Lemmas
import Mathlib.Analysis.SpecialFunctions.Trigonometric.Basic
import Verif.Model.Vera1

/-!
# The plane model of the SVEA assembly

Model of models/svea/svea_2d_variable_grid.cpp (lines in the comments); svea_2d_advanced_mesh.cpp has the same geometry on a grid of six by
six coarse cells.  The cross sections of the materials, the mesh and the files are not part of this model.

* Numbers are real numbers; `sin`, `cos` and `sqrt` are exact.
* Points, lines, arcs and loops are passed by value; the code passes the tags that Gmsh gives for them.
* The inside of a loop is given by the number of its curves above a point.  An arc is the part of its circle above or below the centre,
  like its ends; in this program all arcs are quarters of a circle between the directions of the axes.
* The booleans of the kernel are questions: what is assumed of the answers is in `Answer`.  The surfaces that take part are in no group, so that
  the groups stay as they are.
-/

namespace Verif.Svea

open Verif.XSLib (Res)
open Verif.Gmsh (Gm DimTag)
open Verif.Overlay (Name)
open Verif.Pins (Occ)
open Verif.Vera1 (Single addPins mat)
open Verif.Bench (lattice)

noncomputable section

abbrev Pt := ℝ × ℝ

/-! ### The lengths, 13-26 -/

def rFuel : ℝ := 424 / 1000
def rClad : ℝ := 492 / 1000
def boxRadius : ℝ := 5 / 10
def boxThickness : ℝ := 14 / 100
def waterGap : ℝ := 69 / 100
def pinPitch : ℝ := 13 / 10
def sla : ℝ := 95 / 100
def fftf : ℝ := 1485 / 1000
def sth : ℝ := (1525 / 1000 - fftf) / 2
def bw : ℝ := 2 * waterGap + 2 * boxThickness + 10 * pinPitch + sla
def wct : ℝ := 4 / 100
def wt : ℝ := 1 / 10
def wl : ℝ := 5 / 2 * pinPitch

/-! ### What Gmsh draws -/

/-- `addLine(a, b)` and `addCircleArc(a, centre, b)`. -/
inductive Curve
  | line (a b : Pt)
  | arc (a c b : Pt)

/-- The point is below the curve: a vertical ray upwards from it meets the curve. -/
def Curve.above (P : Pt) : Curve → Prop
  | .line a b => (min a.1 b.1 ≤ P.1 ∧ P.1 < max a.1 b.1) ∧ P.2 < a.2 + (P.1 - a.1) / (b.1 - a.1) * (b.2 - a.2)
  | .arc a c b => (min a.1 b.1 ≤ P.1 ∧ P.1 < max a.1 b.1) ∧
      let h := Real.sqrt ((a.1 - c.1) ^ 2 + (a.2 - c.2) ^ 2 - (P.1 - c.1) ^ 2)
      P.2 < if a.2 + b.2 < 2 * c.2 then c.2 - h else c.2 + h

open Classical in
/-- The inside of `addCurveLoop`. -/
def inside (loop : List Curve) : Set Pt := {P | Odd (loop.countP fun k => decide (k.above P))}

/-- `addRectangle(x, y, 0, dx, dy)`. -/
def rectangle (x y dx dy : ℝ) : Set Pt := {P | x ≤ P.1 ∧ P.1 < x + dx ∧ y ≤ P.2 ∧ P.2 < y + dy}

/-- `rotate(…, bw / 2, bw / 2, 0, 0, 0, 1, t)`: a point is in the result, if turning it back gives a point of the surface. -/
def turned (t : ℝ) (S : Set Pt) : Set Pt :=
  {P | (bw / 2 + (Real.cos t * (P.1 - bw / 2) + Real.sin t * (P.2 - bw / 2)), bw / 2 + (-Real.sin t * (P.1 - bw / 2) + Real.cos t * (P.2 - bw / 2))) ∈ S}

/-- The surfaces of the kernel, by tag, and a bound for the tags. -/
structure Canvas where
  tags : List ℤ
  shape : ℤ → Set Pt
  next : ℤ

/-- A new surface and its tag. -/
def Canvas.add (c : Canvas) (S : Set Pt) : Canvas × ℤ := (⟨c.tags ++ [c.next], Function.update c.shape c.next S, c.next + 1⟩, c.next)

/-- `rotate` of one surface. -/
def Canvas.rotate (c : Canvas) (t : ℤ) (angle : ℝ) : Canvas := { c with shape := Function.update c.shape t (turned angle (c.shape t)) }

/-- `copy` of one surface. -/
def Canvas.copy (c : Canvas) (t : ℤ) : Canvas × ℤ := c.add (c.shape t)

/-- The points of surfaces. -/
def Canvas.points (c : Canvas) (l : List ℤ) : Set Pt := {P | ∃ t ∈ l, P ∈ c.shape t}

/-- A boolean: the surfaces, the tags of the surfaces that are removed, and the points of the result. -/
structure Query where
  canvas : Canvas
  gone : List ℤ
  result : Set Pt

/-- `cut(obj, tool, out, map, -1, removeObject, removeTool)`; both are removed by default. -/
def cut (c : Canvas) (obj tool : List ℤ) (rmObj rmTool : Bool) : Query :=
  ⟨c, (if rmObj then obj else []) ++ (if rmTool then tool else []), c.points obj \ c.points tool⟩

/-- `fuse(obj, tool, out, map)`. -/
def fuse (c : Canvas) (obj tool : List ℤ) : Query := ⟨c, obj ++ tool, c.points obj ∪ c.points tool⟩

/-- What is assumed of the kernel: the surfaces `out` are different, have no common points and make up the result; the surfaces `gone` are
removed and the others are kept; a result in one piece is one surface. -/
structure Answer (q : Query) (c' : Canvas) (out : List ℤ) : Prop where
  points : ∀ P, P ∈ q.result ↔ ∃ t ∈ out, P ∈ c'.shape t
  apart : out.Pairwise fun a b => a ≠ b ∧ Disjoint (c'.shape a) (c'.shape b)
  tags : ∀ t, t ∈ c'.tags ↔ t ∈ out ∨ (t ∈ q.canvas.tags ∧ t ∉ q.gone)
  new : ∀ t ∈ out, t ∈ q.canvas.tags → t ∈ q.gone
  kept : ∀ t ∈ q.canvas.tags, t ∉ q.gone → c'.shape t = q.canvas.shape t
  bound : ∀ t ∈ c'.tags, t < c'.next
  one : IsConnected q.result → out.length = 1

/-- A program that asks the kernel.  `undef`: access beyond the end of a list. -/
inductive Run (α : Type) : Type
  | ret (a : α)
  | undef
  | ask (q : Query) (k : Canvas → List ℤ → Run α)

def Run.bind {α β : Type} : Run α → (α → Run β) → Run β
  | .ret a, f => f a
  | .undef, _ => .undef
  | .ask q k, f => .ask q fun c out => (k c out).bind f

/-- `out_dim_tags[0].second`. -/
def first {α : Type} (out : List ℤ) (k : ℤ → Run α) : Run α :=
  match out with
  | [] => .undef
  | t :: _ => k t

/-! ### The channel box -/

/-- The rounded square with its sides at `o` and `bw - o` and the centres of its corners at `a` and `bw - a`: 104-111 with the points 84-91, and
113-121 with 94-101. -/
def roundedLoop (o a : ℝ) : List Curve :=
  let p4 : Pt := (a, o)
  let p5 : Pt := (bw - a, o)
  let p6 : Pt := (bw - o, a)
  let p7 : Pt := (bw - o, bw - a)
  let p8 : Pt := (bw - a, bw - o)
  let p9 : Pt := (a, bw - o)
  let p10 : Pt := (o, bw - a)
  let p11 : Pt := (o, a)
  [.arc p11 (a, a) p4, .line p4 p5, .arc p5 (bw - a, a) p6, .line p6 p7, .arc p7 (bw - a, bw - a) p8, .line p8 p9, .arc p9 (a, bw - a) p10, .line p10 p11]

/-- `offset`, 67-68. -/
def off0 : ℝ := waterGap
def off1 : ℝ := waterGap + boxThickness
def off2 : ℝ := waterGap + boxThickness + boxRadius

/-- `coolant` and `box_outer_surf`, 124-133: the second has the inner loop as a hole. -/
def coolantSurf : Set Pt := inside (roundedLoop off1 off2)
def outerSurf : Set Pt := inside (roundedLoop off0 off2) \ inside (roundedLoop off1 off2)

/-- `rect0` and `rect1`, 136-139. -/
def rect0 : Set Pt := rectangle (bw / 2 - fftf / 2 - sth) (bw / 2 - fftf / 2 - sth) (fftf + 2 * sth) (fftf + 2 * sth)
def rect1 : Set Pt := rectangle (bw / 2 - fftf / 2) (bw / 2 - fftf / 2) fftf fftf

/-- The rectangles of a wing, 158-159, 167-169 and 178-180. -/
def skinny : Set Pt := rectangle (waterGap + boxThickness) (bw / 2 - wct / 2) (bw / 2) wct
def thick : Set Pt := rectangle (waterGap + boxThickness + boxRadius + pinPitch / 4) (bw / 2 - wct - wt / 2) (wl + wct * 2) (wt + wct * 2)
def wingHole : Set Pt := rectangle (waterGap + boxThickness + boxRadius + pinPitch / 4 + wct) (bw / 2 - wt / 2) wl wt

/-- `copy(tags, tmp)` and `rotate(tmp, …)`, 194-197. -/
def copyAll (angle : ℝ) : List ℤ → Canvas → Canvas × List ℤ
  | [], c => (c, [])
  | t :: ts, c =>
    let q := c.copy t
    let r := copyAll angle ts (q.1.rotate q.2 angle)
    (r.1, q.2 :: r.2)

/-- The copies of a wing, 191-198: `k` gets the surfaces and `wing_tags`. -/
def copies {α : Type} (out : List ℤ) : List Nat → Canvas → List ℤ → (Canvas → List ℤ → Run α) → Run α
  | [], c, tags, k => k c tags
  | i :: is, c, tags, k =>
    let r := copyAll (1 / 2 * ((i : ℝ) + 1) * Real.pi) out c
    first r.2 fun t => copies out is r.1 (tags ++ [t]) k

/-- `makeChannelBox`, 78-212: the surfaces, `coolant` and `channel_box`. -/
def makeBox (c : Canvas) : Run (Canvas × ℤ × ℤ) :=
  let (c, coolant) := c.add coolantSurf
  let (c, outer) := c.add outerSurf
  let (c, r0) := c.add rect0
  let (c, r1) := c.add rect1
  let c := (c.rotate r0 (1 / 4 * Real.pi)).rotate r1 (1 / 4 * Real.pi)
  .ask (cut c [r0] [r1] false true) fun c out => first out fun cross =>
  let (c, thin) := c.add skinny
  .ask (cut c [thin] [r0] true true) fun c out => first out fun thin =>
  let (c, wide) := c.add thick
  .ask (fuse c [thin] [wide]) fun c out => first out fun wide =>
  let (c, hole) := c.add wingHole
  .ask (cut c [wide] [hole] true true) fun c out => first out fun wing =>
  copies out [0, 1, 2] c [wing] fun c wings =>
  .ask (fuse c [outer, cross] wings) fun c out => first out fun box => .ret (c, coolant, box)

/-- The surfaces with the tags that the program keeps: `clad_tags`, `cool_tags` and `mod_tags`. -/
structure Box where
  canvas : Canvas
  clad : List ℤ
  cool : List ℤ
  mod : List ℤ

/-- The first four surfaces of the last cut and the next four, 213-229; access beyond the end is undefined. -/
def sortOut (box : ℤ) (c : Canvas) (out : List ℤ) : Option Box :=
  if out.length < 8 then none else some ⟨c, [box], out.take 4, (out.drop 4).take 4⟩

/-- `makeChannelBox`, 34-231: the tag of the box, the surfaces and the answer to the last cut, 216-221. -/
def makeChannelBox (c : Canvas) : Run (ℤ × Canvas × List ℤ) :=
  (makeBox c).bind fun (c, coolant, box) => .ask (cut c [coolant] [box] true false) fun c out => .ret (box, c, out)

/-! ### Pins -/

/-- The text of `pin_ids`, 448-459. -/
def text : List String :=
  ["",
   "    0 1 2 2 1 2 4 4 2 1",
   "    1 4 4 5 5 5 5 3 5 2",
   "    2 3 4 5 5 5 5 5 3 4",
   "    2 5 5 5 4 4 5 5 5 4",
   "    1 4 5 4 9 9 4 5 5 2",
   "    1 4 5 4 9 9 4 5 5 2",
   "    2 5 5 5 4 4 5 5 5 4",
   "    2 3 4 5 5 5 5 5 3 4",
   "    1 4 4 5 5 5 5 3 5 2",
   "    0 1 2 2 1 2 4 4 2 1",
   "  "]

/-- The fuel of `pin_mats`, 428-446; `omit_gap` is set, 11. -/
def fuels : List String := ["UO2_300", "UO2_380", "UO2_410Gd", "UO2_460", "UO2_470Gd", "UO2_495"]

/-- `xx` and `yy`, 466-474. -/
def place (i : Nat) : ℝ := ((i : ℝ) + 1 / 2) * pinPitch + (waterGap + boxThickness) + if 4 < i then sla else 0

/-- The fuel of an id, 475-479: 9 is no pin; an id without materials is undefined. -/
def fuelOf (id : ℤ) : Option (Option String) := if id = 9 then some none else if id < 0 then none else (fuels[id.toNat]?).map some

/-- The pin at a place of the table, 470-480. -/
def pinOf {C : Type} (col : String → C) (i j : Nat) : Option String → List (Single ℝ C)
  | none => []
  | some f => [⟨(place j, place i), [rFuel, rClad], [mat col f, mat col "Clad"]⟩]

/-- The loops over the table, 465-482. -/
def pinList {C : Type} (col : String → C) : Option (List (Single ℝ C)) :=
  (lattice text).bind fun ids =>
  ((List.range 10).mapM fun i => (ids[i]?).bind fun row =>
    ((List.range 10).mapM fun j => ((row[j]?).bind fuelOf).map (pinOf col i j)).map List.flatten).map List.flatten

/-! ### The program -/

/-- The groups and colours of the box, 489-497. -/
def dress {C : Type} (clos : DimTag → List DimTag) (col : String → C) (gm : Gm Name C) (b : Box) : Res (Scene.Sheet C) :=
  (Gmsh.addToPhysicalGroup gm 2 b.clad (-1) (Overlay.matName (mat col "Clad").1)).bind fun gm =>
  (Gmsh.addToPhysicalGroup gm 2 b.cool (-1) (Overlay.matName (mat col "Coolant").1)).bind fun gm =>
  (Gmsh.addToPhysicalGroup gm 2 b.mod (-1) (Overlay.matName (mat col "Moderator").1)).bind fun gm =>
  (Gmsh.colorMaterials clos gm ([mat col "Clad", mat col "Coolant", mat col "Moderator"].map fun m => (Overlay.matName m.1, m.2))).bind fun gm =>
  .ok ⟨gm, (b.canvas.tags.dedup).insertionSort (· ≤ ·), b.canvas.next⟩

/-- `domain_extents`, 510. -/
def domain : ℝ × ℝ := (bw, bw)

/-- `moderator`, 513. -/
def fill {C : Type} (col : String → C) : Name × C := mat col "Moderator"

end

end Verif.Svea
