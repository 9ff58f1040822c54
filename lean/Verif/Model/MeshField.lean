import Mathlib.Analysis.SpecialFunctions.Trigonometric.Basic
import Verif.Model.OverlayGroups
import Verif.Model.XSec
import Verif.Model.ModelFiles

/-!
# The mesh size from the Knudsen number

Model of src/gmsh/mesh.cpp 157-514: `setMeshFieldFromKnudsenNumber`.

* Arithmetic is exact, over the real numbers; `prt x` is the value of the text `std::to_string(x)`.
* A mesh size field of Gmsh is its function.  `P` are the places where a size is asked for, `on x p` holds if place `p` is on
  entity `x` or its boundary, `dist d l p` is the distance of `p` to the entities of dimension `d` with tags in `l`, and `down x` are
  the tags that `getAdjacencies` gives for the boundary.  The largest size of Gmsh is `maxLc` (10^22): the value of a field
  `Constant` away from its entities.  A new field has the number after the last one.
* `LOG_ERROR` ends the program: `refused`.  Undefined behaviour is `undef`.
-/

namespace Verif.Kn

open Verif.XSLib (Res)
open Verif.Gmsh (DimTag)
open Verif.Overlay (Name)
open Verif.Phys (XSec collapse)
open Verif.MFiles (str)

variable {P : Type}

/-- The geometry as Gmsh has it. -/
structure Geo (P : Type) where
  on : DimTag → P → Prop
  dist : ℤ → Set ℤ → P → ℝ
  down : DimTag → List ℤ

noncomputable def maxLc : ℝ := 10 ^ 22

/-! ## Fields -/

/-- Field `Constant` with `VIn`. -/
noncomputable def constant (G : Geo P) (vin : ℝ) (d : ℤ) (ents : List ℤ) : P → ℝ :=
  open Classical in fun p => if ∃ e ∈ ents, G.on (d, e) p then vin else maxLc

/-- Field number `id`, starting at one. -/
noncomputable def field (fs : List (P → ℝ)) (id : Nat) : P → ℝ := fs.getD (id - 1) fun _ => maxLc

/-- Fields `Max` and `Min` of two and of any number of fields. -/
noncomputable def maxField (fs : List (P → ℝ)) (ids : List Nat) : P → ℝ := fun p => ids.foldl (fun v i => max v (field fs i p)) (-maxLc)

@[inherit_doc maxField]
noncomputable def minField (fs : List (P → ℝ)) (ids : List Nat) : P → ℝ := fun p => ids.foldl (fun v i => min v (field fs i p)) maxLc

/-- Field `MathEval` with the expression of mesh.cpp 388-396 and 482-490. -/
noncomputable def linear (prt : ℝ → ℝ) (fs : List (P → ℝ)) (id : Nat) (scale offset : ℝ) : P → ℝ := fun p =>
  if 0 ≤ offset then field fs id p * prt scale + prt offset else field fs id p * prt scale - prt (-offset)

/-! ## Materials -/

structure Mat where
  name : Name
  xsec : XSec ℝ

/-- The groups whose name starts with `Material`, mesh.cpp 168-181. -/
def matGroups (groups : List (Gmsh.Group Name)) (dim : ℤ) : List (Gmsh.Group Name) :=
  groups.filter fun g => g.dim == dim && (str "Material").isPrefixOf g.name

/-- `index_of_material_in_gmsh`, mesh.cpp 199-210. -/
def indexOf (mg : List (Gmsh.Group Name)) (m : Mat) : Nat := ((mg.findIdx? fun g => str "Material_" ++ m.name == g.name).getD 10000)

/-- What is computed for a material, mesh.cpp 234-270. -/
structure Info where
  ents : List ℤ
  lc : ℝ
  sigma : ℝ
  fissile : Bool
  absorber : Bool

/-- `hasXSec`, material.hpp 184-188. -/
def hasXSec (m : Mat) : Bool := m.xsec.macro_ && !m.xsec.a.isEmpty

/-- One material, mesh.cpp 238-269; `ents` are the entities of its group. -/
noncomputable def info (kn : ℝ) (m : Mat) (ents : List ℤ) : Option Info := do
  let x ← collapse m.xsec
  let a ← x.a[0]?
  let s ← x.s[0]?
  let sigma := a + s
  pure ⟨ents, 12 / (Real.pi * √3 * kn * sigma), sigma, m.xsec.fissile, open Classical in decide (s / sigma < 0.2 ∧ 0.9 < sigma)⟩

/-- A list named `PointsList`, `CurvesList`, `SurfacesList` or `VolumesList` is set, for example mesh.cpp 285-299. -/
def listOk (d : ℤ) : Bool := d == 0 || d == 1 || d == 2 || d == 3

/-! ## The fields of the materials -/

/-- The new field for material `x` with base field `id`: distance to `l`, mesh.cpp 385-404 and 477-500. The state is the fields;
the result has the number of the field. -/
noncomputable def scaled (prt : ℝ → ℝ) (fs : List (P → ℝ)) (id dist : Nat) (x : Info) (thr scl : ℝ) : List (P → ℝ) × Nat :=
  let fs1 := fs ++ [linear prt fs dist (x.lc * x.sigma * scl) (x.lc * (1 - thr * scl))]
  (fs1 ++ [maxField fs1 [id, fs1.length]], fs1.length + 1)

/-- The base fields, mesh.cpp 273-300. -/
noncomputable def baseFields (G : Geo P) (dim : ℤ) : List Info → List (P → ℝ) → List (P → ℝ) × List Nat
  | [], fs => (fs, [])
  | x :: xs, fs =>
    let r := baseFields G dim xs (fs ++ [constant G x.lc dim x.ents])
    (r.1, (fs.length + 1) :: r.2)

/-- The loop over the materials that are neither fuel nor absorber, mesh.cpp 381-405. -/
noncomputable def fuelLoop (prt : ℝ → ℝ) (dist : Nat) (thr scl : ℝ) : List (Info × Nat) → List (P → ℝ) → List (P → ℝ) × List Nat
  | [], fs => (fs, [])
  | (x, id) :: l, fs =>
    if !x.fissile && !x.absorber then
      let r := scaled prt fs id dist x thr scl
      let q := fuelLoop prt dist thr scl l r.1
      (q.1, r.2 :: q.2)
    else
      let q := fuelLoop prt dist thr scl l fs
      (q.1, id :: q.2)

/-- Whether two neighbours are equal; without elements the loop runs beyond the end, mesh.cpp 331-337 and 445-450. -/
def twice (l : List ℤ) : Option Bool := if l = [] then none else some (decide (¬ l.IsChain (· ≠ ·)))

/-- With `fuel_mfp_threshold`, mesh.cpp 306-406. -/
noncomputable def fuelFields (G : Geo P) (prt : ℝ → ℝ) (dim : ℤ) (thr scl : ℝ) (xs : List Info) (ids : List Nat) (fs : List (P → ℝ)) :
    Res (List (P → ℝ) × List Nat) :=
  if xs.all fun x => !x.fissile then .refused else
  let fuel := ((xs.filter (·.fissile)).flatMap (·.ents)).insertionSort (· ≤ ·)
  match twice fuel with
  | none => .undef
  | some true => .refused
  | some false =>
    if !listOk dim then .refused else
    .ok (fuelLoop prt (fs.length + 1) thr scl (xs.zip ids) (fs ++ [G.dist dim {e | e ∈ fuel}]))

/-- The entities of the boundary of an absorber, mesh.cpp 434-459; `acc` are those so far. -/
def boundary (down : ℤ → List ℤ) : List ℤ → List ℤ → Res (List ℤ)
  | [], acc => .ok acc
  | e :: es, acc =>
    let d := (down e).insertionSort (· ≤ ·)
    match twice d with
    | none => .undef
    | some true => .refused
    | some false => boundary down es (d.foldl (fun acc x => if x ∈ acc then acc else acc ++ [x]) acc)

/-- The loop over the absorbers, mesh.cpp 426-502. -/
noncomputable def absLoop (G : Geo P) (prt : ℝ → ℝ) (dim : ℤ) (thr scl : ℝ) : List (Info × Nat) → List (P → ℝ) → Res (List (P → ℝ) × List Nat)
  | [], fs => .ok (fs, [])
  | (x, id) :: l, fs =>
    if x.absorber then
      (boundary (fun e => G.down (dim, e)) x.ents []).bind fun b =>
      if !(dim - 1 == 0 || dim - 1 == 1 || dim - 1 == 2) then .refused else
      let r := scaled prt (fs ++ [G.dist (dim - 1) {e | e ∈ b.insertionSort (· ≤ ·)}]) id (fs.length + 1) x thr scl
      (absLoop G prt dim thr scl l r.1).bind fun q => .ok (q.1, r.2 :: q.2)
    else (absLoop G prt dim thr scl l fs).bind fun q => .ok (q.1, id :: q.2)

/-- With `abs_mfp_threshold`, mesh.cpp 411-503. -/
noncomputable def absFields (G : Geo P) (prt : ℝ → ℝ) (dim : ℤ) (thr scl : ℝ) (xs : List Info) (ids : List Nat) (fs : List (P → ℝ)) :
    Res (List (P → ℝ) × List Nat) :=
  if xs.all fun x => !x.absorber then .refused else absLoop G prt dim thr scl (xs.zip ids) fs

/-- The parameters of the function. -/
structure Par where
  dim : ℤ
  kn : ℝ
  fuelThr : ℝ
  fuelScl : ℝ
  absThr : ℝ
  absScl : ℝ

/-- The checks and the data of the materials, mesh.cpp 164-270. -/
noncomputable def prepare (groups : List (Gmsh.Group Name)) (mats : List Mat) (p : Par) : Res (List Info) :=
  let mg := matGroups groups p.dim
  if mg.length ≠ mats.length then .refused else
  if mats.any fun m => indexOf mg m == 10000 then .refused else
  if p.kn ≤ 0 then .refused else
  if mats.any fun m => !hasXSec m then .refused else
  Res.ofOption (mats.mapM fun m => (mg[indexOf mg m]?).bind fun g => info p.kn m g.ents)

/-- `setMeshFieldFromKnudsenNumber`, mesh.cpp 163-515: the fields and the number of the background field; `fs` are the fields before. -/
noncomputable def knudsen (G : Geo P) (prt : ℝ → ℝ) (groups : List (Gmsh.Group Name)) (mats : List Mat) (p : Par) (fs : List (P → ℝ)) :
    Res (List (P → ℝ) × Nat) :=
  (prepare groups mats p).bind fun xs =>
  if !xs.isEmpty && !listOk p.dim then .refused else
  let b := baseFields G p.dim xs fs
  (if 0 ≤ p.fuelThr then fuelFields G prt p.dim p.fuelThr p.fuelScl xs b.2 b.1 else .ok b).bind fun b =>
  (if 0 ≤ p.absThr then absFields G prt p.dim p.absThr p.absScl xs b.2 b.1 else .ok b).bind fun b =>
  .ok (b.1 ++ [minField b.1 b.2], b.1.length + 1)

end Verif.Kn
