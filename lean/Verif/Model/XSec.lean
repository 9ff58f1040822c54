import Mathlib.Analysis.Real.Sqrt
import Mathlib.Data.Int.Notation
import Mathlib.Data.List.Range
import Verif.Model.Stats

/-!
# Cross sections

Model of `include/um2/physics/cross_section.hpp`, `src/physics/cross_section.cpp` (`collapseTo1GroupAvg`),
`src/physics/nuclide.cpp` (`interpXS`), `src/physics/cross_section_library.cpp` (`getNuclide`),
`src/physics/material.cpp` (`populateXSec`) and `src/mpact/model.cpp` (`computeCellHomogenizedXSec`).

Arithmetic is exact.  A read or write beyond the end of a `Vector` is `none`.  `validate` only writes to the log
and is left out; it is modelled in `XSValid.lean`.
-/

namespace Verif.Phys

/-- `XSec`, cross_section.hpp 20-53.  `ss` is the data of the matrix, column major with `ng` rows. -/
structure XSec (K : Type) where
  macro_ : Bool
  fissile : Bool
  ng : Nat
  a : List K
  f : List K
  nuf : List K
  tr : List K
  s : List K
  ss : List K

variable {K : Type}

/-- `ss()(i, j)`, matrix.hpp 276-285. -/
def XSec.ssAt (x : XSec K) (i j : Nat) : Option K := x.ss[j * x.ng + i]?

/-- `XSec(num_groups)`, cross_section.hpp 42-51. -/
def XSec.zero [Zero K] (n : Nat) : XSec K :=
  ⟨false, false, n, .replicate n 0, .replicate n 0, .replicate n 0, .replicate n 0, .replicate n 0,
    .replicate (n * n) 0⟩

/-- One value for each group. -/
def mapG (n : Nat) (h : Nat → Option K) : Option (List K) := (List.range n).mapM h

/-- One value for each pair of groups: a loop over the columns around a loop over the rows. -/
def mapGG (n : Nat) (h : Nat → Nat → Option K) : Option (List K) :=
  ((List.range n).mapM fun g => (List.range n).mapM fun gg => h gg g).map List.flatten

/-- The body of the loops over the groups in nuclide.cpp 107-117, material.cpp 482-491, model.cpp 3104-3113 and
3120-3131: the same expression `op x y` for every reaction. -/
def combine (op : K → K → K) (n : Nat) (m fis : Bool) (x y : XSec K) : Option (XSec K) := do
  let a ← mapG n fun g => do pure (op (← x.a[g]?) (← y.a[g]?))
  let f ← mapG n fun g => do pure (op (← x.f[g]?) (← y.f[g]?))
  let nuf ← mapG n fun g => do pure (op (← x.nuf[g]?) (← y.nuf[g]?))
  let tr ← mapG n fun g => do pure (op (← x.tr[g]?) (← y.tr[g]?))
  let s ← mapG n fun g => do pure (op (← x.s[g]?) (← y.s[g]?))
  let ss ← mapGG n fun gg g => do pure (op (← x.ssAt gg g) (← y.ssAt gg g))
  pure ⟨m, fis, n, a, f, nuf, tr, s, ss⟩

/-! ### Collapsing -/

/-- `collapseTo1GroupAvg`, cross_section.cpp 122-141; `mean` is that of stats.hpp. -/
def collapse [Field K] (x : XSec K) : Option (XSec K) := do
  let a ← Stats.mean x.a
  let f ← Stats.mean x.f
  let nuf ← Stats.mean x.nuf
  let tr ← Stats.mean x.tr
  let s ← Stats.mean x.s
  let ss ← Stats.mean x.ss
  pure ⟨x.macro_, x.fissile, 1, [a], [f], [nuf], [tr], [s], [(x.ng : K) * ss]⟩

/-! ### Interpolation -/

/-- The search for the upper temperature, nuclide.cpp 87-90: `l` holds the temperatures from index `i` on. -/
def upperLoop [LinearOrder K] (t : K) : List K → Nat → Option Nat
  | [], _ => none
  | x :: l, i => if x ≤ t then upperLoop t l (i + 1) else some i

/-- `interpXS`, nuclide.cpp 66-122. -/
noncomputable def interpXS (temps : List ℝ) (xs : List (XSec ℝ)) (t : ℝ) : Option (XSec ℝ) :=
  if temps.length = 1 then xs[0]?
  else do
    let tFirst ← temps[0]?
    if t ≤ tFirst then xs[0]?
    else do
      let tLast ← temps.getLast?
      if tLast ≤ t then xs.getLast?
      else do
        let i ← upperLoop t temps 0
        if i = 0 then none
        else do
          let t0 ← temps[i - 1]?
          let t1 ← temps[i]?
          let d := (√t - √t0) / (√t1 - √t0)
          let xs0 ← xs[i - 1]?
          let xs1 ← xs[i]?
          combine (fun v0 v1 => v0 + d * (v1 - v0)) xs0.ng xs0.macro_ xs0.fissile xs0 xs1

/-! ### Materials -/

/-- The parts of `Nuclide` in use, nuclide.hpp 23-27. -/
structure Nuc where
  zaid : ℤ
  temps : List ℝ
  xs : List (XSec ℝ)

/-- `getNuclide`, cross_section_library.cpp 457-467: an unknown ZAID is logged and gives the first nuclide. -/
def getNuclide (lib : List Nuc) (zaid : ℤ) : Option Nuc :=
  match lib.find? fun n => n.zaid == zaid with
  | some n => some n
  | none => lib[0]?

/-- The loop body of `populateXSec`, material.cpp 472-493. -/
noncomputable def populateStep (lib : List Nuc) (T : ℝ) (acc : XSec ℝ) (zn : ℤ × ℝ) : Option (XSec ℝ) := do
  let nuc ← getNuclide lib zn.1
  let x ← interpXS nuc.temps nuc.xs T
  combine (fun r v => r + v * zn.2) acc.ng acc.macro_ (x.fissile || acc.fissile) acc x

/-- `populateXSec`, material.cpp 459-495: `comp` holds the ZAIDs and number densities. -/
noncomputable def populateXSec (ng : Nat) (lib : List Nuc) (T : ℝ) (comp : List (ℤ × ℝ)) : Option (XSec ℝ) :=
  comp.foldlM (populateStep lib T) { (XSec.zero ng : XSec ℝ) with macro_ := true }

/-! ### Homogenisation -/

variable [Field K] [LinearOrder K]

/-- The loop over the faces, model.cpp 3080-3086: a face is given by its area and its material. -/
def areaStep (areas : List K) (face : K × Nat) : Option (List K) := do
  let x ← areas[face.2]?
  pure (areas.set face.2 (x + face.1))

/-- The loop over the materials, model.cpp 3089-3114: `am` is the area and the cross section of the material. -/
def mixStep (acc : XSec K) (am : K × XSec K) : Option (XSec K) :=
  if am.1 = 0 then some acc
  else combine (fun r v => r + am.1 * v) acc.ng acc.macro_ acc.fissile acc am.2

/-- `computeCellHomogenizedXSec`, model.cpp 3072-3133.  Materials are given by their cross sections. A negative
material id is out of range of `areas`; ids are natural numbers here. -/
def homogenize (faces : List (K × Nat)) (mats : List (XSec K)) : Option (XSec K) := do
  let m0 ← mats[0]?
  let areas ← faces.foldlM areaStep (List.replicate mats.length 0)
  let acc ← (areas.zip mats).foldlM mixStep (XSec.zero m0.ng)
  let total ← Stats.pairwiseSum areas
  if total = 0 then none
  else do
    let inv := 1 / total
    let r ← combine (fun v _ => v * inv) acc.ng true false acc acc
    pure { r with fissile := r.f.any fun v => decide (0 < v) }

end Verif.Phys
