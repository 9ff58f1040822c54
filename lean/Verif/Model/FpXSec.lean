import Verif.Model.FpGrid
import Verif.Model.FpStats
import Verif.Model.XSec

/-!
# Cross sections in floating-point arithmetic

`populateXSec` of `src/physics/material.cpp`, `computeCellHomogenizedXSec` of `src/mpact/model.cpp` and `collapseTo1GroupAvg` of
`src/physics/cross_section.cpp` as they run with `Float`; `Verif.Model.XSec` has the same functions in exact arithmetic.  With `fused` the compiler has
made one operation of `r += x * y`, as GCC does by default on a machine that has it.  A read beyond the end of a `Vector` is `none`, and so is here a
division by zero.  `validate` only writes to the log; it is modelled in `XSValid.lean`.
-/

namespace Verif.Fp

open Verif.Phys

variable {K : Type} [Field K] [LinearOrder K] {p : ℕ}

/-- The loop body of `populateXSec`, material.cpp 472-493: `xn` holds the cross section of the nuclide at the temperature of the material, as returned
by `interpXS` (`FpLerp.lean`), and its number density. -/
def populateStep (R : Rounding K p) (fused : Bool) (acc : XSec K) (xn : XSec K × K) : Option (XSec K) :=
  combine (fun r v => mulAdd R fused r v xn.2) acc.ng acc.macro_ (xn.1.fissile || acc.fissile) acc xn.1

/-- `populateXSec`, material.cpp 459-495, from the line after `validateProperties` on. -/
def populate (R : Rounding K p) (fused : Bool) (ng : ℕ) (nucs : List (XSec K × K)) : Option (XSec K) :=
  nucs.foldlM (populateStep R fused) { (XSec.zero ng : XSec K) with macro_ := true }

/-- The loop over the faces, model.cpp 3082-3087: a face is given by its area and its material. -/
def areaStep (R : Rounding K p) (areas : List K) (face : K × ℕ) : Option (List K) := do
  let x ← areas[face.2]?
  pure (areas.set face.2 (R.rnd (x + face.1)))

/-- The loop over the materials, model.cpp 3091-3111: `am` is the area and the cross section of the material. -/
def mixStep (R : Rounding K p) (fused : Bool) (acc : XSec K) (am : K × XSec K) : Option (XSec K) :=
  if am.1 = 0 then some acc
  else combine (fun r v => mulAdd R fused r am.1 v) acc.ng acc.macro_ acc.fissile acc am.2

/-- `computeCellHomogenizedXSec`, model.cpp 3072-3133.  Materials are given by their cross sections; material ids are natural numbers. -/
def homogenize (R : Rounding K p) (fused : Bool) (faces : List (K × ℕ)) (mats : List (XSec K)) : Option (XSec K) := do
  let m0 ← mats[0]?
  let areas ← faces.foldlM (areaStep R) (List.replicate mats.length 0)
  let acc ← (areas.zip mats).foldlM (mixStep R fused) (XSec.zero m0.ng)
  let total ← pairwiseSum R areas
  if total = 0 then none
  else do
    let inv := R.rnd (1 / total)
    let r ← combine (fun v _ => R.rnd (v * inv)) acc.ng true false acc acc
    pure { r with fissile := r.f.any fun v => decide (0 < v) }

/-- `collapseTo1GroupAvg`, cross_section.cpp 122-141; the number of groups is converted to `Float`. -/
def collapse (R : Rounding K p) (x : XSec K) : Option (XSec K) := do
  let a ← mean R x.a
  let f ← mean R x.f
  let nuf ← mean R x.nuf
  let tr ← mean R x.tr
  let s ← mean R x.s
  let ss ← mean R x.ss
  pure ⟨x.macro_, x.fissile, 1, [a], [f], [nuf], [tr], [s], [R.rnd (R.rnd (x.ng : K) * ss)]⟩

end Verif.Fp
