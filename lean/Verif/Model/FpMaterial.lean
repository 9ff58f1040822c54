import Verif.Model.FpGrid
import Verif.Model.Material

/-!
# Material compositions in floating-point arithmetic

`addNuclideWt`, `addNuclidesAtomPercent` and `setUO2` of `src/physics/material.cpp` as they run with `Float`; `Verif.Model.Material` has the same functions
in exact arithmetic.  Floating-point numbers are rational, so the field is `ℚ`.  `D` rounds to `double`, `R` to `Float`.  With `fused` the compiler has
made one operation of a product and the sum it is used in, as GCC does by default on a machine that has it.  As in `Verif.Model.Material`, a division by
zero is `none` and errors are only logged.
-/

namespace Verif.Fp

open Verif.Str (Byte)
open Verif.Phys (Material addNuclide)

variable {p : ℕ} (D : Rounding ℚ 53) (R : Rounding ℚ p)

/-- A literal of type `double` used to initialise a `Float`, as in material.cpp 17-318 and 515-526. -/
def lit (x : ℚ) : ℚ := R.rnd (D.rnd x)

/-- `x / 100` with a literal `x`, used to initialise a `Float`, material.cpp 530-536. -/
def litPercent (x : ℚ) : ℚ := R.rnd (D.rnd (D.rnd x / 100))

/-- `percent * _density * n_avo_barn / m`, material.cpp 411 and 455. -/
def numDensity (percent density m : ℚ) : ℚ := R.rnd (R.rnd (R.rnd (percent * density) * lit D R Phys.nAvo) / m)

/-- `addNuclideWt`, material.cpp 392-416: an unknown ZAID is logged and nothing is added. -/
def addNuclideWt (m : Material) (zaid : ℤ) (wt : ℚ) : Material :=
  match Phys.massOf zaid with
  | some a => addNuclide m zaid (numDensity D R wt m.density (lit D R a))
  | none => m

/-- The mean mass, material.cpp 434-451: a symbol without a mass is logged and left out. -/
def meanMass (fused : Bool) : List (ℤ × ℚ) → ℚ → ℚ
  | [], acc => acc
  | (z, x) :: l, acc =>
    match Phys.massOf z with
    | some a => meanMass fused l (mulAdd R fused acc x (lit D R a))
    | none => meanMass fused l acc

/-- `addNuclidesAtomPercent`, material.cpp 425-457. -/
def addNuclidesAtomPercent (fused : Bool) (m : Material) (symbols : List (List Byte)) (percents : List ℚ) : Option Material := do
  if percents.length < symbols.length then none
  else do
    let zs ← symbols.mapM Nuclide.toZAID
    let l := zs.zip percents
    let mean := meanMass D R fused l 0
    if l ≠ [] ∧ mean = 0 then none
    else pure (l.foldl (fun m zp => addNuclide m zp.1 (numDensity D R zp.2 m.density mean)) m)

/-- `l * w` for a literal `l`, material.cpp 541-542: a product of doubles. -/
def litMul (l w : ℚ) : ℚ := R.rnd (D.rnd (D.rnd l * w))

/-- `wt_u238`, material.cpp 543.  When the products of 541-542 are fused into the sum, they are not rounded. -/
def wtU238 (fused : Bool) (w : ℚ) : ℚ :=
  let s := if fused then R.rnd (D.rnd 0.0089 * w + w) else R.rnd (litMul D R 0.0089 w + w)
  let s := if fused then R.rnd (D.rnd 0.0046 * w + s) else R.rnd (s + litMul D R 0.0046 w)
  R.rnd (1 - s)

/-- `m_gad`, material.cpp 580-582. -/
def massGd : ℚ :=
  R.rnd (R.rnd (R.rnd (R.rnd (R.rnd (R.rnd (R.rnd (litPercent D R 0.2 * lit D R Phys.mGd152) + R.rnd (litPercent D R 2.18 * lit D R Phys.mGd154)) +
    R.rnd (litPercent D R 14.8 * lit D R Phys.mGd155)) + R.rnd (litPercent D R 20.47 * lit D R Phys.mGd156)) +
    R.rnd (litPercent D R 15.65 * lit D R Phys.mGd157)) + R.rnd (litPercent D R 24.84 * lit D R Phys.mGd158)) +
    R.rnd (litPercent D R 21.86 * lit D R Phys.mGd160))

/-- `setUO2`, material.cpp 497-606. -/
def setUO2 (fused : Bool) (m : Material) (wtU235 wtGad : ℚ) : Option Material :=
  let wtU238 := wtU238 D R fused wtU235
  let q234 := R.rnd (litMul D R 0.0089 wtU235 / lit D R Phys.mU234)
  let q235 := R.rnd (wtU235 / lit D R Phys.mU235)
  let q236 := R.rnd (litMul D R 0.0046 wtU235 / lit D R Phys.mU236)
  let q238 := R.rnd (wtU238 / lit D R Phys.mU238)
  let inv := R.rnd (R.rnd (R.rnd (q235 + q234) + q236) + q238)
  let mUO2 := R.rnd (R.rnd (1 / inv) + R.rnd (2 * lit D R Phys.mO16))
  let denom := R.rnd (R.rnd (R.rnd (q234 + q235) + q236) + q238)
  if inv = 0 ∨ mUO2 = 0 ∨ denom = 0 then none
  else
    let nUO2 := numDensity D R (R.rnd (1 - wtGad)) m.density mUO2
    let nO := R.rnd (2 * nUO2)
    let m := addNuclide m 92234 (R.rnd (R.rnd (q234 / denom) * nUO2))
    let m := addNuclide m 92235 (R.rnd (R.rnd (q235 / denom) * nUO2))
    let m := addNuclide m 92236 (R.rnd (R.rnd (q236 / denom) * nUO2))
    let m := addNuclide m 92238 (R.rnd (R.rnd (q238 / denom) * nUO2))
    let mGd2O3 := R.rnd (R.rnd (2 * massGd D R) + R.rnd (3 * lit D R Phys.mO16))
    let nGad := numDensity D R wtGad m.density mGd2O3
    let nGd := R.rnd (2 * nGad)
    let nO := mulAdd R fused nO 3 nGad
    let m := if 0 < nGd then
        let m := addNuclide m 64152 (R.rnd (litPercent D R 0.2 * nGd))
        let m := addNuclide m 64154 (R.rnd (litPercent D R 2.18 * nGd))
        let m := addNuclide m 64155 (R.rnd (litPercent D R 14.8 * nGd))
        let m := addNuclide m 64156 (R.rnd (litPercent D R 20.47 * nGd))
        let m := addNuclide m 64157 (R.rnd (litPercent D R 15.65 * nGd))
        let m := addNuclide m 64158 (R.rnd (litPercent D R 24.84 * nGd))
        addNuclide m 64160 (R.rnd (litPercent D R 21.86 * nGd))
      else m
    some (addNuclide m 8016 nO)

end Verif.Fp
