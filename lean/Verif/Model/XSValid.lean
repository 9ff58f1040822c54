import Verif.Model.XSec

/-!
# Validation of cross sections and materials, and the C5G7 data

Model of `XSec::validate` and `getC5G7XSecs` (src/physics/cross_section.cpp 17-120, 143-543) and of
`Material::validateProperties`, `Material::validateXSec` and `getC5G7Materials` (src/physics/material.cpp 324-364,
612-657).

`LOG_ERROR` ends the program unless the user has switched that off, `LOG_WARN` never does.  A check is a step which
gives its messages, or `none` when it reads beyond the end of a vector; the steps are run in the order of the code.
Values are those of an ordered field, arithmetic is exact.  A NaN is no value here.
-/

namespace Verif.XSValid

open Verif.Phys

/-- What a message says; the number is the group, or the index into the data of the matrix. -/
inductive Msg
  | groups | sizeA | sizeF | sizeNuf | sizeTr | sizeS | sizeSS
  | negA (i : Nat) | negF (i : Nat) | fisF (i : Nat) | negNuf (i : Nat) | fisNuf (i : Nat)
  | negTr (i : Nat) | negS (i : Nat) | negSS (i : Nat)
  | notMacro
  | noName | temperature | density | noDensities | noZaids | sizes | negDensity | zaid
  deriving DecidableEq

/-- A message, with `true` for `LOG_ERROR` and `false` for `LOG_WARN`. -/
structure Entry where
  error : Bool
  msg : Msg
  deriving DecidableEq

/-- How a validation comes out: it comes back, or an error has ended the program, or memory outside of a vector was
read. -/
inductive Outcome
  | returns (log : List Entry)
  | ends (log : List Entry)
  | undef
  deriving DecidableEq

/-- Put messages before those of an outcome. -/
def Outcome.after (es : List Entry) : Outcome → Outcome
  | .returns l => .returns (es ++ l)
  | .ends l => .ends (es ++ l)
  | .undef => .undef

/-- Run the steps.  `exit` is `logger::exit_on_error`, logger.hpp: an error ends the program.  No step of the code gives
a message after an error of the same step. -/
def exec (exit : Bool) : List (Option (List Entry)) → Outcome
  | [] => .returns []
  | none :: _ => .undef
  | some es :: rest => if exit && es.any Entry.error then .ends es else (exec exit rest).after es

/-- A `LOG_ERROR` behind a condition. -/
def err (c : Prop) [Decidable c] (m : Msg) : List Entry := if c then [⟨true, m⟩] else []

/-- A `LOG_WARN` behind a condition. -/
def warn (c : Prop) [Decidable c] (m : Msg) : List Entry := if c then [⟨false, m⟩] else []

/-- A cross section with all of its fields, cross_section.hpp 20-30: nothing ties the sizes to the number of groups, and
`asVector` of matrix.hpp lets the data of the matrix be set apart from its extents. -/
structure Raw (K : Type) where
  macro_ : Bool
  fissile : Bool
  ng : Int
  a : List K
  f : List K
  nuf : List K
  tr : List K
  s : List K
  rows : Int
  cols : Int
  ss : List K

variable {K : Type}

/-- The cross sections of `Verif.Phys`, whose matrix has as many rows and columns as there are groups. -/
def ofXSec (x : XSec K) : Raw K :=
  ⟨x.macro_, x.fissile, x.ng, x.a, x.f, x.nuf, x.tr, x.s, x.ng, x.ng, x.ss⟩

/-- A loop `for (Int i = 0; i < n; ++i)` which reads entry `i` of a vector and gives messages. -/
def each (n : Int) (v : List K) (h : Nat → K → List Entry) : List (Option (List Entry)) :=
  (List.range n.toNat).map fun i => (v[i]?).map (h i)

/-- The checks of the sizes, cross_section.cpp 21-47. -/
def sizeSteps (x : Raw K) : List (Option (List Entry)) :=
  [some (err (x.ng ≤ 0) .groups),
   some (err ((x.a.length : Int) ≠ x.ng) .sizeA),
   some (err ((x.f.length : Int) ≠ x.ng) .sizeF),
   some (err ((x.nuf.length : Int) ≠ x.ng) .sizeNuf),
   some (err ((x.tr.length : Int) ≠ x.ng) .sizeTr),
   some (err ((x.s.length : Int) ≠ x.ng) .sizeS),
   some (err (x.rows ≠ x.ng ∨ x.cols ≠ x.ng) .sizeSS)]

/-- The checks of the values, cross_section.cpp 49-119.  The number of entries of the matrix is taken not to overflow. -/
def valueSteps [Zero K] [LinearOrder K] (x : Raw K) : List (Option (List Entry)) :=
  if x.macro_ then
    each x.ng x.a (fun i v => warn (v < 0) (.negA i))
    ++ each x.ng x.f (fun i v => warn (v < 0) (.negF i) ++ warn (0 < v ∧ !x.fissile) (.fisF i))
    ++ each x.ng x.nuf (fun i v => warn (v < 0) (.negNuf i) ++ warn (0 < v ∧ !x.fissile) (.fisNuf i))
    ++ each x.ng x.tr (fun i v => warn (v < 0) (.negTr i))
    ++ each x.ng x.s (fun i v => warn (v < 0) (.negS i))
    ++ each (x.ng * x.ng) x.ss (fun i v => warn (v < 0) (.negSS i))
  else
    each x.ng x.f (fun i v => err (0 < v ∧ !x.fissile) (.fisF i))
    ++ each x.ng x.nuf (fun i v => err (0 < v ∧ !x.fissile) (.fisNuf i))

/-- `XSec::validate`, cross_section.cpp 17-120. -/
def validate [Zero K] [LinearOrder K] (exit : Bool) (x : Raw K) : Outcome :=
  exec exit (sizeSteps x ++ valueSteps x)

/-! ### Materials -/

/-- The fields of `Material` which are validated, material.hpp 22-30. -/
structure Mat (K : Type) where
  name : String
  temperature : K
  density : K
  numDensity : List K
  zaid : List Int
  xsec : Raw K

/-- The steps of `validateProperties`, material.cpp 324-355. -/
def propertySteps [Zero K] [LinearOrder K] (m : Mat K) : List (Option (List Entry)) :=
  [some (err (m.name.isEmpty) .noName),
   some (err (m.temperature ≤ 0) .temperature),
   some (err (m.density ≤ 0) .density),
   some (err (m.numDensity.isEmpty) .noDensities),
   some (err (m.zaid.isEmpty) .noZaids),
   some (err (m.numDensity.length ≠ m.zaid.length) .sizes)]
  ++ m.numDensity.map (fun v => some (err (v < 0) .negDensity))
  ++ m.zaid.map (fun z => some (err (z ≤ 0) .zaid))

/-- `Material::validateProperties`, material.cpp 324-355. -/
def validateProperties [Zero K] [LinearOrder K] (exit : Bool) (m : Mat K) : Outcome :=
  exec exit (propertySteps m)

/-- `Material::validateXSec`, material.cpp 357-364. -/
def validateXSec [Zero K] [LinearOrder K] (exit : Bool) (m : Mat K) : Outcome :=
  exec exit (some (err (m.xsec.macro_ = false) .notMacro) :: (sizeSteps m.xsec ++ valueSteps m.xsec))

/-! ### The C5G7 data -/

/-- What `getC5G7XSecs` writes down for one material: the fission cross sections and the neutrons of a fission only for
the fissile ones.  The entries of `ss` are those given to `asVector`. -/
structure Data where
  fissile : Bool
  a : List ℚ
  fnu : Option (List ℚ × List ℚ)
  tr : List ℚ
  ss : List ℚ

/-- The data of `uo2`, cross_section.cpp 180-203. -/
def uo2 : Data where
  fissile := true
  a := [8.02480e-03, 3.71740e-03, 2.67690e-02, 9.62360e-02, 3.00200e-02, 1.11260e-01, 2.82780e-01]
  fnu := some
    ([7.21206e-03, 8.19301e-04, 6.45320e-03, 1.85648e-02, 1.78084e-02, 8.30348e-02, 2.16004e-01],
      [2.78145, 2.47443, 2.43383, 2.43380, 2.43380, 2.43380, 2.43380])
  tr := [1.77949e-01, 3.29805e-01, 4.80388e-01, 5.54367e-01, 3.11801e-01, 3.95168e-01, 5.64406e-01]
  ss := [
    1.27537e-01, 4.23780e-02, 9.43740e-06, 5.51630e-09, 0.00000e+00, 0.00000e+00, 0.00000e+00,
    0.00000e+00, 3.24456e-01, 1.63140e-03, 3.14270e-09, 0.00000e+00, 0.00000e+00, 0.00000e+00,
    0.00000e+00, 0.00000e+00, 4.50940e-01, 2.67920e-03, 0.00000e+00, 0.00000e+00, 0.00000e+00,
    0.00000e+00, 0.00000e+00, 0.00000e+00, 4.52565e-01, 5.56640e-03, 0.00000e+00, 0.00000e+00,
    0.00000e+00, 0.00000e+00, 0.00000e+00, 1.25250e-04, 2.71401e-01, 1.02550e-02, 1.00210e-08,
    0.00000e+00, 0.00000e+00, 0.00000e+00, 0.00000e+00, 1.29680e-03, 2.65802e-01, 1.68090e-02,
    0.00000e+00, 0.00000e+00, 0.00000e+00, 0.00000e+00, 0.00000e+00, 8.54580e-03, 2.73080e-01]

/-- The data of `mox43`, cross_section.cpp 243-264. -/
def mox43 : Data where
  fissile := true
  a := [8.43390e-03, 3.75770e-03, 2.79700e-02, 1.04210e-01, 1.39940e-01, 4.09180e-01, 4.09350e-01]
  fnu := some
    ([7.62704e-03, 8.76898e-04, 5.69835e-03, 2.28872e-02, 1.07635e-02, 2.32757e-01, 2.48968e-01],
      [2.85209, 2.89099, 2.85486, 2.86073, 2.85447, 2.86415, 2.86780])
  tr := [1.78731e-01, 3.30849e-01, 4.83772e-01, 5.66922e-01, 4.26227e-01, 6.78997e-01, 6.82852e-01]
  ss := [
    1.28876e-01, 4.14130e-02, 8.22900e-06, 5.04050e-09, 0.00000e+00, 0.00000e+00, 0.00000e+00,
    0.00000e+00, 3.25452e-01, 1.63950e-03, 1.59820e-09, 0.00000e+00, 0.00000e+00, 0.00000e+00,
    0.00000e+00, 0.00000e+00, 4.53188e-01, 2.61420e-03, 0.00000e+00, 0.00000e+00, 0.00000e+00,
    0.00000e+00, 0.00000e+00, 0.00000e+00, 4.57173e-01, 5.53940e-03, 0.00000e+00, 0.00000e+00,
    0.00000e+00, 0.00000e+00, 0.00000e+00, 1.60460e-04, 2.76814e-01, 9.31270e-03, 9.16560e-09,
    0.00000e+00, 0.00000e+00, 0.00000e+00, 0.00000e+00, 2.00510e-03, 2.52962e-01, 1.48500e-02,
    0.00000e+00, 0.00000e+00, 0.00000e+00, 0.00000e+00, 0.00000e+00, 8.49480e-03, 2.65007e-01]

/-- The data of `mox70`, cross_section.cpp 302-323. -/
def mox70 : Data where
  fissile := true
  a := [9.06570e-03, 4.29670e-03, 3.28810e-02, 1.22030e-01, 1.82980e-01, 5.68460e-01, 5.85210e-01]
  fnu := some
    ([8.25446e-03, 1.32565e-03, 8.42156e-03, 3.28730e-02, 1.59636e-02, 3.23794e-01, 3.62803e-01],
      [2.88498, 2.91079, 2.86574, 2.87063, 2.86714, 2.86658, 2.87539])
  tr := [1.81323e-01, 3.34368e-01, 4.93785e-01, 5.91216e-01, 4.74198e-01, 8.33601e-01, 8.53603e-01]
  ss := [
    1.30457e-01, 4.17920e-02, 8.51050e-06, 5.13290e-09, 0.00000e+00, 0.00000e+00, 0.00000e+00,
    0.00000e+00, 3.28428e-01, 1.64360e-03, 2.20170e-09, 0.00000e+00, 0.00000e+00, 0.00000e+00,
    0.00000e+00, 0.00000e+00, 4.58371e-01, 2.53310e-03, 0.00000e+00, 0.00000e+00, 0.00000e+00,
    0.00000e+00, 0.00000e+00, 0.00000e+00, 4.63709e-01, 5.47660e-03, 0.00000e+00, 0.00000e+00,
    0.00000e+00, 0.00000e+00, 0.00000e+00, 1.76190e-04, 2.82313e-01, 8.72890e-03, 9.00160e-09,
    0.00000e+00, 0.00000e+00, 0.00000e+00, 0.00000e+00, 2.27600e-03, 2.49751e-01, 1.31140e-02,
    0.00000e+00, 0.00000e+00, 0.00000e+00, 0.00000e+00, 0.00000e+00, 8.86450e-03, 2.59529e-01]

/-- The data of `mox87`, cross_section.cpp 360-381. -/
def mox87 : Data where
  fissile := true
  a := [9.48620e-03, 4.65560e-03, 3.62400e-02, 1.32720e-01, 2.08400e-01, 6.58700e-01, 6.90170e-01]
  fnu := some
    ([8.67209e-03, 1.62426e-03, 1.02716e-02, 3.90447e-02, 1.92576e-02, 3.74888e-01, 4.30599e-01],
      [2.90426, 2.91795, 2.86986, 2.87491, 2.87175, 2.86752, 2.87808])
  tr := [1.83045e-01, 3.36705e-01, 5.00507e-01, 6.06174e-01, 5.02754e-01, 9.21028e-01, 9.55231e-01]
  ss := [
    1.31504e-01, 4.20460e-02, 8.69720e-06, 5.19380e-09, 0.00000e+00, 0.00000e+00, 0.00000e+00,
    0.00000e+00, 3.30403e-01, 1.64630e-03, 2.60060e-09, 0.00000e+00, 0.00000e+00, 0.00000e+00,
    0.00000e+00, 0.00000e+00, 4.61792e-01, 2.47490e-03, 0.00000e+00, 0.00000e+00, 0.00000e+00,
    0.00000e+00, 0.00000e+00, 0.00000e+00, 4.68021e-01, 5.43300e-03, 0.00000e+00, 0.00000e+00,
    0.00000e+00, 0.00000e+00, 0.00000e+00, 1.85970e-04, 2.85771e-01, 8.39730e-03, 8.92800e-09,
    0.00000e+00, 0.00000e+00, 0.00000e+00, 0.00000e+00, 2.39160e-03, 2.47614e-01, 1.23220e-02,
    0.00000e+00, 0.00000e+00, 0.00000e+00, 0.00000e+00, 0.00000e+00, 8.96810e-03, 2.56093e-01]

/-- The data of `fc`, cross_section.cpp 419-440. -/
def fc : Data where
  fissile := true
  a := [5.11320e-04, 7.58130e-05, 3.16430e-04, 1.16750e-03, 3.39770e-03, 9.18860e-03, 2.32440e-02]
  fnu := some
    ([4.79002e-09, 5.82564e-09, 4.63719e-07, 5.24406e-06, 1.45390e-07, 7.14972e-07, 2.08041e-06],
      [2.76283, 2.46239, 2.43380, 2.43380, 2.43380, 2.43380, 2.43380])
  tr := [1.26032e-01, 2.93160e-01, 2.84250e-01, 2.81020e-01, 3.34460e-01, 5.65640e-01, 1.17214e+00]
  ss := [
    6.61659e-02, 5.90700e-02, 2.83340e-04, 1.46220e-06, 2.06420e-08, 0.00000e+00, 0.00000e+00,
    0.00000e+00, 2.40377e-01, 5.24350e-02, 2.49900e-04, 1.92390e-05, 2.98750e-06, 4.21400e-07,
    0.00000e+00, 0.00000e+00, 1.83425e-01, 9.22880e-02, 6.93650e-03, 1.07900e-03, 2.05430e-04,
    0.00000e+00, 0.00000e+00, 0.00000e+00, 7.90769e-02, 1.69990e-01, 2.58600e-02, 4.92560e-03,
    0.00000e+00, 0.00000e+00, 0.00000e+00, 3.73400e-05, 9.97570e-02, 2.06790e-01, 2.44780e-02,
    0.00000e+00, 0.00000e+00, 0.00000e+00, 0.00000e+00, 9.17420e-04, 3.16774e-01, 2.38760e-01,
    0.00000e+00, 0.00000e+00, 0.00000e+00, 0.00000e+00, 0.00000e+00, 4.97930e-02, 1.09910e+00]

/-- The data of `gt`, cross_section.cpp 472-486. -/
def gt : Data where
  fissile := false
  a := [5.11320e-04, 7.58010e-05, 3.15720e-04, 1.15820e-03, 3.39750e-03, 9.18780e-03, 2.32420e-02]
  fnu := none
  tr := [1.26032e-01, 2.93160e-01, 2.84240e-01, 2.80960e-01, 3.34440e-01, 5.65640e-01, 1.17215e+00]
  ss := [
    6.61659e-02, 5.90700e-02, 2.83340e-04, 1.46220e-06, 2.06420e-08, 0.00000e+00, 0.00000e+00,
    0.00000e+00, 2.40377e-01, 5.24350e-02, 2.49900e-04, 1.92390e-05, 2.98750e-06, 4.21400e-07,
    0.00000e+00, 0.00000e+00, 1.83297e-01, 9.23970e-02, 6.94460e-03, 1.08030e-03, 2.05670e-04,
    0.00000e+00, 0.00000e+00, 0.00000e+00, 7.88511e-02, 1.70140e-01, 2.58810e-02, 4.92970e-03,
    0.00000e+00, 0.00000e+00, 0.00000e+00, 3.73330e-05, 9.97372e-02, 2.06790e-01, 2.44780e-02,
    0.00000e+00, 0.00000e+00, 0.00000e+00, 0.00000e+00, 9.17260e-04, 3.16765e-01, 2.38770e-01,
    0.00000e+00, 0.00000e+00, 0.00000e+00, 0.00000e+00, 0.00000e+00, 4.97920e-02, 1.09912e+00]

/-- The data of `mo`, cross_section.cpp 518-532. -/
def mo : Data where
  fissile := false
  a := [6.01050e-04, 1.57930e-05, 3.37160e-04, 1.94060e-03, 5.74160e-03, 1.50010e-02, 3.72390e-02]
  fnu := none
  tr := [1.59206e-01, 4.12970e-01, 5.90310e-01, 5.84350e-01, 7.18000e-01, 1.25445e+00, 2.65038e+00]
  ss := [
    4.44777e-02, 1.13400e-01, 7.23470e-04, 3.74990e-06, 5.31840e-08, 0.00000e+00, 0.00000e+00,
    0.00000e+00, 2.82334e-01, 1.29940e-01, 6.23400e-04, 4.80020e-05, 7.44860e-06, 1.04550e-06,
    0.00000e+00, 0.00000e+00, 3.45256e-01, 2.24570e-01, 1.69990e-02, 2.64430e-03, 5.03440e-04,
    0.00000e+00, 0.00000e+00, 0.00000e+00, 9.10284e-02, 4.15510e-01, 6.37320e-02, 1.21390e-02,
    0.00000e+00, 0.00000e+00, 0.00000e+00, 7.14370e-05, 1.39138e-01, 5.11820e-01, 6.12290e-02,
    0.00000e+00, 0.00000e+00, 0.00000e+00, 0.00000e+00, 2.21570e-03, 6.99913e-01, 5.37320e-01,
    0.00000e+00, 0.00000e+00, 0.00000e+00, 0.00000e+00, 0.00000e+00, 1.32440e-01, 2.48070e+00]


/-- `s()[i] += ss()(j, i)` for `j` from 0, cross_section.cpp 206-211 and the like for the other materials. -/
def columnSum [Add K] [Zero K] (x : XSec K) (i : Nat) : Option K :=
  (List.range x.ng).foldlM (fun t j => (x.ssAt j i).map (t + ·)) 0

/-- One material of `getC5G7XSecs`, cross_section.cpp 180-212 and the like for the other materials: a cross section of
zeros in seven groups, made macroscopic, filled with the data, then `nuf = nu * f` and the sums over the columns. -/
def build (d : Data) : Option (XSec ℚ) := do
  let x := XSec.zero 7
  let x := { x with macro_ := true, fissile := d.fissile, a := d.a }
  let x ← match d.fnu with
    | none => some x
    | some (f, nu) => do
      let nuf ← mapG 7 fun i => do pure ((← nu[i]?) * (← f[i]?))
      pure { x with f := f, nuf := nuf }
  let x := { x with tr := d.tr, ss := d.ss }
  let s ← mapG 7 (columnSum x)
  pure { x with s := s }

/-- `getC5G7XSecs`, cross_section.cpp 143-541.  The calls of `validate` within it, for `uo2` and `mox43` only, write to
the log and are left out. -/
def c5g7 : Option (List (XSec ℚ)) := [uo2, mox43, mox70, mox87, fc, gt, mo].mapM build

/-- The names given by `getC5G7Materials`, material.cpp 619-652. -/
def c5g7Names : List String :=
  ["UO2", "MOX_4.3", "MOX_7.0", "MOX_8.7", "Fission_Chamber", "Guide_Tube", "Moderator"]

/-- `getC5G7Materials`, material.cpp 612-655.  The colours are left out. -/
def c5g7Materials : Option (List (Mat ℚ)) :=
  c5g7.map fun xs => List.zipWith (fun n x => ⟨n, 0, 0, [], [], ofXSec x⟩) c5g7Names xs

end Verif.XSValid
