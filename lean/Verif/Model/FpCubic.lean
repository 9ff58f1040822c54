import Verif.Model.FpRoots
import Verif.Model.FpQuad
import Verif.Model.Algorithm

/-!
# `solveCubic` in floating-point arithmetic

Model of cubic_equation.hpp with every operation rounded (see `Verif.Model.Fp`).  `Verif.Model.Roots` has the function in exact
arithmetic.  `um2::cbrt` is any function.  A division by zero occurs only in the comparison after the loop (`d / x` with `x = 0`): the
quotient is infinite, the comparison false, as it is here.
-/

namespace Verif.Fp

noncomputable section

/-- The choices of the compiler for `q0`, `b1 * x`, `(q0 + b1) * x` and `c2 * x` in the blocks marked `eval`. -/
structure CubicFused where
  q0 : Bool
  c2 : Bool
  dq : Bool
  q : Bool

variable {p : ℕ} (R : Rounding ℝ p)

/-- The values of the blocks marked `eval`, cubic_equation.hpp 80-84, 101-105: `(b1, c2, dq, q)`. -/
def cubicEval (f : CubicFused) (a b c d x : ℝ) : ℝ × ℝ × ℝ × ℝ :=
  let q0 := prodIf R f.q0 (a * x)
  let b1 := R.rnd (q0 + b)
  let c2 := R.rnd (prodIf R f.c2 (b1 * x) + c)
  let dq := R.rnd (prodIf R f.dq (R.rnd (q0 + b1) * x) + c2)
  let q := R.rnd (prodIf R f.q (c2 * x) + d)
  (b1, c2, dq, q)

/-- `x0` at the end of one pass of the loop, cubic_equation.hpp 99-110; `one_plus_eps` (44-49) is the number after one. -/
def cubicStep (f : CubicFused) (a b c d x : ℝ) : ℝ :=
  let (_, _, dq, q) := cubicEval R f a b c d x
  if dq = 0 then x else R.rnd (x - R.rnd (R.rnd (q / dq) / (1 + 2 / 2 ^ p)))

/-- The Newton loop, cubic_equation.hpp 98-111; `none` if it needs more than `fuel` passes. -/
def cubicNewton (f : CubicFused) (a b c d s : ℝ) : ℕ → ℝ → Option ℝ
  | 0, _ => none
  | fuel + 1, x0 =>
    let x := x0
    let x0 := cubicStep R f a b c d x
    if s * x0 > s * x then cubicNewton f a b c d s fuel x0 else some x

/-- `x`, `x0` and `s` before the loop, cubic_equation.hpp 77-93; `lam` is the rounded literal of line 42. -/
def cubicStart (f : CubicFused) (lam : ℝ) (cbrt : ℝ → ℝ) (a b c d : ℝ) : ℝ × ℝ × ℝ :=
  let x := R.rnd (-R.rnd (b / a) / 3)
  let (_, _, dq, q) := cubicEval R f a b c d x
  let t := R.rnd (q / a)
  let r := cbrt |t|
  let s : ℝ := if t < 0 then -1 else 1
  let t := R.rnd (-dq / a)
  let r := if t > 0 then R.rnd (lam * max r (fsqrt R t)) else r
  (x, R.rnd (x - s * r), s)

/-- `b1` and `c2` after the loop, cubic_equation.hpp 113-116. -/
def cubicDeflate (f : CubicFused) (a b c d x : ℝ) : ℝ × ℝ :=
  let (b1, c2, _, _) := cubicEval R f a b c d x
  if R.rnd (R.rnd (|a| * x) * x) > |R.rnd (d / x)| then
    let c2 := R.rnd (-d / x)
    (R.rnd (R.rnd (c2 - c) / x), c2)
  else (b1, c2)

/-- The end, cubic_equation.hpp 118-123. -/
def cubicFinish (invalid a b1 c2 x : ℝ) : ℝ × ℝ × ℝ :=
  let (r0, r1) := solveQuadratic R invalid a b1 c2
  Alg.sort3 (fun p q => decide (p < q)) r0 r1 x

/-- `solveCubic`, cubic_equation.hpp 31-124; `none` if the Newton loop does not end within `fuel` passes. The compiler may treat the two blocks marked `eval` differently (`f0`, `f`). -/
def solveCubic (f0 f : CubicFused) (invalid lam : ℝ) (cbrt : ℝ → ℝ) (fuel : ℕ) (a b c d : ℝ) : Option (ℝ × ℝ × ℝ) :=
  if a = 0 then some (cubicFinish R invalid b c d invalid)
  else if d = 0 then some (cubicFinish R invalid a b c 0)
  else
    let (x, x0, s) := cubicStart R f0 lam cbrt a b c d
    if x0 = x then
      let (b1, c2, _, _) := cubicEval R f0 a b c d x
      some (cubicFinish R invalid a b1 c2 x)
    else do
      let x ← cubicNewton R f a b c d s fuel x0
      let (b1, c2) := cubicDeflate R f a b c d x
      pure (cubicFinish R invalid a b1 c2 x)

end

end Verif.Fp
