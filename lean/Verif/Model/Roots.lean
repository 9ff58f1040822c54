import Verif.Model.Algorithm
import Mathlib.Analysis.Real.Sqrt
import Mathlib.Tactic.NormNum

/-!
# Model of include/um2/math/{quadratic_equation,cubic_equation}.hpp in exact real arithmetic
-/

namespace Verif.Roots

/-- The value returned for a root that does not exist, quadratic_equation.hpp 69. -/
def invalid : ℝ := 10 ^ 16

/-- `quadraticDiscriminant`, quadratic_equation.hpp 50-60. -/
def disc (a b c : ℝ) : ℝ :=
  let a4 := 4 * a
  let w := a4 * c
  let e := -c * a4 + w
  let f := b * b + -w
  f + e

/-- `um2::copysign(x, y)` for `y ≠ 0` (the only use). -/
noncomputable def copysign (x y : ℝ) : ℝ := if y < 0 then -|x| else |x|

/-- `solveQuadratic`, quadratic_equation.hpp 65-108. -/
noncomputable def solveQuadratic (a b c : ℝ) : ℝ × ℝ :=
  if a = 0 then
    if b = 0 then (invalid, invalid) else (-c / b, invalid)
  else if b = 0 then
    let x0sq := -c / a
    if x0sq < 0 then (invalid, invalid)
    else
      let x0 := Real.sqrt x0sq
      (-x0, x0)
  else
    let d := disc a b c
    if d < 0 then (invalid, invalid)
    else
      let q := -(b + copysign (Real.sqrt d) b) / 2
      let r0 := q / a
      let r1 := c / q
      if r1 < r0 then (r1, r0) else (r0, r1)

/-- The values of the `eval` blocks, cubic_equation.hpp 80-84, 101-105: `(b1, c2, dq, q)`. -/
def eval (a b c d x : ℝ) : ℝ × ℝ × ℝ × ℝ :=
  let q0 := a * x
  let b1 := q0 + b
  let c2 := b1 * x + c
  let dq := (q0 + b1) * x + c2
  let q := c2 * x + d
  (b1, c2, dq, q)

/-- `one_plus_eps`, cubic_equation.hpp 44-49 (double). -/
noncomputable def onePlusEps : ℝ := 1 + 1 / 2 ^ 52

/-- One pass of the Newton loop, cubic_equation.hpp 99-110: the next point. -/
noncomputable def newtonStep (a b c d x : ℝ) : ℝ :=
  let (_, _, dq, q) := eval a b c d x
  if dq = 0 then x else x - q / dq / onePlusEps

/-- The Newton loop, cubic_equation.hpp 98-111: `x0` is the next point; the result is the last point
at which the polynomial was evaluated. `none` if the loop needs more than `fuel` passes. -/
noncomputable def newton (a b c d s : ℝ) : Nat → ℝ → Option ℝ
  | 0, _ => none
  | fuel + 1, x0 =>
    let x := x0
    let x0 := newtonStep a b c d x
    if s * x0 > s * x then newton a b c d s fuel x0 else some x

/-- `lambda`, cubic_equation.hpp 42. The code says `lambda^3 = lambda + 1`; the literal is that root
cut off after twenty digits. -/
noncomputable def lambda : ℝ := 132471795724474602596 / 10 ^ 20

/-- The first point of the Newton loop, cubic_equation.hpp 77-93 (`x`, `x0` and `s`), with the factor
`lam`. `cbrt` is `um2::cbrt`. -/
noncomputable def startWith (lam : ℝ) (cbrt : ℝ → ℝ) (a b c d : ℝ) : ℝ × ℝ × ℝ :=
  let x := -(b / a) / 3
  let (_, _, dq, q) := eval a b c d x
  let t := q / a
  let r := cbrt |t|
  let s : ℝ := if t < 0 then -1 else 1
  let t := -dq / a
  let r := if t > 0 then lam * max r (Real.sqrt t) else r
  (x, x - s * r, s)

/-- The first point with the factor of the code. -/
noncomputable def start (cbrt : ℝ → ℝ) (a b c d : ℝ) : ℝ × ℝ × ℝ := startWith lambda cbrt a b c d

/-- The end, cubic_equation.hpp 118-123. -/
noncomputable def finish (a b1 c2 x : ℝ) : ℝ × ℝ × ℝ :=
  let (r0, r1) := solveQuadratic a b1 c2
  Alg.sort3 (fun p q => decide (p < q)) r0 r1 x

/-- Deflation after the loop, cubic_equation.hpp 113-116. -/
noncomputable def deflate (a b c d x : ℝ) : ℝ × ℝ :=
  let (b1, c2, _, _) := eval a b c d x
  if |a| * x * x > |d / x| then
    let c2 := -d / x
    ((c2 - c) / x, c2)
  else (b1, c2)

/-- `solveCubic`, cubic_equation.hpp 31-124; `none` if the Newton loop does not end within `fuel`
passes. -/
noncomputable def solveCubic (cbrt : ℝ → ℝ) (fuel : Nat) (a b c d : ℝ) : Option (ℝ × ℝ × ℝ) :=
  if a = 0 then some (finish b c d invalid)
  else if d = 0 then some (finish a b c 0)
  else
    let (x, x0, s) := start cbrt a b c d
    if x0 = x then
      let (b1, c2, _, _) := eval a b c d x
      some (finish a b1 c2 x)
    else do
      let x ← newton a b c d s fuel x0
      let (b1, c2) := deflate a b c d x
      pure (finish a b1 c2 x)

end Verif.Roots
