import Mathlib.Algebra.Order.Field.Basic
import Mathlib.Algebra.Order.Floor.Ring
import Mathlib.Data.Int.Log

/-!
# Floating-point arithmetic

The other models compute exactly.  Here the type `T` of the templates is `float` or `double`: the numbers have `p` binary
digits (24 or 53) and every operation rounds its exact result to a nearest such number.  Nothing is assumed about ties, so that
the results hold for the rounding of IEEE 754 (`rne`).  The range of the exponent is not bounded: overflow, underflow and the special
values of IEEE 754 are left out.  The build is without `-ffast-math` (`UM2_ENABLE_FASTMATH` is off, CMakeLists.txt 51).
-/

namespace Verif.Fp

variable {K : Type} [Field K] [LinearOrder K]

/-- The numbers with `p` binary digits. -/
def IsFp (p : ℕ) (x : K) : Prop := ∃ m k : ℤ, |m| < 2 ^ p ∧ x = m * 2 ^ k

/-- A rounding to a nearest number with `p` digits. -/
structure Rounding (K : Type) [Field K] [LinearOrder K] (p : ℕ) where
  rnd : K → K
  mem : ∀ x, IsFp p (rnd x)
  nearest : ∀ x y, IsFp p y → |x - rnd x| ≤ |x - y|

variable [FloorRing K]

/-- A nearest integer, the even one of two. -/
def roundEven (t : K) : ℤ :=
  if t - ⌊t⌋ < 1 / 2 then ⌊t⌋ else if 1 / 2 < t - ⌊t⌋ then ⌊t⌋ + 1 else if ⌊t⌋ % 2 = 0 then ⌊t⌋ else ⌊t⌋ + 1

/-- The rounding of IEEE 754 (to nearest, ties to even) with an unbounded exponent. -/
def rne (p : ℕ) (x : K) : K := if x = 0 then 0 else roundEven (x / 2 ^ (Int.log 2 |x| - p + 1)) * 2 ^ (Int.log 2 |x| - p + 1)

end Verif.Fp
