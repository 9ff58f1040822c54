import Mathlib.Algebra.Order.Field.Basic

/-! Exact geometry, for the comparison with floating-point arithmetic (C120, C121). -/

namespace Verif.FpSpec

variable {K : Type} [Field K] [LinearOrder K]

/-- Twice the signed area of the triangle `a b c`. -/
def turn (a b c : K × K) : K := (b.1 - a.1) * (c.2 - a.2) - (b.2 - a.2) * (c.1 - a.1)

/-- The closed triangle with vertices `a`, `b`, `c` in counter-clockwise order. -/
def InTriangle (a b c q : K × K) : Prop := 0 ≤ turn a b q ∧ 0 ≤ turn b c q ∧ 0 ≤ turn c a q

end Verif.FpSpec
