import Mathlib.Data.Int.Notation

/-!
# 32-bit `Int` arithmetic (cmake/config.hpp.in: `using Int = int32_t`)

Signed overflow and out-of-range conversions from floating point are undefined behaviour, `none`.
-/

namespace Verif

/-- The result of an `Int` operation, or of `static_cast<Int>` of an integral floating point value. -/
def chk (z : ℤ) : Option ℤ := if -2147483648 ≤ z ∧ z ≤ 2147483647 then some z else none

theorem chk_eq {z n : ℤ} (h : chk z = some n) : z = n := by
  unfold chk at h
  split at h
  · exact Option.some.inj h
  · exact absurd h (by simp)

theorem chk_some {z : ℤ} (h0 : -2147483648 ≤ z) (h1 : z ≤ 2147483647) : chk z = some z := by
  unfold chk; rw [if_pos ⟨h0, h1⟩]

theorem chk_none {z : ℤ} (h : ¬ (-2147483648 ≤ z ∧ z ≤ 2147483647)) : chk z = none := by
  unfold chk; rw [if_neg h]

end Verif
