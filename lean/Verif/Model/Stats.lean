import Mathlib.Algebra.Order.Field.Basic
import Mathlib.Analysis.Real.Sqrt
import Mathlib.Data.List.Sort

/-!
# Model of include/um2/math/stats.hpp

A range `[begin, end)` is the list of its values; arithmetic is exact.  An empty range is undefined
behaviour (`ASSERT_ASSUME(n > 0)` / a read of `*begin`), as is a division by zero here.
-/

namespace Verif.Stats

/-- `sum_detail::naiveSum`, stats.hpp 32-45. -/
def naiveSum {T : Type} [Add T] : List T → Option T
  | [] => none
  | x :: l => some (l.foldl (· + ·) x)

/-- `sum_detail::pairwiseSum`, stats.hpp 47-59, and `sum`, 63-72 (host branch). -/
def pairwiseSum {T : Type} [Add T] (l : List T) : Option T :=
  if 0 < l.length then
    if l.length ≤ 128 then naiveSum l
    else do
      let a ← pairwiseSum (l.take (l.length / 2))
      let b ← pairwiseSum (l.drop (l.length / 2))
      pure (a + b)
  else none
termination_by l.length
decreasing_by
  · simp; omega
  · simp; omega

/-- `mean`, stats.hpp 79-87. -/
def mean {T : Type} [Add T] [Div T] [NatCast T] (l : List T) : Option T := do
  let s ← pairwiseSum l
  pure (s / (l.length : T))

/-- `median`, stats.hpp 95-109. -/
def median {T : Type} [Add T] [Div T] [NatCast T] (l : List T) : Option T :=
  if l.length % 2 = 1 then l[l.length / 2]?
  else do
    let hi ← l[l.length / 2]?
    let lo ← l[l.length / 2 - 1]?
    pure ((hi + lo) / ((2 : Nat) : T))

/-- The state of the loop of `variance`, stats.hpp 122-124. -/
structure Welford (T : Type) where
  n : Nat
  mean : T
  m2 : T

/-- The loop body of `variance`, stats.hpp 126-132. -/
def welfordStep {T : Type} [Field T] (s : Welford T) (x : T) : Welford T :=
  let n := s.n + 1
  let delta := x - s.mean
  let mean := s.mean + delta / (n : T)
  ⟨n, mean, s.m2 + delta * (x - mean)⟩

/-- `variance`, stats.hpp 117-135. With a single element the code computes `0 / 0`. -/
def variance {T : Type} [Field T] (l : List T) : Option T :=
  if l = [] then none
  else
    let s := l.foldl welfordStep ⟨0, 0, 0⟩
    if s.n - 1 = 0 then none else some (s.m2 / ((s.n - 1 : Nat) : T))

/-- `stdDev`, stats.hpp 142-147. -/
noncomputable def stdDev (l : List ℝ) : Option ℝ := (variance l).map Real.sqrt

end Verif.Stats
