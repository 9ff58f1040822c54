import Verif.Model.Fp

/-!
# Statistics in floating-point arithmetic

The functions of `math/stats.hpp` for a range of `float` or `double`; `Verif.Model.Stats` has the same functions in exact arithmetic.  An empty range
is undefined behaviour, and so is here a division by zero.
-/

namespace Verif.Fp

variable {K : Type} [Field K] [LinearOrder K] {p : ℕ}

/-- `sum_detail::naiveSum`, stats.hpp 32-45. -/
def naiveSum (R : Rounding K p) : List K → Option K
  | [] => none
  | x :: l => some (l.foldl (fun s y => R.rnd (s + y)) x)

/-- `sum_detail::pairwiseSum`, stats.hpp 47-59, and `sum`, 63-72 (host branch). -/
def pairwiseSum (R : Rounding K p) (l : List K) : Option K :=
  if 0 < l.length then
    if l.length ≤ 128 then naiveSum R l
    else do
      let a ← pairwiseSum R (l.take (l.length / 2))
      let b ← pairwiseSum R (l.drop (l.length / 2))
      pure (R.rnd (a + b))
  else none
termination_by l.length
decreasing_by
  · simp; omega
  · simp; omega

/-- `mean`, stats.hpp 79-87; the number of elements is converted to `T`. -/
def mean (R : Rounding K p) (l : List K) : Option K := do
  let s ← pairwiseSum R l
  pure (R.rnd (s / R.rnd (l.length : K)))

/-- `median`, stats.hpp 95-109. -/
def median (R : Rounding K p) (l : List K) : Option K :=
  if l.length % 2 = 1 then l[l.length / 2]?
  else do
    let hi ← l[l.length / 2]?
    let lo ← l[l.length / 2 - 1]?
    pure (R.rnd (R.rnd (hi + lo) / 2))

/-- The state of the loop of `variance`, stats.hpp 122-124. -/
structure Welford (K : Type) where
  n : ℕ
  mean : K
  m2 : K

/-- The loop body of `variance`, stats.hpp 126-132.  With `fused` the compiler has made one operation of `m2 += delta * (...)`, as GCC does by default
(`-ffp-contract=fast`) on a machine that has it. -/
def welfordStep (R : Rounding K p) (fused : Bool) (s : Welford K) (x : K) : Welford K :=
  let n := s.n + 1
  let delta := R.rnd (x - s.mean)
  let mean := R.rnd (s.mean + R.rnd (delta / R.rnd (n : K)))
  let rest := R.rnd (x - mean)
  ⟨n, mean, if fused then R.rnd (s.m2 + delta * rest) else R.rnd (s.m2 + R.rnd (delta * rest))⟩

/-- `variance`, stats.hpp 117-135. -/
def variance (R : Rounding K p) (fused : Bool) (l : List K) : Option K :=
  if l = [] then none
  else
    let s := l.foldl (welfordStep R fused) ⟨0, 0, 0⟩
    if s.n - 1 = 0 then none else some (R.rnd (s.m2 / R.rnd ((s.n - 1 : ℕ) : K)))

end Verif.Fp
