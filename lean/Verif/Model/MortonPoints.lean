import Verif.Model.Morton
import Verif.Model.Algorithm
import Mathlib.Algebra.Order.Floor.Defs
import Mathlib.Algebra.Order.Floor.Semiring
import Mathlib.Algebra.Field.Basic
import Mathlib.Algebra.Order.Field.Basic

/-!
# Morton order on points

Model of the floating point `mortonEncode` (`include/um2/math/morton.hpp` 340-381) and of
`include/um2/geometry/morton_sort_points.hpp`.  Coordinates are elements of an ordered field with
a floor function: the product `x * max` is exact, and `static_cast<U>` truncates it; a truncated
value outside the range of `uint32_t` is undefined behaviour (`none`), and so is a coordinate
outside `[0, 1]` (ASSERT_ASSUME).
-/

namespace Verif.MortonPoints
open Verif.Morton

variable {K : Type} [Field K] [LinearOrder K] [IsStrictOrderedRing K] [FloorSemiring K]

/-- `static_cast<uint32_t>(v)` for a floating point `v`. -/
def toU32 (v : K) : Option (BitVec 32) :=
  if -1 < v ∧ v < 2 ^ 32 then some (BitVec.ofNat 32 ⌊v⌋₊) else none

/-- `mortonEncode<uint32_t, T>(x, y)`, morton.hpp 338-352, and `mortonEncode(Point2)`,
morton_sort_points.hpp 26-31. -/
def encodePoint2 (p : K × K) : Option (BitVec 32) := do
  if 0 ≤ p.1 ∧ 0 ≤ p.2 ∧ p.1 ≤ 1 ∧ p.2 ≤ 1 then pure () else none -- ASSERT_ASSUME
  let x ← toU32 (p.1 * (max2D32.toNat : K))
  let y ← toU32 (p.2 * (max2D32.toNat : K))
  pure (encode2_32 x y)

/-- `mortonEncode<uint32_t, T>(x, y, z)`, morton.hpp 367-381, and `mortonEncode(Point3)`,
morton_sort_points.hpp 33-38. -/
def encodePoint3 (p : K × K × K) : Option (BitVec 32) := do
  if 0 ≤ p.1 ∧ 0 ≤ p.2.1 ∧ 0 ≤ p.2.2 ∧ p.1 ≤ 1 ∧ p.2.1 ≤ 1 ∧ p.2.2 ≤ 1 then pure ()
    else none -- ASSERT_ASSUME
  let x ← toU32 (p.1 * (max3D32.toNat : K))
  let y ← toU32 (p.2.1 * (max3D32.toNat : K))
  let z ← toU32 (p.2.2 * (max3D32.toNat : K))
  pure (encode3_32 x y z)

/-- `mortonLess`, morton_sort_points.hpp 54-59, for a code function `enc`; `none` is undefined
behaviour. -/
def mortonLess? {P : Type} (enc : P → Option (BitVec 32)) (l r : P) : Option Bool := do
  let a ← enc l
  let b ← enc r
  pure (decide (a < b))

/-- The comparator as `std::sort` sees it (only its `true` answers matter). -/
def mortonLess {P : Type} (enc : P → Option (BitVec 32)) (l r : P) : Bool :=
  mortonLess? enc l r == some true

/-- `mortonSort`, morton_sort_points.hpp 61-66: `out` is a possible result. -/
def IsMortonSort {P : Type} (enc : P → Option (BitVec 32)) (inp out : List P) : Prop :=
  IsStdSort (mortonLess enc) inp out

/-- `mortonSortPermutation`, morton_sort_points.hpp 78-103; `enc` includes the scaling of the
second overload.  `perm` is a possible result. -/
def IsMortonSortPermutation {P : Type} (enc : P → Option (BitVec 32)) (v : List P)
    (perm : List Nat) : Prop :=
  Alg.IsSortPermutation (mortonLess enc) v perm

end Verif.MortonPoints
