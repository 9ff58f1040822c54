import Verif.Model.Mem

/-!
# Sorting, permutations, comparisons

Model of `include/um2/common/{branchless_sort,insertion_sort,permutation}.hpp`,
`include/um2/stdlib/algorithm/*.hpp`, `include/um2/stdlib/utility/pair.hpp` and the comparison
operators of `include/um2/math/vec.hpp`.
`lt` stands for `operator<` of the element type.
-/

namespace Verif.Alg

variable {α β : Type}

/-- `sort3`, branchless_sort.hpp 13-40. The three pointees are passed and returned by value. -/
def sort3 (lt : α → α → Bool) (x y z : α) : α × α × α :=
  if !(lt y x) then
    if !(lt z y) then (x, y, z)
    else
      -- swap(*y, *z)
      let (y, z) := (z, y)
      if lt y x then (y, x, z) else (x, y, z)
  else if lt z y then (z, y, x)
  else
    -- swap(*x, *y)
    let (x, y) := (y, x)
    if lt z y then (x, z, y) else (x, y, z)

/-- `sort4`, branchless_sort.hpp 46-60. -/
def sort4 (lt : α → α → Bool) (x1 x2 x3 x4 : α) : α × α × α × α :=
  let (x1, x2, x3) := sort3 lt x1 x2 x3
  if lt x4 x3 then
    let (x3, x4) := (x4, x3)
    if lt x3 x2 then
      let (x2, x3) := (x3, x2)
      if lt x2 x1 then (x2, x1, x3, x4) else (x1, x2, x3, x4)
    else (x1, x2, x3, x4)
  else (x1, x2, x3, x4)

/-- The `do … while` loop of `insertionSort`, insertion_sort.hpp 33-36.  On entry `j = k + 1`;
the result is the array and the final `j`. -/
def insertLoop (lt : α → α → Bool) (t : α) (a : List (Option α)) :
    Nat → Option (List (Option α) × Nat)
  | 0 => do
    let (v, a) ← mv a 0
    let a ← wr a 1 (some v)
    pure (a, 0)
  | k + 1 => do
    let (v, a) ← mv a (k + 1)
    let a ← wr a (k + 2) (some v)
    let w ← rd a k
    if lt t w then insertLoop lt t a k else pure (a, k + 1)

/-- One iteration of the outer loop of `insertionSort`, insertion_sort.hpp 27-39 (`i ≥ 1`). -/
def insertStep (lt : α → α → Bool) (a : List (Option α)) (i : Nat) : Option (List (Option α)) := do
  let xi ← rd a i
  let xj ← rd a (i - 1)
  if lt xi xj then
    let (t, a) ← mv a i
    let (a, j) ← insertLoop lt t a (i - 1)
    wr a j (some t)
  else pure a

/-- `insertionSort(first, last)`, insertion_sort.hpp 16-39; `a` is the whole range. -/
def insertionSort (lt : α → α → Bool) (a : List (Option α)) : Option (List (Option α)) :=
  (List.range' 1 (a.length - 1)).foldlM (insertStep lt) a

/-- The `while (ind < i)` loop of `applyPermutation`, permutation.hpp 47-51.  `fuel` bounds the
number of iterations; running out of fuel (a loop that does not finish) and reading outside
`perm` give `none`. -/
def chase (perm : List Nat) (i : Nat) : (fuel ind : Nat) → Option Nat
  | 0, _ => none
  | fuel + 1, ind => if ind < i then perm[ind]? >>= chase perm i fuel else some ind

/-- `um2::swap(a[i], a[j])`; out-of-range indices are undefined behaviour. -/
def swapAt (a : List α) (i j : Nat) : Option (List α) := do
  let x ← a[i]?
  let y ← a[j]?
  pure ((a.set i y).set j x)

/-- One iteration of `applyPermutation`, permutation.hpp 44-53. -/
def applyStep (perm : List Nat) (a : List α) (i : Nat) : Option (List α) := do
  let ind ← perm[i]?
  let ind ← chase perm i (a.length + 1) ind
  swapAt a i ind

/-- `applyPermutation(begin, end, perm)`, permutation.hpp 35-53. -/
def applyPermutation (a : List α) (perm : List Nat) : Option (List α) :=
  (List.range (a.length - 1)).foldlM (applyStep perm) a

/-- `invertPermutation`, permutation.hpp 60-68.  `inv` is the caller's output array; a write
outside it is undefined behaviour. -/
def invertPermutation (p inv : List Nat) : Option (List Nat) :=
  p.zipIdx.foldlM (fun inv (pi, i) => if pi < inv.length then some (inv.set pi i) else none) inv

/-- `um2::iota(perm_begin, perm_begin + n, 0)`, as used in permutation.hpp 25. -/
def iota (n : Nat) : List Nat := List.range n

/-- The comparator `sortPermutation` hands to `std::sort`, permutation.hpp 26-27; the key array
is `v` (indices produced by `iota` are always in range, `none` never arises). -/
def permLess (lt : α → α → Bool) (v : List α) (i j : Nat) : Bool :=
  match v[i]?, v[j]? with
  | some a, some b => lt a b
  | _, _ => false

/-- `sortPermutation`, permutation.hpp 19-28: `p` is a possible result. -/
def IsSortPermutation (lt : α → α → Bool) (v : List α) (p : List Nat) : Prop :=
  IsStdSort (permLess lt v) (iota v.length) p

/-- `um2::min`, min.hpp 8-13. -/
def min' (lt : α → α → Bool) (a b : α) : α := if lt b a then b else a
/-- `um2::max`, max.hpp 8-13. -/
def max' (lt : α → α → Bool) (a b : α) : α := if lt a b then b else a

/-- `um2::clamp`, clamp.hpp 9-18; `lo <= hi` is only assumed (ASSERT_ASSUME), so a violation
is undefined behaviour. -/
def clamp (lt : α → α → Bool) (v lo hi : α) : Option α :=
  if lt hi lo then none
  else if lt v lo then some lo
  else if lt hi v then some hi else some v

/-- `um2::lexicographical_compare`, lexicographical_compare.hpp 8-23. -/
def lexCompare (lt : α → α → Bool) : List α → List α → Bool
  | _, [] => false
  | [], _ :: _ => true
  | a :: as, b :: bs => if lt a b then true else if lt b a then false else lexCompare lt as bs

/-- Loop of `um2::max_element`, max_element.hpp 14-19: `best` is the index `first`, `bv` the value
there, `i` the index of the next element. -/
def maxElementLoop (lt : α → α → Bool) : (best : Nat) → (bv : α) → (i : Nat) → List α → Nat
  | best, _, _, [] => best
  | best, bv, i, x :: xs =>
    if lt bv x then maxElementLoop lt i x (i + 1) xs else maxElementLoop lt best bv (i + 1) xs

/-- `um2::max_element`, max_element.hpp 8-22: index of the result, `length` meaning `last`. -/
def maxElement (lt : α → α → Bool) : List α → Nat
  | [] => 0
  | x :: xs => maxElementLoop lt 0 x 1 xs

/-- `um2::is_sorted`, is_sorted.hpp 8-23. -/
def isSorted (lt : α → α → Bool) : List α → Bool
  | [] => true
  | [_] => true
  | a :: b :: rest => if lt b a then false else isSorted lt (b :: rest)

/-- `operator==(Vec, Vec)`, vec.hpp 893-903; a `Vec<D,T>` is its list of `D` components. -/
def vecEq [DecidableEq α] : List α → List α → Bool
  | a :: as, b :: bs => if a ≠ b then false else vecEq as bs
  | _, _ => true

/-- `operator<(Vec, Vec)`, vec.hpp 906-919. -/
def vecLt (lt : α → α → Bool) : List α → List α → Bool
  | a :: as, b :: bs => if lt a b then true else if lt b a then false else vecLt lt as bs
  | _, _ => false

/-- `operator<(Pair, Pair)`, pair.hpp 61-66. -/
def pairLt (lt1 : α → α → Bool) (lt2 : β → β → Bool) (l r : α × β) : Bool :=
  lt1 l.1 r.1 || (!(lt1 r.1 l.1) && lt2 l.2 r.2)

/-- `operator==(Pair, Pair)`, pair.hpp 54-59. -/
def pairEq [DecidableEq α] [DecidableEq β] (l r : α × β) : Bool :=
  decide (l.1 = r.1) && decide (l.2 = r.2)

end Verif.Alg
