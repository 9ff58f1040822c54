import Verif.Model.Algorithm
import Verif.Model.Int32

/-! The relational operators of `Vector` and `Pair`, `um2::equal` and `um2::iota`.  `eq` and `lt` are the operators of the elements. -/

namespace Verif.Rel

open Verif.Alg

variable {α β : Type}

/-- `um2::equal`, equal.hpp 8-18; `none` for reading past the end of the second range. -/
def equal (eq : α → α → Bool) : List α → List α → Option Bool
  | [], _ => some true
  | _ :: _, [] => none
  | a :: as, b :: bs => if !eq a b then some false else equal eq as bs

/-- `operator==(Vector, Vector)`, vector.hpp 833-838. -/
def vectorEq (eq : α → α → Bool) (l r : List α) : Option Bool := if l.length = r.length then equal eq l r else some false

/-- `operator<(Vector, Vector)`, vector.hpp 840-845. -/
def vectorLt (lt : α → α → Bool) (l r : List α) : Bool := lexCompare lt l r

/-- `operator!=(Vector, Vector)`, vector.hpp 847-852. -/
def vectorNe (eq : α → α → Bool) (l r : List α) : Option Bool := (vectorEq eq l r).map (!·)

/-- `operator>(Vector, Vector)`, vector.hpp 854-859. -/
def vectorGt (lt : α → α → Bool) (l r : List α) : Bool := vectorLt lt r l

/-- `operator<=(Vector, Vector)`, vector.hpp 861-866. -/
def vectorLe (lt : α → α → Bool) (l r : List α) : Bool := !vectorLt lt r l

/-- `operator>=(Vector, Vector)`, vector.hpp 868-873. -/
def vectorGe (lt : α → α → Bool) (l r : List α) : Bool := !vectorLt lt l r

variable [DecidableEq α] [DecidableEq β]

/-- `operator!=(Pair, Pair)`, pair.hpp 74-79. -/
def pairNe (l r : α × β) : Bool := !pairEq l r

/-- `operator>(Pair, Pair)`, pair.hpp 81-86. -/
def pairGt (lt1 : α → α → Bool) (lt2 : β → β → Bool) (l r : α × β) : Bool := pairLt lt1 lt2 r l

/-- `operator<=(Pair, Pair)`, pair.hpp 88-93. -/
def pairLe (lt1 : α → α → Bool) (lt2 : β → β → Bool) (l r : α × β) : Bool := !pairLt lt1 lt2 r l

/-- `operator>=(Pair, Pair)`, pair.hpp 95-100. -/
def pairGe (lt1 : α → α → Bool) (lt2 : β → β → Bool) (l r : α × β) : Bool := !pairLt lt1 lt2 l r

/-- `um2::iota(first, last, value)`, iota.hpp 8-15, for a range of `n` elements and a value of type `Int`: `++value` follows every element, the last one too. -/
def iota : (n : ℕ) → (value : ℤ) → Option (List ℤ)
  | 0, _ => some []
  | n + 1, v => (chk (v + 1)).bind fun w => (iota n w).map (v :: ·)

/-- `Vector::max_size`, vector.hpp 728-734: `intMax() / sizeof(T)`. -/
def maxSize (sizeof : ℕ) : ℕ := 2147483647 / sizeof

end Verif.Rel
