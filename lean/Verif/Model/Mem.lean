import Mathlib.Data.List.Basic

/-!
# Arrays with explicit object lifetimes

A C++ array is a list of slots.  `some v` is a slot holding a live object, `none` a slot that
is raw storage or holds a moved-from object.  Reading a `none` slot and touching a slot outside
the list are undefined behaviour: the operation itself then returns `none`.
-/

namespace Verif

/-- Read a live slot. -/
def rd {α : Type} (a : List (Option α)) (i : Nat) : Option α := (a[i]?).join

/-- Overwrite a slot inside the array. -/
def wr {α : Type} (a : List (Option α)) (i : Nat) (v : Option α) : Option (List (Option α)) :=
  if i < a.length then some (a.set i v) else none

/-- `um2::move(a[i])` used as a value: read the slot and leave it moved-from. -/
def mv {α : Type} (a : List (Option α)) (i : Nat) : Option (α × List (Option α)) := do
  let v ← rd a i
  let a' ← wr a i none
  pure (v, a')

/-- The contract of `std::sort` with comparator `lt` on a strict weak order: the output is a
rearrangement of the input in which no later element is less than an earlier one.  Which of
the possible outputs is produced is unspecified, so properties are proved for all of them. -/
structure IsStdSort {α : Type} (lt : α → α → Bool) (input output : List α) : Prop where
  perm : output.Perm input
  sorted : output.Pairwise fun a b => lt b a = false

/-- The requirement `std::sort` (and every sort below) puts on its comparator. -/
structure StrictWeak {α : Type} (lt : α → α → Bool) : Prop where
  asymm : ∀ a b, lt a b = true → lt b a = false
  negTrans : ∀ a b c, lt a b = false → lt b c = false → lt a c = false

end Verif
