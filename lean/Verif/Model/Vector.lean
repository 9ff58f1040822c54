import Mathlib.Data.List.Basic

/-!
# um2::Vector

Model of `include/um2/stdlib/vector.hpp`.

A buffer is a list of cells.  Object lifetimes are explicit: constructing an object requires raw
storage, destroying or assigning requires an object, reading a value requires a live (not
moved-from) object, and freeing a buffer requires that all its objects were destroyed.  Every
violation, every access outside the buffer and every `Int` overflow gives `none` (undefined
behaviour or a leak).

`triv` says whether `T` is trivially move-constructible and trivially destructible
(`if constexpr` in `swapBuffers`); then relocation is `memcpy`, which leaves the source intact.

Simplifications: `_begin == nullptr` is identified with capacity 0; allocation never fails;
`n ≥ 0` for all counts (negative counts violate the asserted preconditions); a value type whose
copy and move do not fail; `memcpy(p, nullptr, 0)` is a no-op.
-/

namespace Verif.Vector

/-- A storage cell. -/
inductive Cell (α : Type) where
  | raw
  | moved
  | live (v : α)
deriving DecidableEq, Repr

variable {α : Type}

/-- The three pointers: `slots` is `[_begin, _end_cap)`, `size` is `_end - _begin`. -/
structure Vec (α : Type) where
  slots : List (Cell α)
  size : Nat
deriving DecidableEq, Repr

/-- `capacity()`, vector.hpp 747-752. -/
def Vec.capacity (v : Vec α) : Nat := v.slots.length

/-- Largest `Int` (`int32_t`), cmake/config.hpp.in. -/
def intMax : Nat := 2147483647

/-- The default constructor: no buffer. -/
def empty : Vec α := ⟨[], 0⟩

/-- `construct_at(p, …)`, memory/construct_at.hpp: needs raw storage. -/
def construct (s : List (Cell α)) (i : Nat) (c : Cell α) : Option (List (Cell α)) :=
  match s[i]? with
  | some .raw => some (s.set i c)
  | _ => none

/-- `destroy_at(p)`: needs an object. -/
def destroy (s : List (Cell α)) (i : Nat) : Option (List (Cell α)) :=
  match s[i]? with
  | some (.live _) => some (s.set i .raw)
  | some .moved => some (s.set i .raw)
  | _ => none

/-- `*p = value`: needs an object. -/
def assignAt (s : List (Cell α)) (i : Nat) (v : α) : Option (List (Cell α)) :=
  match s[i]? with
  | some (.live _) => some (s.set i (.live v))
  | some .moved => some (s.set i (.live v))
  | _ => none

/-- `v[i]` read as a value, vector.hpp 600-616: needs a live object below `size`. -/
def get (v : Vec α) (i : Nat) : Option α :=
  if i < v.size then
    match v.slots[i]? with
    | some (.live x) => some x
    | _ => none
  else none

/-- `allocate(n)`, vector.hpp 277-288. -/
def allocate (n : Nat) : Vec α := ⟨List.replicate n .raw, 0⟩

/-- `constructAtEnd(n)` with default value `d`, vector.hpp 291-299, and
`constructAtEnd(n, value)`, 302-310. -/
def constructN (d : α) : Nat → Vec α → Option (Vec α)
  | 0, v => some v
  | n + 1, v => do
    let s ← construct v.slots v.size (.live d)
    constructN d n ⟨s, v.size + 1⟩

/-- `constructAtEnd(first, last, n)`, vector.hpp 317-328. -/
def constructList : List α → Vec α → Option (Vec α)
  | [], v => some v
  | x :: xs, v => do
    let s ← construct v.slots v.size (.live x)
    constructList xs ⟨s, v.size + 1⟩

/-- The loop of `destructAtEnd`, vector.hpp 346-355, destroying the last `n` objects. -/
def destructN : Nat → Vec α → Option (Vec α)
  | 0, v => some v
  | n + 1, v =>
    match v.size with
    | 0 => none
    | k + 1 => do
      let s ← destroy v.slots k
      destructN n ⟨s, k⟩

/-- `destructAtEnd(_begin + newSize)`, vector.hpp 346-355; a target beyond the end never
terminates properly. -/
def destructAtEnd (newSize : Nat) (v : Vec α) : Option (Vec α) :=
  if newSize ≤ v.size then destructN (v.size - newSize) v else none

/-- `clear()`, vector.hpp 759-764. -/
def clear (v : Vec α) : Option (Vec α) := destructAtEnd 0 v

/-- `operator delete(_begin)`: every object must have been destroyed. -/
def free (v : Vec α) : Option Unit := if v.slots.all (fun c => c matches .raw) then some () else none

/-- `~Vector()`, vector.hpp 587-595. -/
def dtor (v : Vec α) : Option Unit := do
  if v.capacity = 0 then pure () else do
    let v ← clear v
    free v

/-- `deallocate()`, vector.hpp 331-343. -/
def deallocate (v : Vec α) : Option (Vec α) := do
  if v.capacity = 0 then pure v else do
    let v ← clear v
    let _ ← free v
    pure empty

/-- `recommend(new_size)`, vector.hpp 387-392; `2 * capacity()` is `Int` arithmetic. -/
def recommend (v : Vec α) (newSize : Nat) : Option Nat :=
  if 2 * v.capacity ≤ intMax ∧ newSize ≤ intMax then some (max (2 * v.capacity) newSize) else none

/-- Relocation loop of `swapBuffers`, vector.hpp 406-418: objects `i, …, i+n-1` of `old` are
moved (or `memcpy`ed) to the same positions of `new`. -/
def moveLoop (triv : Bool) : (n i : Nat) → (old new : List (Cell α)) →
    Option (List (Cell α) × List (Cell α))
  | 0, _, old, new => some (old, new)
  | n + 1, i, old, new =>
    match old[i]? with
    | some .raw => none
    | none => none
    | some c => do
      let new ← construct new i c
      moveLoop triv n (i + 1) (if triv then old else old.set i .moved) new

/-- `swapBuffers(temp)`, vector.hpp 394-428: returns `*this` and `temp` after the swap. -/
def swapBuffers (triv : Bool) (v temp : Vec α) : Option (Vec α × Vec α) := do
  let (old, new) ← moveLoop triv v.size 0 v.slots temp.slots
  pure (⟨new, v.size⟩, ⟨old, v.size⟩)

/-- The argument of `push_back`/`emplace_back`: a value outside the vector, or a reference to
element `i` of the vector itself. -/
inductive Arg (α : Type) where
  | ext (v : α)
  | own (i : Nat)

/-- The object the argument refers to, `s` being the buffer that held the elements when the call
was made.  Copying a moved-from object copies its unspecified value (`moved`). -/
def argCell (s : List (Cell α)) : Arg α → Option (Cell α)
  | .ext v => some (.live v)
  | .own i =>
    match s[i]? with
    | some .raw => none
    | none => none
    | some c => some c

/-- `pushBackSlowPath`, vector.hpp 371-383, and `emplaceBackSlowPath`, 357-369 (identical).
A reference to an own element points into the old buffer, which `temp` owns after the swap. -/
def pushSlow (triv : Bool) (v : Vec α) (a : Arg α) : Option (Vec α) := do
  let n ← recommend v (v.size + 1)
  let (v, temp) ← swapBuffers triv v (allocate n)
  let c ← argCell temp.slots a
  let s ← construct v.slots v.size c
  dtor temp
  pure ⟨s, v.size + 1⟩

/-- `push_back(value)` (both overloads), vector.hpp 766-790, and `emplace_back`, 802-813. -/
def pushBack (triv : Bool) (v : Vec α) (a : Arg α) : Option (Vec α) :=
  if v.size < v.capacity then do
    let c ← argCell v.slots a
    let s ← construct v.slots v.size c
    pure ⟨s, v.size + 1⟩
  else pushSlow triv v a

/-- `pop_back()`, vector.hpp 792-799 (the emptiness check is only asserted). -/
def popBack (v : Vec α) : Option (Vec α) :=
  match v.size with
  | 0 => none
  | k + 1 => destructAtEnd k v

/-- `reserve(n)`, vector.hpp 736-745. -/
def reserve (triv : Bool) (v : Vec α) (n : Nat) : Option (Vec α) :=
  if n > v.capacity then do
    let (v, temp) ← swapBuffers triv v (allocate n)
    dtor temp
    pure v
  else pure v

/-- `append(n)`, vector.hpp 431-441. -/
def append (triv : Bool) (d : α) (v : Vec α) (n : Nat) : Option (Vec α) :=
  if v.capacity - v.size < n then do
    let m ← recommend v (v.size + n)
    let (v, temp) ← swapBuffers triv v (allocate m)
    dtor temp
    constructN d n v
  else constructN d n v

/-- `resize(n)`, vector.hpp 815-827. -/
def resize (triv : Bool) (d : α) (v : Vec α) (n : Nat) : Option (Vec α) :=
  if v.size < n then append triv d v (n - v.size)
  else if n < v.size then destructAtEnd n v
  else pure v

/-- `um2::copy(first, last, _begin + i)`, algorithm/copy.hpp 38-63. -/
def copyInto : List α → Nat → List (Cell α) → Option (List (Cell α))
  | [], _, s => some s
  | x :: xs, i, s => do
    let s ← assignAt s i x
    copyInto xs (i + 1) s

/-- `assign(first, last)` from a range that does not overlap the vector, vector.hpp 556-581;
also copy assignment 520-528 and `operator=(initializer_list)` 547-553. -/
def assign (v : Vec α) (l : List α) : Option (Vec α) :=
  if l.length ≤ v.capacity then
    if v.size < l.length then do
      let s ← copyInto (l.take v.size) 0 v.slots
      constructList (l.drop v.size) ⟨s, v.size⟩
    else do
      let s ← copyInto l 0 v.slots
      destructAtEnd l.length ⟨s, v.size⟩
  else do
    let v ← deallocate v
    let n ← recommend v l.length
    constructList l (allocate n)

/-- `v[i] = x`. -/
def setAt (v : Vec α) (i : Nat) (x : α) : Option (Vec α) :=
  if i < v.size then do
    let s ← assignAt v.slots i x
    pure ⟨s, v.size⟩
  else none

/-- `Vector(n)`, vector.hpp 448-455, and `Vector(n, value)`, 456-463. -/
def ofCount (d : α) (n : Nat) : Option (Vec α) := constructN d n (allocate n)

/-- `Vector(first, last)` 490-503, `Vector(initializer_list)` 505-514 and the copy constructor
465-476 (the source read as its list of values): default-construct `n`, then copy over. -/
def ofList (d : α) (l : List α) : Option (Vec α) :=
  if l.length = 0 then pure empty else do
    let v ← constructN d l.length (allocate l.length)
    let s ← copyInto l 0 v.slots
    pure ⟨s, v.size⟩

/-- Reading all elements `[begin(), end())`. -/
def toList (v : Vec α) : Option (List α) := (List.range v.size).mapM (get v)

/-- Move construction, vector.hpp 478-488: result and the moved-from source. -/
def moveCtor (v : Vec α) : Vec α × Vec α := (v, empty)

/-- Move assignment (distinct objects), vector.hpp 530-545: `*this` and the moved-from source. -/
def moveAssign (self v : Vec α) : Option (Vec α × Vec α) := do
  let _ ← deallocate self
  pure (v, empty)

/-- Objects relocated by one `push_back` (the iterations of the loop in `swapBuffers`). -/
def pushRelocations (v : Vec α) : Nat := if v.size < v.capacity then 0 else v.size

/-- The mutating operations of a history. -/
inductive Op (α : Type) where
  | reserve (n : Nat)
  | resize (n : Nat)
  | clear
  | pushBack (x : α)
  | popBack
  | assign (l : List α)
  | set (i : Nat) (x : α)

/-- Run one operation. -/
def step (triv : Bool) (d : α) (v : Vec α) : Op α → Option (Vec α)
  | .reserve n => reserve triv v n
  | .resize n => resize triv d v n
  | .clear => clear v
  | .pushBack x => pushBack triv v (.ext x)
  | .popBack => popBack v
  | .assign l => assign v l
  | .set i x => setAt v i x

/-- Run a history. -/
def run (triv : Bool) (d : α) (v : Vec α) (ops : List (Op α)) : Option (Vec α) :=
  ops.foldlM (step triv d) v

end Verif.Vector
