import Verif.Model.XSLib

/-!
# Handles and arrays of the C interface

`src/um2c.cpp` 40-94 and the allocations of the functions of 411-686: which blocks of memory there are, and what they hold. A pointer is the number of the block it was obtained for,
or null; the address of a block may be given out again by the allocator, but a pointer to the old block stays a pointer to the old block, as in the C standard. `um2Initialize` and
`um2Finalize` (58-68) do not touch the blocks. What the queries compute from a model is in `Verif.Model.CApi` and `Verif.Model.Heights`; here it is an argument. All of them
take the model as constant.
-/

namespace Verif.CHeap

open Verif.XSLib (Res)

/-- A block of memory: a model made by `new`, an array made by `malloc`, or released. -/
inductive Block (M : Type)
  | model (m : M)
  | bytes (n : ℕ)
  | gone

/-- Null or the number of a block. -/
abbrev Ptr := Option ℕ

/-- The calls of a client. -/
inductive Call (M A : Type)
  | malloc (size : ℤ)
  | free (q : Ptr)
  | newModel
  | readModel (path : List UInt8)
  | deleteModel (q : Ptr)
  | query (q : Ptr) (f : M → Res A)
  | arrays (q : Ptr) (sizes : M → Res (ℕ × ℕ))

/-- What a call gives back. -/
inductive Answer (A : Type)
  | nothing
  | ptr (q : Ptr)
  | two (q r : Ptr)
  | value (a : A)

/-- The surroundings: whether `malloc` finds that many bytes in a heap with so many blocks, an empty model, and `Model::read`. -/
structure World (M : Type) where
  fits : ℕ → ℕ → Bool
  empty : M
  read : List UInt8 → Res M

variable {M A : Type}

/-- `static_cast<size_t>(size)`, um2c.cpp 46. -/
def toSize (size : ℤ) : ℕ := (size % 2 ^ 64).toNat

/-- `malloc`. -/
def alloc (w : World M) (h : List (Block M)) (n : ℕ) : List (Block M) × Ptr := if w.fits h.length n then (h ++ [.bytes n], some h.length) else (h, none)

/-- `*reinterpret_cast<Model *>(model)`, for example um2c.cpp 102. -/
def deref (h : List (Block M)) : Ptr → Res M
  | none => .undef
  | some i =>
    match h[i]? with
    | some (.model m) => .ok m
    | _ => .undef

/-- One call. -/
def exec (w : World M) (h : List (Block M)) : Call M A → Res (List (Block M) × Answer A)
  -- um2Malloc, 43-47
  | .malloc size => .ok ((alloc w h (toSize size)).1, .ptr (alloc w h (toSize size)).2)
  -- um2Free, 49-53
  | .free none => .ok (h, .nothing)
  | .free (some i) =>
    match h[i]? with
    | some (.bytes _) => .ok (h.set i .gone, .nothing)
    | _ => .undef
  -- um2NewMPACTModel, 75-79
  | .newModel => .ok (h ++ [.model w.empty], .ptr (some h.length))
  -- um2ReadMPACTModel, 87-94
  | .readModel path => (w.read path).bind fun m => .ok (h ++ [.model m], .ptr (some h.length))
  -- um2DeleteMPACTModel, 81-85
  | .deleteModel none => .ok (h, .nothing)
  | .deleteModel (some i) =>
    match h[i]? with
    | some (.model _) => .ok (h.set i .gone, .nothing)
    | _ => .undef
  -- the functions of 97-407
  | .query q f => (deref h q).bind fun m => (f m).bind fun a => .ok (h, .value a)
  -- um2MPACTCoarseCellHeights and others, 466-474, 527-535, 583-591; um2MPACTCoarseCellFaceData, 622-628, 639-645, 656-662, 673-679: the arrays are filled without a look
  -- at the pointers
  | .arrays q sizes => (deref h q).bind fun m => (sizes m).bind fun s =>
    let a := alloc w h s.1
    let b := alloc w a.1 s.2
    if (a.2 = none ∧ 0 < s.1) ∨ (b.2 = none ∧ 0 < s.2) then .undef else .ok (b.1, .two a.2 b.2)

/-- A client: calls one after the other; the answers in this order. -/
def run (w : World M) (h : List (Block M)) : List (Call M A) → Res (List (Block M) × List (Answer A))
  | [] => .ok (h, [])
  | c :: cs => (exec w h c).bind fun x => (run w x.1 cs).bind fun y => .ok (y.1, x.2 :: y.2)

end Verif.CHeap
