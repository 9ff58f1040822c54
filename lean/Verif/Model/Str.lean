/-!
# Model of `um2::String` (include/um2/stdlib/string.hpp)

The heap is a list of blocks indexed by address; an address is never reused.  A block is a list of
bytes, `none` being an indeterminate byte; a freed block is `none`.  A string object is either the
inline or the heap representation.

Undefined behaviour is `none`: reading or writing outside a buffer, reading an indeterminate byte,
freeing something that is not an allocated block, a violated `ASSERT_ASSUME`, a capacity that does
not fit `Int`.

Simplifications: the union of the two representations (string.hpp 31-75) is a sum type, the flag bit
being the constructor; `ASSERT` is compiled out (release build) and therefore absent.
-/

namespace Verif.Str

abbrev Byte := UInt8

/-- Storage, `none` being an indeterminate byte. -/
abbrev Buf := List (Option Byte)

/-- Blocks by address; `none` is a freed block. -/
abbrev Heap := List (Option Buf)

/-- `INT32_MAX`. -/
def intMax : Nat := 2147483647

/-- `min_cap`, string.hpp 44. -/
def minCap : Nat := 23

/-- `_r`, string.hpp 31-75. `long ptr cap size`: `cap` includes the terminator. -/
inductive Rep where
  | short (data : Buf) (size : Nat)
  | long (ptr : Nat) (cap : Nat) (size : Nat)

/-- `Rep()`: all bytes zero, string.hpp 603-609. -/
def Rep.zero : Rep := .short (List.replicate minCap (some 0)) 0

/-- `isLong()`, string.hpp 511-515. -/
def Rep.isLong : Rep → Bool
  | .short .. => false
  | .long .. => true

/-- `size()`, string.hpp 835-839. -/
def Rep.size : Rep → Nat
  | .short _ n => n
  | .long _ _ n => n

/-- `capacity()`, string.hpp 842-846: the cast to `Int` must be exact. -/
def Rep.capacity : Rep → Option Nat
  | .short .. => some (minCap - 1)
  | .long _ cap _ => if 1 ≤ cap ∧ cap ≤ intMax then some (cap - 1) else none

/-- The heap block a string frees when it dies. -/
def Rep.owned : Rep → Option Nat
  | .short .. => none
  | .long p _ _ => some p

/-- `::operator new(n)`. -/
def alloc (h : Heap) (n : Nat) : Heap × Nat := (h ++ [some (List.replicate n none)], h.length)

/-- `::operator delete(p)`. -/
def free (h : Heap) (p : Nat) : Option Heap :=
  match h[p]? with
  | some (some _) => some (h.set p none)
  | _ => none

/-- The block at `p`. -/
def block (h : Heap) (p : Nat) : Option Buf :=
  match h[p]? with
  | some (some b) => some b
  | _ => none

/-- `n` bytes from offset `off`, all determinate. -/
def rdBytes (b : Buf) (off n : Nat) : Option (List Byte) :=
  if off + n ≤ b.length then ((b.drop off).take n).mapM id else none

/-- Write bytes at offset `off` (`um2::copy`/`memcpy`, algorithm/copy.hpp 48-66). -/
def wrBytes (b : Buf) (off : Nat) (l : List Byte) : Option Buf :=
  if off + l.length ≤ b.length then some (b.take off ++ l.map some ++ b.drop (off + l.length))
  else none

/-- The bytes at `data()`, string.hpp 781-791. -/
def dataBuf (h : Heap) : Rep → Option Buf
  | .short d _ => some d
  | .long p _ _ => block h p

/-- `init(s, size)`, string.hpp 487-509; `l` are the source bytes. -/
def init (h : Heap) (l : List Byte) : Option (Heap × Rep) :=
  if l.length < intMax then
    if l.length < minCap then do
      let d ← wrBytes (List.replicate minCap none) 0 l
      let d ← wrBytes d l.length [0]
      pure (h, .short d (l.length % 128))
    else do
      let (h, p) := alloc h (l.length + 1)
      let b ← block h p
      let b ← wrBytes b 0 l
      let b ← wrBytes b l.length [0]
      pure (h.set p (some b), .long p (l.length + 1) l.length)
  else none

/-- `assignShort(sv)`, string.hpp 374-391, `sv` not pointing into this string. -/
def assignShort (h : Heap) (r : Rep) (l : List Byte) : Option (Heap × Rep) :=
  match r with
  | .long p cap _ => do
    let b ← block h p
    let b ← wrBytes b 0 l
    let b ← wrBytes b l.length [0]
    pure (h.set p (some b), .long p cap l.length)
  | .short d _ => do
    let d ← wrBytes d 0 l
    let d ← wrBytes d l.length [0]
    pure (h, .short d (l.length % 128))

/-- `assignLong(sv)`, string.hpp 393-417, `sv` not pointing into this string. In the branch
without allocation the object must hold the heap representation. -/
def assignLong (h : Heap) (r : Rep) (l : List Byte) : Option (Heap × Rep) := do
  let cap ← r.capacity
  if cap < l.length then
    let (h, p) := alloc h (l.length + 1)
    let b ← block h p
    let b ← wrBytes b 0 l
    let h ← match r with
      | .long q _ _ => free h q
      | .short .. => some h
    let b ← wrBytes b l.length [0]
    pure (h.set p (some b), .long p (l.length + 1) l.length)
  else
    match r with
    | .long p cap _ => do
      let b ← block h p
      let b ← wrBytes b 0 l
      let b ← wrBytes b l.length [0]
      pure (h.set p (some b), .long p cap l.length)
    | .short .. => none

/-- `assign(sv)`, string.hpp 728-732. -/
def assign (h : Heap) (r : Rep) (l : List Byte) : Option (Heap × Rep) :=
  if l.length < minCap then assignShort h r l else assignLong h r l

/-- Where the bytes given to `append` live: outside every buffer this call changes, in a heap block
(from its start), or in the inline buffer of the string itself. -/
inductive Src where
  | ext (l : List Byte)
  | heap (p : Nat)
  | inline

/-- Read `n` bytes from the source, at the time of the copy. -/
def readSrc (h : Heap) (r : Rep) (n : Nat) : Src → Option (List Byte)
  | .ext l => rdBytes (l.map some) 0 n
  | .heap p => do
    let b ← block h p
    rdBytes b 0 n
  | .inline =>
    match r with
    | .short d _ => rdBytes d 0 n
    | .long .. => none

/-- `growByAndReplace`, string.hpp 553-595: the unsigned difference `old_sz - n_del - n_copy` must
not wrap; whether the old buffer is freed is decided by `old_cap + 1 != min_cap`. -/
def growByAndReplace (h : Heap) (r : Rep) (oldCap delta oldSz nCopy nDel nAdd : Nat) (s : Src) :
    Option (Heap × Rep) := do
  let oldBuf ← dataBuf h r
  let cap := max (oldCap + delta) (2 * oldCap)
  let (h, p) := alloc h (cap + 1)
  let b ← block h p
  let c1 ← rdBytes oldBuf 0 nCopy
  let b ← wrBytes b 0 c1
  let c2 ← readSrc h r nAdd s
  let b ← wrBytes b nCopy c2
  if nDel + nCopy ≤ oldSz then
    let sec := oldSz - nDel - nCopy
    let c3 ← rdBytes oldBuf (nCopy + nDel) sec
    let b ← wrBytes b (nCopy + nAdd) c3
    let h ← if oldCap + 1 ≠ minCap then
        match r with
        | .long q _ _ => free h q
        | .short .. => none
      else some h
    let sz := nCopy + nAdd + sec
    let b ← wrBytes b sz [0]
    pure (h.set p (some b), .long p (cap + 1) sz)
  else none

/-- Do the source `[s, s + n)` and the target `[data() + size(), …)` of an in-place append overlap? -/
def overlap (r : Rep) (s : Src) (n : Nat) : Bool :=
  match s, r with
  | .inline, .short _ sz => decide (sz < n)
  | .heap q, .long p _ sz => decide (q = p ∧ sz < n)
  | _, _ => false

/-- `append(s, n)`, string.hpp 851-874. `memcpy` from the string's own buffer must not overlap. -/
def append (h : Heap) (r : Rep) (s : Src) (n : Nat) : Option (Heap × Rep) := do
  let cap ← r.capacity
  let sz := r.size
  if sz ≤ cap then
    if n ≤ cap - sz then
      let c ← readSrc h r n s
      if overlap r s n then none else
      match r with
      | .short d _ => do
        let d ← wrBytes d sz c
        let d ← wrBytes d (sz + n) [0]
        pure (h, .short d ((sz + n) % 128))
      | .long p cap _ => do
        let b ← block h p
        let b ← wrBytes b sz c
        let b ← wrBytes b (sz + n) [0]
        pure (h.set p (some b), .long p cap (sz + n))
    else growByAndReplace h r cap (n - (cap - sz)) sz sz 0 n s
  else none

/-- `~String()`, string.hpp 738-743. -/
def dtor (h : Heap) : Rep → Option Heap
  | .short .. => some h
  | .long p _ _ => free h p

/-- The bytes `[data(), data() + size())`. -/
def contents (h : Heap) (r : Rep) : Option (List Byte) := do
  let b ← dataBuf h r
  rdBytes b 0 r.size

/-- Copy constructor, string.hpp 611-619. -/
def copyCtor (h : Heap) (r : Rep) : Option (Heap × Rep) :=
  match r with
  | .short d n => some (h, .short d n)
  | .long p _ n => do
    let b ← block h p
    let l ← rdBytes b 0 n
    init h l

/-- `String(s, pos, count)`, string.hpp 639-647, and `substr`, 955-959: `pos` beyond the end is a
violated precondition. -/
def substr (h : Heap) (r : Rep) (pos count : Nat) : Option (Heap × Rep) := do
  if pos ≤ r.size then
    let n := min count (r.size - pos)
    let b ← dataBuf h r
    let l ← rdBytes b pos n
    init h l
  else none

/-! ## Many strings -/

/-- Heap and string objects; a destroyed object is `none`. -/
structure St where
  heap : Heap
  objs : List (Option Rep)

/-- The live object `i`. -/
def obj (st : St) (i : Nat) : Option Rep :=
  match st.objs[i]? with
  | some (some r) => some r
  | _ => none

/-- The operations of a history; new strings get the next index. -/
inductive Op where
  | mkEmpty
  | ofText (l : List Byte)
  | copy (i : Nat)
  | move (i : Nat)
  | substr (i pos count : Nat)
  | assignText (i : Nat) (l : List Byte)
  | assignCopy (i j : Nat)
  | assignMove (i j : Nat)
  | appendText (i : Nat) (l : List Byte)
  | appendStr (i j : Nat)
  | destroy (i : Nat)

/-- Where the bytes of string `j` are when they are appended to string `i`. -/
def srcOf (i j : Nat) (r : Rep) : Option Src :=
  match r with
  | .long p _ _ => some (.heap p)
  | .short d n => if i = j then some .inline else (rdBytes d 0 n).map .ext

/-- Run one operation: constructors 603-647 and 721, assignment 694-731, `append`/`+=` 851-886,
destructor 737-742 of string.hpp. -/
def step (st : St) : Op → Option St
  | .mkEmpty => some ⟨st.heap, st.objs ++ [some .zero]⟩
  | .ofText l => do
    let (h, r) ← init st.heap l
    pure ⟨h, st.objs ++ [some r]⟩
  | .copy i => do
    let s ← obj st i
    let (h, r) ← copyCtor st.heap s
    pure ⟨h, st.objs ++ [some r]⟩
  | .move i => do
    let s ← obj st i
    pure ⟨st.heap, st.objs.set i (some .zero) ++ [some s]⟩
  | .substr i pos count => do
    let s ← obj st i
    let (h, r) ← substr st.heap s pos count
    pure ⟨h, st.objs ++ [some r]⟩
  | .assignText i l => do
    let s ← obj st i
    let (h, r) ← assign st.heap s l
    pure ⟨h, st.objs.set i (some r)⟩
  | .assignCopy i j => do
    let s ← obj st i
    let t ← obj st j
    if i = j then pure st else
      let l ← contents st.heap t
      let (h, r) ← assign st.heap s l
      pure ⟨h, st.objs.set i (some r)⟩
  | .assignMove i j => do
    let s ← obj st i
    let t ← obj st j
    if i = j then pure st else
      let h ← match s with
        | .long p _ _ => free st.heap p
        | .short .. => some st.heap
      pure ⟨h, (st.objs.set i (some t)).set j (some .zero)⟩
  | .appendText i l => do
    let s ← obj st i
    let (h, r) ← append st.heap s (.ext l) l.length
    pure ⟨h, st.objs.set i (some r)⟩
  | .appendStr i j => do
    let s ← obj st i
    let t ← obj st j
    let src ← srcOf i j t
    let (h, r) ← append st.heap s src t.size
    pure ⟨h, st.objs.set i (some r)⟩
  | .destroy i => do
    let s ← obj st i
    let h ← dtor st.heap s
    pure ⟨h, st.objs.set i none⟩

/-- Run a history from the state without strings. -/
def run (ops : List Op) : Option St := ops.foldlM step ⟨[], []⟩

end Verif.Str
