import Verif.Model.Str

/-!
# Model of `um2::StringView` (include/um2/stdlib/string_view.hpp), `um2::memcmp`
(stdlib/cstring/memcmp.hpp), the numeric `String` constructors and `stringToLattice`

A view that is only searched or compared is the list of its bytes.  `npos` (`2^64 - 1`) is `none`:
every index is smaller than the size, which is smaller than `2^63`, so the two never coincide.
`char` is signed, as in the x86-64 and AArch64-Apple ABIs the project targets.
-/

namespace Verif.StrView

open Verif.Str (Byte Buf rdBytes intMax)

/-- The value of a `char` (signed). -/
def chr (b : Byte) : Int := b.toBitVec.toInt

/-- `um2::memcmp(lhs, rhs, n)`, memcmp.hpp 8-25: compares with the `<` of `char`. -/
def memcmp : Nat → List Byte → List Byte → Option Int
  | 0, _, _ => some 0
  | n + 1, a :: as, b :: bs =>
    if chr a < chr b then some (-1) else if chr b < chr a then some 1 else memcmp n as bs
  | _ + 1, _, _ => none

/-- `compare(sv)`, string_view.hpp 330-343; `String::compare`, string.hpp 891-906. -/
def compare (a b : List Byte) : Option Int := do
  let r ← memcmp (min a.length b.length) a b
  if r = 0 then
    if a.length ≠ b.length then some (if a.length < b.length then -1 else 1) else some r
  else some r

/-- `operator==`, string_view.hpp 174-181. -/
def eqOp (a b : List Byte) : Option Bool :=
  if a.length ≠ b.length then some false else (compare a b).map (· == 0)

/-- `operator!=`, string_view.hpp 183-190. -/
def neOp (a b : List Byte) : Option Bool :=
  if a.length ≠ b.length then some true else (compare a b).map (· != 0)

/-- `String` `operator==`, string.hpp 318-322. -/
def strEqOp (a b : List Byte) : Option Bool := (compare a b).map (· == 0)

/-- `String` `operator!=`, string.hpp 324-328. -/
def strNeOp (a b : List Byte) : Option Bool := (compare a b).map (· != 0)

/-- `operator<`, string_view.hpp 192-196, string.hpp 330-334. -/
def ltOp (a b : List Byte) : Option Bool := (compare a b).map fun c => decide (c < 0)

/-- `operator<=`, string_view.hpp 198-202, string.hpp 336-340. -/
def leOp (a b : List Byte) : Option Bool := (compare a b).map fun c => decide (c ≤ 0)

/-- `operator>`, string_view.hpp 204-208, string.hpp 342-346. -/
def gtOp (a b : List Byte) : Option Bool := (compare a b).map fun c => decide (0 < c)

/-- `operator>=`, string_view.hpp 210-214, string.hpp 348-352. -/
def geOp (a b : List Byte) : Option Bool := (compare a b).map fun c => decide (0 ≤ c)

/-- `substr(pos, count)`, string_view.hpp 375-381; the bounds are only asserted. -/
def substr (v : List Byte) (pos count : Nat) : Option (List Byte) :=
  if pos + count ≤ v.length then some ((v.drop pos).take count) else none

/-- `starts_with(sv)`, string_view.hpp 363-367. -/
def startsWith (v s : List Byte) : Option Bool :=
  if s.length ≤ v.length then do
    let p ← substr v 0 s.length
    let c ← compare p s
    pure (c == 0)
  else pure false

/-- `ends_with(sv)`, string_view.hpp 351-355. -/
def endsWith (v s : List Byte) : Option Bool :=
  if s.length ≤ v.length then do
    let p ← substr v (v.length - s.length) s.length
    let c ← compare p s
    pure (c == 0)
  else pure false

/-- The loop of `find_first_of(c, pos)`, string_view.hpp 382-391, and `find_first_not_of(c, pos)`,
393-402, with the test `p`. -/
def findFrom (p : Byte → Bool) (v : List Byte) (i : Nat) : Option Nat :=
  if h : i < v.length then
    if p v[i] then some i else findFrom p v (i + 1)
  else none
termination_by v.length - i

/-- `find_first_of(c, pos)`. -/
def findFirstOf (v : List Byte) (c : Byte) (pos : Nat) : Option Nat := findFrom (· == c) v pos

/-- `find_first_not_of(c, pos)`. -/
def findFirstNotOf (v : List Byte) (c : Byte) (pos : Nat) : Option Nat := findFrom (· != c) v pos

/-- The loop of `find_last_of`, string_view.hpp 413-417: `p` is `begin() + n`. -/
def findLastLoop (v : List Byte) (c : Byte) : Nat → Option Nat
  | 0 => none
  | n + 1 => if v[n]? = some c then some n else findLastLoop v c n

/-- `find_last_of(c, pos)`, string_view.hpp 404-419. -/
def findLastOf (v : List Byte) (c : Byte) (pos : Nat) : Option Nat :=
  findLastLoop v c (if pos < v.length then pos + 1 else v.length)

/-- The loop of `find_first_of(sv, pos)`, string_view.hpp 429-437: `this_substr` is `t`. -/
def findSubLoop (s : List Byte) : List Byte → Nat → Option (Option Nat)
  | t, pos =>
    if s.length ≤ t.length then
      match memcmp s.length t s with
      | none => none
      | some 0 => some (some pos)
      | some _ =>
        match t with
        | [] => none
        | _ :: t => findSubLoop s t (pos + 1)
    else some none

/-- `find_first_of(sv, pos)`, string_view.hpp 421-440 (outer `none` is undefined behaviour, inner
`none` is `npos`). -/
def findSub (v s : List Byte) (pos : Nat) : Option (Option Nat) :=
  if pos > v.length then some none else findSubLoop s (v.drop pos) pos

/-! ## Views with their surroundings

`strto` reads on beyond the end of a token, so here a view is the suffix of the underlying storage
that starts at `data()`, with a size. -/

/-- `StringView`: storage from `data()` on, and `size()`. The null view is `⟨[], 0⟩`. -/
structure View where
  suf : List Byte
  size : Nat

/-- The characters of a view. -/
def View.bytes (v : View) : List Byte := v.suf.take v.size

/-- `remove_prefix(n)`, string_view.hpp 318-325. -/
def removePrefix (v : View) (n : Nat) : View := ⟨v.suf.drop n, v.size - n⟩

/-- `removeLeadingSpaces()`, string_view.hpp 458-469. -/
def removeLeadingSpaces (v : View) : View :=
  match findFirstNotOf v.bytes 32 0 with
  | some n => removePrefix v n
  | none => ⟨[], 0⟩

/-- `getTokenAndShrink(delim)`, string_view.hpp 471-502: the token and the view afterwards. -/
def getToken (d : Byte) (v : View) : View × View :=
  match findFirstNotOf v.bytes d 0 with
  | none => (⟨[], 0⟩, v)
  | some n =>
    match findFirstOf v.bytes d n with
    | none => (⟨v.suf.drop n, v.size - n⟩, ⟨[], 0⟩)
    | some m => (⟨v.suf.drop n, m - n⟩, removePrefix v (m + 1))

/-- Successive calls of `getTokenAndShrink(d)`, at most `fuel` of them, until it returns an empty
token (the loop every caller writes). -/
def tokens (d : Byte) : Nat → View → List View
  | 0, _ => []
  | fuel + 1, v =>
    let (t, v') := getToken d v
    if t.size = 0 then [] else t :: tokens d fuel v'

/-- The inner loop of `stringToLattice`, string_to_lattice.hpp 33-42: `parse` is `strto`, which is
given the storage from the token's first character on. Each pass shortens the line, so as many
steps as the line has characters (plus one) are enough. -/
def rowLoop {T : Type} (parse : List Byte → T) (d : Byte) : Nat → View → Option (List T)
  | 0, _ => none
  | fuel + 1, line =>
    let (t, line') := getToken d line
    let t := removeLeadingSpaces t
    if t.size = 0 then some [] else do
      let r ← rowLoop parse d fuel line'
      pure (parse t.suf :: r)

/-- The outer loop of `stringToLattice`, string_to_lattice.hpp 26-49. -/
def latticeLoop {T : Type} (parse : List Byte → T) (d : Byte) : Nat → View →
    Option (List (List T))
  | 0, _ => none
  | fuel + 1, v =>
    let (line, v') := getToken 10 v
    let line := removeLeadingSpaces line
    if line.size = 0 then some [] else do
      let row ← rowLoop parse d (line.size + 1) line
      let rows ← latticeLoop parse d fuel v'
      pure (row :: rows)

/-- `stringToLattice(str, delimiter)`, string_to_lattice.hpp 14-57. The text `s` is followed in
memory by the terminator. `none` would mean that the loops do not terminate. -/
def stringToLattice {T : Type} (parse : List Byte → T) (d : Byte) (s : List Byte) :
    Option (List (List T)) :=
  let v := removeLeadingSpaces ⟨s ++ [0], s.length⟩
  latticeLoop parse d (s.length + 1) v

/-! ## Numeric constructors -/

/-- `char buf[32]` after `snprintf(buf, 32, …)` of the text `f`: at most 31 characters and the
terminator are written, the rest is indeterminate. -/
def snprintfBuf (f : List Byte) : Buf :=
  ((f.take 31).map some ++ [some 0] ++ List.replicate 32 none).take 32

/-- The text a numeric constructor stores, string.hpp 649-692: `len` characters are read from the
buffer, `len` being the length `snprintf` reports for the whole text. -/
def numericText (f : List Byte) : Option (List Byte) := rdBytes (snprintfBuf f) 0 f.length

/-- `String(t)`. -/
def ofNumber (h : Str.Heap) (f : List Byte) : Option (Str.Heap × Str.Rep) := do
  let l ← numericText f
  Str.init h l

/-- Decimal digits of `n`, most significant first (`%d`). -/
def digits (n : Nat) : List Byte :=
  if n < 10 then [UInt8.ofNat (48 + n)] else digits (n / 10) ++ [UInt8.ofNat (48 + n % 10)]

/-- `%d` / `%ld`. -/
def fmtInt (z : Int) : List Byte := if z < 0 then 45 :: digits z.natAbs else digits z.natAbs

/-- `%f` of a value whose decimal expansion rounded to six places is `m` millionths. -/
def fmtFixed (neg : Bool) (m : Nat) : List Byte :=
  (if neg then [45] else []) ++ digits (m / 1000000) ++ [46] ++
    ((List.range 6).map fun k => UInt8.ofNat (48 + m / 10 ^ (5 - k) % 10))

end Verif.StrView
