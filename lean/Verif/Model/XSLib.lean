import Verif.Model.Abaqus
import Verif.Model.XSec

/-!
# Reading MPACT cross section libraries

Model of `readMPACTLibrary`, src/physics/cross_section_library.cpp 19-447, and of the checks of `Nuclide::validate`,
src/physics/nuclide.cpp 31-64.

* A file is the list of its lines, without line feeds. Every line goes through the one buffer `line` of 1024 bytes, and
  views into it stay where they are when the next line is read; so the buffer is kept, with its old content behind the
  terminator.
* `StringView`, `getTokenAndShrink` are those of `Verif.Model.StrView`, `strto<Int>` is that of `Verif.Model.Abaqus`,
  `strto<Float>` is a parameter `flt`, handed the buffer from the token on.
* `ASSERT`s are compiled out. An error is taken to end the program, as is the default (`refused`).
* `LOG_DEBUG` and the messages are left out. Values of type `Float` are elements of a linear order with a zero.
-/

namespace Verif.XSLib

open Verif.StrView Verif.Abaqus Verif.Phys
open Verif.Str (Byte)

/-! ### Outcomes -/

/-- A computation is undefined, ends in an error, or gives a value. -/
inductive Res (α : Type)
  | undef
  | refused
  | ok (a : α)

def Res.bind {α β : Type} : Res α → (α → Res β) → Res β
  | undef, _ => undef
  | refused, _ => refused
  | ok a, f => f a

instance : Monad Res where
  pure := Res.ok
  bind := Res.bind

def Res.ofOption {α : Type} : Option α → Res α
  | none => .undef
  | some a => .ok a

/-! ### The stream and the line buffer -/

/-- The lines not read yet, whether the stream is still good, and the buffer `line`. -/
structure In where
  rest : List Line
  good : Bool
  buf : List Byte

/-- Characters and a terminator stored at the beginning of the buffer. -/
def store (buf l : List Byte) : List Byte := l ++ 0 :: buf.drop (l.length + 1)

/-- `file.getline(line, 1024)`. -/
def getline (st : In) : In :=
  if st.good then
    match st.rest with
    | [] => ⟨[], false, store st.buf []⟩
    | l :: ls => if 1024 ≤ l.length then ⟨ls, false, store st.buf (l.take 1023)⟩ else ⟨ls, true, store st.buf l⟩
  else ⟨st.rest, false, store st.buf []⟩

/-- `StringView(line)`. -/
def In.view (st : In) : View := ⟨st.buf, (st.buf.takeWhile (· ≠ 0)).length⟩

/-- A view made earlier, with the characters that the buffer holds now. -/
def rebase (st : In) (v : View) : View := ⟨st.buf.drop (st.buf.length - v.suf.length), v.size⟩

/-- `starts_with`. -/
def starts (s : List Byte) (v : View) : Bool := s.isPrefixOf v.bytes

/-! ### Numbers -/

variable {R : Type}

/-- `strto<Float>(token.data(), &end)`; of a null pointer it is undefined. -/
def num (flt : List Byte → R) (t : View) : Res R := if t.suf = [] then .undef else .ok (flt t.suf)

/-- `strto<Int>(token.data(), &end)`. -/
def int (t : View) : Res ℤ := if t.suf = [] then .undef else .ok (strto32 t.suf)

/-- The next token of the line as a `Float`. -/
def nextNum (flt : List Byte → R) (lv : View) : Res (R × View) := do
  let (t, lv) := getToken 32 lv
  let x ← num flt t
  pure (x, lv)

/-- The next token of the line as an `Int`. -/
def nextInt (lv : View) : Res (ℤ × View) := do
  let (t, lv) := getToken 32 lv
  let x ← int t
  pure (x, lv)

/-- `n` tokens that are not used. -/
def skip : Nat → View → View
  | 0, lv => lv
  | n + 1, lv => skip n (getToken 32 lv).2

/-- `n` tokens as integers: the loop over the dimensions, cross_section_library.cpp 90-96. -/
def ints : Nat → View → Res (List ℤ)
  | 0, _ => .ok []
  | n + 1, lv => do
    let (x, lv) ← nextInt lv
    let xs ← ints n lv
    pure (x :: xs)

/-- A number of elements, an argument of `resize`. -/
def size (x : ℤ) : Res Nat := if x < 0 then .undef else .ok x.toNat

/-! ### %GRP and %CHI -/

/-- The loops over the groups, cross_section_library.cpp 116-141 and 156-178: `n` more values, the rest of the current
line is `lv`. -/
def values (flt : List Byte → R) : Nat → In → View → Res (List R × In)
  | 0, st, _ => .ok ([], st)
  | n + 1, st, lv => do
    let (t, lv) := getToken 32 lv
    if t.size = 0 then
      let st := getline st
      let lv' := removeLeadingSpaces st.view
      if lv.size ≠ 0 then
        let x ← num flt (rebase st lv)
        let (xs, st) ← values flt n st lv'
        pure (x :: xs, st)
      else
        let (t, lv') := getToken 32 lv'
        let x ← num flt t
        let (xs, st) ← values flt n st lv'
        pure (x :: xs, st)
    else
      let x ← num flt t
      let (xs, st) ← values flt n st lv
      pure (x :: xs, st)

/-! ### %NUC -/

/-- `Nuclide`, nuclide.hpp 21-27. -/
structure Nuclide (R : Type) where
  fissile : Bool
  zaid : ℤ
  mass : R
  temps : List R
  xs : List (XSec R)

/-- `v[i] = x`. -/
def setAt (l : List R) (i : Nat) (x : R) : Res (List R) := if i < l.length then .ok (l.set i x) else .undef

/-- `ss()(i, j) = x`, matrix.hpp 276-285, for a signed column. -/
def setSS (m : XSec R) (i : Nat) (j : ℤ) (x : R) : Res (XSec R) :=
  if j < 0 then .undef else do
    let ss ← setAt m.ss (j.toNat * m.ng + i) x
    pure { m with ss := ss }

/-- The loop over the columns of the scattering matrix, cross_section_library.cpp 415-426. -/
def columns (flt : List Byte → R) (ig : Nat) : Nat → ℤ → XSec R → View → Res (XSec R × View)
  | 0, _, m, lv => .ok (m, lv)
  | n + 1, col, m, lv => do
    let (x, lv) ← nextNum flt lv
    let m ← setSS m ig col x
    columns flt ig n (col + 1) m lv

/-- The line of one group and temperature, cross_section_library.cpp 307-427, without `isFissile` of the nuclide. The
rest of the line is returned. An overflow of `min_col - 1` or `max_col - min_col + 1` is undefined. -/
def row [Zero R] [LinearOrder R] (flt : List Byte → R) (ig : Nat) (m : XSec R) (lv : View) : Res (XSec R × View) := do
  let lv := skip 2 lv
  let (a, lv) ← nextNum flt lv
  let aa ← setAt m.a ig a
  let m := { m with a := aa }
  let (t, lv) := getToken 32 lv
  if t.size = 0 then pure (m, lv)
  else
    let f ← num flt t
    let m := { m with fissile := m.fissile || decide (0 < f) }
    let ff ← setAt m.f ig f
    let m := { m with f := ff }
    let (nf, lv) ← nextNum flt lv
    let nff ← setAt m.nuf ig nf
    let m := { m with nuf := nff }
    let (tr, lv) ← nextNum flt lv
    let trr ← setAt m.tr ig tr
    let m := { m with tr := trr }
    let (s, lv) ← nextNum flt lv
    let ss ← setAt m.s ig s
    let m := { m with s := ss }
    let (lo, lv) ← nextInt lv
    let (hi, lv) ← nextInt lv
    if lo = -2 ^ 31 ∨ hi - lo < -2 ^ 31 ∨ 2 ^ 31 ≤ hi - lo + 1 then .undef
    else columns flt ig (hi - lo + 1).toNat (lo - 1) m lv

/-- One pass of the loop over the groups, cross_section_library.cpp 301-428: a line for each temperature, in the order of
`xs`; `lv` is what is left of the line before. -/
def rows [Zero R] [LinearOrder R] (flt : List Byte → R) (ig : Nat) :
    List (XSec R) → In → View → Res (List (XSec R) × In × View)
  | [], st, lv => .ok ([], st, lv)
  | m :: ms, st, _ => do
    let st := getline st
    let (m, lv) ← row flt ig m (removeLeadingSpaces st.view)
    let (ms, st, lv) ← rows flt ig ms st lv
    pure (m :: ms, st, lv)

/-- The loop over the groups, cross_section_library.cpp 300-429: `n` more groups from `ig` on. -/
def groups [Zero R] [LinearOrder R] (flt : List Byte → R) :
    Nat → Nat → List (XSec R) → In → View → Res (List (XSec R) × In × View)
  | 0, _, ms, st, lv => .ok (ms, st, lv)
  | n + 1, ig, ms, st, lv => do
    let (ms, st, lv) ← rows flt ig ms st lv
    groups flt n (ig + 1) ms st lv

/-- The temperatures, cross_section_library.cpp 275-285. If the line is exhausted, the rest of it is read as a number. -/
def temps (flt : List Byte → R) : Nat → View → Res (List R)
  | 0, _ => .ok []
  | n + 1, lv => do
    let (t, lv) := getToken 32 lv
    let t := if t.size = 0 then lv else t
    let x ← num flt t
    let xs ← temps flt n lv
    pure (x :: xs)

/-- `is_sorted`. -/
def sorted [LinearOrder R] : List R → Bool
  | x :: y :: l => !decide (y < x) && sorted (y :: l)
  | _ => true

/-- `Nuclide::validate`, nuclide.cpp 31-64, without the checks of the sizes of the arrays of a cross section
(`XSec::validate`, cross_section.cpp 25-47), which are as constructed. -/
def valid [Zero R] [LinearOrder R] (n : Nuclide R) : Bool :=
  decide (0 < n.zaid) && decide (0 < n.mass) && n.xs.all (fun m => decide (0 < m.ng) && !m.macro_) &&
    (n.xs.any (·.fissile) == n.fissile) && (n.temps.length == n.xs.length) && n.temps.all (fun t => decide (0 < t)) &&
    sorted n.temps

/-- The body of the loop over the nuclides up to `validate`, cross_section_library.cpp 220-431; `lv` is the header line.
`isFissile` of the nuclide is set whenever that of one of its cross sections is. -/
def nuclide [Zero R] [LinearOrder R] (flt : List Byte → R) (ng : Nat) (st : In) (lv : View) :
    Res (Nuclide R × In × View) := do
  let lv := skip 2 lv
  let (zaid, lv) ← nextInt lv
  let (mass, lv) ← nextNum flt lv
  let lv := skip 4 lv
  let (nt, _) ← nextInt lv
  let nt ← size nt
  let st := getline (getline st)
  let ts ← temps flt nt (removeLeadingSpaces st.view)
  let st := getline st
  let (xs, st, lv) ← groups flt ng 0 (List.replicate nt (XSec.zero ng)) st (removeLeadingSpaces st.view)
  let n : Nuclide R := ⟨xs.any (·.fissile), zaid, mass, ts, xs⟩
  if valid n then pure (n, st, lv) else .refused

/-- `%NUC` -/
def hdrNuc : Line := [37, 78, 85, 67]
/-- `%END` -/
def hdrEnd : Line := [37, 69, 78, 68]

/-- The lines after the cross sections, cross_section_library.cpp 434-440: at most `fuel` of them. -/
def toNext : Nat → In → View → In × View
  | 0, st, lv => (st, lv)
  | fuel + 1, st, lv =>
    let st := getline st
    if st.good then
      let lv := removeLeadingSpaces st.view
      if starts hdrNuc lv || starts hdrEnd lv then (st, lv) else toNext fuel st lv
    else (st, rebase st lv)

/-- The loop over the nuclides, cross_section_library.cpp 219-443: `n` elements of the vector are left. -/
def nuclides [Zero R] [LinearOrder R] (flt : List Byte → R) (ng : Nat) : Nat → In → View → Res (List (Nuclide R))
  | 0, _, lv => if starts hdrEnd lv then .ok [] else .undef
  | n + 1, st, lv =>
    if starts hdrEnd lv then .ok (List.replicate (n + 1) ⟨false, 0, 0, [], []⟩)
    else do
      let (x, st, lv) ← nuclide flt ng st lv
      let (st, lv) := toNext (st.rest.length + 1) st lv
      let xs ← nuclides flt ng n st lv
      pure (x :: xs)

/-! ### The file -/

/-- `XSLibrary`, cross_section_library.hpp 24-29. -/
structure Lib (R : Type) where
  bounds : List R
  chi : List R
  nuclides : List (Nuclide R)

/-- `%VER:` -/
def hdrVer : Line := [37, 86, 69, 82, 58]
/-- `%DIM:` -/
def hdrDim : Line := [37, 68, 73, 77, 58]
/-- `%GRP:` -/
def hdrGrp : Line := [37, 71, 82, 80, 58]
/-- `%CHI:` -/
def hdrChi : Line := [37, 67, 72, 73, 58]
/-- `%DIR:` -/
def hdrDir : Line := [37, 68, 73, 82, 58]

/-- A line that has to start with a keyword. -/
def header (s : Line) (st : In) : Res In :=
  let st := getline st
  if starts s st.view then .ok st else .refused

/-- The version, cross_section_library.cpp 52-63: the first character that is not a blank, if any, is a 4. -/
def version (st : In) : Res In :=
  let st := getline st
  match st.view.bytes.find? (fun c => !isSpace c) with
  | none => .ok st
  | some c => if c = 52 then .ok st else .refused

/-- The lines up to the first nuclide, cross_section_library.cpp 189-202: at most `fuel` more lines are skipped. -/
def toFirst : Nat → In → View → Res (In × View)
  | 0, _, _ => .refused
  | fuel + 1, st, lv =>
    let st := getline st
    if st.good then
      if starts hdrNuc st.view then .ok (st, st.view) else toFirst fuel st st.view
    else .ok (st, rebase st lv)

/-- `readMPACTLibrary`, cross_section_library.cpp 27-447; `junk` is the initial content of the buffer. -/
def read [Zero R] [LinearOrder R] (flt : List Byte → R) (junk : List Byte) (file : List Line) : Res (Lib R) := do
  let st ← header hdrVer ⟨file, true, junk⟩
  let st ← version st
  let st ← header hdrDim st
  let st := getline st
  let dims ← ints 10 (removeLeadingSpaces st.view)
  let ng ← Res.ofOption dims[0]?
  let nn ← Res.ofOption dims[4]?
  let st ← header hdrGrp st
  let st := getline st
  let ng ← size ng
  let (bounds, st) ← values flt ng st (removeLeadingSpaces st.view)
  let st ← header hdrChi st
  let st := getline st
  let (chi, st) ← values flt ng st st.view
  let st ← header hdrDir st
  let (st, lv) ← toFirst 10001 st st.view
  let nn ← size nn
  let ns ← nuclides flt ng nn st lv
  pure ⟨bounds, chi, ns⟩

end Verif.XSLib
