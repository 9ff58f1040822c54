import Verif.Model.Soup
import Verif.Model.StrView
import Verif.Model.ElementTypes

/-!
# Reading Abaqus files

Model of the Abaqus reader, `src/mesh/polytope_soup.cpp` 615-848, and of `strto<int32_t>`
(`include/um2/common/strto.hpp` 36-41).

* A file is the list of its lines (without line feeds, without NUL characters).  Whether the last line ends in a
  line feed makes no difference.  `std::istream::getline` into the 1024 byte buffer fails on a line of more than
  1023 characters: the buffer then holds the first 1023 of them and every later read fails, so that nothing is
  left of the file.  It also fails, with an empty buffer, at the end of the file.
* `StringView` and `getTokenAndShrink` are those of `Verif.Model.StrView`.
* `strto<Float>` is a parameter `flt`: it is handed the line from the token on.
* Ids are natural numbers, as in `Verif.Model.Soup`; an id below 1 in the file, which gives a negative id (or
  signed overflow), is `none`.  So is `strto` of a null pointer.
* `ASSERT`s are compiled out.
-/

namespace Verif.Abaqus

open Verif.Polytope Verif.ElemTypes Verif.StrView
open Verif.Str (Byte)

abbrev Line := List Byte

/-! ### strtol -/

/-- `isspace` in the C locale. -/
def isSpace (c : Byte) : Bool := c == 32 || (decide (9 ≤ c.toNat) && decide (c.toNat ≤ 13))

def isDigit (c : Byte) : Bool := decide (48 ≤ c.toNat) && decide (c.toNat ≤ 57)

/-- The value of the leading decimal digits, on top of `acc`. -/
def readDigits : Nat → List Byte → Nat
  | acc, [] => acc
  | acc, c :: l => if isDigit c then readDigits (acc * 10 + (c.toNat - 48)) l else acc

/-- `std::strtol(str, &end, 10)` (64 bit `long`): blanks, a sign, digits; saturating. -/
def strtol (l : List Byte) : ℤ :=
  let v : ℤ := match l.dropWhile isSpace with
    | [] => 0
    | c :: r => if c = 45 then -(readDigits 0 r : ℤ) else if c = 43 then readDigits 0 r else readDigits 0 (c :: r)
  if v < -2 ^ 63 then -2 ^ 63 else if 2 ^ 63 ≤ v then 2 ^ 63 - 1 else v

/-- `strto<int32_t>`, strto.hpp 36-41. -/
def strto32 (l : List Byte) : ℤ := (strtol l).bmod (2 ^ 32)

/-- `id - 1` for an id of the file. -/
def toId (z : ℤ) : Option Nat := if 1 ≤ z then some (z - 1).toNat else none

/-- `strto<Int>(token.data(), &end)`. -/
def tokenInt (t : View) : Option ℤ := if t.size = 0 then none else some (strto32 t.suf)

/-! ### Lines -/

/-- The view of a line; the buffer continues with the terminator. -/
def lineView (l : Line) : View := ⟨l ++ [0], l.length⟩

abbrev ASoup (R : Type) := Soup (R × R × R) ℤ (List Byte) R

variable {R : Type}

/-- One line of `abaqusParseNodes`, polytope_soup.cpp 629-655. -/
def nodeLine (flt : List Byte → R) (s : ASoup R) (l : Line) : Option (ASoup R) :=
  let v := (getToken 44 (lineView l)).2
  let (tx, v) := getToken 44 v
  let (ty, v) := getToken 44 v
  if tx.size = 0 ∨ ty.size = 0 ∨ v.suf = [] then none
  else some (addVertex s (flt tx.suf, flt ty.suf, flt v.suf)).1

/-- The loop over the vertices of an element, polytope_soup.cpp 712-720. -/
def connLoop : Nat → View → Option (List Nat)
  | 0, _ => some []
  | n + 1, v =>
    let (t, v') := getToken 44 v
    (tokenInt t).bind fun z => (toId z).bind fun i => (connLoop n v').map fun r => i :: r

/-- One line of `abaqusParseElements`, polytope_soup.cpp 704-722. -/
def elementLine (t : ℤ) (s : ASoup R) (l : Line) : Option (ASoup R) :=
  let v := (getToken 44 (lineView l)).2
  (connLoop (verticesPerElem t).toNat v).map fun c => (addElement s t c).1

/-- The loop over the ids of one line of `abaqusParseElsets`, polytope_soup.cpp 748-766; `l` is `line_view`. -/
def idLoop (l : Line) : Option (List Nat) :=
  match findFirstOf l 44 0 with
  | none => some []
  | some comma =>
    (toId (strto32 l)).bind fun i =>
      if l.length ≤ comma + 2 then some [i]
      else (idLoop (l.drop (comma + 1))).map fun r => i :: r
termination_by l.length
decreasing_by simp only [List.length_drop]; omega

/-- The stream, and the line buffer, after a section. -/
structure St (R : Type) where
  soup : ASoup R
  line : Line
  rest : List Line

/-- The loop `while (file.getline(...) && line[0] != '*')` around the body `body`; `a` is what the loop
builds up. -/
def sectionLoop {α : Type} (body : α → Line → Option α) : α → List Line → Option (α × Line × List Line)
  | a, [] => some (a, [], [])
  | a, l :: ls =>
    if 1024 ≤ l.length then some (a, l.take 1023, [])
    else if l.head? = some 42 then some (a, l, ls)
    else (body a l).bind fun a => sectionLoop body a ls

/-- `abaqusParseNodes`, polytope_soup.cpp 622-658. -/
def parseNodes (flt : List Byte → R) (st : St R) : Option (St R) :=
  (sectionLoop (nodeLine flt) st.soup st.rest).map fun (s, l, ls) => ⟨s, l, ls⟩

/-- The element type of a header, polytope_soup.cpp 682-702: an unsupported digit is only logged. -/
def cpsType (c : Byte) : ℤ :=
  if c = 51 then VTK.Triangle
  else if c = 52 then VTK.Quad
  else if c = 54 then VTK.QuadraticTriangle
  else if c = 56 then VTK.QuadraticQuad
  else VTK.Vertex

/-- `{}` when the end of the file is reached, `{line}` otherwise. -/
def ret (s : ASoup R) (l : Line) (ls : List Line) : St R := ⟨s, if ls.isEmpty then [] else l, ls⟩

/-- `abaqusParseElements`, polytope_soup.cpp 660-729.  Characters after the end of a short header are those
left in the buffer by earlier lines: `none`. -/
def parseElements (st : St R) : Option (St R) :=
  match st.line[15]?, st.line[16]?, st.line[17]?, st.line[18]? with
  | some a, some b, some c, some d =>
    if a ≠ 67 ∨ b ≠ 80 ∨ c ≠ 83 then some ⟨st.soup, [], st.rest⟩
    else
      (sectionLoop (elementLine (cpsType d)) st.soup st.rest).map fun (s, l, ls) => ret s l ls
  | _, _, _, _ => none

/-- `abaqusParseElsets`, polytope_soup.cpp 731-773. -/
def parseElsets (st : St R) : Option (St R) :=
  if st.line.length < 13 then none
  else
    (sectionLoop (fun ids l => (idLoop l).map fun r => ids ++ r) [] st.rest).map fun (ids, l, ls) =>
      ret (addElset st.soup (st.line.drop 13) ids []).1 l ls

/-! ### The file -/

/-- `*NODE` -/
def hdrNode : Line := [42, 78, 79, 68, 69]
/-- `*ELEMENT` -/
def hdrElement : Line := [42, 69, 76, 69, 77, 69, 78, 84]
/-- `*ELSET` -/
def hdrElset : Line := [42, 69, 76, 83, 69, 84]

/-- `while (line_view.starts_with(hdr)) line_view = parse(...)`, with the flag `get_next_line`; at most `fuel`
passes. -/
def whileHeader (hdr : Line) (parse : St R → Option (St R)) : Nat → Bool × St R → Option (Bool × St R)
  | 0, _ => none
  | fuel + 1, (next, st) =>
    if hdr.isPrefixOf st.line then (parse st).bind fun st => whileHeader hdr parse fuel (false, st)
    else some (next, st)

/-- One pass of the loop of `readAbaqusFile`, polytope_soup.cpp 822-842. -/
def pass (flt : List Byte → R) (fuel : Nat) (x : Bool × St R) : Option (Bool × St R) :=
  let st : St R := if x.1 then
      match x.2.rest with
      | [] => x.2
      | l :: ls => if 1024 ≤ l.length then ⟨x.2.soup, l.take 1023, []⟩ else ⟨x.2.soup, l, ls⟩
    else x.2
  (whileHeader hdrNode (parseNodes flt) fuel (true, st)).bind fun x =>
  (whileHeader hdrElement parseElements fuel x).bind fun x =>
  whileHeader hdrElset parseElsets fuel x

/-- The loop; `none` would mean more than `fuel` passes. -/
def fileLoop (flt : List Byte → R) (inner : Nat) : Nat → Bool × St R → Option (ASoup R)
  | 0, _ => none
  | fuel + 1, x =>
    if x.2.rest.isEmpty then some x.2.soup
    else (pass flt inner x).bind (fileLoop flt inner fuel)

/-- `readAbaqusFile` up to the final sort, polytope_soup.cpp 776-842. -/
def readLines (flt : List Byte → R) (s : ASoup R) (file : List Line) : Option (ASoup R) :=
  match file with
  | [] => some s
  | l :: ls =>
    let st : St R := if 1024 ≤ l.length then ⟨s, l.take 1023, []⟩ else ⟨s, l, ls⟩
    fileLoop flt (file.length + 1) (2 * file.length + 1) (false, st)

/-- `readAbaqusFile`, polytope_soup.cpp 775-843. -/
def readAbaqus (sortPairs : List (List Byte × Nat) → List (List Byte × Nat)) (sortPerm : List Nat → List Nat)
    (flt : List Byte → R) (s : ASoup R) (file : List Line) : Option (ASoup R) :=
  (readLines flt s file).bind fun s =>
    if 0 < s.names.length then sortElsets sortPairs sortPerm s else some s

end Verif.Abaqus
