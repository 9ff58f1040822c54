import Verif.Model.XSLib

/-!
# Reading VTK files

Model of the VTK reader, `src/mesh/polytope_soup.cpp` 850-1145.

* A file is the list of its lines, without line feeds and without NUL characters; the stream, the buffer of 1024 bytes and
  the outcomes are those of `Verif.Model.XSLib`. Whether the last line ends in a line feed makes no difference.
* `StringView`, `getTokenAndShrink` are those of `Verif.Model.StrView`, `strto<Int>` is that of `Verif.Model.Abaqus`,
  `strto<Float>` is a parameter `flt`, handed the buffer from the token on.
* `ASSERT`s are compiled out. An error is taken to end the program, as is the default (`refused`).
* Ids are natural numbers, as in `Verif.Model.Soup`; a negative id is `undef`. So is the end of the file before a line that
  starts with `CELLS`, after which the reader works on what is left in the buffer.
-/

namespace Verif.VTKFile

open Verif.StrView Verif.Abaqus Verif.Polytope Verif.ElemTypes Verif.XSLib
open Verif.Str (Byte)

variable {R : Type}

/-- `# vtk DataFile Version 3.0` -/
def hdrVersion : Line := [35, 32, 118, 116, 107, 32, 68, 97, 116, 97, 70, 105, 108, 101, 32, 86, 101, 114, 115, 105, 111, 110, 32,
  51, 46, 48]
/-- `ASCII` -/
def hdrAscii : Line := [65, 83, 67, 73, 73]
/-- `UNSTRUCTURED_GRID` -/
def hdrGrid : Line := [85, 78, 83, 84, 82, 85, 67, 84, 85, 82, 69, 68, 95, 71, 82, 73, 68]
/-- `POINTS` -/
def hdrPoints : Line := [80, 79, 73, 78, 84, 83]
/-- `CELLS` -/
def hdrCells : Line := [67, 69, 76, 76, 83]
/-- `CELL_TYPES` -/
def hdrTypes : Line := [67, 69, 76, 76, 95, 84, 89, 80, 69, 83]
/-- `CELL_DATA` -/
def hdrData : Line := [67, 69, 76, 76, 95, 68, 65, 84, 65]
/-- `float` -/
def tFloat : Line := [102, 108, 111, 97, 116]
/-- `double` -/
def tDouble : Line := [100, 111, 117, 98, 108, 101]
/-- `int` -/
def tInt : Line := [105, 110, 116]

/-! ### vtkParseUnstructuredGrid -/

/-- One line of the vertices, polytope_soup.cpp 887-905. -/
def point (flt : List Byte → R) (v : View) : Res (R × R × R) := do
  let (x, v) ← nextNum flt v
  let (y, v) ← nextNum flt v
  let z ← num flt v
  pure (x, y, z)

/-- The loop over the vertices, polytope_soup.cpp 879-906; at most `fuel` lines. -/
def points (flt : List Byte → R) : Nat → In → ASoup R → Res (ASoup R × In)
  | 0, _, _ => .undef
  | fuel + 1, st, s =>
    let st := getline st
    if !st.good then .undef
    else if st.view.size = 0 then points flt fuel st s
    else if starts hdrCells st.view then .ok (s, st)
    else do
      let p ← point flt st.view
      points flt fuel st (addVertex s p).1

/-- The ids of a cell, polytope_soup.cpp 944-952. -/
def cellIds : Nat → View → Res (List Nat)
  | 0, _ => .ok []
  | n + 1, v => do
    let (x, v) ← nextInt v
    let i ← size x
    let is ← cellIds n v
    pure (i :: is)

/-- One cell, polytope_soup.cpp 933-955. -/
def cell (s : ASoup R) (v : View) : Res (ASoup R) := do
  let (x, v) ← nextInt v
  let n ← size x
  let conn ← cellIds n v
  pure (addElement s (inferVTKElemType x) conn).1

/-- The loop over the cells, polytope_soup.cpp 932-956. -/
def cells : Nat → In → ASoup R → Res (ASoup R × In)
  | 0, st, s => .ok (s, st)
  | n + 1, st, s => do
    let st := getline st
    let s ← cell s st.view
    cells n st s

/-- `file.ignore(max, '\n')`: the rest of a line, however long. -/
def ignoreLine (st : In) : In := if st.good then ⟨st.rest.tail, true, st.buf⟩ else st

/-- `vtkParseUnstructuredGrid`, polytope_soup.cpp 854-978. -/
def grid (flt : List Byte → R) (st : In) (s : ASoup R) : Res (ASoup R × In) := do
  let st := getline st
  if !starts hdrPoints st.view then .refused
  else
    let _ ← nextInt (skip 1 st.view)
    let (s, st) ← points flt (st.rest.length + 1) st s
    let (n, _) ← nextInt (skip 1 st.view)
    let (s, st) ← cells n.toNat st s
    let st := getline (getline st)
    if !starts hdrTypes st.view then .refused
    else pure (s, ignoreLine st)

/-! ### vtkParseCellData -/

/-- One value, polytope_soup.cpp 1022-1049: the value itself and the check of an integer; `lim` is `max_int`. -/
def value (flt : List Byte → R) (isFloat : Bool) (lim : ℤ) (t : View) : Res R :=
  if isFloat then num flt t
  else if t.suf = [] then .undef
  else if strtol t.suf = -2 ^ 63 then .undef
  else if lim < |strtol t.suf| then .refused
  else num flt t

/-- The values on one line, polytope_soup.cpp 1020-1052; at most `fuel` of them. -/
def lineValues (flt : List Byte → R) (isFloat : Bool) (lim : ℤ) : Nat → View → Res (List R)
  | 0, _ => .undef
  | fuel + 1, v =>
    let (t, v) := getToken 32 v
    if t.size = 0 then .ok []
    else do
      let x ← value flt isFloat lim t
      let xs ← lineValues flt isFloat lim fuel v
      pure (x :: xs)

/-- The loop over the lines of values, polytope_soup.cpp 1018-1053; at most `fuel` lines. Storing a value beyond the end of
the vector, which has `n` elements, is undefined. -/
def dataLoop (flt : List Byte → R) (isFloat : Bool) (lim : ℤ) (n : Nat) : Nat → In → List R → Res (List R × In)
  | 0, _, _ => .undef
  | fuel + 1, st, xs =>
    let st := getline st
    if st.good && decide (st.view.size ≠ 0) then do
      let ys ← lineValues flt isFloat lim (st.view.size + 1) st.view
      if n < (xs ++ ys).length then .undef
      else dataLoop flt isFloat lim n fuel st (xs ++ ys)
    else .ok (xs, st)

/-- `vtkParseCellData`, polytope_soup.cpp 980-1065. The vector of the values is not initialized: `junk` is what it holds at
first. -/
def cellData (flt : List Byte → R) (lim : ℤ) (junk : Nat → R) (st : In) (s : ASoup R) : Res (ASoup R × In) := do
  let x ← int (skip 1 st.view)
  let st := getline st
  let (name, v) := getToken 32 (skip 1 st.view)
  let name := name.bytes
  let isFloat := starts tFloat v || starts tDouble v
  if !isFloat && !starts tInt v then .refused
  else
    let st := getline st
    let n ← size x
    let (xs, st) ← dataLoop flt isFloat lim n (st.rest.length + 1) st []
    let data := xs ++ ((List.range n).drop xs.length).map junk
    let (s, k) := addElset s name (List.range n) data
    if k = -1 then .refused else pure (s, st)

/-! ### readVTKFile -/

/-- The loop over what follows the grid, polytope_soup.cpp 1124-1133; at most `fuel` lines. -/
def sections (flt : List Byte → R) (lim : ℤ) (junk : Nat → R) : Nat → In → ASoup R → Res (ASoup R)
  | 0, _, _ => .undef
  | fuel + 1, st, s =>
    let st := getline st
    if !st.good then .ok s
    else if starts hdrData st.view then do
      let (s, st) ← cellData flt lim junk st s
      sections flt lim junk fuel st s
    else sections flt lim junk fuel st s

/-- `readVTKFile` up to the final sort, polytope_soup.cpp 1059-1134. -/
def readLines (flt : List Byte → R) (lim : ℤ) (junk : Nat → R) (s : ASoup R) (file : List Line) : Res (ASoup R) := do
  let st := getline ⟨file, true, []⟩
  if !starts hdrVersion st.view then .refused
  else
    let st := getline (getline st)
    if !starts hdrAscii st.view then .refused
    else
      let st := getline st
      if !starts hdrGrid (skip 1 st.view) then .refused
      else
        let (s, st) ← grid flt st s
        sections flt lim junk (st.rest.length + 1) st s

/-- `readVTKFile`, polytope_soup.cpp 1067-1145. -/
def readVTK (sortPairs : List (List Byte × Nat) → List (List Byte × Nat)) (sortPerm : List Nat → List Nat)
    (flt : List Byte → R) (lim : ℤ) (junk : Nat → R) (s : ASoup R) (file : List Line) : Res (ASoup R) := do
  let s ← readLines flt lim junk s file
  if 0 < s.names.length then .ofOption (sortElsets sortPairs sortPerm s) else .ok s

end Verif.VTKFile
