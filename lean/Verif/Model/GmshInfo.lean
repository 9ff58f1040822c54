import Verif.Model.OverlayGroups
import Verif.Model.Abaqus
import Verif.Model.ModelFiles

/-!
# The info file of a Gmsh model

Model of src/gmsh/io.cpp: `write` 31-188, `addPhysicalGroups` 192-251 and `open` 258-370, without the model file itself.

* `ents` stands for `getEntities`.  Opening the model file numbers the entities of each dimension from one in the order of their tags
  (this is what the comment on line 48 assumes of Gmsh); groups and colours are not in that file.
* A colour is what `getColor` returns, four `int`.
* Texts are lists of bytes; `npos` is 2^64 - 1 and `size_t` wraps.  The stream fails only at the end of the file.
* `LOG_ERROR` and uncaught exceptions of `stoi`, `stoul` and `substr` end the program: `refused`.  Memory is unlimited.
-/

namespace Verif.Info

open Verif.XSLib (Res)
open Verif.Gmsh (Gm DimTag lowerBound)
open Verif.Overlay (Name)
open Verif.Str (Byte)
open Verif.StrView (digits)
open Verif.Abaqus (isSpace isDigit readDigits)
open Verif.MFiles (str)

abbrev Col := ℤ × ℤ × ℤ × ℤ

/-! ## Writing -/

/-- `tag_map[dim]`, io.cpp 49-61; the tags of one dimension in increasing order. -/
def tagMap (ents : List DimTag) (d : ℤ) : List ℤ := ((ents.filter fun x => x.1 = d).map (·.2)).insertionSort (· ≤ ·)

/-- The number that is written for an entity, for example io.cpp 85-91. -/
def rank (ents : List DimTag) (d e : ℤ) : Nat := lowerBound (tagMap ents d) e + 1

/-- Eight entries per line, io.cpp 80-108 and 154-184: `w i` is the text of entry `i`. -/
def rows8 (w : Nat → List Byte) (n : Nat) : List Byte :=
  ((List.range (n / 8)).flatMap fun i => ((List.range 8).flatMap fun j => w (8 * i + j) ++ [32]) ++ [10]) ++
  ((List.range (n % 8 - 1)).flatMap fun i => w (n / 8 * 8 + i) ++ [32]) ++
  (if 0 < n % 8 then w (n / 8 * 8 + n % 8 - 1) ++ [10] else [])

/-- One group, io.cpp 70-109. -/
def groupText (ents : List DimTag) (g : Gmsh.Group Name) : List Byte :=
  str "PHYSICAL_GROUP \"" ++ g.name ++ str "\" " ++ digits g.dim.toNat ++ [32] ++ digits g.ents.length ++ [10] ++
  rows8 (fun i => digits (rank ents g.dim (g.ents.getD i 0))) g.ents.length

/-- `Color(r, g, b, a)`, color.hpp 56-63. -/
def toColor (c : Col) : Col := (c.1 % 256, c.2.1 % 256, c.2.2.1 % 256, c.2.2.2 % 256)

/-- Adding an entity to the list of its colour, io.cpp 133-141. -/
def insertColor (c : Col) (x : DimTag) : List (Col × List DimTag) → List (Col × List DimTag)
  | [] => [(c, [x])]
  | (c', l) :: r => if c' = c then (c', l ++ [x]) :: r else (c', l) :: insertColor c x r

/-- The entities by colour, io.cpp 113-142. -/
def byColor (color : DimTag → Col) (ents : List DimTag) : List (Col × List DimTag) :=
  ents.foldl (fun acc x => if x.1 < 2 then acc else if color x = (0, 0, 255, 0) then acc else insertColor (toColor (color x)) x acc) []

/-- `std::sort` of the pairs, io.cpp 143-145. -/
def sortPairs (l : List DimTag) : List DimTag := l.insertionSort fun a b => a.1 < b.1 ∨ (a.1 = b.1 ∧ a.2 ≤ b.2)

/-- One colour, io.cpp 148-185; `l` is sorted. -/
def colorText (ents : List DimTag) (c : Col) (l : List DimTag) : List Byte :=
  str "ENTITY_COLOR " ++ digits c.1.toNat ++ [32] ++ digits c.2.1.toNat ++ [32] ++ digits c.2.2.1.toNat ++ [32] ++ digits c.2.2.2.toNat ++
  [32] ++ digits l.length ++ [10] ++
  rows8 (fun i => digits (l.getD i (0, 0)).1.toNat ++ [32] ++ digits (rank ents (l.getD i (0, 0)).1 (l.getD i (0, 0)).2)) l.length

/-- The file, io.cpp 64-187. -/
def write (s : Gm Name Col) (ents : List DimTag) : List Byte :=
  str "PHYSICAL_GROUPS " ++ digits s.groups.length ++ [10] ++ s.groups.flatMap (groupText ents) ++
  str "ENTITY_COLORS " ++ digits (byColor s.color ents).length ++ [10] ++
  (byColor s.color ents).flatMap fun p => colorText ents p.1 (sortPairs p.2)

/-! ## The standard library -/

def npos : Nat := 2 ^ 64 - 1

/-- `a + b` and `a - b` for `size_t`. -/
def add64 (a b : Nat) : Nat := (a + b) % 2 ^ 64
@[inherit_doc add64] def sub64 (a b : Nat) : Nat := (a + (2 ^ 64 - b)) % 2 ^ 64

/-- `line.find(c, pos)`. -/
def find (l : List Byte) (c : Byte) (pos : Nat) : Nat :=
  match (l.drop pos).idxOf? c with
  | some k => pos + k
  | none => npos

/-- `line.substr(pos, n)`. -/
def substr (l : List Byte) (pos n : Nat) : Res (List Byte) := if l.length < pos then .refused else .ok ((l.drop pos).take n)

/-- `line.substr(pos)`. -/
def substrFrom (l : List Byte) (pos : Nat) : Res (List Byte) := if l.length < pos then .refused else .ok (l.drop pos)

/-- Blanks, a sign and digits: whether the sign is negative and the value; `none` without digits. -/
def number (l : List Byte) : Option (Bool × Nat) :=
  match l.dropWhile isSpace with
  | [] => none
  | c :: r =>
    let ds := if c = 45 ∨ c = 43 then r else c :: r
    if ds.head?.any isDigit then some (c = 45, readDigits 0 ds) else none

/-- `std::stoi`. -/
def stoi (l : List Byte) : Res ℤ :=
  match number l with
  | none => .refused
  | some (neg, m) =>
    let v : ℤ := if neg then -(m : ℤ) else m
    if -2 ^ 31 ≤ v ∧ v < 2 ^ 31 then .ok v else .refused

/-- `std::stoul`: a negative number wraps. -/
def stoul (l : List Byte) : Res Nat :=
  match number l with
  | none => .refused
  | some (neg, m) => if 2 ^ 64 ≤ m then .refused else .ok (if neg then (2 ^ 64 - m) % 2 ^ 64 else m)

/-- The stream and the string `line`. -/
structure Rd where
  rest : List Byte
  good : Bool
  line : List Byte

/-- `std::getline(info_file, line)`: when the stream has failed, the line stays. -/
def getline (st : Rd) : Rd :=
  if !st.good then st else
  match st.rest.dropWhile (· ≠ 10) with
  | [] => ⟨[], false, st.rest.takeWhile (· ≠ 10)⟩
  | _ :: r => ⟨r, true, st.rest.takeWhile (· ≠ 10)⟩

/-! ## Reading -/

/-- `n` numbers separated by blanks from position `start`, for example io.cpp 238-247. -/
def tokens (line : List Byte) : Nat → Nat → Res (List ℤ)
  | 0, _ => .ok []
  | 1, start => (substrFrom line start).bind fun t => (stoi t).bind fun v => .ok [v]
  | n + 2, start =>
    (substr line start (sub64 (find line 32 start) start)).bind fun t => (stoi t).bind fun v =>
    (tokens line (n + 1) (add64 (find line 32 start) 1)).bind fun vs => .ok (v :: vs)

/-- The full lines, io.cpp 226-236 (`w = 1`) and 321-341 (`w = 2` numbers per entry). -/
def fullLines (w : Nat) : Nat → Rd → Res (List ℤ × Rd)
  | 0, st => .ok ([], st)
  | n + 1, st =>
    (tokens (getline st).line (8 * w) 0).bind fun vs =>
    (fullLines w n (getline st)).bind fun p => .ok (vs ++ p.1, p.2)

/-- The entries, io.cpp 223-248 and 318-363. -/
def readItems (w n : Nat) (st : Rd) : Res (List ℤ × Rd) :=
  (fullLines w (n / 8) st).bind fun p =>
  if n % 8 ≠ 0 then (tokens (getline p.2).line (n % 8 * w) 0).bind fun vs => .ok (p.1 ++ vs, getline p.2) else .ok p

/-- One group, io.cpp 207-249. -/
def readGroup (s : Gm Name Col) (st : Rd) : Res (Gm Name Col × Rd) :=
  let st := getline st
  if ¬ (str "PHYSICAL_GROUP").isPrefixOf st.line then .refused else
  let ns := add64 (find st.line 34 0) 1
  let ne := find st.line 34 ns
  (substr st.line ns (sub64 ne ns)).bind fun name =>
  let ds := add64 ne 2
  (substr st.line ds 1).bind fun t => (stoi t).bind fun dim =>
  (substrFrom st.line (add64 ds 2)).bind fun t => (stoul t).bind fun n =>
  (readItems 1 n st).bind fun p => .ok (s.add dim p.1 (-1) name, p.2)

/-- The groups, io.cpp 206-250. -/
def readGroups : Nat → Gm Name Col → Rd → Res (Gm Name Col × Rd)
  | 0, s, st => .ok (s, st)
  | n + 1, s, st => (readGroup s st).bind fun p => readGroups n p.1 p.2

/-- `addPhysicalGroups`, io.cpp 190-251. -/
def addPhysicalGroups (s : Gm Name Col) (st : Rd) : Res (Gm Name Col × Rd) :=
  let st := getline st
  if ¬ (str "PHYSICAL_GROUPS").isPrefixOf st.line then .refused else
  (substrFrom st.line 16).bind fun t => (stoul t).bind fun n => readGroups n s st

/-- The list of dimensions and tags as pairs. -/
def pairs : List ℤ → List DimTag
  | a :: b :: l => (a, b) :: pairs l
  | _ => []

/-- One colour, io.cpp 299-364. -/
def readColor (s : Gm Name Col) (st : Rd) : Res (Gm Name Col × Rd) :=
  let st := getline st
  if ¬ (str "ENTITY_COLOR").isPrefixOf st.line then .refused else
  let e1 := find st.line 32 13
  (substr st.line 13 (sub64 e1 13)).bind fun t => (stoi t).bind fun r =>
  let s2 := add64 e1 1
  let e2 := find st.line 32 s2
  (substr st.line s2 (sub64 e2 s2)).bind fun t => (stoi t).bind fun g =>
  let s3 := add64 e2 1
  let e3 := find st.line 32 s3
  (substr st.line s3 (sub64 e3 s3)).bind fun t => (stoi t).bind fun b =>
  let s4 := add64 e3 1
  let e4 := find st.line 32 s4
  (substr st.line s4 (sub64 e4 s4)).bind fun t => (stoi t).bind fun a =>
  (substrFrom st.line (add64 e4 1)).bind fun t => (stoul t).bind fun n =>
  (readItems 2 n st).bind fun p => .ok (s.setColor (fun x => [x]) (pairs p.1) (r, g, b, a), p.2)

/-- The colours, io.cpp 298-365. -/
def readColors : Nat → Gm Name Col → Rd → Res (Gm Name Col × Rd)
  | 0, s, st => .ok (s, st)
  | n + 1, s, st => (readColor s st).bind fun p => readColors n p.1 p.2

/-- `open`, io.cpp 258-370, after the model file has been read (state `s`). -/
def openInfo (s : Gm Name Col) (text : List Byte) : Res (Gm Name Col) :=
  (addPhysicalGroups s ⟨text, true, []⟩).bind fun p =>
  let st := getline ⟨p.2.rest, p.2.good, []⟩
  if ¬ (str "ENTITY_COLORS").isPrefixOf st.line then .refused else
  (substrFrom st.line 14).bind fun t => (stoul t).bind fun n =>
  (readColors n p.1 st).bind fun q => .ok q.1

/-- `filename.substr(0, filename.find_last_of('.')) + ".info"`, io.cpp 40-41 and 275-276. -/
def infoName (filename : List Byte) : List Byte :=
  (if (46 : Byte) ∈ filename then ((filename.reverse.dropWhile (· ≠ 46)).drop 1).reverse else filename) ++ str ".info"

end Verif.Info
