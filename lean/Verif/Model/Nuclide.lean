import Verif.Model.Abaqus
import Verif.Model.Int32

/-!
# Nuclide identifiers

Model of `toZAID`, `src/physics/nuclide.cpp` 131-216.  Strings are lists of bytes, the character after the last
one is the terminator.  `ASSERT`s are compiled out.  `substr` and `operator==` of `String` have the meaning proved
for them in C01 and C07.
-/

namespace Verif.Nuclide

open Verif.Abaqus
open Verif.Str (Byte)

/-- `ELEMENTS`, nuclide.cpp 131-143, as ASCII codes. -/
def elements : List (List Byte) :=
  [[72], [72, 101],
   [76, 105], [66, 101], [66], [67], [78], [79], [70], [78, 101],
   [78, 97], [77, 103], [65, 108], [83, 105], [80], [83], [67, 108], [65, 114],
   [75], [67, 97], [83, 99], [84, 105], [86], [67, 114], [77, 110], [70, 101], [67, 111], [78, 105], [67, 117],
   [90, 110], [71, 97], [71, 101], [65, 115], [83, 101], [66, 114], [75, 114],
   [82, 98], [83, 114], [89], [90, 114], [78, 98], [77, 111], [84, 99], [82, 117], [82, 104], [80, 100], [65, 103],
   [67, 100], [73, 110], [83, 110], [83, 98], [84, 101], [73], [88, 101],
   [67, 115], [66, 97],
   [76, 97], [67, 101], [80, 114], [78, 100], [80, 109], [83, 109], [69, 117], [71, 100], [84, 98], [68, 121],
   [72, 111], [69, 114], [84, 109], [89, 98],
   [76, 117], [72, 102], [84, 97], [87], [82, 101], [79, 115], [73, 114], [80, 116], [65, 117], [72, 103], [84, 108],
   [80, 98], [66, 105], [80, 111], [65, 116], [82, 110],
   [70, 114], [82, 97],
   [65, 99], [84, 104], [80, 97], [85], [78, 112], [80, 117], [65, 109], [67, 109], [66, 107], [67, 102], [69, 115],
   [70, 109], [77, 100], [78, 111],
   [76, 114], [82, 102], [68, 98], [83, 103], [66, 104], [72, 115], [77, 116], [68, 115], [82, 103], [67, 110],
   [78, 104], [70, 108], [77, 99], [76, 118], [84, 115], [79, 103]]

/-- `isAlpha`, nuclide.cpp 146-152 (C locale). -/
def isAlpha (c : Byte) : Bool :=
  (decide (65 ≤ c.toNat) && decide (c.toNat ≤ 90)) || (decide (97 ≤ c.toNat) && decide (c.toNat ≤ 122))

/-- The loop that counts the letters, nuclide.cpp 174-181: `l` holds the characters from index 1 on. -/
def countLoop : List Byte → Nat → Nat
  | [], n => n
  | c :: l, n => if isAlpha c then countLoop l (n + 1) else n

/-- The search for the symbol, nuclide.cpp 185-193; `i` is the index of the head of the list. -/
def findLoop (symbol : List Byte) : List (List Byte) → Nat → Option Nat
  | [], _ => none
  | e :: es, i => if symbol = e then some (i + 1) else findLoop symbol es (i + 1)

/-- The search for the first digit, nuclide.cpp 201-207: `l` holds the characters from index `i` on, `m` is the
value when there is none. -/
def digitLoop : List Byte → Nat → Nat → Nat
  | [], _, m => m
  | c :: l, i, m => if isDigit c then i else digitLoop l (i + 1) m

/-- `toZAID`, nuclide.cpp 163-216. -/
def toZAID (str : List Byte) : Option ℤ :=
  let n := countLoop (str.drop 1) 1
  let symbol := str.take n
  match findLoop symbol elements 0 with
  | none => some (-1)
  | some z =>
    let m := digitLoop (str.drop n) n n
    let mass := str.drop m
    chk (1000 * (z : ℤ) + strto32 (mass ++ [0]))

end Verif.Nuclide
