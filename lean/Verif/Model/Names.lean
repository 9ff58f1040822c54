import Verif.Model.StrView

/-!
# Generated names

Model of `incrementASCIINumber` and `getASCIINumber`, include/um2/mpact/model.hpp 323-354.  A string is the list of its
bytes.
-/

namespace Verif.Names

open Verif.Str (Byte)

/-- The `while` loop and the final increment of `incrementASCIINumber`, model.hpp 332-339, on the reversed string: the pointer
moves left over nines; before the first character it reads outside the string (the assertions are compiled out). -/
def incRev : List Byte → Option (List Byte)
  | [] => none
  | c :: l => if c = 57 then (incRev l).map fun l => 48 :: l else some ((c + 1) :: l)

/-- `incrementASCIINumber`, model.hpp 323-340. -/
def increment (s : List Byte) : Option (List Byte) := (incRev s.reverse).map List.reverse

/-- The loop of `getASCIINumber`, model.hpp 349-352; the characters are written from the last to the first.  `%` and `/` round
towards zero, the cast keeps the low 8 bits. -/
def asciiLoop : Nat → Int → List Byte → List Byte
  | 0, _, acc => acc
  | n + 1, num, acc => asciiLoop n (num.tdiv 10) (UInt8.ofBitVec (BitVec.ofInt 8 (num.tmod 10 + 48)) :: acc)

/-- `getASCIINumber`, model.hpp 342-354: the five characters of "00000" are overwritten. -/
def getASCIINumber (num : Int) : List Byte := asciiLoop 5 num []

end Verif.Names
