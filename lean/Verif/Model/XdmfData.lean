import Verif.Model.Fp
import Verif.Model.Str
import Verif.Model.XSLib
import Mathlib.Data.Nat.Digits.Defs

/-!
# Datasets of XDMF files

How `src/mesh/polytope_soup.cpp` gets numbers out of the datasets of an HDF5 file: the calls of `dataset.read` and the conversions to `Int` and `Float`
after them.  `Verif.Model.XDMF` starts from the numbers.  `dataset.read(buffer, datatype)` is called with the type of the file as the type of the memory,
so that HDF5 converts nothing and copies the bytes of the whole dataset.  The machine is little-endian (x86-64).  `undef` is a write beyond the end of the
buffer, `refused` is an error of the logger.
-/

namespace Verif.XData

open Verif.Str (Byte)
open Verif.XSLib (Res)

/-- A type of integers in a file: byte order, sign, bytes. -/
structure IntType where
  big : Bool
  signed : Bool
  size : ℕ

/-- A dataset of integers: the bytes of each value in the order of the file. -/
structure IntSet where
  type : IntType
  values : List (List Byte)

/-- A dataset of floating-point numbers of IEEE 754. -/
structure FloatSet where
  big : Bool
  size : ℕ
  values : List (List Byte)

/-- The number that little-endian bytes stand for. -/
def ofBytes (b : List Byte) : ℕ := Nat.ofDigits 256 (b.map UInt8.toNat)

/-- The bytes as a signed integer of this machine: `T` of `Vector<T> data_vec`. -/
def native (b : List Byte) : ℤ := (ofBytes b : ℤ).bmod (256 ^ b.length)

/-- `static_cast<Int>`. -/
def toInt (x : ℤ) : ℤ := x.bmod (2 ^ 32)

/-- `Vector<T> data_vec(n); dataset.read(data_vec.data(), datatype);`, polytope_soup.cpp 1611-1612, 1640-1641 and 1762-1763, and `static_cast<Int>`
(1622, 1660, 1766): the values beyond the dataset are zero. -/
def readInts (n : ℕ) (d : IntSet) : Res (List ℤ) :=
  if n < d.values.length then .undef
  else .ok ((d.values.map fun b => toInt (native b)) ++ List.replicate (n - d.values.length) 0)

/-- The precisions that the readers of topology and sets let pass, polytope_soup.cpp 1697-1701 and 1823-1827. -/
def precisionOk (s : String) : Bool := s == "1" || s == "2" || s == "4" || s == "8"

/-- The data of `readXDMFTopology`, polytope_soup.cpp 1697-1748: `n` is the product of the numbers in `Dimensions`. -/
def readTopologyData (precision : String) (n : ℕ) (d : IntSet) : Res (List ℤ) :=
  if precisionOk precision then
    if d.type.size = 4 then readInts n d
    else if d.type.size = 8 then readInts n d
    else .refused
  else .refused

/-- The number that the bits stand for, with `m` bits of the fraction and `e` of the exponent; `none` for infinities and NaN. -/
def ieeeVal (m e n : ℕ) : Option ℚ :=
  let f : ℕ := n % 2 ^ m
  let x : ℕ := n / 2 ^ m % 2 ^ e
  let s : ℚ := if n / 2 ^ (m + e) % 2 = 1 then -1 else 1
  let bias : ℤ := 2 ^ (e - 1) - 1
  if x = 2 ^ e - 1 then none
  else if x = 0 then some (s * f * 2 ^ (1 - bias - m))
  else some (s * (2 ^ m + f : ℕ) * 2 ^ (x - bias - m))

/-- The bytes as a `float` or `double` of this machine. -/
def nativeFloat (size : ℕ) (b : List Byte) : Option ℚ := if size = 4 then ieeeVal 23 8 (ofBytes b) else ieeeVal 52 11 (ofBytes b)

/-- `Vector<T> data_vec(n); dataset.read(data_vec.data(), datatype);`, polytope_soup.cpp 1488-1489 and 1772-1774, and `static_cast<Float>` (1494-1502, 1777)
by the rounding `R`. -/
def readFloats {p : ℕ} (R : Fp.Rounding ℚ p) (n : ℕ) (d : FloatSet) : Res (List (Option ℚ)) :=
  if n < d.values.length then .undef
  else .ok ((d.values.map fun b => (nativeFloat d.size b).map R.rnd) ++ List.replicate (n - d.values.length) (some 0))

/-- The data of `readXDMFGeometry`, polytope_soup.cpp 1569-1597: nothing is read for other sizes. -/
def readGeometryData {p : ℕ} (R : Fp.Rounding ℚ p) (n : ℕ) (d : FloatSet) : Res (Option (List (Option ℚ))) :=
  if d.size = 4 ∨ d.size = 8 then (readFloats R n d).bind fun l => .ok (some l) else .ok none

/-- The data of one set, polytope_soup.cpp 1823-1974, and `addElsetToSoup`, 1754-1780: `none` if no set is added.  `floatSize` is `sizeof(Float)`. -/
def readSetData {p : ℕ} (R : Fp.Rounding ℚ p) (floatSize : ℕ) (precision : String) (d : IntSet) (att : Option FloatSet) :
    Res (Option (List ℤ × Option (List (Option ℚ)))) :=
  if precisionOk precision then
    let size := (att.map FloatSet.size).getD floatSize
    if d.type.size = 4 ∨ d.type.size = 8 then
      if size = 4 ∨ size = 8 then
        (readInts d.values.length d).bind fun ids =>
        match att with
        | none => .ok (some (ids, none))
        | some a => (readFloats R d.values.length a).bind fun v => .ok (some (ids, some v))
      else .refused
    else .ok none
  else .refused

end Verif.XData
