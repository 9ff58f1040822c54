import Batteries.Data.BitVec.Lemmas

/-!
# Morton codes

Model of `include/um2/math/morton.hpp`.  `uint32_t`/`uint64_t` are `BitVec 32`/`BitVec 64`;
`<<`, `>>`, `|`, `&`, `^` are the bit-vector operations, i.e. exactly the C++ ones for
unsigned operands and in-range shift amounts.
-/

namespace Verif.Morton

/-- Number of set bits of `m` strictly below position `i`. -/
def rank {w : Nat} (m : BitVec w) : Nat → Nat
  | 0 => 0
  | i + 1 => rank m i + if m.getLsbD i then 1 else 0

/-- Position of the `k`-th (0-based) set bit of `m` at or above `i`, searching `fuel` positions. -/
def selectFrom {w : Nat} (m : BitVec w) : (fuel i k : Nat) → Option Nat
  | 0, _, _ => none
  | fuel + 1, i, k =>
    if m.getLsbD i then
      match k with
      | 0 => some i
      | k + 1 => selectFrom m fuel (i + 1) k
    else selectFrom m fuel (i + 1) k

/-- The `pdep` instruction (`_pdep_u32`, `_pdep_u64`; morton.hpp 72-82), following the
processor manual: the low bits of `s` are scattered to the set positions of `m`. -/
def pdep {w : Nat} (s m : BitVec w) : BitVec w :=
  BitVec.ofFnLE fun i : Fin w => m.getLsbD i && s.getLsbD (rank m i)

/-- The `pext` instruction (`_pext_u32`, `_pext_u64`; morton.hpp 84-94): the bits of `s` at the
set positions of `m` are gathered into the low bits. -/
def pext {w : Nat} (s m : BitVec w) : BitVec w :=
  BitVec.ofFnLE fun k : Fin w =>
    match selectFrom m w 0 k with
    | some i => s.getLsbD i
    | none => false

/-- `max_2d_morton_coord<uint32_t>`, morton.hpp 55-56: `(1 << 16) - 1`. -/
def max2D32 : BitVec 32 := ((1 : BitVec 32) <<< (4 * 4)) - 1
/-- `max_2d_morton_coord<uint64_t>`, morton.hpp 55-56: `(1 << 32) - 1`. -/
def max2D64 : BitVec 64 := ((1 : BitVec 64) <<< (4 * 8)) - 1
/-- `max_3d_morton_coord<uint32_t>`, morton.hpp 58-59: `(1 << 10) - 1`. -/
def max3D32 : BitVec 32 := ((1 : BitVec 32) <<< (8 * 4 / 3)) - 1
/-- `max_3d_morton_coord<uint64_t>`, morton.hpp 58-59: `(1 << 21) - 1`. -/
def max3D64 : BitVec 64 := ((1 : BitVec 64) <<< (8 * 8 / 3)) - 1

/-- `bmi_2d_x_mask<U>` … `bmi_3d_z_mask<U>`, morton.hpp 97-111 (`static_cast` truncates). -/
def bmi2x (w : Nat) : BitVec w := (0x5555555555555555#64).setWidth w
@[inherit_doc bmi2x] def bmi2y (w : Nat) : BitVec w := (0xAAAAAAAAAAAAAAAA#64).setWidth w
@[inherit_doc bmi2x] def bmi3x (w : Nat) : BitVec w := (0x9249249249249249#64).setWidth w
@[inherit_doc bmi2x] def bmi3y (w : Nat) : BitVec w := (0x2492492492492492#64).setWidth w
@[inherit_doc bmi2x] def bmi3z (w : Nat) : BitVec w := (0x4924924924924924#64).setWidth w

/-- BMI2 `mortonEncode(x, y)`, morton.hpp 118-125. -/
def encode2BMI {w : Nat} (x y : BitVec w) : BitVec w :=
  pdep x (bmi2x w) ||| pdep y (bmi2y w)

/-- BMI2 `mortonEncode(x, y, z)`, morton.hpp 128-137. -/
def encode3BMI {w : Nat} (x y z : BitVec w) : BitVec w :=
  pdep x (bmi3x w) ||| pdep y (bmi3y w) ||| pdep z (bmi3z w)

/-- BMI2 `mortonDecode(morton, x, y)`, morton.hpp 140-146. -/
def decode2BMI {w : Nat} (m : BitVec w) : BitVec w × BitVec w :=
  (pext m (bmi2x w), pext m (bmi2y w))

/-- BMI2 `mortonDecode(morton, x, y, z)`, morton.hpp 149-156. -/
def decode3BMI {w : Nat} (m : BitVec w) : BitVec w × BitVec w × BitVec w :=
  (pext m (bmi3x w), pext m (bmi3y w), pext m (bmi3z w))

/-- `pdep0x55555555`, morton.hpp 165-174. -/
def pdep55_32 (x : BitVec 32) : BitVec 32 :=
  let x := (x ||| (x <<< 8)) &&& 0x00ff00ff#32
  let x := (x ||| (x <<< 4)) &&& 0x0f0f0f0f#32
  let x := (x ||| (x <<< 2)) &&& 0x33333333#32
  let x := (x ||| (x <<< 1)) &&& 0x55555555#32
  x

/-- `pdep0x5555555555555555`, morton.hpp 177-187. -/
def pdep55_64 (x : BitVec 64) : BitVec 64 :=
  let x := (x ||| (x <<< 16)) &&& 0x0000ffff0000ffff#64
  let x := (x ||| (x <<< 8)) &&& 0x00ff00ff00ff00ff#64
  let x := (x ||| (x <<< 4)) &&& 0x0f0f0f0f0f0f0f0f#64
  let x := (x ||| (x <<< 2)) &&& 0x3333333333333333#64
  let x := (x ||| (x <<< 1)) &&& 0x5555555555555555#64
  x

/-- `pext0x55555555`, morton.hpp 190-199. -/
def pext55_32 (x : BitVec 32) : BitVec 32 :=
  let x := x &&& 0x55555555#32
  let x := (x ^^^ (x >>> 1)) &&& 0x33333333#32
  let x := (x ^^^ (x >>> 2)) &&& 0x0f0f0f0f#32
  let x := (x ^^^ (x >>> 4)) &&& 0x00ff00ff#32
  let x := (x ^^^ (x >>> 8)) &&& 0x0000ffff#32
  x

/-- `pext0x5555555555555555`, morton.hpp 202-212. -/
def pext55_64 (x : BitVec 64) : BitVec 64 :=
  let x := x &&& 0x5555555555555555#64
  let x := (x ^^^ (x >>> 1)) &&& 0x3333333333333333#64
  let x := (x ^^^ (x >>> 2)) &&& 0x0f0f0f0f0f0f0f0f#64
  let x := (x ^^^ (x >>> 4)) &&& 0x00ff00ff00ff00ff#64
  let x := (x ^^^ (x >>> 8)) &&& 0x0000ffff0000ffff#64
  let x := (x ^^^ (x >>> 16)) &&& 0x00000000ffffffff#64
  x

/-- `pdep0x92492492`, morton.hpp 215-224. -/
def pdep92_32 (x : BitVec 32) : BitVec 32 :=
  let x := (x ||| (x <<< 16)) &&& 0x030000ff#32
  let x := (x ||| (x <<< 8)) &&& 0x0300f00f#32
  let x := (x ||| (x <<< 4)) &&& 0x030c30c3#32
  let x := (x ||| (x <<< 2)) &&& 0x09249249#32
  x

/-- `pdep0x9249249249249249`, morton.hpp 227-237. -/
def pdep92_64 (x : BitVec 64) : BitVec 64 :=
  let x := (x ||| (x <<< 32)) &&& 0x001f00000000ffff#64
  let x := (x ||| (x <<< 16)) &&& 0x001f0000ff0000ff#64
  let x := (x ||| (x <<< 8)) &&& 0x100f00f00f00f00f#64
  let x := (x ||| (x <<< 4)) &&& 0x10c30c30c30c30c3#64
  let x := (x ||| (x <<< 2)) &&& 0x1249249249249249#64
  x

/-- `pext0x92492492`, morton.hpp 240-249. -/
def pext92_32 (x : BitVec 32) : BitVec 32 :=
  let x := x &&& 0x09249249#32
  let x := (x ^^^ (x >>> 2)) &&& 0x030c30c3#32
  let x := (x ^^^ (x >>> 4)) &&& 0x0300f00f#32
  let x := (x ^^^ (x >>> 8)) &&& 0x030000ff#32
  let x := (x ^^^ (x >>> 16)) &&& 0x000003ff#32
  x

/-- `pext0x9249249249249249`, morton.hpp 252-262. -/
def pext92_64 (x : BitVec 64) : BitVec 64 :=
  let x := x &&& 0x1249249249249249#64
  let x := (x ^^^ (x >>> 2)) &&& 0x10c30c30c30c30c3#64
  let x := (x ^^^ (x >>> 4)) &&& 0x100f00f00f00f00f#64
  let x := (x ^^^ (x >>> 8)) &&& 0x001f0000ff0000ff#64
  let x := (x ^^^ (x >>> 16)) &&& 0x001f00000000ffff#64
  let x := (x ^^^ (x >>> 32)) &&& 0x00000000001fffff#64
  x

/-- Portable `mortonEncode(uint32_t, uint32_t)`, morton.hpp 269-273. -/
def encode2_32 (x y : BitVec 32) : BitVec 32 := pdep55_32 x ||| (pdep55_32 y <<< 1)
/-- Portable `mortonEncode(uint64_t, uint64_t)`, morton.hpp 276-280. -/
def encode2_64 (x y : BitVec 64) : BitVec 64 := pdep55_64 x ||| (pdep55_64 y <<< 1)
/-- Portable `mortonDecode(uint32_t, x, y)`, morton.hpp 283-288. -/
def decode2_32 (m : BitVec 32) : BitVec 32 × BitVec 32 := (pext55_32 m, pext55_32 (m >>> 1))
/-- Portable `mortonDecode(uint64_t, x, y)`, morton.hpp 291-296. -/
def decode2_64 (m : BitVec 64) : BitVec 64 × BitVec 64 := (pext55_64 m, pext55_64 (m >>> 1))
/-- Portable `mortonEncode(uint32_t × 3)`, morton.hpp 299-303. -/
def encode3_32 (x y z : BitVec 32) : BitVec 32 :=
  pdep92_32 x ||| (pdep92_32 y <<< 1) ||| (pdep92_32 z <<< 2)
/-- Portable `mortonEncode(uint64_t × 3)`, morton.hpp 306-311. -/
def encode3_64 (x y z : BitVec 64) : BitVec 64 :=
  pdep92_64 x ||| (pdep92_64 y <<< 1) ||| (pdep92_64 z <<< 2)
/-- Portable `mortonDecode(uint32_t, x, y, z)`, morton.hpp 314-320. -/
def decode3_32 (m : BitVec 32) : BitVec 32 × BitVec 32 × BitVec 32 :=
  (pext92_32 m, pext92_32 (m >>> 1), pext92_32 (m >>> 2))
/-- Portable `mortonDecode(uint64_t, x, y, z)`, morton.hpp 323-329. -/
def decode3_64 (m : BitVec 64) : BitVec 64 × BitVec 64 × BitVec 64 :=
  (pext92_64 m, pext92_64 (m >>> 1), pext92_64 (m >>> 2))

end Verif.Morton
