import Verif.Model.Fp
import Verif.Model.Morton

/-!
# Morton codes of floating-point coordinates

The conversions of `math/morton.hpp` 334-397 in floating-point arithmetic.  `w` is the width of `U`, the precision of `T` is that of the rounding.  The
integer coders are those of `Verif.Model.Morton` (the emulation; with BMI2 the results are the same, C14).
-/

namespace Verif.Fp

open Verif.Morton

variable {K : Type} [Field K] [LinearOrder K] [FloorRing K] {p : ℕ}

/-- `static_cast<U>(v)`: the fraction is cut off; a value that does not fit is undefined behaviour. -/
def toU (w : ℕ) (v : K) : Option (BitVec w) := if -1 < v ∧ v < 2 ^ w then some (BitVec.ofNat w ⌊v⌋.toNat) else none

/-- `static_cast<T>(u)`. -/
def ofU (R : Rounding K p) {w : ℕ} (u : BitVec w) : K := R.rnd (u.toNat : K)

/-- `static_cast<U>(x * max)`, morton.hpp 349 and 377: `max` is converted to `T`. -/
def quantise (R : Rounding K p) {w : ℕ} (mx : BitVec w) (x : K) : Option (BitVec w) := toU w (R.rnd (x * ofU R mx))

/-- `static_cast<T>(x_m) / static_cast<T>(max)`, morton.hpp 362 and 392. -/
def restore (R : Rounding K p) {w : ℕ} (mx u : BitVec w) : K := R.rnd (ofU R u / ofU R mx)

/-- `mortonEncode<U, T>(x, y)`, morton.hpp 338-352; `enc` and `mx` are `mortonEncode(U, U)` and `max_2d_morton_coord<U>`. -/
def encode2 (R : Rounding K p) {w : ℕ} (enc : BitVec w → BitVec w → BitVec w) (mx : BitVec w) (x y : K) : Option (BitVec w) :=
  if 0 ≤ x ∧ 0 ≤ y ∧ x ≤ 1 ∧ y ≤ 1 then do -- ASSERT_ASSUME
    let a ← quantise R mx x
    let b ← quantise R mx y
    pure (enc a b)
  else none

/-- `mortonDecode<U, T>(morton, x, y)`, morton.hpp 355-364. -/
def decode2 (R : Rounding K p) {w : ℕ} (dec : BitVec w → BitVec w × BitVec w) (mx m : BitVec w) : K × K :=
  (restore R mx (dec m).1, restore R mx (dec m).2)

/-- `mortonEncode<U, T>(x, y, z)`, morton.hpp 367-381. -/
def encode3 (R : Rounding K p) {w : ℕ} (enc : BitVec w → BitVec w → BitVec w → BitVec w) (mx : BitVec w) (x y z : K) : Option (BitVec w) :=
  if 0 ≤ x ∧ 0 ≤ y ∧ 0 ≤ z ∧ x ≤ 1 ∧ y ≤ 1 ∧ z ≤ 1 then do -- ASSERT_ASSUME
    let a ← quantise R mx x
    let b ← quantise R mx y
    let c ← quantise R mx z
    pure (enc a b c)
  else none

/-- `mortonDecode<U, T>(morton, x, y, z)`, morton.hpp 384-395. -/
def decode3 (R : Rounding K p) {w : ℕ} (dec : BitVec w → BitVec w × BitVec w × BitVec w) (mx m : BitVec w) : K × K × K :=
  (restore R mx (dec m).1, restore R mx (dec m).2.1, restore R mx (dec m).2.2)

/-- `mortonEncode<uint32_t, T>(x, y)`. -/
def encode2u32 (R : Rounding K p) (P : K × K) : Option (BitVec 32) := encode2 R encode2_32 max2D32 P.1 P.2
/-- `mortonEncode<uint64_t, T>(x, y)`; `T` is `double` (static_assert, morton.hpp 346). -/
def encode2u64 (R : Rounding K p) (P : K × K) : Option (BitVec 64) := encode2 R encode2_64 max2D64 P.1 P.2
/-- `mortonEncode<uint32_t, T>(x, y, z)`. -/
def encode3u32 (R : Rounding K p) (P : K × K × K) : Option (BitVec 32) := encode3 R encode3_32 max3D32 P.1 P.2.1 P.2.2
/-- `mortonEncode<uint64_t, T>(x, y, z)`. -/
def encode3u64 (R : Rounding K p) (P : K × K × K) : Option (BitVec 64) := encode3 R encode3_64 max3D64 P.1 P.2.1 P.2.2
/-- `mortonDecode<uint32_t, T>(morton, x, y)`. -/
def decode2u32 (R : Rounding K p) (m : BitVec 32) : K × K := decode2 R decode2_32 max2D32 m
/-- `mortonDecode<uint64_t, T>(morton, x, y)`. -/
def decode2u64 (R : Rounding K p) (m : BitVec 64) : K × K := decode2 R decode2_64 max2D64 m
/-- `mortonDecode<uint32_t, T>(morton, x, y, z)`. -/
def decode3u32 (R : Rounding K p) (m : BitVec 32) : K × K × K := decode3 R decode3_32 max3D32 m
/-- `mortonDecode<uint64_t, T>(morton, x, y, z)`. -/
def decode3u64 (R : Rounding K p) (m : BitVec 64) : K × K × K := decode3 R decode3_64 max3D64 m

/-- The scaling of a coordinate in `FaceVertexMesh::mortonSortVertices` and `mortonSortFaces`: `inv_scale = 1 / aabb.extents()`, the extent of a
coordinate is `maxima - minima` (face_vertex_mesh.cpp 134-135 and 155-156, axis_aligned_box.hpp), `begin[i] * scale` (morton_sort_points.hpp 100). -/
def scaled (R : Rounding K p) (lo hi x : K) : K := R.rnd (x * R.rnd (1 / R.rnd (hi - lo)))

end Verif.Fp
