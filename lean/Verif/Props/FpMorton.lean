import Verif.Lemmas.FpMorton
import Verif.Props.Morton
import Verif.Props.MortonPoints
import Mathlib.Data.Rat.Floor

/-! C123: Morton codes of floating-point coordinates. -/

namespace Verif.FpMortonP

open Verif.Fp Verif.Morton Verif.MortonPoints

variable {K : Type} [Field K] [LinearOrder K] [IsStrictOrderedRing K] [FloorRing K] {p : ℕ}

/-- The precision of `float` or of `double`. -/
def Builtin (p : ℕ) : Prop := p = 24 ∨ p = 53

/-- Coordinate `x` is in cell `a` of a division of `[0, 1]` into cells of width `1 / M`; at the lower end of the cell up to a relative error
of `2 ^ -p`. -/
def InCell (K : Type) [Field K] [LinearOrder K] (p M a : ℕ) (x : K) : Prop := a ≤ M ∧ x * M < a + 1 ∧ (a : K) ≤ x * M * (1 + 1 / 2 ^ p)

theorem fits_10 (h : Builtin p) : Fits p 10 := by rcases h with rfl | rfl <;> (refine ⟨by norm_num, by norm_num, ?_⟩; decide +kernel)
theorem fits_16 (h : Builtin p) : Fits p 16 := by rcases h with rfl | rfl <;> (refine ⟨by norm_num, by norm_num, ?_⟩; decide +kernel)
theorem fits_21 (h : Builtin p) : Fits p 21 := by rcases h with rfl | rfl <;> (refine ⟨by norm_num, by norm_num, ?_⟩; decide +kernel)
theorem fits_32 : Fits 53 32 := ⟨by norm_num, by norm_num, by decide +kernel⟩

variable (R : Rounding K p)

section
variable {w n : ℕ} (f : Fits p n) {mx : BitVec w} (hm : mx.toNat = 2 ^ n - 1)

include f hm in
theorem cell {x : K} (h : 0 ≤ x ∧ x ≤ 1) : ∃ a, quantise R mx x = some a ∧ a ≤ mx ∧ InCell K p mx.toNat a.toNat x := by
  obtain ⟨a, h1, h2, h3⟩ := quantise_spec R f hm h.1 h.2
  exact ⟨a, h1, h2, h2, quantise_near R f hm h.1 h.2 h3⟩

include f hm in
theorem cell_mono {x y : K} (h0 : 0 ≤ x) (h : x ≤ y) (h1 : y ≤ 1) : ∃ a b, quantise R mx x = some a ∧ quantise R mx y = some b ∧ a ≤ b ∧ b ≤ mx := by
  obtain ⟨a, a1, a2, a3⟩ := quantise_spec R f hm h0 (h.trans h1)
  obtain ⟨b, b1, b2, b3⟩ := quantise_spec R f hm (h0.trans h) h1
  refine ⟨a, b, a1, b1, ?_, b2⟩
  change a.toNat ≤ b.toNat
  have := Int.floor_le_floor (R.mono (mul_le_mul_of_nonneg_right h (Nat.cast_nonneg mx.toNat)))
  omega

include f hm in
theorem restore_unit {a : BitVec w} (ha : a ≤ mx) : restore R mx a = R.rnd ((a.toNat : K) / mx.toNat) ∧ 0 ≤ restore R mx a ∧ restore R mx a ≤ 1 := by
  obtain ⟨M1, M0, hp⟩ := fits_lt f
  have ha' : a.toNat ≤ mx.toNat := ha
  have hM : (0 : K) < mx.toNat := by rw [hm]; exact_mod_cast M0
  have e : restore R mx a = R.rnd ((a.toNat : K) / mx.toNat) := by
    unfold restore ofU
    rw [R.id (isFp_nat hp (by omega)), R.id (isFp_nat hp (by omega))]
  refine ⟨e, ?_, ?_⟩
  · rw [e]; exact R.ge_of_ge (by positivity) isFp_zero
  · rw [e]
    refine R.le_of_le ?_ (by simpa using isFp_pow (K := K) hp 0)
    rw [div_le_one hM]; exact_mod_cast ha'

include f hm in
theorem restore_quantise {a : BitVec w} (ha : a ≤ mx) : quantise R mx (restore R mx a) = some a := by
  obtain ⟨e, u0, u1⟩ := restore_unit R f hm ha
  obtain ⟨b, b1, b2, b3⟩ := quantise_spec R f hm u0 u1
  have ha' : a.toNat ≤ 2 ^ n - 1 := hm ▸ (show a.toNat ≤ mx.toNat from ha)
  rw [e, hm, restore_floor R f ha'] at b3
  rw [b1]
  congr 1
  exact BitVec.eq_of_toNat_eq (by exact_mod_cast b3)

include f hm in
theorem quantise_restore {x : K} (h0 : 0 ≤ x) (h1 : x ≤ 1) {a : BitVec w} (h : quantise R mx x = some a) :
    |restore R mx a - x| ≤ 1 / mx.toNat + 2 / 2 ^ p := by
  obtain ⟨M1, M0, hp⟩ := fits_lt f
  have hM : (0 : K) < mx.toNat := by rw [hm]; exact_mod_cast M0
  obtain ⟨b, b1, b2, b3, b4, b5⟩ := cell R f hm ⟨h0, h1⟩
  obtain rfl := Option.some.inj (h.symm.trans b1)
  obtain ⟨e, -, -⟩ := restore_unit R f hm b2
  have r := rel_u R hp ((a.toNat : K) / mx.toNat)
  rw [← e] at r
  have hq : (a.toNat : K) / mx.toNat ≤ 1 := by rw [div_le_one hM]; exact_mod_cast b3
  have hq0 : 0 ≤ (a.toNat : K) / mx.toNat := by positivity
  have hu : (0 : K) < 1 / 2 ^ p := by positivity
  rw [abs_of_nonneg hq0] at r
  have lo : x ≤ (a.toNat : K) / mx.toNat + 1 / mx.toNat := by
    rw [← add_div, le_div_iff₀ hM]; exact b4.le
  have hi : (a.toNat : K) / mx.toNat ≤ x + 1 / 2 ^ p := by
    rw [div_le_iff₀ hM]
    have : x * (mx.toNat * (1 / 2 ^ p)) ≤ 1 * (mx.toNat * (1 / 2 ^ p)) := mul_le_mul_of_nonneg_right h1 (by positivity)
    linarith
  have im : (0 : K) < 1 / mx.toNat := by positivity
  rw [show (2 : K) / 2 ^ p = 2 * (1 / 2 ^ p) by ring]
  have := abs_le.1 r
  rw [abs_le]
  generalize (1 : K) / 2 ^ p = u at *
  constructor <;> nlinarith

end

/-! ### 2 dimensions, `uint32_t` -/

/-- The code of a point of the unit square is defined and names the cells of its coordinates. -/
theorem C123_code2_u32 (h : Builtin p) {P : K × K} (hP : InUnit2 P) :
    ∃ a b m : BitVec 32, encode2u32 R P = some m ∧ IsInterleave2 m a b ∧ InCell K p 65535 a.toNat P.1 ∧ InCell K p 65535 b.toNat P.2 := by
  obtain ⟨a, a1, a2, a3⟩ := cell R (mx := max2D32) (n := 16) (fits_16 h) (by decide) hP.1
  obtain ⟨b, b1, b2, b3⟩ := cell R (mx := max2D32) (n := 16) (fits_16 h) (by decide) hP.2
  refine ⟨a, b, encode2_32 a b, ?_, C14_encode2_32 a b a2 b2, a3, b3⟩
  unfold encode2u32 encode2
  rw [if_pos ⟨hP.1.1, hP.2.1, hP.1.2, hP.2.2⟩, a1, b1]; rfl

/-- A point that is in each coordinate at most another one does not get a larger code. -/
theorem C123_monotone2_u32 (h : Builtin p) {P Q : K × K} (hP : InUnit2 P) (hQ : InUnit2 Q)
    (hx : P.1 ≤ Q.1) (hy : P.2 ≤ Q.2) : ∃ m m', encode2u32 R P = some m ∧ encode2u32 R Q = some m' ∧ m ≤ m' := by
  obtain ⟨a, a', a1, a2, a3, a4⟩ := cell_mono R (mx := max2D32) (n := 16) (fits_16 h) (by decide) hP.1.1 hx hQ.1.2
  obtain ⟨b, b', b1, b2, b3, b4⟩ := cell_mono R (mx := max2D32) (n := 16) (fits_16 h) (by decide) hP.2.1 hy hQ.2.2
  refine ⟨encode2_32 a b, encode2_32 a' b', ?_, ?_, (C15_monotone2_32 _ _ _ _ a4 b4 a3 b3).1⟩
  · unfold encode2u32 encode2
    rw [if_pos ⟨hP.1.1, hP.2.1, hP.1.2, hP.2.2⟩, a1, b1]; rfl
  · unfold encode2u32 encode2
    rw [if_pos ⟨hQ.1.1, hQ.2.1, hQ.1.2, hQ.2.2⟩, a2, b2]; rfl

/-- No code is lost: the decoded coordinates are in the unit square and have the same code. -/
theorem C123_roundtrip2_u32 (h : Builtin p) (m : BitVec 32) : InUnit2 (decode2u32 R m) ∧ encode2u32 R (decode2u32 R m) = some m := by
  obtain ⟨d1, d2, d3⟩ := C14_decode2_encode_32 m
  have u1 := (restore_unit R (mx := max2D32) (n := 16) (fits_16 h) (by decide) d1).2
  have u2 := (restore_unit R (mx := max2D32) (n := 16) (fits_16 h) (by decide) d2).2
  refine ⟨⟨u1, u2⟩, ?_⟩
  unfold encode2u32 encode2
  rw [if_pos ⟨u1.1, u2.1, u1.2, u2.2⟩]
  unfold decode2u32 decode2
  rw [restore_quantise R (mx := max2D32) (n := 16) (fits_16 h) (by decide) d1, restore_quantise R (mx := max2D32) (n := 16) (fits_16 h) (by decide) d2]
  exact congrArg some d3

/-- The coordinates that are decoded from the code of a point are near to it. -/
theorem C123_near2_u32 (h : Builtin p) {P : K × K} (hP : InUnit2 P) : ∃ m, encode2u32 R P = some m ∧
    |(decode2u32 R m).1 - P.1| ≤ 1 / 65535 + 2 / 2 ^ p ∧ |(decode2u32 R m).2 - P.2| ≤ 1 / 65535 + 2 / 2 ^ p := by
  obtain ⟨a, a1, a2, -⟩ := cell R (mx := max2D32) (n := 16) (fits_16 h) (by decide) hP.1
  obtain ⟨b, b1, b2, -⟩ := cell R (mx := max2D32) (n := 16) (fits_16 h) (by decide) hP.2
  have rt := C14_roundtrip2_32 a b a2 b2
  refine ⟨encode2_32 a b, ?_, ?_, ?_⟩
  · unfold encode2u32 encode2
    rw [if_pos ⟨hP.1.1, hP.2.1, hP.1.2, hP.2.2⟩, a1, b1]; rfl
  · have := quantise_restore R (mx := max2D32) (n := 16) (fits_16 h) (by decide) hP.1.1 hP.1.2 a1
    unfold decode2u32 decode2
    rw [rt]
    exact this
  · have := quantise_restore R (mx := max2D32) (n := 16) (fits_16 h) (by decide) hP.2.1 hP.2.2 b1
    unfold decode2u32 decode2
    rw [rt]
    exact this

/-! ### 2 dimensions, `uint64_t` -/

/-- The code of a point of the unit square is defined and names the cells of its coordinates. -/
theorem C123_code2_u64 (R : Rounding K 53) {P : K × K} (hP : InUnit2 P) :
    ∃ a b m : BitVec 64, encode2u64 R P = some m ∧ IsInterleave2 m a b ∧ InCell K 53 4294967295 a.toNat P.1 ∧ InCell K 53 4294967295 b.toNat P.2 := by
  obtain ⟨a, a1, a2, a3⟩ := cell R (mx := max2D64) (n := 32) fits_32 (by decide) hP.1
  obtain ⟨b, b1, b2, b3⟩ := cell R (mx := max2D64) (n := 32) fits_32 (by decide) hP.2
  refine ⟨a, b, encode2_64 a b, ?_, C14_encode2_64 a b a2 b2, a3, b3⟩
  unfold encode2u64 encode2
  rw [if_pos ⟨hP.1.1, hP.2.1, hP.1.2, hP.2.2⟩, a1, b1]; rfl

/-- A point that is in each coordinate at most another one does not get a larger code. -/
theorem C123_monotone2_u64 (R : Rounding K 53) {P Q : K × K} (hP : InUnit2 P) (hQ : InUnit2 Q)
    (hx : P.1 ≤ Q.1) (hy : P.2 ≤ Q.2) : ∃ m m', encode2u64 R P = some m ∧ encode2u64 R Q = some m' ∧ m ≤ m' := by
  obtain ⟨a, a', a1, a2, a3, a4⟩ := cell_mono R (mx := max2D64) (n := 32) fits_32 (by decide) hP.1.1 hx hQ.1.2
  obtain ⟨b, b', b1, b2, b3, b4⟩ := cell_mono R (mx := max2D64) (n := 32) fits_32 (by decide) hP.2.1 hy hQ.2.2
  refine ⟨encode2_64 a b, encode2_64 a' b', ?_, ?_, (C15_monotone2_64 _ _ _ _ a4 b4 a3 b3).1⟩
  · unfold encode2u64 encode2
    rw [if_pos ⟨hP.1.1, hP.2.1, hP.1.2, hP.2.2⟩, a1, b1]; rfl
  · unfold encode2u64 encode2
    rw [if_pos ⟨hQ.1.1, hQ.2.1, hQ.1.2, hQ.2.2⟩, a2, b2]; rfl

/-- No code is lost: the decoded coordinates are in the unit square and have the same code. -/
theorem C123_roundtrip2_u64 (R : Rounding K 53) (m : BitVec 64) : InUnit2 (decode2u64 R m) ∧ encode2u64 R (decode2u64 R m) = some m := by
  obtain ⟨d1, d2, d3⟩ := C14_decode2_encode_64 m
  have u1 := (restore_unit R (mx := max2D64) (n := 32) fits_32 (by decide) d1).2
  have u2 := (restore_unit R (mx := max2D64) (n := 32) fits_32 (by decide) d2).2
  refine ⟨⟨u1, u2⟩, ?_⟩
  unfold encode2u64 encode2
  rw [if_pos ⟨u1.1, u2.1, u1.2, u2.2⟩]
  unfold decode2u64 decode2
  rw [restore_quantise R (mx := max2D64) (n := 32) fits_32 (by decide) d1, restore_quantise R (mx := max2D64) (n := 32) fits_32 (by decide) d2]
  exact congrArg some d3

/-- The coordinates that are decoded from the code of a point are near to it. -/
theorem C123_near2_u64 (R : Rounding K 53) {P : K × K} (hP : InUnit2 P) : ∃ m, encode2u64 R P = some m ∧
    |(decode2u64 R m).1 - P.1| ≤ 1 / 4294967295 + 2 / 2 ^ 53 ∧ |(decode2u64 R m).2 - P.2| ≤ 1 / 4294967295 + 2 / 2 ^ 53 := by
  obtain ⟨a, a1, a2, -⟩ := cell R (mx := max2D64) (n := 32) fits_32 (by decide) hP.1
  obtain ⟨b, b1, b2, -⟩ := cell R (mx := max2D64) (n := 32) fits_32 (by decide) hP.2
  have rt := C14_roundtrip2_64 a b a2 b2
  refine ⟨encode2_64 a b, ?_, ?_, ?_⟩
  · unfold encode2u64 encode2
    rw [if_pos ⟨hP.1.1, hP.2.1, hP.1.2, hP.2.2⟩, a1, b1]; rfl
  · have := quantise_restore R (mx := max2D64) (n := 32) fits_32 (by decide) hP.1.1 hP.1.2 a1
    unfold decode2u64 decode2
    rw [rt]
    exact this
  · have := quantise_restore R (mx := max2D64) (n := 32) fits_32 (by decide) hP.2.1 hP.2.2 b1
    unfold decode2u64 decode2
    rw [rt]
    exact this

/-! ### 3 dimensions, `uint32_t` -/

/-- The code of a point of the unit cube is defined and names the cells of its coordinates. -/
theorem C123_code3_u32 (h : Builtin p) {P : K × K × K} (hP : InUnit3 P) :
    ∃ a b c m : BitVec 32, encode3u32 R P = some m ∧ IsInterleave3 m a b c ∧ InCell K p 1023 a.toNat P.1 ∧ InCell K p 1023 b.toNat P.2.1 ∧ InCell K p 1023 c.toNat P.2.2 := by
  obtain ⟨a, a1, a2, a3⟩ := cell R (mx := max3D32) (n := 10) (fits_10 h) (by decide) hP.1
  obtain ⟨b, b1, b2, b3⟩ := cell R (mx := max3D32) (n := 10) (fits_10 h) (by decide) hP.2.1
  obtain ⟨c, c1, c2, c3⟩ := cell R (mx := max3D32) (n := 10) (fits_10 h) (by decide) hP.2.2
  refine ⟨a, b, c, encode3_32 a b c, ?_, C14_encode3_32 a b c a2 b2 c2, a3, b3, c3⟩
  unfold encode3u32 encode3
  rw [if_pos ⟨hP.1.1, hP.2.1.1, hP.2.2.1, hP.1.2, hP.2.1.2, hP.2.2.2⟩, a1, b1, c1]; rfl

/-- A point that is in each coordinate at most another one does not get a larger code. -/
theorem C123_monotone3_u32 (h : Builtin p) {P Q : K × K × K} (hP : InUnit3 P) (hQ : InUnit3 Q)
    (hx : P.1 ≤ Q.1) (hy : P.2.1 ≤ Q.2.1) (hz : P.2.2 ≤ Q.2.2) : ∃ m m', encode3u32 R P = some m ∧ encode3u32 R Q = some m' ∧ m ≤ m' := by
  obtain ⟨a, a', a1, a2, a3, a4⟩ := cell_mono R (mx := max3D32) (n := 10) (fits_10 h) (by decide) hP.1.1 hx hQ.1.2
  obtain ⟨b, b', b1, b2, b3, b4⟩ := cell_mono R (mx := max3D32) (n := 10) (fits_10 h) (by decide) hP.2.1.1 hy hQ.2.1.2
  obtain ⟨c, c', c1, c2, c3, c4⟩ := cell_mono R (mx := max3D32) (n := 10) (fits_10 h) (by decide) hP.2.2.1 hz hQ.2.2.2
  refine ⟨encode3_32 a b c, encode3_32 a' b' c', ?_, ?_, (C15_monotone3_32 _ _ _ _ _ _ a4 b4 c4 a3 b3 c3).1⟩
  · unfold encode3u32 encode3
    rw [if_pos ⟨hP.1.1, hP.2.1.1, hP.2.2.1, hP.1.2, hP.2.1.2, hP.2.2.2⟩, a1, b1, c1]; rfl
  · unfold encode3u32 encode3
    rw [if_pos ⟨hQ.1.1, hQ.2.1.1, hQ.2.2.1, hQ.1.2, hQ.2.1.2, hQ.2.2.2⟩, a2, b2, c2]; rfl

/-- No code is lost: the coordinates that are decoded from the code of three integers are in the unit cube and have the same code. -/
theorem C123_roundtrip3_u32 (h : Builtin p) {a b c m : BitVec 32} (ha : a ≤ max3D32) (hb : b ≤ max3D32) (hc : c ≤ max3D32) (hm : IsInterleave3 m a b c) :
    InUnit3 (decode3u32 R m) ∧ encode3u32 R (decode3u32 R m) = some m := by
  obtain rfl : encode3_32 a b c = m := by
    have e := C14_encode3_32 a b c ha hb hc
    exact BitVec.eq_of_getLsbD_eq fun i hi => (e i hi).trans (hm i hi).symm
  have rt := C14_roundtrip3_32 a b c ha hb hc
  have u1 := (restore_unit R (mx := max3D32) (n := 10) (fits_10 h) (by decide) ha).2
  have u2 := (restore_unit R (mx := max3D32) (n := 10) (fits_10 h) (by decide) hb).2
  have u3 := (restore_unit R (mx := max3D32) (n := 10) (fits_10 h) (by decide) hc).2
  have e : decode3u32 R (encode3_32 a b c) = (restore R max3D32 a, restore R max3D32 b, restore R max3D32 c) := by
    unfold decode3u32 decode3; rw [rt]
  rw [e]
  refine ⟨⟨u1, u2, u3⟩, ?_⟩
  unfold encode3u32 encode3
  rw [if_pos ⟨u1.1, u2.1, u3.1, u1.2, u2.2, u3.2⟩, restore_quantise R (mx := max3D32) (n := 10) (fits_10 h) (by decide) ha, restore_quantise R (mx := max3D32) (n := 10) (fits_10 h) (by decide) hb, restore_quantise R (mx := max3D32) (n := 10) (fits_10 h) (by decide) hc]
  rfl

/-- The coordinates that are decoded from the code of a point are near to it. -/
theorem C123_near3_u32 (h : Builtin p) {P : K × K × K} (hP : InUnit3 P) : ∃ m, encode3u32 R P = some m ∧
    |(decode3u32 R m).1 - P.1| ≤ 1 / 1023 + 2 / 2 ^ p ∧ |(decode3u32 R m).2.1 - P.2.1| ≤ 1 / 1023 + 2 / 2 ^ p ∧ |(decode3u32 R m).2.2 - P.2.2| ≤ 1 / 1023 + 2 / 2 ^ p := by
  obtain ⟨a, a1, a2, -⟩ := cell R (mx := max3D32) (n := 10) (fits_10 h) (by decide) hP.1
  obtain ⟨b, b1, b2, -⟩ := cell R (mx := max3D32) (n := 10) (fits_10 h) (by decide) hP.2.1
  obtain ⟨c, c1, c2, -⟩ := cell R (mx := max3D32) (n := 10) (fits_10 h) (by decide) hP.2.2
  have rt := C14_roundtrip3_32 a b c a2 b2 c2
  refine ⟨encode3_32 a b c, ?_, ?_, ?_, ?_⟩
  · unfold encode3u32 encode3
    rw [if_pos ⟨hP.1.1, hP.2.1.1, hP.2.2.1, hP.1.2, hP.2.1.2, hP.2.2.2⟩, a1, b1, c1]; rfl
  · have := quantise_restore R (mx := max3D32) (n := 10) (fits_10 h) (by decide) hP.1.1 hP.1.2 a1
    unfold decode3u32 decode3
    rw [rt]
    exact this
  · have := quantise_restore R (mx := max3D32) (n := 10) (fits_10 h) (by decide) hP.2.1.1 hP.2.1.2 b1
    unfold decode3u32 decode3
    rw [rt]
    exact this
  · have := quantise_restore R (mx := max3D32) (n := 10) (fits_10 h) (by decide) hP.2.2.1 hP.2.2.2 c1
    unfold decode3u32 decode3
    rw [rt]
    exact this

/-! ### 3 dimensions, `uint64_t` -/

/-- The code of a point of the unit cube is defined and names the cells of its coordinates. -/
theorem C123_code3_u64 (h : Builtin p) {P : K × K × K} (hP : InUnit3 P) :
    ∃ a b c m : BitVec 64, encode3u64 R P = some m ∧ IsInterleave3 m a b c ∧ InCell K p 2097151 a.toNat P.1 ∧ InCell K p 2097151 b.toNat P.2.1 ∧ InCell K p 2097151 c.toNat P.2.2 := by
  obtain ⟨a, a1, a2, a3⟩ := cell R (mx := max3D64) (n := 21) (fits_21 h) (by decide) hP.1
  obtain ⟨b, b1, b2, b3⟩ := cell R (mx := max3D64) (n := 21) (fits_21 h) (by decide) hP.2.1
  obtain ⟨c, c1, c2, c3⟩ := cell R (mx := max3D64) (n := 21) (fits_21 h) (by decide) hP.2.2
  refine ⟨a, b, c, encode3_64 a b c, ?_, C14_encode3_64 a b c a2 b2 c2, a3, b3, c3⟩
  unfold encode3u64 encode3
  rw [if_pos ⟨hP.1.1, hP.2.1.1, hP.2.2.1, hP.1.2, hP.2.1.2, hP.2.2.2⟩, a1, b1, c1]; rfl

/-- A point that is in each coordinate at most another one does not get a larger code. -/
theorem C123_monotone3_u64 (h : Builtin p) {P Q : K × K × K} (hP : InUnit3 P) (hQ : InUnit3 Q)
    (hx : P.1 ≤ Q.1) (hy : P.2.1 ≤ Q.2.1) (hz : P.2.2 ≤ Q.2.2) : ∃ m m', encode3u64 R P = some m ∧ encode3u64 R Q = some m' ∧ m ≤ m' := by
  obtain ⟨a, a', a1, a2, a3, a4⟩ := cell_mono R (mx := max3D64) (n := 21) (fits_21 h) (by decide) hP.1.1 hx hQ.1.2
  obtain ⟨b, b', b1, b2, b3, b4⟩ := cell_mono R (mx := max3D64) (n := 21) (fits_21 h) (by decide) hP.2.1.1 hy hQ.2.1.2
  obtain ⟨c, c', c1, c2, c3, c4⟩ := cell_mono R (mx := max3D64) (n := 21) (fits_21 h) (by decide) hP.2.2.1 hz hQ.2.2.2
  refine ⟨encode3_64 a b c, encode3_64 a' b' c', ?_, ?_, (C15_monotone3_64 _ _ _ _ _ _ a4 b4 c4 a3 b3 c3).1⟩
  · unfold encode3u64 encode3
    rw [if_pos ⟨hP.1.1, hP.2.1.1, hP.2.2.1, hP.1.2, hP.2.1.2, hP.2.2.2⟩, a1, b1, c1]; rfl
  · unfold encode3u64 encode3
    rw [if_pos ⟨hQ.1.1, hQ.2.1.1, hQ.2.2.1, hQ.1.2, hQ.2.1.2, hQ.2.2.2⟩, a2, b2, c2]; rfl

/-- No code is lost: the coordinates that are decoded from the code of three integers are in the unit cube and have the same code. -/
theorem C123_roundtrip3_u64 (h : Builtin p) {a b c m : BitVec 64} (ha : a ≤ max3D64) (hb : b ≤ max3D64) (hc : c ≤ max3D64) (hm : IsInterleave3 m a b c) :
    InUnit3 (decode3u64 R m) ∧ encode3u64 R (decode3u64 R m) = some m := by
  obtain rfl : encode3_64 a b c = m := by
    have e := C14_encode3_64 a b c ha hb hc
    exact BitVec.eq_of_getLsbD_eq fun i hi => (e i hi).trans (hm i hi).symm
  have rt := C14_roundtrip3_64 a b c ha hb hc
  have u1 := (restore_unit R (mx := max3D64) (n := 21) (fits_21 h) (by decide) ha).2
  have u2 := (restore_unit R (mx := max3D64) (n := 21) (fits_21 h) (by decide) hb).2
  have u3 := (restore_unit R (mx := max3D64) (n := 21) (fits_21 h) (by decide) hc).2
  have e : decode3u64 R (encode3_64 a b c) = (restore R max3D64 a, restore R max3D64 b, restore R max3D64 c) := by
    unfold decode3u64 decode3; rw [rt]
  rw [e]
  refine ⟨⟨u1, u2, u3⟩, ?_⟩
  unfold encode3u64 encode3
  rw [if_pos ⟨u1.1, u2.1, u3.1, u1.2, u2.2, u3.2⟩, restore_quantise R (mx := max3D64) (n := 21) (fits_21 h) (by decide) ha, restore_quantise R (mx := max3D64) (n := 21) (fits_21 h) (by decide) hb, restore_quantise R (mx := max3D64) (n := 21) (fits_21 h) (by decide) hc]
  rfl

/-- The coordinates that are decoded from the code of a point are near to it. -/
theorem C123_near3_u64 (h : Builtin p) {P : K × K × K} (hP : InUnit3 P) : ∃ m, encode3u64 R P = some m ∧
    |(decode3u64 R m).1 - P.1| ≤ 1 / 2097151 + 2 / 2 ^ p ∧ |(decode3u64 R m).2.1 - P.2.1| ≤ 1 / 2097151 + 2 / 2 ^ p ∧ |(decode3u64 R m).2.2 - P.2.2| ≤ 1 / 2097151 + 2 / 2 ^ p := by
  obtain ⟨a, a1, a2, -⟩ := cell R (mx := max3D64) (n := 21) (fits_21 h) (by decide) hP.1
  obtain ⟨b, b1, b2, -⟩ := cell R (mx := max3D64) (n := 21) (fits_21 h) (by decide) hP.2.1
  obtain ⟨c, c1, c2, -⟩ := cell R (mx := max3D64) (n := 21) (fits_21 h) (by decide) hP.2.2
  have rt := C14_roundtrip3_64 a b c a2 b2 c2
  refine ⟨encode3_64 a b c, ?_, ?_, ?_, ?_⟩
  · unfold encode3u64 encode3
    rw [if_pos ⟨hP.1.1, hP.2.1.1, hP.2.2.1, hP.1.2, hP.2.1.2, hP.2.2.2⟩, a1, b1, c1]; rfl
  · have := quantise_restore R (mx := max3D64) (n := 21) (fits_21 h) (by decide) hP.1.1 hP.1.2 a1
    unfold decode3u64 decode3
    rw [rt]
    exact this
  · have := quantise_restore R (mx := max3D64) (n := 21) (fits_21 h) (by decide) hP.2.1.1 hP.2.1.2 b1
    unfold decode3u64 decode3
    rw [rt]
    exact this
  · have := quantise_restore R (mx := max3D64) (n := 21) (fits_21 h) (by decide) hP.2.2.1 hP.2.2.2 c1
    unfold decode3u64 decode3
    rw [rt]
    exact this

/-! ### The sort of a mesh -/

/-- If the bounding box of a mesh begins at the origin, each of its coordinates is in the unit interval after the scaling, whatever is lost in the
reciprocal and in the product: the largest coordinate does not get above one. -/
theorem C123_scaled (hp : 1 ≤ p) {hi x : K} (hh : IsFp p hi) (h0 : 0 < hi) (hx0 : 0 ≤ x) (hx : x ≤ hi) : 0 ≤ scaled R 0 hi x ∧ scaled R 0 hi x ≤ 1 := by
  unfold scaled
  rw [sub_zero, R.id hh]
  exact scaled_le R hp h0 hx hx0

/-- The order of the coordinates is kept. -/
theorem C123_scaled_mono (hp : 1 ≤ p) {hi x y : K} (h0 : 0 < hi) (h : x ≤ y) : scaled R 0 hi x ≤ scaled R 0 hi y := by
  unfold scaled
  refine R.mono (mul_le_mul_of_nonneg_right h (R.pos hp ?_).le)
  have := R.pos hp (x := hi - 0) (by linarith)
  positivity

/-- With a bounding box that does not begin at the origin this is not so. -/
theorem C123_scaled_fails : ∃ lo hi x : ℚ, 0 < lo ∧ lo ≤ x ∧ x ≤ hi ∧ (∀ v ∈ [lo, hi, x], IsFp 53 v) ∧ ∀ R : Rounding ℚ 53, 1 < scaled R lo hi x := by
  have one : IsFp 53 (1 : ℚ) := ⟨1, 0, by norm_num, by norm_num⟩
  have two : IsFp 53 (2 : ℚ) := ⟨2, 0, by norm_num, by norm_num⟩
  refine ⟨1, 2, 2, by norm_num, by norm_num, by norm_num, ?_, fun R => ?_⟩
  · intro v hv
    simp only [List.mem_cons, List.not_mem_nil, or_false] at hv
    rcases hv with rfl | rfl | rfl <;> assumption
  · unfold scaled
    rw [show (2 : ℚ) - 1 = 1 by norm_num, R.id one, show (1 : ℚ) / 1 = 1 by norm_num, R.id one, mul_one, R.id two]
    norm_num

/-- The theorems apply to IEEE arithmetic.  A third is not a number of single precision; its cell is that of the exact number, and one third of
the last number is decoded to the same. -/
example : InUnit2 ((rne 24 (1 / 3) : ℚ), (1 : ℚ)) ∧ encode2u32 (ieee ℚ 24 (by norm_num)) (rne 24 (1 / 3), 1) = some 0xBBBBBBBB#32 ∧
    decode2u32 (ieee ℚ 24 (by norm_num)) 0xBBBBBBBB#32 = (rne 24 (1 / 3), 1) ∧ scaled (ieee ℚ 53 (by norm_num)) 0 49 49 = rne 53 (1 - 1 / 2 ^ 53) := by
  refine ⟨by unfold InUnit2; decide +kernel, by decide +kernel, by decide +kernel, by decide +kernel⟩

end Verif.FpMortonP
