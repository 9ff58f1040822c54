import Verif.Lemmas.Morton

/-!
# C14, C15: Morton codes

`portable` is the shift-and-mask code, `BMI` the code using the `pdep`/`pext` instructions.
The specification is `IsInterleave2`/`IsInterleave3`: it says, bit by bit, what the code is.
-/

namespace Verif.Morton

/-- Spec: even bits of `code` are the bits of `x`, odd bits are the bits of `y`. -/
def IsInterleave2 {w : Nat} (code x y : BitVec w) : Prop :=
  ∀ i, i < w → code.getLsbD i = if i % 2 = 0 then x.getLsbD (i / 2) else y.getLsbD (i / 2)

/-- Spec: bit `3j`, `3j+1`, `3j+2` of `code` is bit `j` of `x`, `y`, `z`. -/
def IsInterleave3 {w : Nat} (code x y z : BitVec w) : Prop :=
  ∀ i, i < w → code.getLsbD i =
    if i % 3 = 0 then x.getLsbD (i / 3)
    else if i % 3 = 1 then y.getLsbD (i / 3) else z.getLsbD (i / 3)

private theorem lt2_32 {x : BitVec 32} (h : x ≤ max2D32) : x.toNat < 2 ^ 16 := by
  have : x.toNat ≤ 65535 := h
  omega
private theorem lt2_64 {x : BitVec 64} (h : x ≤ max2D64) : x.toNat < 2 ^ 32 := by
  have : x.toNat ≤ 4294967295 := h
  omega
private theorem lt3_32 {x : BitVec 32} (h : x ≤ max3D32) : x.toNat < 2 ^ 10 := by
  have : x.toNat ≤ 1023 := h
  omega
private theorem lt3_64 {x : BitVec 64} (h : x ≤ max3D64) : x.toNat < 2 ^ 21 := by
  have : x.toNat ≤ 2097151 := h
  omega

/-! ## The instructions -/

theorem rank_mono {w : Nat} (m : BitVec w) {i j : Nat} (h : i ≤ j) : rank m i ≤ rank m j := by
  induction h with
  | refl => exact le_rfl
  | step _ ih => exact ih.trans (by simp [rank])

theorem selectFrom_some {w : Nat} (m : BitVec w) (fuel i k j : Nat) :
    selectFrom m fuel i k = some j ↔ i ≤ j ∧ j < i + fuel ∧ m.getLsbD j = true ∧ rank m j = rank m i + k := by
  induction fuel generalizing i k with
  | zero => simp [selectFrom]; omega
  | succ fuel ih =>
    rw [selectFrom.eq_def]
    dsimp only
    have hstep : rank m (i + 1) = rank m i + if m.getLsbD i then 1 else 0 := rfl
    by_cases hb : m.getLsbD i = true
    · rw [if_pos hb]
      rw [if_pos hb] at hstep
      cases k with
      | zero =>
        simp only [Option.some.injEq]
        constructor
        · rintro rfl
          exact ⟨le_rfl, by omega, hb, rfl⟩
        · rintro ⟨h1, -, -, h4⟩
          by_contra hne
          have := rank_mono m (show i + 1 ≤ j by omega)
          omega
      | succ k =>
        simp only [ih, hstep]
        constructor
        · rintro ⟨h1, h2, h3, h4⟩
          exact ⟨by omega, by omega, h3, by omega⟩
        · rintro ⟨h1, h2, h3, h4⟩
          have : i ≠ j := by rintro rfl; omega
          exact ⟨by omega, by omega, h3, by omega⟩
    · rw [if_neg hb]
      rw [if_neg hb] at hstep
      simp only [ih, hstep]
      constructor
      · rintro ⟨h1, h2, h3, h4⟩
        exact ⟨by omega, by omega, h3, by omega⟩
      · rintro ⟨h1, h2, h3, h4⟩
        have : i ≠ j := by rintro rfl; exact hb h3
        exact ⟨by omega, by omega, h3, by omega⟩

theorem rank_hit {w : Nat} (m : BitVec w) (n k : Nat) (h : k < rank m n) : ∃ j < n, m.getLsbD j = true ∧ rank m j = k := by
  induction n with
  | zero => simp [rank] at h
  | succ n ih =>
    rw [rank] at h
    by_cases hk : k < rank m n
    · obtain ⟨j, h1, h2⟩ := ih hk
      exact ⟨j, by omega, h2⟩
    · split_ifs at h with hb
      · exact ⟨n, by omega, hb, by omega⟩
      · omega

/-- C14: extracting undoes depositing, up to the bits that have no place, for every mask. -/
theorem C14_pext_pdep {w : Nat} (s m : BitVec w) (k : Nat) (hk : k < w) :
    (pext (pdep s m) m).getLsbD k = (s.getLsbD k && decide (k < rank m w)) := by
  rw [pext_bit _ _ k hk]
  cases h : selectFrom m w 0 k with
  | some j =>
    obtain ⟨-, h2, h3, h4⟩ := (selectFrom_some m w 0 k j).1 h
    have hr : rank m j = k := by simpa [rank] using h4
    have h5 : rank m (j + 1) ≤ rank m w := rank_mono m (by omega)
    rw [rank, if_pos h3, hr] at h5
    simp only
    rw [pdep_bit _ _ j (by omega), h3, hr]
    simp [show k < rank m w by omega]
  | none =>
    have : ¬ k < rank m w := by
      intro hlt
      obtain ⟨j, h1, h2, h3⟩ := rank_hit m w k hlt
      have := (selectFrom_some m w 0 k j).2 ⟨by omega, by omega, h2, by simpa [rank] using h3⟩
      rw [h] at this
      exact absurd this (by simp)
    simp [this]

/-- C14: depositing what was extracted gives the bits under the mask, for every mask. -/
theorem C14_pdep_pext {w : Nat} (s m : BitVec w) : pdep (pext s m) m = s &&& m := by
  refine BitVec.eq_of_getLsbD_eq fun i hi => ?_
  rw [pdep_bit _ _ i hi, BitVec.getLsbD_and]
  cases hm : m.getLsbD i with
  | false => simp
  | true =>
    have hlt : rank m i < w := by
      have : ∀ n, rank m n ≤ n := by
        intro n
        induction n with
        | zero => simp [rank]
        | succ n ih => rw [rank]; split_ifs <;> omega
      exact lt_of_le_of_lt (this i) hi
    rw [pext_bit _ _ _ hlt, (selectFrom_some m w 0 _ i).2 ⟨by omega, by omega, hm, by simp [rank]⟩]
    simp

example : pext (pdep (0b101 : BitVec 8) 0b01101000) 0b01101000 = 0b101 := by decide

/-! ## 32-bit codes -/

/-- C14: the portable 2D encoder interleaves the coordinate bits. -/
theorem C14_encode2_32 (x y : BitVec 32) (hx : x ≤ max2D32) (hy : y ≤ max2D32) :
    IsInterleave2 (encode2_32 x y) x y := by
  intro i hi
  rw [encode2_32, BitVec.getLsbD_or, pdep55_32_bit x (lt2_32 hx) i hi,
    shl_bits 1 (by omega) (Or.inl rfl) _ y (lt2_32 hy) (pdep55_32_bit y (lt2_32 hy)) i hi]
  rcases Nat.mod_two_eq_zero_or_one i with h | h <;> simp [h]

/-- C14: the BMI2 2D encoder interleaves the coordinate bits (for every input). -/
theorem C14_encode2BMI_32 (x y : BitVec 32) : IsInterleave2 (encode2BMI x y) x y := by
  intro i hi
  rw [encode2BMI, BitVec.getLsbD_or, pdep_strided strided_2x_32 _ _ hi,
    pdep_strided strided_2y_32 _ _ hi]
  rcases Nat.mod_two_eq_zero_or_one i with h | h <;> simp [h]

/-- C14: the portable 3D encoder interleaves the coordinate bits. -/
theorem C14_encode3_32 (x y z : BitVec 32) (hx : x ≤ max3D32) (hy : y ≤ max3D32)
    (hz : z ≤ max3D32) : IsInterleave3 (encode3_32 x y z) x y z := by
  intro i hi
  rw [encode3_32, BitVec.getLsbD_or, BitVec.getLsbD_or, pdep92_32_bit x (lt3_32 hx) i hi,
    shl_bits 1 (by omega) (Or.inr rfl) _ y (lt3_32 hy) (pdep92_32_bit y (lt3_32 hy)) i hi,
    shl_bits 2 (by omega) (Or.inr rfl) _ z (lt3_32 hz) (pdep92_32_bit z (lt3_32 hz)) i hi]
  have : i % 3 = 0 ∨ i % 3 = 1 ∨ i % 3 = 2 := by omega
  rcases this with h | h | h <;> simp [h]

/-- C14: the BMI2 3D encoder interleaves the coordinate bits (for every input). -/
theorem C14_encode3BMI_32 (x y z : BitVec 32) : IsInterleave3 (encode3BMI x y z) x y z := by
  intro i hi
  rw [encode3BMI, BitVec.getLsbD_or, BitVec.getLsbD_or, pdep_strided strided_3x_32 _ _ hi,
    pdep_strided strided_3y_32 _ _ hi, pdep_strided strided_3z_32 _ _ hi]
  have : i % 3 = 0 ∨ i % 3 = 1 ∨ i % 3 = 2 := by omega
  rcases this with h | h | h <;> simp [h]

/-- C14: both 2D encoders produce the same code. -/
theorem C14_encode2_agree_32 (x y : BitVec 32) (hx : x ≤ max2D32) (hy : y ≤ max2D32) :
    encode2BMI x y = encode2_32 x y := by
  apply BitVec.eq_of_getLsbD_eq
  intro i hi
  rw [C14_encode2BMI_32 x y i hi, C14_encode2_32 x y hx hy i hi]

/-- C14: both 3D encoders produce the same code. -/
theorem C14_encode3_agree_32 (x y z : BitVec 32) (hx : x ≤ max3D32) (hy : y ≤ max3D32)
    (hz : z ≤ max3D32) : encode3BMI x y z = encode3_32 x y z := by
  apply BitVec.eq_of_getLsbD_eq
  intro i hi
  rw [C14_encode3BMI_32 x y z i hi, C14_encode3_32 x y z hx hy hz i hi]

/-- C14: both 2D decoders agree on every code. -/
theorem C14_decode2_agree_32 (m : BitVec 32) : decode2BMI m = decode2_32 m := by
  have h1 : pext m (bmi2x 32) = pext55_32 m := by
    apply BitVec.eq_of_getLsbD_eq
    intro i hi
    rw [pext_strided strided_2x_32 _ _ hi, pext55_32_bit _ _ hi]
    by_cases c : i < 16
    · simp [c, show 2 * i < 32 by omega]
    · simp [c, show ¬ 2 * i < 32 by omega]
  have h2 : pext m (bmi2y 32) = pext55_32 (m >>> 1) := by
    apply BitVec.eq_of_getLsbD_eq
    intro i hi
    rw [pext_strided strided_2y_32 _ _ hi, pext55_32_bit _ _ hi]
    by_cases c : i < 16
    · simp [c, show 2 * i + 1 < 32 by omega, Nat.add_comm 1]
    · simp [c, show ¬ 2 * i + 1 < 32 by omega]
  simp [decode2BMI, decode2_32, h1, h2]

/-- C14: both 3D decoders agree on every code an encoder can return (no bit at or above
position 30). -/
theorem C14_decode3_agree_32 (m : BitVec 32) (hm : m.toNat < 2 ^ 30) :
    decode3BMI m = decode3_32 m := by
  have hz := high_zero' m 30 hm
  have h1 : pext m (bmi3x 32) = pext92_32 m := by
    apply BitVec.eq_of_getLsbD_eq
    intro i hi
    rw [pext_strided strided_3x_32 _ _ hi, pext92_32_bit _ _ hi]
    by_cases c : i < 10
    · simp [c, show 3 * i < 32 by omega]
    · simp [c, hz (3 * i) (by omega)]
  have h2 : pext m (bmi3y 32) = pext92_32 (m >>> 1) := by
    apply BitVec.eq_of_getLsbD_eq
    intro i hi
    rw [pext_strided strided_3y_32 _ _ hi, pext92_32_bit _ _ hi]
    by_cases c : i < 10
    · simp [c, show 3 * i + 1 < 32 by omega, Nat.add_comm 1]
    · simp [c, hz (3 * i + 1) (by omega)]
  have h3 : pext m (bmi3z 32) = pext92_32 (m >>> 2) := by
    apply BitVec.eq_of_getLsbD_eq
    intro i hi
    rw [pext_strided strided_3z_32 _ _ hi, pext92_32_bit _ _ hi]
    by_cases c : i < 10
    · simp [c, show 3 * i + 2 < 32 by omega, Nat.add_comm 2]
    · simp [c, hz (3 * i + 2) (by omega)]
  simp [decode3BMI, decode3_32, h1, h2, h3]

/-- C14: on a code with a bit above position 30 the two 3D decoders return different
coordinates, so the restriction in `C14_decode3_agree_32` is needed. -/
theorem C14_decode3_agree_32_fails :
    ∃ m : BitVec 32, decode3BMI m ≠ decode3_32 m := by
  refine ⟨BitVec.twoPow 32 30, fun h => ?_⟩
  have h0 := congrArg Prod.fst h
  simp only [decode3BMI, decode3_32] at h0
  have h1 := congrArg (fun q => BitVec.getLsbD q 10) h0
  rw [pext_strided strided_3x_32 _ _ (by norm_num), pext92_32_bit _ _ (by norm_num)] at h1
  simp at h1

/-- C14: every 3D code is below `2^30`. -/
theorem C14_encode3_32_lt (x y z : BitVec 32) (hx : x ≤ max3D32) (hy : y ≤ max3D32)
    (hz : z ≤ max3D32) : (encode3_32 x y z).toNat < 2 ^ 30 := by
  apply Nat.lt_pow_two_of_testBit
  intro i hi
  change (encode3_32 x y z).getLsbD i = false
  by_cases h : i < 32
  · rw [C14_encode3_32 x y z hx hy hz i h, high_zero' x 10 (lt3_32 hx) _ (by omega),
      high_zero' y 10 (lt3_32 hy) _ (by omega), high_zero' z 10 (lt3_32 hz) _ (by omega)]
    simp
  · exact BitVec.getLsbD_of_ge _ _ (by omega)

/-- C14: 2D round trip, portable code. -/
theorem C14_roundtrip2_32 (x y : BitVec 32) (hx : x ≤ max2D32) (hy : y ≤ max2D32) :
    decode2_32 (encode2_32 x y) = (x, y) := by
  have e := C14_encode2_32 x y hx hy
  have zx := high_zero' x 16 (lt2_32 hx)
  have zy := high_zero' y 16 (lt2_32 hy)
  refine Prod.ext ?_ ?_ <;> apply BitVec.eq_of_getLsbD_eq <;> intro i hi
  · simp only [decode2_32]
    rw [pext55_32_bit _ _ hi]
    by_cases c : i < 16
    · simp [c, e (2 * i) (by omega)]
    · simp [c, zx i (by omega)]
  · simp only [decode2_32]
    rw [pext55_32_bit _ _ hi, BitVec.getLsbD_ushiftRight]
    by_cases c : i < 16
    · rw [e (1 + 2 * i) (by omega), if_neg (by omega), show (1 + 2 * i) / 2 = i by omega]
      simp [c]
    · simp [c, zy i (by omega)]

/-- C14: 3D round trip, portable code. -/
theorem C14_roundtrip3_32 (x y z : BitVec 32) (hx : x ≤ max3D32) (hy : y ≤ max3D32)
    (hz : z ≤ max3D32) : decode3_32 (encode3_32 x y z) = (x, y, z) := by
  have e := C14_encode3_32 x y z hx hy hz
  have zx := high_zero' x 10 (lt3_32 hx)
  have zy := high_zero' y 10 (lt3_32 hy)
  have zz := high_zero' z 10 (lt3_32 hz)
  refine Prod.ext ?_ (Prod.ext ?_ ?_) <;> apply BitVec.eq_of_getLsbD_eq <;> intro i hi
  · simp only [decode3_32]
    rw [pext92_32_bit _ _ hi]
    by_cases c : i < 10
    · simp [c, e (3 * i) (by omega)]
    · simp [c, zx i (by omega)]
  · simp only [decode3_32]
    rw [pext92_32_bit _ _ hi, BitVec.getLsbD_ushiftRight]
    by_cases c : i < 10
    · rw [e (1 + 3 * i) (by omega), if_neg (by omega), if_pos (by omega),
        show (1 + 3 * i) / 3 = i by omega]
      simp [c]
    · simp [c, zy i (by omega)]
  · simp only [decode3_32]
    rw [pext92_32_bit _ _ hi, BitVec.getLsbD_ushiftRight]
    by_cases c : i < 10
    · rw [e (2 + 3 * i) (by omega), if_neg (by omega), if_neg (by omega),
        show (2 + 3 * i) / 3 = i by omega]
      simp [c]
    · simp [c, zz i (by omega)]

/-- C14: 2D round trip, BMI2 code. -/
theorem C14_roundtrip2BMI_32 (x y : BitVec 32) (hx : x ≤ max2D32) (hy : y ≤ max2D32) :
    decode2BMI (encode2BMI x y) = (x, y) := by
  rw [C14_decode2_agree_32, C14_encode2_agree_32 x y hx hy, C14_roundtrip2_32 x y hx hy]

/-- C14: 3D round trip, BMI2 code. -/
theorem C14_roundtrip3BMI_32 (x y z : BitVec 32) (hx : x ≤ max3D32) (hy : y ≤ max3D32)
    (hz : z ≤ max3D32) : decode3BMI (encode3BMI x y z) = (x, y, z) := by
  rw [C14_encode3_agree_32 x y z hx hy hz,
    C14_decode3_agree_32 _ (C14_encode3_32_lt x y z hx hy hz), C14_roundtrip3_32 x y z hx hy hz]

/-- C14: decoding loses nothing: every 2D code is the encoding of its decoded coordinates, and
these are in range. -/
theorem C14_decode2_encode_32 (m : BitVec 32) :
    (decode2_32 m).1 ≤ max2D32 ∧ (decode2_32 m).2 ≤ max2D32 ∧
      encode2_32 (decode2_32 m).1 (decode2_32 m).2 = m := by
  have bound : ∀ c : BitVec 32, pext55_32 c ≤ max2D32 := by
    intro c
    have : (pext55_32 c).toNat < 2 ^ 16 := by
      apply Nat.lt_pow_two_of_testBit
      intro i hi
      change (pext55_32 c).getLsbD i = false
      by_cases h : i < 32
      · rw [pext55_32_bit _ _ h]; simp [show ¬ i < 16 by omega]
      · exact BitVec.getLsbD_of_ge _ _ (by omega)
    change (pext55_32 c).toNat ≤ max2D32.toNat
    have e : max2D32.toNat = 2 ^ 16 - 1 := by decide
    omega
  refine ⟨bound _, bound _, ?_⟩
  apply BitVec.eq_of_getLsbD_eq
  intro i hi
  simp only [decode2_32]
  rw [C14_encode2_32 _ _ (bound _) (bound _) i hi]
  rw [pext55_32_bit _ _ (by omega), pext55_32_bit _ _ (by omega), BitVec.getLsbD_ushiftRight]
  rcases Nat.mod_two_eq_zero_or_one i with h | h
  · rw [if_pos h, show 2 * (i / 2) = i by omega]; simp [show i / 2 < 16 by omega]
  · rw [if_neg (by omega), show 1 + 2 * (i / 2) = i by omega]; simp [show i / 2 < 16 by omega]

private theorem toNat_encode2_32 (x y : BitVec 32) (hx : x ≤ max2D32) (hy : y ≤ max2D32) :
    (encode2_32 x y).toNat = spread 2 x.toNat + 2 * spread 2 y.toNat := by
  have bx := pdep55_32_bit x (lt2_32 hx)
  have by' := shl_bits (o := 0) 1 (by omega) (Or.inl rfl) _ y (lt2_32 hy)
    (pdep55_32_bit y (lt2_32 hy))
  have hz := and_zero (p := 2) (o := 0) (o' := 0 + 1) (by omega) _ _ x y bx by'
  rw [encode2_32, ← BitVec.add_eq_or_of_and_eq_zero _ _ hz, BitVec.toNat_add_of_and_eq_zero hz,
    toNat_of_bits (k := 16) (Or.inl rfl) (by omega) (by omega) _ x (lt2_32 hx) bx,
    toNat_of_bits (k := 16) (Or.inl rfl) (by omega) (by omega) _ y (lt2_32 hy) by']
  simp

private theorem toNat_encode3_32 (x y z : BitVec 32) (hx : x ≤ max3D32) (hy : y ≤ max3D32)
    (hz : z ≤ max3D32) : (encode3_32 x y z).toNat =
      spread 3 x.toNat + 2 * spread 3 y.toNat + 4 * spread 3 z.toNat := by
  have bx := pdep92_32_bit x (lt3_32 hx)
  have by' := shl_bits (o := 0) 1 (by omega) (Or.inr rfl) _ y (lt3_32 hy)
    (pdep92_32_bit y (lt3_32 hy))
  have bz := shl_bits (o := 0) 2 (by omega) (Or.inr rfl) _ z (lt3_32 hz)
    (pdep92_32_bit z (lt3_32 hz))
  have h1 := and_zero (p := 3) (o := 0) (o' := 0 + 1) (by omega) _ _ x y bx by'
  have h2 := and_zero (p := 3) (o := 0) (o' := 0 + 2) (by omega) _ _ x z bx bz
  have h3 := and_zero (p := 3) (o := 0 + 1) (o' := 0 + 2) (by omega) _ _ y z by' bz
  have h4 : (pdep92_32 x ||| pdep92_32 y <<< 1) &&& (pdep92_32 z <<< 2) = 0#32 := by
    apply BitVec.eq_of_getLsbD_eq
    intro i hi
    have a := congrArg (fun q => BitVec.getLsbD q i) h2
    have b := congrArg (fun q => BitVec.getLsbD q i) h3
    simp only [BitVec.getLsbD_and, BitVec.getLsbD_or] at a b ⊢
    rw [Bool.and_or_distrib_right, a, b]
    simp
  rw [encode3_32, ← BitVec.add_eq_or_of_and_eq_zero _ _ h4, BitVec.toNat_add_of_and_eq_zero h4,
    ← BitVec.add_eq_or_of_and_eq_zero _ _ h1, BitVec.toNat_add_of_and_eq_zero h1,
    toNat_of_bits (k := 10) (Or.inr rfl) (by omega) (by omega) _ x (lt3_32 hx) bx,
    toNat_of_bits (k := 10) (Or.inr rfl) (by omega) (by omega) _ y (lt3_32 hy) by',
    toNat_of_bits (k := 10) (Or.inr rfl) (by omega) (by omega) _ z (lt3_32 hz) bz]
  simp

/-- C15: distinct in-range 2D coordinates have distinct codes. -/
theorem C15_injective2_32 (x y x' y' : BitVec 32) (hx : x ≤ max2D32) (hy : y ≤ max2D32)
    (hx' : x' ≤ max2D32) (hy' : y' ≤ max2D32) (h : encode2_32 x y = encode2_32 x' y') :
    x = x' ∧ y = y' := by
  have a := C14_roundtrip2_32 x y hx hy
  rw [h, C14_roundtrip2_32 x' y' hx' hy'] at a
  exact ⟨(Prod.ext_iff.1 a).1.symm, (Prod.ext_iff.1 a).2.symm⟩

/-- C15: distinct in-range 3D coordinates have distinct codes. -/
theorem C15_injective3_32 (x y z x' y' z' : BitVec 32) (hx : x ≤ max3D32) (hy : y ≤ max3D32)
    (hz : z ≤ max3D32) (hx' : x' ≤ max3D32) (hy' : y' ≤ max3D32) (hz' : z' ≤ max3D32)
    (h : encode3_32 x y z = encode3_32 x' y' z') : x = x' ∧ y = y' ∧ z = z' := by
  have a := C14_roundtrip3_32 x y z hx hy hz
  rw [h, C14_roundtrip3_32 x' y' z' hx' hy' hz'] at a
  simp only [Prod.mk.injEq] at a
  exact ⟨a.1.symm, a.2.1.symm, a.2.2.symm⟩

private theorem spread_le_32 {p : Nat} (hp : 1 ≤ p) {a b : BitVec 32} (h : a ≤ b) :
    spread p a.toNat ≤ spread p b.toNat := by
  have h' : a.toNat ≤ b.toNat := h
  rcases Nat.lt_or_eq_of_le h' with l | e
  · exact le_of_lt (spread_lt hp l)
  · rw [e]

/-- C15: the 2D code is monotone in each coordinate, and strictly so. -/
theorem C15_monotone2_32 (x y x' y' : BitVec 32) (hx' : x' ≤ max2D32) (hy' : y' ≤ max2D32)
    (hx : x ≤ x') (hy : y ≤ y') :
    encode2_32 x y ≤ encode2_32 x' y' ∧
      ((x < x' ∨ y < y') → encode2_32 x y < encode2_32 x' y') := by
  have e1 := toNat_encode2_32 x y (BitVec.le_trans hx hx') (BitVec.le_trans hy hy')
  have e2 := toNat_encode2_32 x' y' hx' hy'
  have a := spread_le_32 (p := 2) (by omega) hx
  have b := spread_le_32 (p := 2) (by omega) hy
  constructor
  · change (encode2_32 x y).toNat ≤ (encode2_32 x' y').toNat
    omega
  · intro h
    change (encode2_32 x y).toNat < (encode2_32 x' y').toNat
    rcases h with h | h
    · have : spread 2 x.toNat < spread 2 x'.toNat := spread_lt (by omega) h
      omega
    · have : spread 2 y.toNat < spread 2 y'.toNat := spread_lt (by omega) h
      omega

/-- C15: the 3D code is monotone in each coordinate, and strictly so. -/
theorem C15_monotone3_32 (x y z x' y' z' : BitVec 32) (hx' : x' ≤ max3D32) (hy' : y' ≤ max3D32)
    (hz' : z' ≤ max3D32) (hx : x ≤ x') (hy : y ≤ y') (hz : z ≤ z') :
    encode3_32 x y z ≤ encode3_32 x' y' z' ∧
      ((x < x' ∨ y < y' ∨ z < z') → encode3_32 x y z < encode3_32 x' y' z') := by
  have e1 := toNat_encode3_32 x y z (BitVec.le_trans hx hx') (BitVec.le_trans hy hy')
    (BitVec.le_trans hz hz')
  have e2 := toNat_encode3_32 x' y' z' hx' hy' hz'
  have a := spread_le_32 (p := 3) (by omega) hx
  have b := spread_le_32 (p := 3) (by omega) hy
  have c := spread_le_32 (p := 3) (by omega) hz
  constructor
  · change (encode3_32 x y z).toNat ≤ (encode3_32 x' y' z').toNat
    omega
  · intro h
    change (encode3_32 x y z).toNat < (encode3_32 x' y' z').toNat
    rcases h with h | h | h
    · have : spread 3 x.toNat < spread 3 x'.toNat := spread_lt (by omega) h
      omega
    · have : spread 3 y.toNat < spread 3 y'.toNat := spread_lt (by omega) h
      omega
    · have : spread 3 z.toNat < spread 3 z'.toNat := spread_lt (by omega) h
      omega

/-! ## 64-bit codes -/

/-- C14: the portable 2D encoder interleaves the coordinate bits. -/
theorem C14_encode2_64 (x y : BitVec 64) (hx : x ≤ max2D64) (hy : y ≤ max2D64) :
    IsInterleave2 (encode2_64 x y) x y := by
  intro i hi
  rw [encode2_64, BitVec.getLsbD_or, pdep55_64_bit x (lt2_64 hx) i hi,
    shl_bits 1 (by omega) (Or.inl rfl) _ y (lt2_64 hy) (pdep55_64_bit y (lt2_64 hy)) i hi]
  rcases Nat.mod_two_eq_zero_or_one i with h | h <;> simp [h]

/-- C14: the BMI2 2D encoder interleaves the coordinate bits (for every input). -/
theorem C14_encode2BMI_64 (x y : BitVec 64) : IsInterleave2 (encode2BMI x y) x y := by
  intro i hi
  rw [encode2BMI, BitVec.getLsbD_or, pdep_strided strided_2x_64 _ _ hi,
    pdep_strided strided_2y_64 _ _ hi]
  rcases Nat.mod_two_eq_zero_or_one i with h | h <;> simp [h]

/-- C14: the portable 3D encoder interleaves the coordinate bits. -/
theorem C14_encode3_64 (x y z : BitVec 64) (hx : x ≤ max3D64) (hy : y ≤ max3D64)
    (hz : z ≤ max3D64) : IsInterleave3 (encode3_64 x y z) x y z := by
  intro i hi
  rw [encode3_64, BitVec.getLsbD_or, BitVec.getLsbD_or, pdep92_64_bit x (lt3_64 hx) i hi,
    shl_bits 1 (by omega) (Or.inr rfl) _ y (lt3_64 hy) (pdep92_64_bit y (lt3_64 hy)) i hi,
    shl_bits 2 (by omega) (Or.inr rfl) _ z (lt3_64 hz) (pdep92_64_bit z (lt3_64 hz)) i hi]
  have : i % 3 = 0 ∨ i % 3 = 1 ∨ i % 3 = 2 := by omega
  rcases this with h | h | h <;> simp [h]

/-- C14: the BMI2 3D encoder interleaves the coordinate bits (for every input). -/
theorem C14_encode3BMI_64 (x y z : BitVec 64) : IsInterleave3 (encode3BMI x y z) x y z := by
  intro i hi
  rw [encode3BMI, BitVec.getLsbD_or, BitVec.getLsbD_or, pdep_strided strided_3x_64 _ _ hi,
    pdep_strided strided_3y_64 _ _ hi, pdep_strided strided_3z_64 _ _ hi]
  have : i % 3 = 0 ∨ i % 3 = 1 ∨ i % 3 = 2 := by omega
  rcases this with h | h | h <;> simp [h]

/-- C14: both 2D encoders produce the same code. -/
theorem C14_encode2_agree_64 (x y : BitVec 64) (hx : x ≤ max2D64) (hy : y ≤ max2D64) :
    encode2BMI x y = encode2_64 x y := by
  apply BitVec.eq_of_getLsbD_eq
  intro i hi
  rw [C14_encode2BMI_64 x y i hi, C14_encode2_64 x y hx hy i hi]

/-- C14: both 3D encoders produce the same code. -/
theorem C14_encode3_agree_64 (x y z : BitVec 64) (hx : x ≤ max3D64) (hy : y ≤ max3D64)
    (hz : z ≤ max3D64) : encode3BMI x y z = encode3_64 x y z := by
  apply BitVec.eq_of_getLsbD_eq
  intro i hi
  rw [C14_encode3BMI_64 x y z i hi, C14_encode3_64 x y z hx hy hz i hi]

/-- C14: both 2D decoders agree on every code. -/
theorem C14_decode2_agree_64 (m : BitVec 64) : decode2BMI m = decode2_64 m := by
  have h1 : pext m (bmi2x 64) = pext55_64 m := by
    apply BitVec.eq_of_getLsbD_eq
    intro i hi
    rw [pext_strided strided_2x_64 _ _ hi, pext55_64_bit _ _ hi]
    by_cases c : i < 32
    · simp [c, show 2 * i < 64 by omega]
    · simp [c, show ¬ 2 * i < 64 by omega]
  have h2 : pext m (bmi2y 64) = pext55_64 (m >>> 1) := by
    apply BitVec.eq_of_getLsbD_eq
    intro i hi
    rw [pext_strided strided_2y_64 _ _ hi, pext55_64_bit _ _ hi]
    by_cases c : i < 32
    · simp [c, show 2 * i + 1 < 64 by omega, Nat.add_comm 1]
    · simp [c, show ¬ 2 * i + 1 < 64 by omega]
  simp [decode2BMI, decode2_64, h1, h2]

/-- C14: both 3D decoders agree on every code an encoder can return (no bit at or above
position 63). -/
theorem C14_decode3_agree_64 (m : BitVec 64) (hm : m.toNat < 2 ^ 63) :
    decode3BMI m = decode3_64 m := by
  have hz := high_zero' m 63 hm
  have h1 : pext m (bmi3x 64) = pext92_64 m := by
    apply BitVec.eq_of_getLsbD_eq
    intro i hi
    rw [pext_strided strided_3x_64 _ _ hi, pext92_64_bit _ _ hi]
    by_cases c : i < 21
    · simp [c, show 3 * i < 64 by omega]
    · simp [c, hz (3 * i) (by omega)]
  have h2 : pext m (bmi3y 64) = pext92_64 (m >>> 1) := by
    apply BitVec.eq_of_getLsbD_eq
    intro i hi
    rw [pext_strided strided_3y_64 _ _ hi, pext92_64_bit _ _ hi]
    by_cases c : i < 21
    · simp [c, show 3 * i + 1 < 64 by omega, Nat.add_comm 1]
    · simp [c, hz (3 * i + 1) (by omega)]
  have h3 : pext m (bmi3z 64) = pext92_64 (m >>> 2) := by
    apply BitVec.eq_of_getLsbD_eq
    intro i hi
    rw [pext_strided strided_3z_64 _ _ hi, pext92_64_bit _ _ hi]
    by_cases c : i < 21
    · simp [c, show 3 * i + 2 < 64 by omega, Nat.add_comm 2]
    · simp [c, hz (3 * i + 2) (by omega)]
  simp [decode3BMI, decode3_64, h1, h2, h3]

/-- C14: on a code with a bit above position 63 the two 3D decoders return different
coordinates, so the restriction in `C14_decode3_agree_64` is needed. -/
theorem C14_decode3_agree_64_fails :
    ∃ m : BitVec 64, decode3BMI m ≠ decode3_64 m := by
  refine ⟨BitVec.twoPow 64 63, fun h => ?_⟩
  have h0 := congrArg Prod.fst h
  simp only [decode3BMI, decode3_64] at h0
  have h1 := congrArg (fun q => BitVec.getLsbD q 21) h0
  rw [pext_strided strided_3x_64 _ _ (by norm_num), pext92_64_bit _ _ (by norm_num)] at h1
  simp at h1

/-- C14: every 3D code is below `2^63`. -/
theorem C14_encode3_64_lt (x y z : BitVec 64) (hx : x ≤ max3D64) (hy : y ≤ max3D64)
    (hz : z ≤ max3D64) : (encode3_64 x y z).toNat < 2 ^ 63 := by
  apply Nat.lt_pow_two_of_testBit
  intro i hi
  change (encode3_64 x y z).getLsbD i = false
  by_cases h : i < 64
  · rw [C14_encode3_64 x y z hx hy hz i h, high_zero' x 21 (lt3_64 hx) _ (by omega),
      high_zero' y 21 (lt3_64 hy) _ (by omega), high_zero' z 21 (lt3_64 hz) _ (by omega)]
    simp
  · exact BitVec.getLsbD_of_ge _ _ (by omega)

/-- C14: 2D round trip, portable code. -/
theorem C14_roundtrip2_64 (x y : BitVec 64) (hx : x ≤ max2D64) (hy : y ≤ max2D64) :
    decode2_64 (encode2_64 x y) = (x, y) := by
  have e := C14_encode2_64 x y hx hy
  have zx := high_zero' x 32 (lt2_64 hx)
  have zy := high_zero' y 32 (lt2_64 hy)
  refine Prod.ext ?_ ?_ <;> apply BitVec.eq_of_getLsbD_eq <;> intro i hi
  · simp only [decode2_64]
    rw [pext55_64_bit _ _ hi]
    by_cases c : i < 32
    · simp [c, e (2 * i) (by omega)]
    · simp [c, zx i (by omega)]
  · simp only [decode2_64]
    rw [pext55_64_bit _ _ hi, BitVec.getLsbD_ushiftRight]
    by_cases c : i < 32
    · rw [e (1 + 2 * i) (by omega), if_neg (by omega), show (1 + 2 * i) / 2 = i by omega]
      simp [c]
    · simp [c, zy i (by omega)]

/-- C14: 3D round trip, portable code. -/
theorem C14_roundtrip3_64 (x y z : BitVec 64) (hx : x ≤ max3D64) (hy : y ≤ max3D64)
    (hz : z ≤ max3D64) : decode3_64 (encode3_64 x y z) = (x, y, z) := by
  have e := C14_encode3_64 x y z hx hy hz
  have zx := high_zero' x 21 (lt3_64 hx)
  have zy := high_zero' y 21 (lt3_64 hy)
  have zz := high_zero' z 21 (lt3_64 hz)
  refine Prod.ext ?_ (Prod.ext ?_ ?_) <;> apply BitVec.eq_of_getLsbD_eq <;> intro i hi
  · simp only [decode3_64]
    rw [pext92_64_bit _ _ hi]
    by_cases c : i < 21
    · simp [c, e (3 * i) (by omega)]
    · simp [c, zx i (by omega)]
  · simp only [decode3_64]
    rw [pext92_64_bit _ _ hi, BitVec.getLsbD_ushiftRight]
    by_cases c : i < 21
    · rw [e (1 + 3 * i) (by omega), if_neg (by omega), if_pos (by omega),
        show (1 + 3 * i) / 3 = i by omega]
      simp [c]
    · simp [c, zy i (by omega)]
  · simp only [decode3_64]
    rw [pext92_64_bit _ _ hi, BitVec.getLsbD_ushiftRight]
    by_cases c : i < 21
    · rw [e (2 + 3 * i) (by omega), if_neg (by omega), if_neg (by omega),
        show (2 + 3 * i) / 3 = i by omega]
      simp [c]
    · simp [c, zz i (by omega)]

/-- C14: 2D round trip, BMI2 code. -/
theorem C14_roundtrip2BMI_64 (x y : BitVec 64) (hx : x ≤ max2D64) (hy : y ≤ max2D64) :
    decode2BMI (encode2BMI x y) = (x, y) := by
  rw [C14_decode2_agree_64, C14_encode2_agree_64 x y hx hy, C14_roundtrip2_64 x y hx hy]

/-- C14: 3D round trip, BMI2 code. -/
theorem C14_roundtrip3BMI_64 (x y z : BitVec 64) (hx : x ≤ max3D64) (hy : y ≤ max3D64)
    (hz : z ≤ max3D64) : decode3BMI (encode3BMI x y z) = (x, y, z) := by
  rw [C14_encode3_agree_64 x y z hx hy hz,
    C14_decode3_agree_64 _ (C14_encode3_64_lt x y z hx hy hz), C14_roundtrip3_64 x y z hx hy hz]

/-- C14: decoding loses nothing: every 2D code is the encoding of its decoded coordinates, and
these are in range. -/
theorem C14_decode2_encode_64 (m : BitVec 64) :
    (decode2_64 m).1 ≤ max2D64 ∧ (decode2_64 m).2 ≤ max2D64 ∧
      encode2_64 (decode2_64 m).1 (decode2_64 m).2 = m := by
  have bound : ∀ c : BitVec 64, pext55_64 c ≤ max2D64 := by
    intro c
    have : (pext55_64 c).toNat < 2 ^ 32 := by
      apply Nat.lt_pow_two_of_testBit
      intro i hi
      change (pext55_64 c).getLsbD i = false
      by_cases h : i < 64
      · rw [pext55_64_bit _ _ h]; simp [show ¬ i < 32 by omega]
      · exact BitVec.getLsbD_of_ge _ _ (by omega)
    change (pext55_64 c).toNat ≤ max2D64.toNat
    have e : max2D64.toNat = 2 ^ 32 - 1 := by decide
    omega
  refine ⟨bound _, bound _, ?_⟩
  apply BitVec.eq_of_getLsbD_eq
  intro i hi
  simp only [decode2_64]
  rw [C14_encode2_64 _ _ (bound _) (bound _) i hi]
  rw [pext55_64_bit _ _ (by omega), pext55_64_bit _ _ (by omega), BitVec.getLsbD_ushiftRight]
  rcases Nat.mod_two_eq_zero_or_one i with h | h
  · rw [if_pos h, show 2 * (i / 2) = i by omega]; simp [show i / 2 < 32 by omega]
  · rw [if_neg (by omega), show 1 + 2 * (i / 2) = i by omega]; simp [show i / 2 < 32 by omega]

private theorem toNat_encode2_64 (x y : BitVec 64) (hx : x ≤ max2D64) (hy : y ≤ max2D64) :
    (encode2_64 x y).toNat = spread 2 x.toNat + 2 * spread 2 y.toNat := by
  have bx := pdep55_64_bit x (lt2_64 hx)
  have by' := shl_bits (o := 0) 1 (by omega) (Or.inl rfl) _ y (lt2_64 hy)
    (pdep55_64_bit y (lt2_64 hy))
  have hz := and_zero (p := 2) (o := 0) (o' := 0 + 1) (by omega) _ _ x y bx by'
  rw [encode2_64, ← BitVec.add_eq_or_of_and_eq_zero _ _ hz, BitVec.toNat_add_of_and_eq_zero hz,
    toNat_of_bits (k := 32) (Or.inl rfl) (by omega) (by omega) _ x (lt2_64 hx) bx,
    toNat_of_bits (k := 32) (Or.inl rfl) (by omega) (by omega) _ y (lt2_64 hy) by']
  simp

private theorem toNat_encode3_64 (x y z : BitVec 64) (hx : x ≤ max3D64) (hy : y ≤ max3D64)
    (hz : z ≤ max3D64) : (encode3_64 x y z).toNat =
      spread 3 x.toNat + 2 * spread 3 y.toNat + 4 * spread 3 z.toNat := by
  have bx := pdep92_64_bit x (lt3_64 hx)
  have by' := shl_bits (o := 0) 1 (by omega) (Or.inr rfl) _ y (lt3_64 hy)
    (pdep92_64_bit y (lt3_64 hy))
  have bz := shl_bits (o := 0) 2 (by omega) (Or.inr rfl) _ z (lt3_64 hz)
    (pdep92_64_bit z (lt3_64 hz))
  have h1 := and_zero (p := 3) (o := 0) (o' := 0 + 1) (by omega) _ _ x y bx by'
  have h2 := and_zero (p := 3) (o := 0) (o' := 0 + 2) (by omega) _ _ x z bx bz
  have h3 := and_zero (p := 3) (o := 0 + 1) (o' := 0 + 2) (by omega) _ _ y z by' bz
  have h4 : (pdep92_64 x ||| pdep92_64 y <<< 1) &&& (pdep92_64 z <<< 2) = 0#64 := by
    apply BitVec.eq_of_getLsbD_eq
    intro i hi
    have a := congrArg (fun q => BitVec.getLsbD q i) h2
    have b := congrArg (fun q => BitVec.getLsbD q i) h3
    simp only [BitVec.getLsbD_and, BitVec.getLsbD_or] at a b ⊢
    rw [Bool.and_or_distrib_right, a, b]
    simp
  rw [encode3_64, ← BitVec.add_eq_or_of_and_eq_zero _ _ h4, BitVec.toNat_add_of_and_eq_zero h4,
    ← BitVec.add_eq_or_of_and_eq_zero _ _ h1, BitVec.toNat_add_of_and_eq_zero h1,
    toNat_of_bits (k := 21) (Or.inr rfl) (by omega) (by omega) _ x (lt3_64 hx) bx,
    toNat_of_bits (k := 21) (Or.inr rfl) (by omega) (by omega) _ y (lt3_64 hy) by',
    toNat_of_bits (k := 21) (Or.inr rfl) (by omega) (by omega) _ z (lt3_64 hz) bz]
  simp

/-- C15: distinct in-range 2D coordinates have distinct codes. -/
theorem C15_injective2_64 (x y x' y' : BitVec 64) (hx : x ≤ max2D64) (hy : y ≤ max2D64)
    (hx' : x' ≤ max2D64) (hy' : y' ≤ max2D64) (h : encode2_64 x y = encode2_64 x' y') :
    x = x' ∧ y = y' := by
  have a := C14_roundtrip2_64 x y hx hy
  rw [h, C14_roundtrip2_64 x' y' hx' hy'] at a
  exact ⟨(Prod.ext_iff.1 a).1.symm, (Prod.ext_iff.1 a).2.symm⟩

/-- C15: distinct in-range 3D coordinates have distinct codes. -/
theorem C15_injective3_64 (x y z x' y' z' : BitVec 64) (hx : x ≤ max3D64) (hy : y ≤ max3D64)
    (hz : z ≤ max3D64) (hx' : x' ≤ max3D64) (hy' : y' ≤ max3D64) (hz' : z' ≤ max3D64)
    (h : encode3_64 x y z = encode3_64 x' y' z') : x = x' ∧ y = y' ∧ z = z' := by
  have a := C14_roundtrip3_64 x y z hx hy hz
  rw [h, C14_roundtrip3_64 x' y' z' hx' hy' hz'] at a
  simp only [Prod.mk.injEq] at a
  exact ⟨a.1.symm, a.2.1.symm, a.2.2.symm⟩

private theorem spread_le_64 {p : Nat} (hp : 1 ≤ p) {a b : BitVec 64} (h : a ≤ b) :
    spread p a.toNat ≤ spread p b.toNat := by
  have h' : a.toNat ≤ b.toNat := h
  rcases Nat.lt_or_eq_of_le h' with l | e
  · exact le_of_lt (spread_lt hp l)
  · rw [e]

/-- C15: the 2D code is monotone in each coordinate, and strictly so. -/
theorem C15_monotone2_64 (x y x' y' : BitVec 64) (hx' : x' ≤ max2D64) (hy' : y' ≤ max2D64)
    (hx : x ≤ x') (hy : y ≤ y') :
    encode2_64 x y ≤ encode2_64 x' y' ∧
      ((x < x' ∨ y < y') → encode2_64 x y < encode2_64 x' y') := by
  have e1 := toNat_encode2_64 x y (BitVec.le_trans hx hx') (BitVec.le_trans hy hy')
  have e2 := toNat_encode2_64 x' y' hx' hy'
  have a := spread_le_64 (p := 2) (by omega) hx
  have b := spread_le_64 (p := 2) (by omega) hy
  constructor
  · change (encode2_64 x y).toNat ≤ (encode2_64 x' y').toNat
    omega
  · intro h
    change (encode2_64 x y).toNat < (encode2_64 x' y').toNat
    rcases h with h | h
    · have : spread 2 x.toNat < spread 2 x'.toNat := spread_lt (by omega) h
      omega
    · have : spread 2 y.toNat < spread 2 y'.toNat := spread_lt (by omega) h
      omega

/-- C15: the 3D code is monotone in each coordinate, and strictly so. -/
theorem C15_monotone3_64 (x y z x' y' z' : BitVec 64) (hx' : x' ≤ max3D64) (hy' : y' ≤ max3D64)
    (hz' : z' ≤ max3D64) (hx : x ≤ x') (hy : y ≤ y') (hz : z ≤ z') :
    encode3_64 x y z ≤ encode3_64 x' y' z' ∧
      ((x < x' ∨ y < y' ∨ z < z') → encode3_64 x y z < encode3_64 x' y' z') := by
  have e1 := toNat_encode3_64 x y z (BitVec.le_trans hx hx') (BitVec.le_trans hy hy')
    (BitVec.le_trans hz hz')
  have e2 := toNat_encode3_64 x' y' z' hx' hy' hz'
  have a := spread_le_64 (p := 3) (by omega) hx
  have b := spread_le_64 (p := 3) (by omega) hy
  have c := spread_le_64 (p := 3) (by omega) hz
  constructor
  · change (encode3_64 x y z).toNat ≤ (encode3_64 x' y' z').toNat
    omega
  · intro h
    change (encode3_64 x y z).toNat < (encode3_64 x' y' z').toNat
    rcases h with h | h | h
    · have : spread 3 x.toNat < spread 3 x'.toNat := spread_lt (by omega) h
      omega
    · have : spread 3 y.toNat < spread 3 y'.toNat := spread_lt (by omega) h
      omega
    · have : spread 3 z.toNat < spread 3 z'.toNat := spread_lt (by omega) h
      omega

/-! Concrete instances of the hypotheses. -/

example : (65535#32 ≤ max2D32) ∧ (12345#32 ≤ max2D32) ∧
    decode2_32 (encode2_32 65535#32 12345#32) = (65535#32, 12345#32) := by decide
example : (4294967295#64 ≤ max2D64) ∧ (1023#32 ≤ max3D32) ∧ (2097151#64 ≤ max3D64) := by decide
example : encode2_32 3#32 5#32 = 39#32 ∧ encode2_32 3#32 5#32 < encode2_32 3#32 6#32 := by decide
example : encode3_64 3#64 5#64 1#64 = 143#64 ∧ (143#64).toNat < 2 ^ 63 := by decide

end Verif.Morton
