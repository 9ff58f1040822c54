import Verif.Model.XdmfData
import Verif.Lemmas.FpTurn
import Mathlib.Data.Rat.Floor
import Mathlib.Data.Nat.Digits.Lemmas
import Mathlib.Tactic.IntervalCases

/-!
# C140 numbers in XDMF files of other programs
-/

namespace Verif.XData

open Verif.Str (Byte)
open Verif.XSLib (Res)

/-! ### What a dataset says -/

/-- The value that a dataset stores, by the definition of its type. -/
def stored (t : IntType) (b : List Byte) : ℤ :=
  let n := ofBytes (if t.big then b.reverse else b)
  if t.signed ∧ 256 ^ t.size ≤ 2 * n then (n : ℤ) - 256 ^ t.size else n

/-- The bytes of every value are as many as the type says. -/
def IntSet.WF (d : IntSet) : Prop := ∀ b ∈ d.values, b.length = d.type.size

theorem ofBytes_lt (b : List Byte) : ofBytes b < 256 ^ b.length := by
  unfold ofBytes
  have := Nat.ofDigits_lt_base_pow_length (b := 256) (l := b.map UInt8.toNat) (by norm_num) (by
    intro x hx
    obtain ⟨c, -, rfl⟩ := List.mem_map.1 hx
    exact c.toNat_lt)
  rwa [List.length_map] at this

theorem bmod_bmod_pow {x : ℤ} {a b : ℕ} (h : a ∣ b) : (x.bmod b).bmod a = x.bmod a := by
  refine Int.bmod_bmod_of_dvd h

/-- On this machine the value of little-endian bytes is the stored one up to a multiple of `256 ^ size`. -/
theorem native_mod {t : IntType} (h : t.big = false) {b : List Byte} (hb : b.length = t.size) : (native b) = (stored t b).bmod (256 ^ t.size) := by
  unfold native stored
  rw [h, hb]
  dsimp only
  rw [if_neg (show ¬ false = true by decide)]
  split
  · have : ((ofBytes b : ℤ) - 256 ^ t.size) = ofBytes b - ((256 ^ t.size : ℕ) : ℤ) * 1 := by push_cast; ring
    rw [this, Int.sub_mul_bmod_self_left]
  · rfl

/-- Little-endian integers of four or eight bytes, signed or not: what is read is the stored value, reduced to 32 bits. -/
theorem C140_widths {d : IntSet} (wf : d.WF) (le : d.type.big = false) (h4 : d.type.size = 4 ∨ d.type.size = 8) {precision : String} (hp : precisionOk precision = true) :
    readTopologyData precision d.values.length d = .ok (d.values.map fun b => (stored d.type b).bmod (2 ^ 32)) := by
  have e : readTopologyData precision d.values.length d = readInts d.values.length d := by
    unfold readTopologyData
    rw [if_pos hp]
    rcases h4 with h | h <;> simp [h]
  rw [e]
  unfold readInts
  rw [if_neg (lt_irrefl _), Nat.sub_self, List.replicate_zero, List.append_nil]
  refine congrArg Res.ok (List.map_congr_left fun b hb => ?_)
  rw [native_mod le (wf b hb)]
  unfold toInt
  refine bmod_bmod_pow ?_
  rcases h4 with h | h <;> rw [h] <;> norm_num

/-- If the stored values are numbers of 32 bits, they are read as they are. -/
theorem C140_ints {d : IntSet} (wf : d.WF) (le : d.type.big = false) (h4 : d.type.size = 4 ∨ d.type.size = 8) {precision : String} (hp : precisionOk precision = true)
    (hr : ∀ b ∈ d.values, -2 ^ 31 ≤ stored d.type b ∧ stored d.type b < 2 ^ 31) :
    readTopologyData precision d.values.length d = .ok (d.values.map (stored d.type)) := by
  rw [C140_widths wf le h4 hp]
  refine congrArg Res.ok (List.map_congr_left fun b hb => ?_)
  obtain ⟨h1, h2⟩ := hr b hb
  exact Int.bmod_eq_of_le (by norm_num at h1 ⊢; exact h1) (by norm_num at h2 ⊢; exact h2)

/-! ### What other programs store -/

/-- The little-endian bytes of a number. -/
def bytesOf : ℕ → ℕ → List Byte
  | 0, _ => []
  | k + 1, n => UInt8.ofNat n :: bytesOf k (n / 256)

theorem bytesOf_length (k n : ℕ) : (bytesOf k n).length = k := by
  induction k generalizing n with
  | zero => rfl
  | succ k ih => simp [bytesOf, ih]

theorem ofBytes_bytesOf (k n : ℕ) : ofBytes (bytesOf k n) = n % 256 ^ k := by
  induction k generalizing n with
  | zero => simp [bytesOf, ofBytes, Nat.mod_one]
  | succ k ih =>
    have := ih (n / 256)
    unfold ofBytes at this ⊢
    rw [bytesOf, List.map_cons, Nat.ofDigits_cons, this, UInt8.toNat_ofNat']
    rw [pow_succ' 256 k, Nat.mod_mul (a := 256) (b := 256 ^ k)]

/-- A dataset of `k` bytes for each value, little-endian and signed. -/
def store (k : ℕ) (l : List ℤ) : IntSet := ⟨⟨false, true, k⟩, l.map fun x => bytesOf k (x % 256 ^ k).toNat⟩

/-- What a program stores in four or eight bytes on a little-endian machine is read, if it fits into 32 bits. -/
theorem C140_round_trip {k : ℕ} (h4 : k = 4 ∨ k = 8) {l : List ℤ} (hl : ∀ x ∈ l, -2 ^ 31 ≤ x ∧ x < 2 ^ 31) {precision : String} (hp : precisionOk precision = true) :
    readTopologyData precision l.length (store k l) = .ok l := by
  have wf : (store k l).WF := by
    intro b hb
    obtain ⟨x, -, rfl⟩ := List.mem_map.1 hb
    exact bytesOf_length _ _
  have hs : ∀ x ∈ l, stored (store k l).type (bytesOf k (x % 256 ^ k).toNat) = x := by
    intro x hx
    obtain ⟨h1, h2⟩ := hl x hx
    unfold stored store
    dsimp only
    rw [if_neg (show ¬ false = true by decide), ofBytes_bytesOf]
    have b0 : (0 : ℤ) < 256 ^ k := by positivity
    have m0 := Int.emod_nonneg x b0.ne'
    have m1 := Int.emod_lt_of_pos x b0
    have e : ((x % 256 ^ k).toNat % 256 ^ k : ℕ) = (x % 256 ^ k).toNat := by
      refine Nat.mod_eq_of_lt ?_
      zify
      rwa [Int.toNat_of_nonneg m0]
    rw [e]
    have hc : ((x % 256 ^ k).toNat : ℤ) = x % 256 ^ k := Int.toNat_of_nonneg m0
    have big : (2 : ℤ) ^ 32 ≤ 256 ^ k := by rcases h4 with rfl | rfl <;> norm_num
    norm_num at h1 h2 big
    by_cases hx0 : 0 ≤ x
    · have : x % 256 ^ k = x := Int.emod_eq_of_lt hx0 (by linarith)
      rw [this] at hc ⊢
      rw [if_neg]
      · exact hc
      · rintro ⟨-, h⟩
        zify at h
        rw [hc] at h
        linarith
    · have : x % 256 ^ k = x + 256 ^ k := by
        rw [← Int.add_emod_right]
        exact Int.emod_eq_of_lt (by linarith) (by linarith)
      rw [this] at hc ⊢
      rw [if_pos]
      · rw [hc]
        ring
      · refine ⟨rfl, ?_⟩
        zify
        rw [hc]
        linarith
  have := C140_ints (d := store k l) wf rfl h4 hp (by
    intro b hb
    obtain ⟨x, hx, rfl⟩ := List.mem_map.1 hb
    rw [hs x hx]
    exact hl x hx)
  have el : (store k l).values.length = l.length := by simp [store]
  rw [el] at this
  rw [this]
  refine congrArg Res.ok ?_
  show (l.map fun x => bytesOf k (x % 256 ^ k).toNat).map (stored (store k l).type) = l
  rw [List.map_map]
  conv_rhs => rw [← List.map_id l]
  exact List.map_congr_left fun x hx => hs x hx

/-! ### Element sets -/

/-- A set of ids of four or eight bytes, with or without data: the ids are the stored ones and every value is the stored one, rounded to `Float`. -/
theorem C140_set {p : ℕ} (R : Fp.Rounding ℚ p) {floatSize : ℕ} (hf : floatSize = 4 ∨ floatSize = 8) {k : ℕ} (h4 : k = 4 ∨ k = 8) {l : List ℤ}
    (hl : ∀ x ∈ l, -2 ^ 31 ≤ x ∧ x < 2 ^ 31) {precision : String} (hp : precisionOk precision = true) :
    readSetData R floatSize precision (store k l) none = .ok (some (l, none)) ∧
    ∀ a : FloatSet, a.size = 4 ∨ a.size = 8 → a.values.length = l.length →
      readSetData R floatSize precision (store k l) (some a) = .ok (some (l, some (a.values.map fun b => (nativeFloat a.size b).map R.rnd))) := by
  have el : (store k l).values.length = l.length := by simp [store]
  have hr : readInts l.length (store k l) = .ok l := by
    have := C140_round_trip h4 hl hp
    unfold readTopologyData at this
    rw [if_pos hp] at this
    have sk : (store k l).type.size = k := rfl
    rw [sk] at this
    rcases h4 with rfl | rfl
    · simpa using this
    · simpa using this
  unfold readSetData
  constructor
  · rw [if_pos hp]
    dsimp only [Option.map_none, Option.getD_none]
    rw [if_pos (show (store k l).type.size = 4 ∨ (store k l).type.size = 8 from h4), if_pos hf, el, hr]
    rfl
  · intro a ha hal
    rw [if_pos hp]
    dsimp only [Option.map_some, Option.getD_some]
    rw [if_pos (show (store k l).type.size = 4 ∨ (store k l).type.size = 8 from h4), if_pos ha, el, hr]
    show (readFloats R l.length a).bind _ = _
    unfold readFloats
    rw [if_neg (by omega), ← hal, Nat.sub_self, List.replicate_zero, List.append_nil]
    rfl

/-! ### Floating-point data -/

theorem ieeeVal_isFp {m e n : ℕ} {x : ℚ} (h : ieeeVal m e n = some x) : Fp.IsFp (m + 1) x := by
  have hf : n % 2 ^ m < 2 ^ m := Nat.mod_lt _ (by positivity)
  have hs : ∀ (P : Prop) [Decidable P] (y : ℚ), Fp.IsFp (m + 1) y → Fp.IsFp (m + 1) ((if P then (-1 : ℚ) else 1) * y) := by
    intro P _ y hy
    split
    · rw [neg_one_mul]; exact hy.neg
    · rw [one_mul]; exact hy
  unfold ieeeVal at h
  dsimp only at h
  split at h
  · cases h
  · split at h
    · rw [Option.some.injEq] at h
      rw [← h, mul_assoc]
      refine hs _ _ ⟨(n % 2 ^ m : ℕ), _, ?_, by push_cast; rfl⟩
      rw [abs_of_nonneg (by positivity)]
      have : n % 2 ^ m < 2 ^ (m + 1) := hf.trans_le (Nat.pow_le_pow_right (by norm_num) (by omega))
      exact_mod_cast this
    · rw [Option.some.injEq] at h
      rw [← h, mul_assoc]
      refine hs _ _ ⟨(2 ^ m + n % 2 ^ m : ℕ), _, ?_, by push_cast; rfl⟩
      rw [abs_of_nonneg (by positivity)]
      have : 2 ^ m + n % 2 ^ m < 2 ^ (m + 1) := by rw [pow_succ]; omega
      exact_mod_cast this

/-- Coordinates and data that the build can represent are read as they are; double-precision data in a single-precision build are rounded once. -/
theorem C140_floats {p : ℕ} (hp : 24 ≤ p) (R : Fp.Rounding ℚ p) {d : FloatSet} (h4 : d.size = 4 ∨ d.size = 8) :
    ∃ l : List (Option ℚ), readGeometryData R d.values.length d = .ok (some l) ∧ l.length = d.values.length ∧
      ∀ (i : ℕ) (b : List Byte), d.values[i]? = some b → ∀ x, nativeFloat d.size b = some x → ∃ y, l[i]? = some (some y) ∧ |y - x| ≤ 1 / 2 ^ p * |x| ∧ (d.size = 4 ∨ 53 ≤ p → y = x) := by
  refine ⟨d.values.map fun b => (nativeFloat d.size b).map R.rnd, ?_, by simp, ?_⟩
  · unfold readGeometryData readFloats
    rw [if_pos h4, if_neg (lt_irrefl _), Nat.sub_self, List.replicate_zero, List.append_nil]
    rfl
  · intro i b hb x hx
    refine ⟨R.rnd x, ?_, Fp.rel_u R (by omega) x, ?_⟩
    · rw [List.getElem?_map, hb, Option.map_some, hx, Option.map_some]
    · intro h
      refine R.id ?_
      unfold nativeFloat at hx
      split at hx
      · obtain ⟨a, k, h1, h2⟩ := ieeeVal_isFp hx
        exact ⟨a, k, h1.trans_le (pow_le_pow_right₀ (by norm_num) (by omega)), h2⟩
      · obtain ⟨a, k, h1, h2⟩ := ieeeVal_isFp hx
        have : 53 ≤ p := by
          rcases h with h | h
          · contradiction
          · exact h
        exact ⟨a, k, h1.trans_le (pow_le_pow_right₀ (by norm_num) (by omega)), h2⟩

/-! ### Where it fails -/

/-- An id beyond 32 bits becomes another id. -/
theorem C140_wrap_fails : readTopologyData "8" 3 (store 8 [0, 1, 2 ^ 32 + 2]) = .ok [0, 1, 2] := by
  refine congrArg Res.ok ?_
  decide +kernel

/-- A file from a big-endian machine: the vertices 0, 1, 2 become 0, 2^24 and 2^25, and the coordinate 1 becomes about 10^-319. -/
theorem C140_big_fails : readTopologyData "4" 3 ⟨⟨true, true, 4⟩, [[0, 0, 0, 0], [0, 0, 0, 1], [0, 0, 0, 2]]⟩ = .ok [0, 16777216, 33554432] ∧
    stored ⟨true, true, 4⟩ [0, 0, 0, 1] = 1 ∧ nativeFloat 8 [0x3f, 0xf0, 0, 0, 0, 0, 0, 0] = some (61503 / 2 ^ 1074) ∧
    nativeFloat 8 [0x3f, 0xf0, 0, 0, 0, 0, 0, 0].reverse = some 1 :=
  ⟨congrArg Res.ok (by decide +kernel), by decide +kernel, by decide +kernel, by decide +kernel⟩

/-- Integers of one or two bytes pass the check of the precision; then the topology is refused, and a set is left out without a message. -/
theorem C140_small_fails {p : ℕ} (R : Fp.Rounding ℚ p) (floatSize : ℕ) (k : ℕ) (hk : k = 1 ∨ k = 2) (l : List ℤ) (att : Option FloatSet) :
    precisionOk "1" = true ∧ precisionOk "2" = true ∧ readTopologyData (toString k) l.length (store k l) = .refused ∧
    readSetData R floatSize (toString k) (store k l) att = .ok none := by
  refine ⟨by decide +kernel, by decide +kernel, ?_, ?_⟩
  · rcases hk with rfl | rfl <;> rfl
  · rcases hk with rfl | rfl <;> rfl

/-- More values in the dataset than `Dimensions` says are written beyond the end of the buffer; the data of a set too, if there are more of them than ids.  Fewer are filled up with zeros. -/
theorem C140_count_fails {p : ℕ} (R : Fp.Rounding ℚ p) (n : ℕ) (d : IntSet) (f : FloatSet) :
    (n < d.values.length → readInts n d = .undef) ∧ (n < f.values.length → readFloats R n f = .undef) ∧
    readTopologyData "4" 6 (store 4 [3, 1, 2]) = .ok [3, 1, 2, 0, 0, 0] ∧
    (f.values.length ≤ n → ∃ l, readFloats R n f = .ok l ∧ l.length = n ∧ ∀ i, f.values.length ≤ i → i < n → l[i]? = some (some 0)) := by
  refine ⟨fun h => if_pos h, fun h => if_pos h, congrArg Res.ok ?_, fun h => ⟨_, if_neg (not_lt.2 h), ?_, fun i h1 h2 => ?_⟩⟩
  · decide +kernel
  · rw [List.length_append, List.length_map, List.length_replicate]
    omega
  · rw [List.getElem?_append_right (by rw [List.length_map]; exact h1), List.length_map, List.getElem?_replicate, if_pos (by omega)]

/-- The numbers that bits stand for: a sign `s`, an exponent `x` and a fraction `f` are the number `± f · 2^(1 - bias - m)` if the exponent is zero, nothing if it is the greatest one, and
`± (2^m + f) · 2^(x - bias - m)` otherwise. -/
theorem C140_bits {m e s x f : ℕ} (he : 1 ≤ e) (hs : s < 2) (hx : x < 2 ^ e) (hf : f < 2 ^ m) :
    (x = 0 → ieeeVal m e ((s * 2 ^ e + x) * 2 ^ m + f) = some ((-1) ^ s * f * (2 : ℚ) ^ (1 - (2 ^ (e - 1) - 1 : ℤ) - m))) ∧
    (x + 1 = 2 ^ e → ieeeVal m e ((s * 2 ^ e + x) * 2 ^ m + f) = none) ∧
    (0 < x → x + 1 < 2 ^ e → ieeeVal m e ((s * 2 ^ e + x) * 2 ^ m + f) = some ((-1) ^ s * (2 ^ m + f) * (2 : ℚ) ^ (x - (2 ^ (e - 1) - 1 : ℤ) - m))) := by
  have p1 : 0 < 2 ^ m := by positivity
  have p2 : 2 ≤ 2 ^ e := by simpa using Nat.pow_le_pow_right (n := 2) (by norm_num) he
  have n1 : ((s * 2 ^ e + x) * 2 ^ m + f) % 2 ^ m = f := by rw [Nat.mul_add_mod_self_right, Nat.mod_eq_of_lt hf]
  have n2 : ((s * 2 ^ e + x) * 2 ^ m + f) / 2 ^ m = s * 2 ^ e + x := by rw [Nat.mul_comm, Nat.mul_add_div p1, Nat.div_eq_of_lt hf, Nat.add_zero]
  have n3 : (s * 2 ^ e + x) % 2 ^ e = x := by rw [Nat.mul_add_mod_self_right, Nat.mod_eq_of_lt hx]
  have n4 : ((s * 2 ^ e + x) * 2 ^ m + f) / 2 ^ (m + e) % 2 = s := by
    rw [Nat.pow_add, ← Nat.div_div_eq_div_mul, n2, Nat.mul_comm s, Nat.mul_add_div (by omega), Nat.div_eq_of_lt hx, Nat.add_zero, Nat.mod_eq_of_lt hs]
  have n5 : (if s = 1 then (-1 : ℚ) else 1) = (-1) ^ s := by interval_cases s <;> simp
  unfold ieeeVal
  dsimp only
  rw [n1, n2, n3, n4, n5]
  refine ⟨fun h => ?_, fun h => ?_, fun h h' => ?_⟩
  · rw [if_neg (by omega), if_pos h]
  · rw [if_pos (by omega)]
  · rw [if_neg (by omega), if_neg (by omega)]
    push_cast
    rfl

/-- `-1.5` in single precision, and the infinity of double precision. -/
example : ieeeVal 23 8 0xBFC00000 = some (-(3 / 2)) ∧ ieeeVal 52 11 0x7FF0000000000000 = none := by
  have a := (C140_bits (m := 23) (e := 8) (s := 1) (x := 127) (f := 0x400000) (by norm_num) (by norm_num) (by norm_num) (by norm_num)).2.2 (by norm_num) (by norm_num)
  have b := (C140_bits (m := 52) (e := 11) (s := 0) (x := 2047) (f := 0) (by norm_num) (by norm_num) (by norm_num) (by norm_num)).2.1 (by norm_num)
  norm_num at a b
  exact ⟨a, b⟩

/-! ### Examples -/

/-- A triangle and its set, stored by a program with ids of 64 bits, data in single precision, read in double precision. -/
example : readTopologyData "8" 3 (store 8 [0, 1, 2]) = .ok [0, 1, 2] :=
  C140_round_trip (.inr rfl) (by decide) (by decide +kernel)

example (R : Fp.Rounding ℚ 53) : readSetData R 8 "8" (store 8 [7]) (some ⟨false, 4, [[0, 0, 0x80, 0x3f]]⟩) = .ok (some ([7], some [some 1])) := by
  rw [(C140_set R (.inr rfl) (.inr rfl) (l := [7]) (by decide) (by decide +kernel)).2 _ (.inl rfl) rfl]
  have : nativeFloat 4 [0, 0, 0x80, 0x3f] = some 1 := by decide +kernel
  simp only [List.map_cons, List.map_nil, this, Option.map_some]
  rw [R.id (by have := Fp.isFp_nat (K := ℚ) (p := 53) (by norm_num) (n := 1) (by norm_num); simpa using this)]

end Verif.XData
