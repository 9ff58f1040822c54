import Verif.Model.MortonPoints
import Verif.Props.Morton
import Verif.Props.Algorithm
import Mathlib.Data.Rat.Floor
import Mathlib.Tactic.NormNum

/-! # C16: Morton order on points of the unit square / cube -/

namespace Verif.MortonPoints
open Verif.Morton

section
variable {K : Type} [Field K] [LinearOrder K] [IsStrictOrderedRing K] [FloorSemiring K]

def InUnit2 (p : K × K) : Prop := (0 ≤ p.1 ∧ p.1 ≤ 1) ∧ (0 ≤ p.2 ∧ p.2 ≤ 1)
def InUnit3 (p : K × K × K) : Prop :=
  (0 ≤ p.1 ∧ p.1 ≤ 1) ∧ (0 ≤ p.2.1 ∧ p.2.1 ≤ 1) ∧ (0 ≤ p.2.2 ∧ p.2.2 ≤ 1)

theorem toU32_spec (m : Nat) (hm : m < 2 ^ 32) (x : K) (h0 : 0 ≤ x) (h1 : x ≤ 1) :
    ∃ b, toU32 (x * (m : K)) = some b ∧ b.toNat = ⌊x * (m : K)⌋₊ ∧ b.toNat ≤ m := by
  have hm0 : (0 : K) ≤ m := Nat.cast_nonneg m
  have hx0 : 0 ≤ x * (m : K) := mul_nonneg h0 hm0
  have hx1 : x * (m : K) ≤ m := by
    calc x * (m : K) ≤ 1 * m := mul_le_mul_of_nonneg_right h1 hm0
      _ = m := one_mul _
  have hlt : x * (m : K) < 2 ^ 32 := by
    refine lt_of_le_of_lt hx1 ?_
    have : ((m : Nat) : K) < ((2 ^ 32 : Nat) : K) := by exact_mod_cast hm
    push_cast at this; norm_num; omega
  have hfl : ⌊x * (m : K)⌋₊ ≤ m := by
    have := Nat.floor_le_floor hx1
    simpa using this
  refine ⟨BitVec.ofNat 32 ⌊x * (m : K)⌋₊, ?_, ?_, ?_⟩
  · rw [toU32, if_pos ⟨by linarith, hlt⟩]
  · rw [BitVec.toNat_ofNat, Nat.mod_eq_of_lt (by omega)]
  · rw [BitVec.toNat_ofNat, Nat.mod_eq_of_lt (by omega)]; exact hfl

theorem toU32_mono (m : Nat) (hm : m < 2 ^ 32) (x y : K) (h0 : 0 ≤ x) (h : x ≤ y) (h1 : y ≤ 1) :
    ∃ a b, toU32 (x * (m : K)) = some a ∧ toU32 (y * (m : K)) = some b ∧ a ≤ b ∧
      b.toNat ≤ m := by
  obtain ⟨a, a1, a2, a3⟩ := toU32_spec m hm x h0 (h.trans h1)
  obtain ⟨b, b1, b2, b3⟩ := toU32_spec m hm y (h0.trans h) h1
  refine ⟨a, b, a1, b1, ?_, b3⟩
  change a.toNat ≤ b.toNat
  rw [a2, b2]
  exact Nat.floor_le_floor (mul_le_mul_of_nonneg_right h (Nat.cast_nonneg m))

/-- C16: on the unit square the code is defined, and a point that is componentwise at most
another does not get a larger code. -/
theorem C16_code2_monotone (p q : K × K) (hp : InUnit2 p) (hq : InUnit2 q)
    (hx : p.1 ≤ q.1) (hy : p.2 ≤ q.2) :
    ∃ a b, encodePoint2 p = some a ∧ encodePoint2 q = some b ∧ a ≤ b := by
  obtain ⟨ax, bx, h1, h2, h3, h4⟩ := toU32_mono max2D32.toNat (by decide) p.1 q.1 hp.1.1 hx hq.1.2
  obtain ⟨ay, by', h5, h6, h7, h8⟩ := toU32_mono max2D32.toNat (by decide) p.2 q.2 hp.2.1 hy hq.2.2
  refine ⟨encode2_32 ax ay, encode2_32 bx by', ?_, ?_,
    (C15_monotone2_32 ax ay bx by' h4 h8 h3 h7).1⟩
  · simp [encodePoint2, h1, h5, hp.1.1, hp.1.2, hp.2.1, hp.2.2]
  · simp [encodePoint2, h2, h6, hq.1.1, hq.1.2, hq.2.1, hq.2.2]

/-- C16: the same in the unit cube. -/
theorem C16_code3_monotone (p q : K × K × K) (hp : InUnit3 p) (hq : InUnit3 q)
    (hx : p.1 ≤ q.1) (hy : p.2.1 ≤ q.2.1) (hz : p.2.2 ≤ q.2.2) :
    ∃ a b, encodePoint3 p = some a ∧ encodePoint3 q = some b ∧ a ≤ b := by
  obtain ⟨ax, bx, h1, h2, h3, h4⟩ := toU32_mono max3D32.toNat (by decide) p.1 q.1 hp.1.1 hx hq.1.2
  obtain ⟨ay, by', h5, h6, h7, h8⟩ :=
    toU32_mono max3D32.toNat (by decide) p.2.1 q.2.1 hp.2.1.1 hy hq.2.1.2
  obtain ⟨az, bz, h9, h10, h11, h12⟩ :=
    toU32_mono max3D32.toNat (by decide) p.2.2 q.2.2 hp.2.2.1 hz hq.2.2.2
  refine ⟨encode3_32 ax ay az, encode3_32 bx by' bz, ?_, ?_,
    (C15_monotone3_32 ax ay az bx by' bz h4 h8 h12 h3 h7 h11).1⟩
  · simp [encodePoint3, h1, h5, h9, hp.1.1, hp.1.2, hp.2.1.1, hp.2.1.2, hp.2.2.1, hp.2.2.2]
  · simp [encodePoint3, h2, h6, h10, hq.1.1, hq.1.2, hq.2.1.1, hq.2.1.2, hq.2.2.1, hq.2.2.2]

/-- C16: two points of the unit square get the same code exactly when they fall in the same cell
of the `max × max` quantisation grid. -/
theorem C16_code2_cells (p q : K × K) (hp : InUnit2 p) (hq : InUnit2 q) :
    encodePoint2 p = encodePoint2 q ↔
      ⌊p.1 * 65535⌋₊ = ⌊q.1 * 65535⌋₊ ∧ ⌊p.2 * 65535⌋₊ = ⌊q.2 * 65535⌋₊ := by
  have e : max2D32.toNat = 65535 := by decide
  obtain ⟨a, a1, a2, a3⟩ := toU32_spec max2D32.toNat (by decide) p.1 hp.1.1 hp.1.2
  obtain ⟨b, b1, b2, b3⟩ := toU32_spec max2D32.toNat (by decide) p.2 hp.2.1 hp.2.2
  obtain ⟨c, c1, c2, c3⟩ := toU32_spec max2D32.toNat (by decide) q.1 hq.1.1 hq.1.2
  obtain ⟨d, d1, d2, d3⟩ := toU32_spec max2D32.toNat (by decide) q.2 hq.2.1 hq.2.2
  have h1 : encodePoint2 p = some (encode2_32 a b) := by simp [encodePoint2, a1, b1, hp.1.1, hp.1.2, hp.2.1, hp.2.2]
  have h2 : encodePoint2 q = some (encode2_32 c d) := by simp [encodePoint2, c1, d1, hq.1.1, hq.1.2, hq.2.1, hq.2.2]
  rw [h1, h2]
  have e' : ((max2D32.toNat : Nat) : K) = 65535 := by rw [e]; norm_num
  rw [e'] at a2 b2 c2 d2
  rw [← a2, ← b2, ← c2, ← d2]
  constructor
  · intro h
    obtain ⟨u, v⟩ := C15_injective2_32 a b c d a3 b3 c3 d3 (by simpa using h)
    exact ⟨by rw [u], by rw [v]⟩
  · rintro ⟨u, v⟩
    rw [BitVec.eq_of_toNat_eq u, BitVec.eq_of_toNat_eq v]

end

variable {P : Type}

/-- C16: wherever codes are defined, `mortonLess` is a strict weak order (the requirement of
`std::sort`), and it compares codes. -/
theorem C16_mortonLess_strictWeak (enc : P → Option (BitVec 32)) (S : P → Prop)
    (hS : ∀ p, S p → ∃ a, enc p = some a) :
    StrictWeak (fun p q : {p // S p} => mortonLess enc p.1 q.1) ∧
    ∀ p q, S p → S q → (mortonLess enc p q = true ↔
      ∃ a b, enc p = some a ∧ enc q = some b ∧ a < b) := by
  have key : ∀ p q, S p → S q → (mortonLess enc p q = true ↔
      ∃ a b, enc p = some a ∧ enc q = some b ∧ a < b) := by
    intro p q hp hq
    obtain ⟨a, ha⟩ := hS p hp
    obtain ⟨b, hb⟩ := hS q hq
    simp [mortonLess, mortonLess?, ha, hb]
  refine ⟨⟨?_, ?_⟩, key⟩
  · rintro ⟨p, hp⟩ ⟨q, hq⟩ h
    by_contra h'
    obtain ⟨a, b, h1, h2, h3⟩ := (key p q hp hq).1 h
    obtain ⟨c, d, h4, h5, h6⟩ := (key q p hq hp).1 (by simpa using h')
    rw [h1] at h5; rw [h2] at h4
    simp only [Option.some.injEq] at h4 h5
    subst h4; subst h5
    exact absurd h6 (BitVec.not_lt.2 (BitVec.le_of_lt h3))
  · rintro ⟨p, hp⟩ ⟨q, hq⟩ ⟨r, hr⟩ h1 h2
    obtain ⟨a, ha⟩ := hS p hp
    obtain ⟨b, hb⟩ := hS q hq
    obtain ⟨c, hc⟩ := hS r hr
    simp only [mortonLess, mortonLess?, ha, hb, hc] at *
    simp at *
    exact BitVec.le_trans h2 h1

/-- C16: `mortonSort` returns a rearrangement of its input whose codes are non-decreasing. -/
theorem C16_mortonSort (enc : P → Option (BitVec 32)) (inp out : List P)
    (hdef : ∀ p ∈ inp, ∃ a, enc p = some a) (h : IsMortonSort enc inp out) :
    out.Perm inp ∧ ∃ codes : List (BitVec 32), out.map enc = codes.map some ∧
      codes.Pairwise (· ≤ ·) := by
  refine ⟨h.perm, out.map (fun p => (enc p).getD 0#32), ?_, ?_⟩
  · rw [List.map_map]
    apply List.map_congr_left
    intro p hp
    obtain ⟨a, ha⟩ := hdef p (h.perm.mem_iff.1 hp)
    simp [ha]
  · rw [List.pairwise_map]
    refine List.Pairwise.imp_of_mem ?_ h.sorted
    intro p q hp hq hpq
    obtain ⟨a, ha⟩ := hdef p (h.perm.mem_iff.1 hp)
    obtain ⟨b, hb⟩ := hdef q (h.perm.mem_iff.1 hq)
    simp [mortonLess, mortonLess?, ha, hb] at hpq
    simpa [ha, hb] using hpq

/-- C16: `mortonSortPermutation` returns a permutation of the indices; applying it gives a
possible result of `mortonSort`, i.e. the same points ordered by code. -/
theorem C16_mortonSortPermutation (enc : P → Option (BitVec 32)) (v : List P) (perm : List Nat)
    (h : IsMortonSortPermutation enc v perm) :
    perm.Perm (List.range v.length) ∧ ∃ out, Alg.applyPermutation v perm = some out ∧
      IsMortonSort enc v out := by
  obtain ⟨h1, out, h2, h3, h4⟩ := Alg.C12_sortPermutation _ v perm h
  exact ⟨h1, out, h2, ⟨h3, h4⟩⟩

example : InUnit2 ((1 / 2, 1) : ℚ × ℚ) ∧ InUnit3 ((1 / 2, 1, 0) : ℚ × ℚ × ℚ) := by
  constructor
  · refine ⟨⟨?_, ?_⟩, ?_, ?_⟩ <;> norm_num
  · refine ⟨⟨?_, ?_⟩, ⟨?_, ?_⟩, ?_, ?_⟩ <;> norm_num

example : IsMortonSort (fun n : Nat => some (BitVec.ofNat 32 n)) [3, 1, 2] [1, 2, 3] ∧
    IsMortonSortPermutation (fun n : Nat => some (BitVec.ofNat 32 n)) [3, 1, 2] [1, 2, 0] :=
  ⟨⟨by decide, by decide⟩, ⟨by decide, by decide⟩⟩

end Verif.MortonPoints
