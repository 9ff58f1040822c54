import Verif.Model.Color
import Verif.Lemmas.Fp
import Mathlib.Data.Rat.Floor
import Mathlib.Tactic.Linarith

/-! C129: colours. -/

set_option linter.unusedSectionVars false

namespace Verif.ColorP

open Verif.Fp Verif.Colors

/-- Two colours are equal for the operators exactly if their four bytes are. -/
theorem C129_equal (l r : Color) : (eq l r = true ↔ l = r) ∧ (ne l r = true ↔ l ≠ r) := by
  have h : eq l r = true ↔ l = r := by
    unfold eq
    cases l; cases r
    simp [and_assoc]
  refine ⟨h, ?_⟩
  unfold ne
  rw [Bool.not_eq_true', ← Bool.not_eq_true, h]

/-- A colour of integers between 0 and 255 has them as its bytes, in every integral type of at least a byte; without a fourth it is opaque; and the bytes of a colour,
taken as integers, give the same colour. -/
theorem C129_integers {w : ℕ} (hw : 8 ≤ w) {r g b a : ℕ} (hr : r < 256) (hg : g < 256) (hb : b < 256) (ha : a < 256) :
    (let c := ofInt (BitVec.ofNat w r) (BitVec.ofNat w g) (BitVec.ofNat w b) (BitVec.ofNat w a)
     c.r.toNat = r ∧ c.g.toNat = g ∧ c.b.toNat = b ∧ c.a.toNat = a) ∧
    (ofInt (BitVec.ofNat w r) (BitVec.ofNat w g) (BitVec.ofNat w b)).a.toNat = 255 := by
  have d : 256 ∣ 2 ^ w := by
    obtain ⟨k, rfl⟩ := Nat.exists_eq_add_of_le hw
    rw [pow_add]; exact ⟨_, rfl⟩
  have k : ∀ x : ℕ, x < 256 → ((BitVec.ofNat w x).setWidth 8).toNat = x := by
    intro x hx
    rw [BitVec.toNat_setWidth, BitVec.toNat_ofNat]
    change x % 2 ^ w % 256 = x
    rw [Nat.mod_mod_of_dvd _ d, Nat.mod_eq_of_lt hx]
  refine ⟨⟨k _ hr, k _ hg, k _ hb, k _ ha⟩, ?_⟩
  have e : BitVec.ofInt w 255 = BitVec.ofNat w 255 := by
    rw [show (255 : ℤ) = ((255 : ℕ) : ℤ) by rfl, BitVec.ofInt_natCast]
  change ((BitVec.ofInt w 255).setWidth 8).toNat = 255
  rw [e]
  exact k 255 (by norm_num)

theorem C129_bytes {w : ℕ} (hw : 8 ≤ w) (c : Color) : ofInt (c.r.setWidth w) (c.g.setWidth w) (c.b.setWidth w) (c.a.setWidth w) = c := by
  have k : ∀ x : BitVec 8, (x.setWidth w).setWidth 8 = x := fun x => by
    rw [BitVec.setWidth_setWidth_of_le _ hw, BitVec.setWidth_eq]
  cases c
  simp [ofInt, k]

variable {K : Type} [Field K] [LinearOrder K] [IsStrictOrderedRing K] [FloorRing K] {p : ℕ} (R : Rounding K p)

/-- A channel between 0 and 1 has a value `n`, with `n` at most the rounded `255 x`, and less than one below it. -/
theorem C129_channel (hp : 8 ≤ p) {x : K} (h0 : 0 ≤ x) (h1 : x ≤ 1) :
    ∃ n : BitVec 8, channel R x = some n ∧ (n.toNat : K) ≤ R.rnd (x * 255) ∧ R.rnd (x * 255) < n.toNat + 1 := by
  have f255 : IsFp p (255 : K) := by
    have := isFp_nat (K := K) (p := p) (by omega) (n := 255) (by
      calc 255 ≤ 2 ^ 8 := by norm_num
        _ ≤ 2 ^ p := Nat.pow_le_pow_right (by norm_num) hp)
    simpa using this
  have y0 : 0 ≤ R.rnd (x * 255) := R.ge_of_ge (mul_nonneg h0 (by norm_num)) isFp_zero
  have y1 : R.rnd (x * 255) ≤ 255 := R.le_of_le (by linarith) f255
  have n0 : 0 ≤ ⌊R.rnd (x * 255)⌋ := Int.floor_nonneg.2 y0
  have n1 : ⌊R.rnd (x * 255)⌋ < 256 := by
    rw [Int.floor_lt]
    push_cast
    linarith
  have e : ((BitVec.ofNat 8 ⌊R.rnd (x * 255)⌋.toNat).toNat : ℤ) = ⌊R.rnd (x * 255)⌋ := by
    rw [BitVec.toNat_ofNat, Nat.mod_eq_of_lt (by omega)]
    omega
  have e' : ((BitVec.ofNat 8 ⌊R.rnd (x * 255)⌋.toNat).toNat : K) = (⌊R.rnd (x * 255)⌋ : K) := by rw [← Int.cast_natCast, e]
  refine ⟨BitVec.ofNat 8 ⌊R.rnd (x * 255)⌋.toNat, ?_, ?_, ?_⟩
  · unfold channel
    exact if_pos ⟨by linarith, by linarith⟩
  · rw [e']; exact Int.floor_le _
  · rw [e']; exact Int.lt_floor_add_one _

/-- The channels 0 and 1 are 0 and 255, and a greater number has no smaller byte. -/
theorem C129_order (hp : 8 ≤ p) : channel R 0 = some 0 ∧ channel R 1 = some 255 ∧
    ∀ {x y : K} {m n : BitVec 8}, 0 ≤ x → x ≤ y → y ≤ 1 → channel R x = some m → channel R y = some n → m.toNat ≤ n.toNat := by
  have f255 : IsFp p (255 : K) := by
    have := isFp_nat (K := K) (p := p) (by omega) (n := 255) (by
      calc 255 ≤ 2 ^ 8 := by norm_num
        _ ≤ 2 ^ p := Nat.pow_le_pow_right (by norm_num) hp)
    simpa using this
  refine ⟨?_, ?_, ?_⟩
  · unfold channel
    rw [zero_mul, R.zero]
    simp
  · unfold channel
    rw [one_mul, R.id f255]
    have : ⌊(255 : K)⌋ = 255 := by
      rw [show (255 : K) = ((255 : ℤ) : K) by norm_num, Int.floor_intCast]
    dsimp only
    rw [this, if_pos (by constructor <;> norm_num)]
    rfl
  · intro x y m n h0 hxy h1 hm hn
    obtain ⟨m', em, m1, m2⟩ := C129_channel R hp h0 (hxy.trans h1)
    obtain ⟨n', en, n1, n2⟩ := C129_channel R hp (h0.trans hxy) h1
    rw [em] at hm
    rw [en] at hn
    cases hm; cases hn
    have : R.rnd (x * 255) ≤ R.rnd (y * 255) := R.mono (by linarith)
    have : (m.toNat : K) < n.toNat + 1 := by linarith
    have : m.toNat < n.toNat + 1 := by exact_mod_cast this
    omega

/-- Four numbers between 0 and 1 always make a colour, each channel by itself; three make an opaque one. -/
theorem C129_floats (hp : 8 ≤ p) {r g b a : K} (hr : 0 ≤ r ∧ r ≤ 1) (hg : 0 ≤ g ∧ g ≤ 1) (hb : 0 ≤ b ∧ b ≤ 1) (ha : 0 ≤ a ∧ a ≤ 1) :
    (∃ c, ofFloat R r g b a = some c ∧ channel R r = some c.r ∧ channel R g = some c.g ∧ channel R b = some c.b ∧ channel R a = some c.a) ∧
    ∃ c, ofFloat R r g b = some c ∧ c.a = 255 := by
  obtain ⟨x1, e1, _⟩ := C129_channel R hp hr.1 hr.2
  obtain ⟨x2, e2, _⟩ := C129_channel R hp hg.1 hg.2
  obtain ⟨x3, e3, _⟩ := C129_channel R hp hb.1 hb.2
  obtain ⟨x4, e4, _⟩ := C129_channel R hp ha.1 ha.2
  constructor
  · refine ⟨⟨x1, x2, x3, x4⟩, ?_, e1, e2, e3, e4⟩
    unfold ofFloat
    rw [e1, e2, e3, e4]
    rfl
  · refine ⟨⟨x1, x2, x3, 255⟩, ?_, rfl⟩
    unfold ofFloat
    rw [e1, e2, e3, (C129_order R hp).2.1]
    rfl

/-- Every byte comes back: `n / 255`, rounded, has the channel `n`, in both formats. -/
theorem C129_round_trip (n : BitVec 8) :
    channel (ieee ℚ 24 (by norm_num)) (rne 24 (n.toNat / 255)) = some n ∧ channel (ieee ℚ 53 (by norm_num)) (rne 53 (n.toNat / 255)) = some n := by
  have : ∀ i : Fin 256, channel (ieee ℚ 24 (by norm_num)) (rne 24 ((i.val : ℚ) / 255)) = some (BitVec.ofFin i) ∧
      channel (ieee ℚ 53 (by norm_num)) (rne 53 ((i.val : ℚ) / 255)) = some (BitVec.ofFin i) := by
    decide +kernel
  exact this n.toFin

/-- A channel is undefined exactly if the truncated product is no byte, which is to say if no integer of a byte is reached by dropping the fraction. -/
theorem C129_undefined (x : K) : channel R x = none ↔ ¬ ∃ n : ℕ, n < 256 ∧ |R.rnd (x * 255) - n| < 1 ∧ (n = 0 ∨ (n : K) ≤ R.rnd (x * 255)) := by
  unfold channel
  dsimp only
  generalize R.rnd (x * 255) = y
  have k : (-1 < y ∧ y < 256) ↔ ∃ n : ℕ, n < 256 ∧ |y - n| < 1 ∧ (n = 0 ∨ (n : K) ≤ y) := by
    constructor
    · rintro ⟨h1, h2⟩
      rcases lt_or_ge y 0 with c | c
      · exact ⟨0, by norm_num, by rw [abs_lt]; push_cast; constructor <;> linarith, .inl rfl⟩
      · have f0 : 0 ≤ ⌊y⌋ := Int.floor_nonneg.2 c
        obtain ⟨n, hn⟩ := Int.eq_ofNat_of_zero_le f0
        have l := Int.floor_le y
        have u := Int.lt_floor_add_one y
        rw [hn] at l u
        push_cast at l u
        refine ⟨n, ?_, by rw [abs_lt]; constructor <;> linarith, .inr l⟩
        have : (n : K) < (256 : ℕ) := by push_cast; linarith
        exact_mod_cast this
    · rintro ⟨n, h1, h2, h3⟩
      rw [abs_lt] at h2
      have n0 : (0 : K) ≤ n := Nat.cast_nonneg n
      have n1 : (n : K) + 1 ≤ 256 := by exact_mod_cast h1
      constructor <;> linarith [h2.1, h2.2]
  rw [← k]
  split <;> simp_all

/-- A channel greater than 1 or less than 0 may be undefined; integers outside the bytes wrap. -/
theorem C129_outside : channel (ieee ℚ 53 (by norm_num)) (rne 53 (101 / 100)) = none ∧ channel (ieee ℚ 53 (by norm_num)) (rne 53 (-1 / 100)) = none ∧
    (ofInt (256 : BitVec 32) 0 0).r = 0 := by
  decide +kernel

example : ofFloat (ieee ℚ 53 (by norm_num)) (rne 53 (1 / 2)) 0 1 = some ⟨127, 0, 255, 255⟩ := by decide +kernel

end Verif.ColorP
