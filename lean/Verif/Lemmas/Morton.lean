import Verif.Model.Morton
import Mathlib.Tactic.IntervalCases
import Mathlib.Tactic.Ring
import Mathlib.Tactic.Linarith

/-! Helper lemmas for Morton codes: bit descriptions of every bit trick. -/

namespace Verif.Morton

set_option maxRecDepth 8000

theorem high_zero {w : Nat} (x : BitVec w) (k : Nat) (hx : x.toNat < 2 ^ k) (j : Nat) (hj : j < w)
    (hk : k ≤ j) : x[j] = false := by
  rw [← BitVec.getLsbD_eq_getElem, BitVec.getLsbD, Nat.testBit_lt_two_pow]
  exact lt_of_lt_of_le hx (Nat.pow_le_pow_right (by norm_num) hk)

theorem high_zero' {w : Nat} (x : BitVec w) (k : Nat) (hx : x.toNat < 2 ^ k) (j : Nat)
    (hk : k ≤ j) : x.getLsbD j = false := by
  rw [BitVec.getLsbD, Nat.testBit_lt_two_pow]
  exact lt_of_lt_of_le hx (Nat.pow_le_pow_right (by norm_num) hk)

/-! Portable deposits and extracts. -/

theorem pdep55_32_bit (x : BitVec 32) (hx : x.toNat < 2 ^ 16) (i : Nat) (hi : i < 32) :
    (pdep55_32 x).getLsbD i = (decide (i % 2 = 0) && x.getLsbD (i / 2)) := by
  have h := high_zero x 16 hx
  interval_cases i <;> simp [pdep55_32, h]

theorem pdep55_64_bit (x : BitVec 64) (hx : x.toNat < 2 ^ 32) (i : Nat) (hi : i < 64) :
    (pdep55_64 x).getLsbD i = (decide (i % 2 = 0) && x.getLsbD (i / 2)) := by
  have h := high_zero x 32 hx
  interval_cases i <;> simp [pdep55_64, h]

theorem pext55_32_bit (x : BitVec 32) (i : Nat) (hi : i < 32) :
    (pext55_32 x).getLsbD i = (decide (i < 16) && x.getLsbD (2 * i)) := by
  interval_cases i <;> simp [pext55_32]

theorem pext55_64_bit (x : BitVec 64) (i : Nat) (hi : i < 64) :
    (pext55_64 x).getLsbD i = (decide (i < 32) && x.getLsbD (2 * i)) := by
  interval_cases i <;> simp [pext55_64]

theorem pdep92_32_bit (x : BitVec 32) (hx : x.toNat < 2 ^ 10) (i : Nat) (hi : i < 32) :
    (pdep92_32 x).getLsbD i = (decide (i % 3 = 0) && x.getLsbD (i / 3)) := by
  have h := high_zero x 10 hx
  interval_cases i <;> simp [pdep92_32, h]

theorem pdep92_64_bit (x : BitVec 64) (hx : x.toNat < 2 ^ 21) (i : Nat) (hi : i < 64) :
    (pdep92_64 x).getLsbD i = (decide (i % 3 = 0) && x.getLsbD (i / 3)) := by
  have h := high_zero x 21 hx
  interval_cases i <;> simp [pdep92_64, h]

theorem pext92_32_bit (x : BitVec 32) (i : Nat) (hi : i < 32) :
    (pext92_32 x).getLsbD i = (decide (i < 10) && x.getLsbD (3 * i)) := by
  interval_cases i <;> simp [pext92_32]

theorem pext92_64_bit (x : BitVec 64) (i : Nat) (hi : i < 64) :
    (pext92_64 x).getLsbD i = (decide (i < 21) && x.getLsbD (3 * i)) := by
  interval_cases i <;> simp [pext92_64]

/-! Hardware deposits and extracts. -/

theorem pdep_bit {w : Nat} (s m : BitVec w) (i : Nat) (hi : i < w) :
    (pdep s m).getLsbD i = (m.getLsbD i && s.getLsbD (rank m i)) := by
  simp [pdep, hi]

theorem pext_bit {w : Nat} (s m : BitVec w) (k : Nat) (hk : k < w) :
    (pext s m).getLsbD k = match selectFrom m w 0 k with
      | some i => s.getLsbD i
      | none => false := by
  simp only [pext, BitVec.getLsbD_ofFnLE, hk, dite_true]
  rfl

/-- A mask with period `p` and offset `o`: bits `o, o+p, o+2p, ...` below the width. -/
def Strided {w : Nat} (m : BitVec w) (p o : Nat) : Prop :=
  ∀ i, i < w → m.getLsbD i = decide (i % p = o) ∧ (i % p = o → rank m i = i / p) ∧
    selectFrom m w 0 i = if p * i + o < w then some (p * i + o) else none

theorem strided_2x_32 : Strided (bmi2x 32) 2 0 := by unfold Strided; decide
theorem strided_2y_32 : Strided (bmi2y 32) 2 1 := by unfold Strided; decide
theorem strided_3x_32 : Strided (bmi3x 32) 3 0 := by unfold Strided; decide
theorem strided_3y_32 : Strided (bmi3y 32) 3 1 := by unfold Strided; decide
theorem strided_3z_32 : Strided (bmi3z 32) 3 2 := by unfold Strided; decide
theorem strided_2x_64 : Strided (bmi2x 64) 2 0 := by unfold Strided; decide
theorem strided_2y_64 : Strided (bmi2y 64) 2 1 := by unfold Strided; decide
theorem strided_3x_64 : Strided (bmi3x 64) 3 0 := by unfold Strided; decide
theorem strided_3y_64 : Strided (bmi3y 64) 3 1 := by unfold Strided; decide
theorem strided_3z_64 : Strided (bmi3z 64) 3 2 := by unfold Strided; decide

theorem pdep_strided {w : Nat} {m : BitVec w} {p o : Nat} (h : Strided m p o) (s : BitVec w)
    (i : Nat) (hi : i < w) :
    (pdep s m).getLsbD i = (decide (i % p = o) && s.getLsbD (i / p)) := by
  rw [pdep_bit _ _ _ hi, (h i hi).1]
  by_cases c : i % p = o
  · simp [c, (h i hi).2.1 c]
  · simp [c]

theorem pext_strided {w : Nat} {m : BitVec w} {p o : Nat} (h : Strided m p o) (s : BitVec w)
    (i : Nat) (hi : i < w) :
    (pext s m).getLsbD i = (decide (p * i + o < w) && s.getLsbD (p * i + o)) := by
  rw [pext_bit _ _ _ hi, (h i hi).2.2]
  by_cases c : p * i + o < w
  · simp [c]
  · simp [c]

/-! Arithmetic description: depositing is a strictly monotone map on numbers. -/

/-- Put `p - 1` zero bits after each bit of `n`. -/
def spread (p n : Nat) : Nat :=
  if h : n = 0 then 0 else n % 2 + 2 ^ p * spread p (n / 2)
termination_by n
decreasing_by omega

theorem spread_eq (p n : Nat) : spread p n = n % 2 + 2 ^ p * spread p (n / 2) := by
  by_cases h : n = 0
  · subst h; simp [spread]
  · rw [spread]; simp [h]

theorem spread_lt {p : Nat} (hp : 1 ≤ p) {m n : Nat} (h : m < n) : spread p m < spread p n := by
  induction n using Nat.strong_induction_on generalizing m with
  | _ n ih =>
    rw [spread_eq p m, spread_eq p n]
    have h2 : 2 ≤ 2 ^ p := by
      calc 2 = 2 ^ 1 := rfl
        _ ≤ 2 ^ p := Nat.pow_le_pow_right (by norm_num) hp
    rcases Nat.lt_or_ge (m / 2) (n / 2) with hlt | hge
    · have := ih (n / 2) (by omega) hlt
      have h3 : spread p (m / 2) + 1 ≤ spread p (n / 2) := this
      have h4 : 2 ^ p * (spread p (m / 2) + 1) ≤ 2 ^ p * spread p (n / 2) :=
        Nat.mul_le_mul_left _ h3
      rw [Nat.mul_add] at h4
      omega
    · have : m / 2 = n / 2 := by omega
      rw [this]; omega

theorem testBit_spread {p : Nat} (hp : p = 2 ∨ p = 3) (n i : Nat) :
    (spread p n).testBit i = (decide (i % p = 0) && n.testBit (i / p)) := by
  induction n using Nat.strong_induction_on generalizing i with
  | _ n ih =>
    by_cases h0 : n = 0
    · subst h0; simp [spread]
    · rw [spread_eq, Nat.add_comm, Nat.testBit_two_pow_mul_add]
      · split_ifs with hi
        · rcases Nat.eq_zero_or_pos i with rfl | hpos
          · simp
          · have : i % p ≠ 0 := by rw [Nat.mod_eq_of_lt hi]; omega
            simp only [this, decide_false, Bool.false_and]
            apply Nat.testBit_lt_two_pow
            calc n % 2 < 2 ^ 1 := by omega
              _ ≤ 2 ^ i := Nat.pow_le_pow_right (by norm_num) hpos
        · rw [ih (n / 2) (by omega)]
          have e1 : (i - p) % p = i % p := by rcases hp with rfl | rfl <;> omega
          have e2 : i / p = (i - p) / p + 1 := by rcases hp with rfl | rfl <;> omega
          rw [e1, e2, Nat.testBit_succ]
      · rcases hp with rfl | rfl <;> omega

/-- Anything whose bits are those of `x` at stride `p`, offset `o`, is `2^o * spread p x`. -/
theorem toNat_of_bits {w p o k : Nat} (hp : p = 2 ∨ p = 3) (ho : o < p) (hw : p * k ≤ w)
    (c x : BitVec w) (hx : x.toNat < 2 ^ k)
    (h : ∀ i, i < w → c.getLsbD i = (decide (i % p = o) && x.getLsbD (i / p))) :
    c.toNat = 2 ^ o * spread p x.toNat := by
  apply Nat.eq_of_testBit_eq
  intro i
  rw [Nat.testBit_two_pow_mul, testBit_spread hp]
  have hz : ∀ j, k ≤ j → x.toNat.testBit j = false := fun j hj => high_zero' x k hx j hj
  have key : (decide (i ≥ o) && (decide ((i - o) % p = 0) && x.toNat.testBit ((i - o) / p)))
      = (decide (i % p = o) && x.toNat.testBit (i / p)) := by
    by_cases c1 : i % p = o
    · have a : o ≤ i := by rcases hp with rfl | rfl <;> omega
      have b : (i - o) % p = 0 := by rcases hp with rfl | rfl <;> omega
      have d : (i - o) / p = i / p := by rcases hp with rfl | rfl <;> omega
      simp [a, b, c1, d]
    · by_cases a : o ≤ i
      · have b : ¬ (i - o) % p = 0 := by rcases hp with rfl | rfl <;> omega
        simp [b, c1]
      · simp [a, c1]
  rw [key]
  by_cases hi : i < w
  · exact h i hi
  · have : k ≤ i / p := by rcases hp with rfl | rfl <;> omega
    rw [hz _ this, Bool.and_false]
    exact BitVec.getLsbD_of_ge c i (by omega)

theorem shl_bits {w p o k : Nat} (d : Nat) (hd : o + d < p) (hp : p = 2 ∨ p = 3) (c x : BitVec w)
    (_hx : x.toNat < 2 ^ k)
    (h : ∀ i, i < w → c.getLsbD i = (decide (i % p = o) && x.getLsbD (i / p)))
    (i : Nat) (hi : i < w) :
    (c <<< d).getLsbD i = (decide (i % p = o + d) && x.getLsbD (i / p)) := by
  rw [BitVec.getLsbD_shiftLeft]
  by_cases c1 : i < d
  · have : ¬ i % p = o + d := by rcases hp with rfl | rfl <;> omega
    simp [c1, this]
  · rw [h (i - d) (by omega)]
    by_cases c2 : i % p = o + d
    · have a : (i - d) % p = o := by rcases hp with rfl | rfl <;> omega
      have b : (i - d) / p = i / p := by rcases hp with rfl | rfl <;> omega
      simp [c1, c2, a, b, hi]
    · have a : ¬ (i - d) % p = o := by rcases hp with rfl | rfl <;> omega
      simp [c2, a]

theorem and_zero {w p o o' : Nat} (hne : o ≠ o') (c c' x x' : BitVec w)
    (h : ∀ i, i < w → c.getLsbD i = (decide (i % p = o) && x.getLsbD (i / p)))
    (h' : ∀ i, i < w → c'.getLsbD i = (decide (i % p = o') && x'.getLsbD (i / p))) :
    c &&& c' = 0#w := by
  apply BitVec.eq_of_getLsbD_eq
  intro i hi
  rw [BitVec.getLsbD_and, h i hi, h' i hi]
  by_cases e : i % p = o
  · simp [e, hne]
  · simp [e]

end Verif.Morton
