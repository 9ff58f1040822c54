import Verif.Model.Names
import Mathlib.Data.Int.Notation
import Mathlib.Tactic.Ring
import Mathlib.Data.List.Induction

/-!
# C63 Generated names are unique and sequential
-/

namespace Verif.Names

open Verif.Str (Byte)

/-- A decimal digit character. -/
def IsDigit (b : Byte) : Prop := 48 ≤ b.toNat ∧ b.toNat ≤ 57

/-- The number a string of digits stands for. -/
def value (s : List Byte) : Nat := s.foldl (fun acc b => acc * 10 + (b.toNat - 48)) 0

/-- `s` is the decimal representation of `n` with exactly `w` characters. -/
def IsDecimal (w n : Nat) (s : List Byte) : Prop := s.length = w ∧ (∀ b ∈ s, IsDigit b) ∧ value s = n

theorem value_append (s : List Byte) (b : Byte) : value (s ++ [b]) = value s * 10 + (b.toNat - 48) := by
  simp [value]

theorem value_lt {w n : Nat} {s : List Byte} (h : IsDecimal w n s) : n < 10 ^ w := by
  obtain ⟨h1, h2, h3⟩ := h
  induction s using List.reverseRecOn generalizing w n with
  | nil => subst h1 h3; simp [value]
  | append_singleton s b ih =>
    rw [List.length_append, List.length_singleton] at h1
    subst h1
    rw [value_append] at h3
    have := ih rfl (fun c hc => h2 c (by simp [hc])) rfl
    have hb := h2 b (by simp)
    unfold IsDigit at hb
    rw [pow_succ]
    omega

/-- There is only one representation. -/
theorem decimal_unique {w n : Nat} {s t : List Byte} (hs : IsDecimal w n s) (ht : IsDecimal w n t) : s = t := by
  induction s using List.reverseRecOn generalizing w n t with
  | nil =>
    obtain ⟨h1, -, -⟩ := hs
    obtain ⟨h2, -, -⟩ := ht
    subst h1
    exact (List.length_eq_zero_iff.1 h2).symm
  | append_singleton s b ih =>
    obtain ⟨h1, h2, h3⟩ := hs
    obtain ⟨k1, k2, k3⟩ := ht
    rw [List.length_append, List.length_singleton] at h1
    have hne : t ≠ [] := by
      rintro rfl
      simp at k1
      omega
    rw [← List.dropLast_concat_getLast hne] at k1 k2 k3 ⊢
    generalize t.dropLast = t' at *
    generalize t.getLast hne = c at *
    rw [List.length_append, List.length_singleton] at k1
    rw [value_append] at h3 k3
    have hb := h2 b (by simp)
    have hc := k2 c (by simp)
    unfold IsDigit at hb hc
    have e : b = c := by
      apply UInt8.toNat_inj.1
      omega
    rw [ih (w := s.length) (n := value s) (t := t') ⟨rfl, fun d hd => h2 d (by simp [hd]), rfl⟩
      ⟨by omega, fun d hd => k2 d (by simp [hd]), by omega⟩, e]

theorem asciiLoop_append : ∀ (n : Nat) (num : ℤ) (acc : List Byte), asciiLoop n num acc = asciiLoop n num [] ++ acc := by
  intro n
  induction n with
  | zero => intro num acc; rfl
  | succ n ih =>
    intro num acc
    rw [asciiLoop, asciiLoop, ih, ih _ [_]]
    simp

theorem byte_digit (d : Nat) (h : d < 10) : (UInt8.ofBitVec (BitVec.ofInt 8 ((d : ℤ) + 48))).toNat = d + 48 := by
  have : BitVec.ofInt 8 ((d : ℤ) + 48) = BitVec.ofNat 8 (d + 48) := by
    rw [← BitVec.ofInt_natCast]
    push_cast
    rfl
  rw [this, UInt8.toNat_ofBitVec, BitVec.toNat_ofNat]
  omega

theorem asciiLoop_decimal : ∀ (w n : Nat), n < 10 ^ w → IsDecimal w n (asciiLoop w n []) := by
  intro w
  induction w with
  | zero => intro n h; simp at h; subst h; exact ⟨rfl, by simp [asciiLoop], rfl⟩
  | succ w ih =>
    intro n h
    rw [asciiLoop, asciiLoop_append]
    have e1 : ((n : ℤ)).tdiv 10 = ((n / 10 : Nat) : ℤ) := by
      rw [Int.tdiv_eq_ediv_of_nonneg (by omega)]; omega
    have e2 : ((n : ℤ)).tmod 10 = ((n % 10 : Nat) : ℤ) := by
      rw [Int.tmod_eq_emod_of_nonneg (by omega)]; omega
    rw [e1, e2]
    obtain ⟨h1, h2, h3⟩ := ih (n / 10) (by rw [pow_succ] at h; omega)
    have hb := byte_digit (n % 10) (by omega)
    refine ⟨by rw [List.length_append, h1]; rfl, ?_, ?_⟩
    · intro b hbm
      rcases List.mem_append.1 hbm with hbm | hbm
      · exact h2 b hbm
      · rw [List.mem_singleton] at hbm
        subst hbm
        unfold IsDigit
        omega
    · rw [value_append, h3, hb]
      omega

/-- **C63.**  `getASCIINumber(n)` is the 5-digit decimal of `n`; reading it back gives `n`. -/
theorem C63_number (n : Nat) (h : n < 100000) : IsDecimal 5 n (getASCIINumber n) := asciiLoop_decimal 5 n (by simpa using h)

/-- **C63.**  Different numbers get different names. -/
theorem C63_injective (a b : Nat) (ha : a < 100000) (hb : b < 100000) (h : getASCIINumber a = getASCIINumber b) : a = b := by
  have h1 := (C63_number a ha).2.2
  have h2 := (C63_number b hb).2.2
  rw [← h1, ← h2, h]

theorem incRev_decimal : ∀ (w n : Nat) (s : List Byte) (pre : List Byte), IsDecimal w n s → n + 1 < 10 ^ w →
    ∃ t, IsDecimal w (n + 1) t ∧ incRev (s.reverse ++ pre) = some (t.reverse ++ pre) := by
  intro w n s pre hs
  induction s using List.reverseRecOn generalizing w n with
  | nil =>
    intro h
    obtain ⟨h1, -, -⟩ := hs
    subst h1
    simp at h
  | append_singleton s b ih =>
    intro h
    obtain ⟨h1, h2, h3⟩ := hs
    rw [List.length_append, List.length_singleton] at h1
    subst h1
    rw [value_append] at h3
    have hb := h2 b (by simp)
    unfold IsDigit at hb
    rw [List.reverse_append, List.reverse_singleton, List.singleton_append, List.cons_append, incRev]
    by_cases h9 : b = 57
    · rw [if_pos h9]
      have hb9 : b.toNat = 57 := by rw [h9]; rfl
      obtain ⟨t, ⟨t1, t2, t3⟩, ht⟩ := ih s.length (value s) ⟨rfl, fun d hd => h2 d (by simp [hd]), rfl⟩ (by
        rw [pow_succ] at h
        omega)
      refine ⟨t ++ [48], ⟨by rw [List.length_append, t1]; rfl, ?_, ?_⟩, ?_⟩
      · intro c hc
        rcases List.mem_append.1 hc with hc | hc
        · exact t2 c hc
        · rw [List.mem_singleton] at hc
          subst hc
          exact ⟨by decide, by decide⟩
      · rw [value_append, t3]
        have : (48 : Byte).toNat = 48 := rfl
        omega
      · rw [ht]
        simp
    · rw [if_neg h9]
      have hb9 : b.toNat ≠ 57 := by
        intro hc
        apply h9
        apply UInt8.toNat_inj.1
        exact hc
      have hadd : (b + 1).toNat = b.toNat + 1 := by
        rw [UInt8.toNat_add]
        have : (1 : Byte).toNat = 1 := rfl
        omega
      refine ⟨s ++ [b + 1], ⟨by rw [List.length_append]; rfl, ?_, ?_⟩, ?_⟩
      · intro c hc
        rcases List.mem_append.1 hc with hc | hc
        · exact h2 c (by simp [hc])
        · rw [List.mem_singleton] at hc
          subst hc
          unfold IsDigit
          omega
      · rw [value_append, hadd]
        omega
      · simp

/-- **C63.**  A name that ends in a number of any width gets the next number of that width, and keeps the rest. -/
theorem C63_increment (w n : Nat) (pre s : List Byte) (hs : IsDecimal w n s) (h : n + 1 < 10 ^ w) :
    ∃ t, IsDecimal w (n + 1) t ∧ increment (pre ++ s) = some (pre ++ t) := by
  obtain ⟨t, ht, e⟩ := incRev_decimal w n s pre.reverse hs h
  refine ⟨t, ht, ?_⟩
  rw [increment, List.reverse_append, e]
  simp

/-- **C63.**  The name of `n` becomes the name of `n + 1`. -/
theorem C63_sequential (pre : List Byte) (n : Nat) (h : n + 1 < 100000) :
    increment (pre ++ getASCIINumber n) = some (pre ++ getASCIINumber (n + 1 : Nat)) := by
  obtain ⟨t, ht, e⟩ := C63_increment 5 n pre _ (C63_number n (by omega)) (by simpa using h)
  rw [e, decimal_unique ht (C63_number (n + 1) h)]

/-- `n` increments. -/
def increments : Nat → List Byte → Option (List Byte)
  | 0, s => some s
  | n + 1, s => (increment s).bind (increments n)

theorem increments_succ : ∀ (n : Nat) (s : List Byte), increments (n + 1) s = (increments n s).bind increment := by
  intro n
  induction n with
  | zero => intro s; cases h : increment s <;> simp [increments, h]
  | succ n ih =>
    intro s
    rw [increments]
    cases h : increment s with
    | none => simp [increments, h]
    | some s' => rw [Option.bind_some, ih, increments, h, Option.bind_some]

/-- **C63.**  The name counted up from "…00000" (as in `importCoarseCellMeshes`) is the one composed with `getASCIINumber`. -/
theorem C63_count (pre : List Byte) (n : Nat) (h : n < 100000) :
    increments n (pre ++ getASCIINumber 0) = some (pre ++ getASCIINumber n) := by
  induction n with
  | zero => rfl
  | succ n ih => rw [increments_succ, ih (by omega), Option.bind_some, C63_sequential pre n h]

theorem incRev_nines (k : Nat) (c : Byte) (hc : c ≠ 57) (pre : List Byte) :
    incRev (List.replicate k 57 ++ c :: pre) = some (List.replicate k 48 ++ (c + 1) :: pre) := by
  induction k with
  | zero => simp [incRev, hc]
  | succ k ih => simp [List.replicate_succ, incRev, ih]

/-- Beyond the last number the increment changes the character before the digits, for example `_` to `` ` ``. -/
theorem C63_overflow_fails (w : Nat) (c : Byte) (hc : c ≠ 57) (pre : List Byte) :
    increment (pre ++ c :: List.replicate w 57) = some (pre ++ (c + 1) :: List.replicate w 48) := by
  have := incRev_nines w c hc pre.reverse
  rw [increment, List.reverse_append, List.reverse_cons, List.reverse_replicate, List.append_assoc, List.singleton_append, this]
  simp

/-- A string of nines only makes it run out of the string. -/
theorem C63_nines_fails (w : Nat) : increment (List.replicate w 57) = none := by
  have : incRev (List.replicate w 57) = none := by
    induction w with
    | zero => rfl
    | succ w ih => simp [List.replicate_succ, incRev, ih]
  rw [increment, List.reverse_replicate, this]
  rfl

/-- From 100000 on, names repeat. -/
theorem C63_wrap_fails (n : Nat) : getASCIINumber ((n + 100000 : Nat) : ℤ) = getASCIINumber (n : ℤ) := by
  have e1 : ∀ m : Nat, ((m : ℤ)).tdiv 10 = ((m / 10 : Nat) : ℤ) := fun m => by rw [Int.tdiv_eq_ediv_of_nonneg (by omega)]; omega
  have e2 : ∀ m : Nat, ((m : ℤ)).tmod 10 = ((m % 10 : Nat) : ℤ) := fun m => by rw [Int.tmod_eq_emod_of_nonneg (by omega)]; omega
  have step : ∀ (w m : Nat), asciiLoop w ((m + 10 ^ w : Nat) : ℤ) [] = asciiLoop w (m : ℤ) [] := by
    intro w
    induction w with
    | zero => intro m; rfl
    | succ w ih =>
      intro m
      rw [asciiLoop, asciiLoop, asciiLoop_append, asciiLoop_append w _ [_], e1, e1, e2, e2]
      have d : (m + 10 ^ (w + 1)) / 10 = m / 10 + 10 ^ w := by rw [pow_succ]; omega
      have r : (m + 10 ^ (w + 1)) % 10 = m % 10 := by rw [pow_succ]; omega
      rw [d, r, ih]
  exact step 5 n

/-- "Coarse_Cell_00099" → "Coarse_Cell_00100". -/
example : increment ("Coarse_Cell_00099".toUTF8.toList) = some ("Coarse_Cell_00100".toUTF8.toList) := by decide +kernel

example : getASCIINumber 34578 = "34578".toUTF8.toList := by decide +kernel

example : increment ("Coarse_Cell_99999".toUTF8.toList) = some ("Coarse_Cell`00000".toUTF8.toList) := by decide +kernel

end Verif.Names
