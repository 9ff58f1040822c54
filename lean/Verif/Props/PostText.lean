import Verif.Model.PostTools
import Verif.Lemmas.Abaqus
import Verif.Props.Names
import Mathlib.Tactic.Linarith
import Mathlib.Tactic.Positivity
import Mathlib.Tactic.FieldSimp
import Mathlib.Tactic.NormNum
import Mathlib.Tactic.Ring
import Mathlib.Algebra.Order.Field.Rat

/-!
# C103: the numbers that the post-processing programs write, as text
-/

namespace Verif.Post

open Verif.Str (Byte)
open Verif.StrView (digits)
open Verif.Names (IsDigit value value_append)
open Verif.Abaqus (digit_toNat digits_ne digits_digit)

/-- `t` is a decimal number without sign: digits, a point, `w` digits. -/
def IsFixed (w : Nat) (t : List Byte) (v : ℚ) : Prop :=
  ∃ a b, t = a ++ 46 :: b ∧ a ≠ [] ∧ b.length = w ∧ (∀ c ∈ a, IsDigit c) ∧ (∀ c ∈ b, IsDigit c) ∧ v = (value a : ℚ) + (value b : ℚ) / 10 ^ w

/-- `t` is a decimal number, perhaps after a minus sign. -/
def IsNumber (w : Nat) (t : List Byte) (v : ℚ) : Prop := IsFixed w t v ∨ ∃ u, t = 45 :: u ∧ IsFixed w u (-v)

theorem lastDigits_spec : ∀ w n, (lastDigits w n).length = w ∧ (∀ c ∈ lastDigits w n, IsDigit c) ∧ value (lastDigits w n) = n % 10 ^ w := by
  intro w
  induction w with
  | zero => intro n; simp [lastDigits, value, Nat.mod_one]
  | succ w ih =>
    intro n
    obtain ⟨h1, h2, h3⟩ := ih (n / 10)
    refine ⟨by simp [lastDigits, h1], ?_, ?_⟩
    · intro c hc
      rcases List.mem_append.1 hc with hc | hc
      · exact h2 c hc
      · rw [List.mem_singleton.1 hc, IsDigit, digit_toNat _ (by omega)]
        omega
    · rw [lastDigits, value_append, h3, digit_toNat _ (by omega), pow_succ, Nat.mul_comm (10 ^ w) 10, Nat.mod_mul]
      omega

theorem value_digits (n : Nat) : value (digits n) = n := by
  induction n using Nat.strong_induction_on with
  | _ n ih =>
    rw [digits]
    split_ifs with h
    · rw [← List.nil_append [UInt8.ofNat (48 + n)], value_append, digit_toNat n h]
      simp [value]
    · rw [value_append, ih (n / 10) (by omega), digit_toNat _ (by omega)]
      omega

theorem roundEven_near (num den : Nat) (h : 0 < den) : |(roundEven num den : ℚ) - (num : ℚ) / den| ≤ 1 / 2 := by
  have hd : (0 : ℚ) < den := by exact_mod_cast h
  have e : (num : ℚ) = den * (num / den : Nat) + (num % den : Nat) := by exact_mod_cast (Nat.div_add_mod num den).symm
  have hr : (num % den : Nat) < den := Nat.mod_lt _ h
  have key : ∀ k : Nat, (2 * (k * den) ≤ 2 * num + den) → (2 * num ≤ 2 * (k * den) + den) → |(k : ℚ) - (num : ℚ) / den| ≤ 1 / 2 := by
    intro k h1 h2
    have h1' : (2 * (k * den) : ℚ) ≤ 2 * num + den := by exact_mod_cast h1
    have h2' : (2 * num : ℚ) ≤ 2 * (k * den) + den := by exact_mod_cast h2
    rw [abs_le]
    constructor
    · rw [neg_le_sub_iff_le_add, div_le_iff₀ hd]; nlinarith
    · rw [sub_le_iff_le_add, ← sub_le_iff_le_add', le_div_iff₀ hd]; nlinarith
  have hn := Nat.div_add_mod num den
  have hc : num / den * den = den * (num / den) := Nat.mul_comm _ _
  have hc1 : (num / den + 1) * den = den * (num / den) + den := by ring
  unfold roundEven
  dsimp only
  split_ifs with h1 h2 h3
  · exact key _ (by rw [hc]; omega) (by rw [hc]; omega)
  · exact key _ (by rw [hc1]; omega) (by rw [hc1]; omega)
  · exact key _ (by rw [hc]; omega) (by rw [hc]; omega)
  · exact key _ (by rw [hc1]; omega) (by rw [hc1]; omega)

theorem fixed16_eq (x : ℚ) (r : Nat) (h : roundEven (x.num.natAbs * 10 ^ 16) x.den = r) :
    fixed16 x = (if x < 0 then [45] else []) ++ digits (r / 10 ^ 16) ++ 46 :: lastDigits 16 r := by
  rw [← h]
  rfl

/-- **C103.**  `%.16f` writes a decimal number with 16 digits after the point that differs from the value by at most half a unit of
the last one. -/
theorem C103_text (x : ℚ) : ∃ v, IsNumber 16 (fixed16 x) v ∧ |v - x| ≤ 1 / (2 * 10 ^ 16) := by
  have hf : ∀ r : Nat, IsFixed 16 (digits (r / 10 ^ 16) ++ 46 :: lastDigits 16 r) ((r : ℚ) / 10 ^ 16) := by
    intro r
    obtain ⟨l1, l2, l3⟩ := lastDigits_spec 16 r
    refine ⟨_, _, rfl, digits_ne _, l1, ?_, l2, ?_⟩
    · intro c hc; exact digits_digit _ c hc
    · rw [value_digits, l3]
      have : (r : ℚ) = 10 ^ 16 * ((r / 10 ^ 16 : Nat) : ℚ) + ((r % 10 ^ 16 : Nat) : ℚ) := by
        exact_mod_cast (Nat.div_add_mod r (10 ^ 16)).symm
      rw [div_eq_iff (by positivity)]
      rw [add_mul, div_mul_cancel₀ _ (by positivity)]
      linarith
  have hr := roundEven_near (x.num.natAbs * 10 ^ 16) x.den x.den_pos
  have hx : ((x.num.natAbs * 10 ^ 16 : Nat) : ℚ) / x.den = |x| * 10 ^ 16 := by
    have : ((x.num.natAbs : Nat) : ℚ) = |(x.num : ℚ)| := by
      rw [← Int.cast_abs, Int.abs_eq_natAbs]; rfl
    push_cast
    rw [this]
    have e : |x| = |(x.num : ℚ)| / x.den := by
      conv_lhs => rw [← Rat.num_div_den x]
      rw [abs_div, Nat.abs_cast]
    rw [e]; ring
  rw [hx] at hr
  obtain ⟨r, hrd⟩ : ∃ r, roundEven (x.num.natAbs * 10 ^ 16) x.den = r := ⟨_, rfl⟩
  rw [hrd] at hr
  have hnear : |(r : ℚ) / 10 ^ 16 - (|x|)| ≤ 1 / (2 * 10 ^ 16) := by
    have : (r : ℚ) / 10 ^ 16 - |x| = ((r : ℚ) - |x| * 10 ^ 16) / 10 ^ 16 := by field_simp
    rw [this, abs_div, abs_of_pos (by positivity : (0 : ℚ) < 10 ^ 16), div_le_iff₀ (by positivity)]
    linarith
  by_cases h0 : x < 0
  · refine ⟨-((r : ℚ) / 10 ^ 16), Or.inr ⟨_, ?_, by rw [neg_neg]; exact hf r⟩, ?_⟩
    · rw [fixed16_eq x r hrd, if_pos h0, List.append_assoc, List.singleton_append]
    · rw [abs_of_neg h0] at hnear
      rw [show -((r : ℚ) / 10 ^ 16) - x = -((r : ℚ) / 10 ^ 16 - -x) by ring, abs_neg]
      exact hnear
  · refine ⟨(r : ℚ) / 10 ^ 16, Or.inl ?_, ?_⟩
    · rw [fixed16_eq x r hrd, if_neg h0, List.nil_append]; exact hf r
    · rwa [abs_of_nonneg (not_lt.1 h0)] at hnear

theorem split_point {a b a' b' : List Byte} (ha : ∀ c ∈ a, IsDigit c) (ha' : ∀ c ∈ a', IsDigit c) (h : a ++ 46 :: b = a' ++ 46 :: b') :
    a = a' ∧ b = b' := by
  induction a generalizing a' with
  | nil =>
    cases a' with
    | nil => simpa using h
    | cons c l =>
      have : (46 : Byte) = c := by simpa using (List.cons.inj h).1
      have := ha' c (by simp)
      subst c
      simp [IsDigit] at this
  | cons c l ih =>
    cases a' with
    | nil =>
      have e : c = (46 : Byte) := by simpa using (List.cons.inj h).1
      have := ha c (by simp)
      subst c
      simp [IsDigit] at this
    | cons c' l' =>
      obtain ⟨h1, h2⟩ := List.cons.inj h
      obtain ⟨e1, e2⟩ := ih (fun c hc => ha c (by simp [hc])) (fun c hc => ha' c (by simp [hc])) h2
      exact ⟨by rw [h1, e1], e2⟩

theorem fixed_unique {w : Nat} {t : List Byte} {v v' : ℚ} (h : IsFixed w t v) (h' : IsFixed w t v') : v = v' := by
  obtain ⟨a, b, e, -, -, h1, h2, hv⟩ := h
  obtain ⟨a', b', e', -, -, h1', h2', hv'⟩ := h'
  obtain ⟨rfl, rfl⟩ := split_point h1 h1' (e.symm.trans e')
  rw [hv, hv']

theorem fixed_head {w : Nat} {t : List Byte} {v : ℚ} (h : IsFixed w t v) : ∀ u, t ≠ 45 :: u := by
  rintro u rfl
  obtain ⟨a, b, e, h0, -, h1, -⟩ := h
  cases a with
  | nil => exact h0 rfl
  | cons c l =>
    have : (45 : Byte) = c := by simpa using (List.cons.inj e).1
    have := h1 c (by simp)
    subst c
    simp [IsDigit] at this

/-- **C103.**  A text is the number of one value only. -/
theorem C103_unique (w : Nat) (t : List Byte) (v v' : ℚ) (h : IsNumber w t v) (h' : IsNumber w t v') : v = v' := by
  rcases h with h | ⟨u, e, h⟩ <;> rcases h' with h' | ⟨u', e', h'⟩
  · exact fixed_unique h h'
  · exact absurd e' (fixed_head h u')
  · exact absurd e (fixed_head h' u)
  · obtain ⟨-, rfl⟩ := List.cons.inj (e.symm.trans e')
    have := fixed_unique h h'
    linarith

/-- **C103.**  Different multiples of `2^-53` (among them all double precision numbers of magnitude at least 1/2) are written
differently: no information is lost. -/
theorem C103_exact (i j : ℤ) (h : fixed16 ((i : ℚ) / 2 ^ 53) = fixed16 ((j : ℚ) / 2 ^ 53)) : i = j := by
  obtain ⟨v, h1, h2⟩ := C103_text ((i : ℚ) / 2 ^ 53)
  obtain ⟨v', h1', h2'⟩ := C103_text ((j : ℚ) / 2 ^ 53)
  rw [← h] at h1'
  have e := C103_unique _ _ _ _ h1 h1'
  subst e
  by_contra hne
  have hge : (1 : ℚ) ≤ |(i : ℚ) - j| := by
    have : 1 ≤ |i - j| := Int.one_le_abs (sub_ne_zero.2 hne)
    exact_mod_cast this
  have hle : |(i : ℚ) / 2 ^ 53 - (j : ℚ) / 2 ^ 53| ≤ 1 / 10 ^ 16 := by
    have := abs_sub_le ((i : ℚ) / 2 ^ 53) v ((j : ℚ) / 2 ^ 53)
    rw [abs_sub_comm _ v] at this
    have e : (1 : ℚ) / 10 ^ 16 = 1 / (2 * 10 ^ 16) + 1 / (2 * 10 ^ 16) := by norm_num
    rw [e]
    linarith
  rw [← sub_div, abs_div, abs_of_pos (by positivity : (0 : ℚ) < 2 ^ 53), div_le_iff₀ (by positivity)] at hle
  have : (1 : ℚ) / 10 ^ 16 * 2 ^ 53 < 1 := by norm_num
  linarith

/-- **C103** is false for smaller numbers: two different double precision numbers near 1/3, multiples of `2^-54`, are written the same, -/
theorem C103_collision_fails : ∃ i : ℤ, 2 ^ 52 ≤ i ∧ i + 1 < 2 ^ 53 ∧
    fixed16 ((i : ℚ) / 2 ^ 54) = fixed16 (((i + 1 : ℤ) : ℚ) / 2 ^ 54) := by
  refine ⟨4503599627370497, by norm_num, by norm_num, ?_⟩
  have e1 : (((4503599627370497 : ℤ) : ℚ)) / 2 ^ 54 = 4503599627370497 / 18014398509481984 := by norm_num
  have e2 : (((4503599627370497 + 1 : ℤ) : ℚ)) / 2 ^ 54 = 4503599627370498 / 18014398509481984 := by norm_num
  rw [e1, e2]
  decide +kernel

/-- and every number below half a unit of the last digit is written as zero. -/
theorem C103_zero_fails (x : ℚ) (h0 : 0 ≤ x) (h : x < 1 / (2 * 10 ^ 16)) : fixed16 x = fixed16 0 := by
  have hd := x.den_pos
  have hlt : 2 * (x.num.natAbs * 10 ^ 16) < x.den := by
    have hn : (x.num.natAbs : ℚ) = x.num := by
      have := Int.natAbs_of_nonneg (Rat.num_nonneg.2 h0)
      rw [← Int.cast_natCast, this]
    have : (x.num : ℚ) / x.den < 1 / (2 * 10 ^ 16) := by rw [Rat.num_div_den]; exact h
    rw [div_lt_div_iff₀ (by exact_mod_cast hd) (by positivity)] at this
    have h3 : ((2 * (x.num.natAbs * 10 ^ 16) : Nat) : ℚ) < (x.den : ℚ) := by
      push_cast
      rw [hn]; linarith
    exact_mod_cast h3
  have hr : roundEven (x.num.natAbs * 10 ^ 16) x.den = 0 := by
    unfold roundEven
    dsimp only
    rw [Nat.div_eq_of_lt (by omega), Nat.mod_eq_of_lt (by omega), if_pos hlt]
  have h00 : roundEven ((0 : ℚ).num.natAbs * 10 ^ 16) (0 : ℚ).den = 0 := by decide +kernel
  rw [fixed16_eq x 0 hr, fixed16_eq 0 0 h00, if_neg (not_lt.2 h0), if_neg (lt_irrefl _)]

theorem number_no {w : Nat} {t : List Byte} {v : ℚ} (h : IsNumber w t v) : (10 : Byte) ∉ t ∧ (44 : Byte) ∉ t := by
  have hd : ∀ c : Byte, IsDigit c → c ≠ 10 ∧ c ≠ 44 := by
    intro c hc
    constructor <;> (rintro rfl; simp [IsDigit] at hc)
  have hf : ∀ {t v}, IsFixed w t v → (10 : Byte) ∉ t ∧ (44 : Byte) ∉ t := by
    rintro t v ⟨a, b, rfl, -, -, h1, h2, -⟩
    constructor <;> intro hm <;> rcases List.mem_append.1 hm with hm | hm
    · exact (hd _ (h1 _ hm)).1 rfl
    · rcases List.mem_cons.1 hm with hm | hm
      · cases hm
      · exact (hd _ (h2 _ hm)).1 rfl
    · exact (hd _ (h1 _ hm)).2 rfl
    · rcases List.mem_cons.1 hm with hm | hm
      · cases hm
      · exact (hd _ (h2 _ hm)).2 rfl
  rcases h with h | ⟨u, rfl, h⟩
  · exact hf h
  · obtain ⟨h1, h2⟩ := hf h
    exact ⟨by simp [h1], by simp [h2]⟩

/-- **C103.**  The file has one line for each number, in order: its lines are the texts of the numbers (after the last newline there is
nothing). -/
theorem C103_lines (l : List ℚ) : (numberLines l).splitOn 10 = l.map fixed16 ++ [[]] := by
  induction l with
  | nil => rfl
  | cons x l ih =>
    obtain ⟨v, hv, -⟩ := C103_text x
    have e : numberLines (x :: l) = fixed16 x ++ 10 :: numberLines l := by simp [numberLines]
    have hno := (number_no hv).1
    rw [e, List.map_cons, List.cons_append, ← ih]
    exact List.splitOn_append_cons_self_of_not_mem hno _

example : fixed16 (-1 / 3) = "-0.3333333333333333".toUTF8.toList ∧ fixed16 (5 / 2) = "2.5000000000000000".toUTF8.toList := by decide +kernel

end Verif.Post
