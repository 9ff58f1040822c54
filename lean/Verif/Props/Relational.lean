import Verif.Model.Relational
import Mathlib.Data.List.Lex
import Mathlib.Data.Prod.Lex
import Mathlib.Order.Defs.LinearOrder

/-! C132: containers compare as what they contain. -/

namespace Verif.RelP

open Verif.Rel
open Verif.Alg (lexCompare pairLt pairEq)

variable {α β : Type} [LinearOrder α] [LinearOrder β]

/-- The equality of the elements. -/
def eq' (a b : α) : Bool := decide (a = b)

/-- The order of the elements. -/
def less (a b : α) : Bool := decide (a < b)

theorem equal_eq : ∀ l r : List α, l.length = r.length → equal eq' l r = some (decide (l = r))
  | [], [], _ => by simp [equal]
  | a :: l, b :: r, h => by
    rw [equal]
    by_cases c : a = b
    · subst c
      rw [equal_eq l r (by simpa using h)]
      simp [eq']
    · simp [eq', c]

/-- `==` and `!=` of vectors are always defined, and are equality and its opposite. -/
theorem C132_equal (l r : List α) : vectorEq eq' l r = some (decide (l = r)) ∧ vectorNe eq' l r = some (decide (l ≠ r)) := by
  have h : vectorEq eq' l r = some (decide (l = r)) := by
    unfold vectorEq
    split
    · rename_i h; exact equal_eq l r h
    · rename_i h
      have : l ≠ r := fun c => h (by rw [c])
      simp [this]
  refine ⟨h, ?_⟩
  unfold vectorNe
  rw [h]
  simp

theorem lt_iff : ∀ l r : List α, lexCompare less l r = true ↔ l < r
  | l, [] => by
    cases l <;> simp [lexCompare]
  | [], b :: r => by simp [lexCompare]
  | a :: l, b :: r => by
    rw [lexCompare, List.cons_lt_cons_iff]
    simp only [less, decide_eq_true_eq]
    rcases lt_trichotomy a b with h | h | h
    · simp [h]
    · subst h
      simp [lt_iff l r]
    · simp [h, h.asymm, h.ne']

/-- `<`, `>`, `<=` and `>=` of vectors are the lexicographic order of their elements, in which a beginning precedes the whole. -/
theorem C132_order (l r : List α) : (vectorLt less l r = true ↔ l < r) ∧ (vectorGt less l r = true ↔ l > r) ∧ (vectorLe less l r = true ↔ l ≤ r) ∧ (vectorGe less l r = true ↔ l ≥ r) := by
  unfold vectorGt vectorLe vectorGe vectorLt
  refine ⟨lt_iff l r, lt_iff r l, ?_, ?_⟩
  · rw [Bool.not_eq_true', ← Bool.not_eq_true, lt_iff, not_lt]
  · rw [Bool.not_eq_true', ← Bool.not_eq_true, lt_iff, not_lt, ge_iff_le]

theorem pair_lt_iff (l r : α × β) : pairLt less less l r = true ↔ toLex l < toLex r := by
  rw [Prod.Lex.toLex_lt_toLex]
  unfold pairLt less
  simp only [Bool.or_eq_true, decide_eq_true_eq, Bool.and_eq_true, Bool.not_eq_true', decide_eq_false_iff_not, not_lt]
  constructor
  · rintro (h | ⟨h1, h2⟩)
    · exact Or.inl h
    · rcases h1.lt_or_eq with h | h
      · exact Or.inl h
      · exact Or.inr ⟨h, h2⟩
  · rintro (h | ⟨h1, h2⟩)
    · exact Or.inl h
    · exact Or.inr ⟨h1.le, h2⟩

/-- The operators of pairs are those of the lexicographic order. -/
theorem C132_pair (l r : α × β) : (pairNe l r = true ↔ l ≠ r) ∧ (pairGt less less l r = true ↔ toLex l > toLex r) ∧ (pairLe less less l r = true ↔ toLex l ≤ toLex r) ∧
    (pairGe less less l r = true ↔ toLex l ≥ toLex r) := by
  unfold pairNe pairGt pairLe pairGe
  refine ⟨?_, pair_lt_iff r l, ?_, ?_⟩
  · unfold pairEq
    rw [Bool.not_eq_true', ← Bool.not_eq_true, Bool.and_eq_true, decide_eq_true_eq, decide_eq_true_eq, Ne, Prod.ext_iff]
  · rw [Bool.not_eq_true', ← Bool.not_eq_true, pair_lt_iff, not_lt]
  · rw [Bool.not_eq_true', ← Bool.not_eq_true, pair_lt_iff, not_lt, ge_iff_le]

/-- `iota` fills a range with consecutive numbers, as long as the number after the last one is an `Int`; otherwise it is undefined. -/
theorem C132_iota (v : ℤ) (h0 : -2147483648 ≤ v) (n : ℕ) :
    (v + n ≤ 2147483647 → iota n v = some ((List.range n).map fun i : ℕ => v + (i : ℤ))) ∧ (0 < n → 2147483647 < v + n → iota n v = none) := by
  induction n generalizing v with
  | zero => exact ⟨fun _ => by simp [iota], fun h => absurd h (lt_irrefl 0)⟩
  | succ n ih =>
    constructor
    · intro h
      push_cast at h
      rw [iota, chk_some (by omega) (by omega), Option.bind_some, (ih (v + 1) (by omega)).1 (by omega)]
      rw [List.range_succ_eq_map]
      simp only [List.map_cons, List.map_map, Option.map_some, Option.some.injEq, List.cons.injEq]
      refine ⟨by simp, List.map_congr_left fun i _ => ?_⟩
      simp only [Function.comp_apply, Nat.succ_eq_add_one]
      push_cast
      omega
    · intro _ h
      push_cast at h
      rw [iota]
      by_cases c : v + 1 ≤ 2147483647
      · rw [chk_some (by omega) c, Option.bind_some]
        rcases n.eq_zero_or_pos with z | z
        · subst z; simp at h; omega
        · rw [(ih (v + 1) (by omega)).2 z (by omega)]
          rfl
      · rw [chk_none (by omega)]
        rfl

/-- No vector of the greatest size has more bytes than an `Int` can count. -/
theorem C132_max_size {s : ℕ} (hs : 0 < s) (n : ℕ) : n ≤ maxSize s ↔ n * s ≤ 2147483647 := by
  unfold maxSize
  exact Nat.le_div_iff_mul_le hs

/-- Numbers with a NaN, which is neither equal to, nor less or greater than, anything. -/
inductive Num
  | num (x : ℤ)
  | nan
deriving DecidableEq

def Num.lt : Num → Num → Bool
  | .num x, .num y => decide (x < y)
  | _, _ => false

def Num.eq : Num → Num → Bool
  | .num x, .num y => decide (x = y)
  | _, _ => false

/-- With a NaN the operators contradict each other: two vectors are both `<=` and `>=`, and not `==`; a vector is not equal to itself, but `<=` itself. -/
theorem C132_nan_fails : vectorLe Num.lt [.nan] [.num 1] = true ∧ vectorGe Num.lt [.nan] [.num 1] = true ∧ vectorEq Num.eq [.nan] [.num 1] = some false ∧
    vectorEq Num.eq [.nan] [.nan] = some false ∧ vectorLe Num.lt [.nan] [.nan] = true := by
  decide +kernel

/-- The greatest number cannot be the last of `iota`. -/
example : iota 3 5 = some [5, 6, 7] ∧ iota 2 2147483646 = none ∧ iota 1 2147483646 = some [2147483646] ∧ vectorLt less [1, 2] [1, 2, 0] = true ∧ vectorLe less [1, 3] [1, 2, 0] = false := by
  decide +kernel

end Verif.RelP
