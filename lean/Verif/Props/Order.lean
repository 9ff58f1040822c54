import Verif.Props.Algorithm
import Mathlib.Order.Lattice

/-! # C13: comparisons of Vec, Pair and ranges; min, max, clamp -/

namespace Verif.Order
open Verif.Alg

variable {α β : Type} [LinearOrder α] [LinearOrder β]

/-- Spec: `l` and `r` first differ at some common index, and `l` is smaller there. -/
def FirstDiffLess (l r : List α) : Prop :=
  ∃ (i : Nat) (a b : α), l[i]? = some a ∧ r[i]? = some b ∧ a < b ∧ ∀ j < i, l[j]? = r[j]?

theorem firstDiff_cons {a b : α} {l r : List α} :
    FirstDiffLess (a :: l) (b :: r) ↔ a < b ∨ (a = b ∧ FirstDiffLess l r) := by
  constructor
  · rintro ⟨i, x, y, h1, h2, h3, h4⟩
    cases i with
    | zero => simp at h1 h2; subst h1; subst h2; exact Or.inl h3
    | succ i =>
      right
      refine ⟨by simpa using h4 0 (by omega), i, x, y, by simpa using h1, by simpa using h2, h3, ?_⟩
      intro j hj; simpa using h4 (j + 1) (by omega)
  · rintro (h | ⟨rfl, i, x, y, h1, h2, h3, h4⟩)
    · exact ⟨0, a, b, by simp, by simp, h, by simp⟩
    · refine ⟨i + 1, x, y, by simpa using h1, by simpa using h2, h3, ?_⟩
      intro j hj
      cases j with
      | zero => simp
      | succ j => simpa using h4 j (by omega)

theorem firstDiff_nil_left {r : List α} : ¬ FirstDiffLess [] r := by
  rintro ⟨i, x, y, h1, -⟩; simp at h1

theorem firstDiff_nil_right {l : List α} : ¬ FirstDiffLess l [] := by
  rintro ⟨i, x, y, h1, h2, -⟩; simp at h2

/-- C13: `operator<` on `Vec` holds iff at the first differing component the left is smaller. -/
theorem C13_vecLt_spec (l r : List α) : vecLt lt' l r = true ↔ FirstDiffLess l r := by
  induction l generalizing r with
  | nil => simp [vecLt, firstDiff_nil_left]
  | cons a l ih =>
    cases r with
    | nil => simp [vecLt, firstDiff_nil_right]
    | cons b r =>
      rw [firstDiff_cons, vecLt]
      simp only [lt', decide_eq_true_eq]
      rcases lt_trichotomy a b with h | h | h
      · simp [h]
      · subst h; simp [← ih r]
      · simp [h, h.asymm, h.ne']

/-- C13: `operator==` on `Vec<D,T>` is equality of the components. -/
theorem C13_vecEq_spec (l r : List α) (h : l.length = r.length) :
    vecEq l r = true ↔ l = r := by
  induction l generalizing r with
  | nil => cases r with
    | nil => simp [vecEq]
    | cons b r => simp at h
  | cons a l ih =>
    cases r with
    | nil => simp at h
    | cons b r =>
      simp only [vecEq, List.cons.injEq]
      by_cases hab : a = b
      · simp [hab, ih r (by simpa using h)]
      · simp [hab]

/-- C13: `operator<` on `Vec<D,T>` is irreflexive, transitive, and exactly one of
`l < r`, `l == r`, `r < l` holds. -/
theorem C13_vec_strict_total (D : Nat) :
    (∀ l : List α, vecLt lt' l l = false) ∧
    (∀ l m r : List α, l.length = D → m.length = D → r.length = D →
      vecLt lt' l m = true → vecLt lt' m r = true → vecLt lt' l r = true) ∧
    (∀ l r : List α, l.length = D → r.length = D →
      (vecLt lt' l r = true ∧ vecEq l r = false ∧ vecLt lt' r l = false) ∨
      (vecLt lt' l r = false ∧ vecEq l r = true ∧ vecLt lt' r l = false) ∨
      (vecLt lt' l r = false ∧ vecEq l r = false ∧ vecLt lt' r l = true)) := by
  refine ⟨?_, ?_, ?_⟩
  · intro l
    induction l with
    | nil => rfl
    | cons a l ih => simp [vecLt, ih, lt']
  · intro l
    induction l generalizing D with
    | nil => intro m r _ _ _ h; simp [vecLt] at h
    | cons a l ih =>
      intro m r hl hm hr
      cases m with
      | nil => simp [vecLt]
      | cons b m =>
        cases r with
        | nil => simp [vecLt]
        | cons c r =>
          simp only [C13_vecLt_spec, firstDiff_cons] at *
          rintro (h1 | ⟨rfl, h1⟩) (h2 | ⟨rfl, h2⟩)
          · exact Or.inl (h1.trans h2)
          · exact Or.inl h1
          · exact Or.inl h2
          · exact Or.inr ⟨rfl, ih l.length m r rfl (by simp at *; omega) (by simp at *; omega)
              h1 h2⟩
  · intro l
    induction l generalizing D with
    | nil =>
      intro r hl hr
      have : r = [] := by
        apply List.eq_nil_of_length_eq_zero; simp at hl; omega
      subst this; right; left; simp [vecLt, vecEq]
    | cons a l ih =>
      intro r hl hr
      cases r with
      | nil => simp at hl hr; omega
      | cons b r =>
        simp only [vecLt, vecEq, lt', decide_eq_true_eq]
        rcases lt_trichotomy a b with h | h | h
        · left; simp [h, h.asymm, h.ne]
        · subst h
          simpa [lt'] using ih l.length r rfl (by simp at *; omega)
        · right; right; simp [h, h.asymm, h.ne']

/-- C13: `operator<` and `==` on `Pair` are the lexicographic order and equality. -/
theorem C13_pair (l r : α × β) :
    (pairLt lt' lt' l r = true ↔ l.1 < r.1 ∨ (l.1 = r.1 ∧ l.2 < r.2)) ∧
    (pairEq l r = true ↔ l = r) ∧
    ((pairLt lt' lt' l r = true ∧ pairEq l r = false ∧ pairLt lt' lt' r l = false) ∨
      (pairLt lt' lt' l r = false ∧ pairEq l r = true ∧ pairLt lt' lt' r l = false) ∨
      (pairLt lt' lt' l r = false ∧ pairEq l r = false ∧ pairLt lt' lt' r l = true)) := by
  obtain ⟨a, b⟩ := l
  obtain ⟨c, d⟩ := r
  have key : ∀ (a c : α) (b d : β),
      pairLt lt' lt' (a, b) (c, d) = true ↔ a < c ∨ (a = c ∧ b < d) := by
    intro a c b d
    simp only [pairLt, lt', Bool.or_eq_true, decide_eq_true_eq, Bool.and_eq_true,
      Bool.not_eq_true', decide_eq_false_iff_not, not_lt]
    constructor
    · rintro (h | ⟨h1, h2⟩)
      · exact Or.inl h
      · rcases h1.lt_or_eq with h | h
        · exact Or.inl h
        · exact Or.inr ⟨h, h2⟩
    · rintro (h | ⟨h1, h2⟩)
      · exact Or.inl h
      · exact Or.inr ⟨h1.le, h2⟩
  have keyE : ∀ (a c : α) (b d : β), pairEq (a, b) (c, d) = true ↔ a = c ∧ b = d := by
    intro a c b d; simp [pairEq]
  refine ⟨key a c b d, by rw [keyE, Prod.mk.injEq], ?_⟩
  simp only [← Bool.not_eq_true, key, keyE]
  rcases lt_trichotomy a c with h | h | h
  · left; exact ⟨Or.inl h, by simp [h.ne], by simp [h.asymm, h.ne']⟩
  · subst h
    rcases lt_trichotomy b d with h | h | h
    · left; simp [h, h.ne, h.asymm]
    · right; left; simp [h]
    · right; right; simp [h, h.ne', h.asymm]
  · right; right; exact ⟨by simp [h.asymm, h.ne'], by simp [h.ne'], Or.inl h⟩

/-- C13: `Pair` comparison is transitive. -/
theorem C13_pair_trans (l m r : α × β) (h1 : pairLt lt' lt' l m = true)
    (h2 : pairLt lt' lt' m r = true) : pairLt lt' lt' l r = true := by
  rw [(C13_pair _ _).1] at *
  rcases h1 with h1 | ⟨h1, h1'⟩ <;> rcases h2 with h2 | ⟨h2, h2'⟩
  · exact Or.inl (h1.trans h2)
  · exact Or.inl (h2 ▸ h1)
  · exact Or.inl (h1 ▸ h2)
  · exact Or.inr ⟨h1.trans h2, h1'.trans h2'⟩

/-- C13: `um2::min`/`um2::max` return an argument and the greatest lower / least upper bound, and
return the first argument on ties. -/
theorem C13_min_max (a b : α) :
    (min' lt' a b = a ∨ min' lt' a b = b) ∧ min' lt' a b ≤ a ∧ min' lt' a b ≤ b ∧
    (max' lt' a b = a ∨ max' lt' a b = b) ∧ a ≤ max' lt' a b ∧ b ≤ max' lt' a b := by
  simp only [min', max', lt', decide_eq_true_eq]
  rcases lt_trichotomy a b with h | h | h
  · simp [h, h.asymm, h.le]
  · simp [h]
  · simp [h, h.asymm, h.le]

/-- C13: with `lo <= hi`, `clamp` is defined, lands in `[lo, hi]`, and leaves values already in
the interval unchanged; otherwise it returns the nearer bound. -/
theorem C13_clamp (v lo hi : α) (h : lo ≤ hi) :
    ∃ r, clamp lt' v lo hi = some r ∧ lo ≤ r ∧ r ≤ hi ∧ (lo ≤ v → v ≤ hi → r = v) ∧
      (v < lo → r = lo) ∧ (hi < v → r = hi) := by
  simp only [clamp, lt', decide_eq_true_eq]
  rw [if_neg (not_lt.2 h)]
  split_ifs with h1 h2
  · exact ⟨lo, rfl, le_refl _, h, fun h3 => absurd h1 (not_lt.2 h3), fun _ => rfl,
      fun h3 => absurd (h1.trans_le h) h3.asymm⟩
  · exact ⟨hi, rfl, h, le_refl _, fun _ h3 => absurd h2 (not_lt.2 h3),
      fun h3 => absurd h3 h1, fun _ => rfl⟩
  · exact ⟨v, rfl, not_lt.1 h1, not_lt.1 h2, fun _ _ => rfl, fun h3 => absurd h3 h1,
      fun h3 => absurd h3 h2⟩

/-- C13: `lexicographical_compare` on ranges: smaller at the first difference, or a proper
prefix. -/
theorem C13_lexCompare (l r : List α) :
    lexCompare lt' l r = true ↔ FirstDiffLess l r ∨ (l.length < r.length ∧ l <+: r) := by
  induction l generalizing r with
  | nil =>
    cases r with
    | nil => simp [lexCompare, firstDiff_nil_left]
    | cons b r => simp [lexCompare]
  | cons a l ih =>
    cases r with
    | nil => simp [lexCompare, firstDiff_nil_right]
    | cons b r =>
      rw [firstDiff_cons, lexCompare]
      simp only [lt', decide_eq_true_eq, List.cons_prefix_cons, List.length_cons]
      rcases lt_trichotomy a b with h | h | h
      · simp [h]
      · subst h
        have := ih r
        simp [this]
      · simp [h, h.asymm, h.ne']

theorem maxElementLoop_spec (pre : List α) (best : Nat) (bv : α) (xs : List α)
    (hb : pre[best]? = some bv) (hmax : ∀ y ∈ pre, y ≤ bv)
    (hfirst : ∀ j < best, ∀ y, pre[j]? = some y → y < bv) :
    ∃ m v, maxElementLoop lt' best bv pre.length xs = m ∧ (pre ++ xs)[m]? = some v ∧
      (∀ y ∈ pre ++ xs, y ≤ v) ∧ ∀ j < m, ∀ y, (pre ++ xs)[j]? = some y → y < v := by
  induction xs generalizing pre best bv with
  | nil => exact ⟨best, bv, rfl, by simpa using hb, by simpa using hmax, by simpa using hfirst⟩
  | cons x xs ih =>
    rw [maxElementLoop]
    have e : pre ++ x :: xs = (pre ++ [x]) ++ xs := by simp
    have el : pre.length + 1 = (pre ++ [x]).length := by simp
    by_cases h : bv < x
    · have h' : lt' bv x = true := by simpa [lt'] using h
      rw [if_pos h', e, el]
      apply ih
      · simp
      · intro y hy
        rcases List.mem_append.1 hy with hy | hy
        · exact (hmax y hy).trans h.le
        · simp at hy; exact hy.le
      · intro j hj y hy
        rw [List.getElem?_append_left hj] at hy
        exact (hmax y (List.mem_of_getElem? hy)).trans_lt h
    · have h' : lt' bv x = false := by simpa [lt'] using h
      have hbl : best < pre.length := (List.getElem?_eq_some_iff.1 hb).1
      rw [if_neg (by simp [h']), e, el]
      apply ih
      · rw [List.getElem?_append_left hbl]; exact hb
      · intro y hy
        rcases List.mem_append.1 hy with hy | hy
        · exact hmax y hy
        · simp at hy; subst hy; exact not_lt.1 h
      · intro j hj y hy
        rw [List.getElem?_append_left (by omega)] at hy
        exact hfirst j hj y hy

/-- C13: `max_element` of a non-empty range is the first position of a greatest element, and of an
empty range it is `last`. -/
theorem C13_maxElement (l : List α) :
    (l = [] → maxElement lt' l = l.length) ∧
    (l ≠ [] → ∃ v, l[maxElement lt' l]? = some v ∧ (∀ y ∈ l, y ≤ v) ∧
      ∀ j < maxElement lt' l, ∀ y, l[j]? = some y → y < v) := by
  constructor
  · rintro rfl; rfl
  · intro h
    cases l with
    | nil => exact absurd rfl h
    | cons x xs =>
      obtain ⟨m, v, h1, h2, h3, h4⟩ := maxElementLoop_spec [x] 0 x xs (by simp) (by simp)
        (by simp)
      have e : maxElement lt' (x :: xs) = m := h1
      rw [e]
      exact ⟨v, by simpa using h2, by simpa using h3, by simpa using h4⟩

/-- C13: `is_sorted` decides ascending order. -/
theorem C13_isSorted (l : List α) : isSorted lt' l = true ↔ l.Pairwise (· ≤ ·) := by
  induction l with
  | nil => simp [isSorted]
  | cons a l ih =>
    cases l with
    | nil => simp [isSorted]
    | cons b l =>
      rw [isSorted]
      by_cases h : b < a
      · have h' : lt' b a = true := by simpa [lt'] using h
        simp [h', List.pairwise_cons, h]
      · have h' : lt' b a = false := by simpa [lt'] using h
        rw [if_neg (by simp [h']), ih, List.pairwise_cons (a := a)]
        constructor
        · intro hp
          refine ⟨?_, hp⟩
          intro c hc
          rcases List.mem_cons.1 hc with rfl | hc
          · exact not_lt.1 h
          · exact (not_lt.1 h).trans ((List.pairwise_cons.1 hp).1 c hc)
        · exact fun hp => hp.2

example : vecLt lt' [1, 5, 2] [1, 6, 0] = true ∧ lexCompare lt' [1, 2] [1, 2, 0] = true ∧
    maxElement lt' [3, 7, 5, 7] = 1 ∧ clamp lt' 9 2 5 = some 5 ∧
    pairLt lt' lt' (1, 4) (1, 5) = true := by decide

end Verif.Order
