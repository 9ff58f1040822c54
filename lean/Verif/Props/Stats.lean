import Verif.Model.Stats
import Mathlib.Tactic.Ring
import Mathlib.Tactic.FieldSimp
import Mathlib.Tactic.Linarith
import Mathlib.Tactic.NormNum
import Mathlib.Algebra.BigOperators.Group.List.Basic

/-!
# C18, C19: sum, mean, variance, median

Specification: `List.sum`, its quotient by the length, the sum of squared deviations from the mean,
and counting.
-/

namespace Verif.Stats

/-! ## C18 -/

theorem naiveSum_spec {T : Type} [AddMonoid T] (l : List T) (h : l ≠ []) :
    naiveSum l = some l.sum := by
  cases l with
  | nil => exact absurd rfl h
  | cons x l => rw [naiveSum, ← List.sum_eq_foldl_add_aux]
where
  List.sum_eq_foldl_add_aux {T : Type} [AddMonoid T] {x : T} {l : List T} :
      (x :: l).sum = l.foldl (· + ·) x := by
    induction l generalizing x with
    | nil => simp
    | cons y l ih =>
      rw [List.foldl_cons, ← ih, List.sum_cons, List.sum_cons, List.sum_cons, add_assoc]

/-- `sum` of any non-empty range is the sum of all its elements, whatever the length; it holds in
any monoid, so only the association of the additions changes. -/
theorem C18_sum {T : Type} [AddMonoid T] (l : List T) :
    pairwiseSum l = if l = [] then none else some l.sum := by
  induction hn : l.length using Nat.strong_induction_on generalizing l with
  | _ n ih =>
    subst hn
    unfold pairwiseSum
    by_cases h0 : 0 < l.length
    · have hne : l ≠ [] := List.length_pos_iff.1 h0
      rw [if_pos h0, if_neg hne]
      by_cases h1 : l.length ≤ 128
      · rw [if_pos h1, naiveSum_spec l hne]
      · rw [if_neg h1]
        have ht : (l.take (l.length / 2)).length = l.length / 2 := by simp; omega
        have hd : (l.drop (l.length / 2)).length = l.length - l.length / 2 := by simp
        rw [ih _ (by omega) _ ht, ih _ (by omega) _ hd,
          if_neg (List.length_pos_iff.1 (by omega)), if_neg (List.length_pos_iff.1 (by omega))]
        simp only [Option.bind_eq_bind, Option.bind_some, Option.pure_def, Option.some.injEq]
        rw [← List.sum_append, List.take_append_drop]
    · rw [if_neg h0, if_pos (List.length_eq_zero_iff.1 (by omega))]

/-- `mean` of a non-empty range is the sum of all elements divided by their number. -/
theorem C18_mean {T : Type} [Field T] (l : List T) (h : l ≠ []) :
    mean l = some (l.sum / (l.length : T)) := by
  unfold mean
  rw [C18_sum, if_neg h]; rfl

example : pairwiseSum (List.replicate 300 (2 : Nat)) = some 600 := by
  rw [C18_sum, if_neg (by rw [List.replicate_succ]; exact List.cons_ne_nil _ _), List.sum_replicate]; rfl
example : mean [(1 : ℚ), 2, 6] = some 3 := by
  rw [C18_mean _ (by simp)]; norm_num

/-! ## C19 -/

theorem sq_dev {T : Type} [Field T] (l : List T) (c : T) :
    (l.map fun x => (x - c) ^ 2).sum =
      (l.map fun x => x ^ 2).sum - 2 * c * l.sum + (l.length : T) * c ^ 2 := by
  induction l with
  | nil => simp
  | cons x l ih =>
    simp only [List.map_cons, List.sum_cons, ih, List.length_cons, Nat.cast_add, Nat.cast_one]
    ring

theorem welford_spec {T : Type} [Field T] [CharZero T] (l r : List T) (s : Welford T)
    (hn : s.n = r.length) (hm : s.mean * (r.length : T) = r.sum)
    (h2 : s.m2 = (r.map fun x => x ^ 2).sum - s.mean * r.sum) :
    let s' := l.foldl welfordStep s
    s'.n = (r ++ l).length ∧ s'.mean * ((r ++ l).length : T) = (r ++ l).sum ∧
      s'.m2 = ((r ++ l).map fun x => x ^ 2).sum - s'.mean * (r ++ l).sum := by
  induction l generalizing r s with
  | nil => simp only [List.foldl_nil, List.append_nil]; exact ⟨hn, hm, h2⟩
  | cons x l ih =>
    rw [List.foldl_cons, show r ++ x :: l = (r ++ [x]) ++ l by simp]
    have hk : ((r.length : T) + 1) ≠ 0 := Nat.cast_add_one_ne_zero _
    apply ih
    · simp [welfordStep, hn]
    · simp only [welfordStep, List.length_append, List.length_cons, List.length_nil, hn,
        List.sum_append, List.sum_cons, List.sum_nil, ← hm]
      push_cast
      field_simp
      ring
    · simp only [welfordStep, List.map_append, List.sum_append, List.map_cons, List.map_nil,
        List.sum_cons, List.sum_nil, hn, h2, ← hm]
      push_cast
      field_simp
      ring

/-- `variance` of at least two values is the sum of the squared deviations from the mean, divided by
`n - 1`. -/
theorem C19_variance {T : Type} [Field T] [CharZero T] (l : List T) (h : 2 ≤ l.length) :
    variance l =
      some ((l.map fun x => (x - l.sum / (l.length : T)) ^ 2).sum / ((l.length : T) - 1)) := by
  obtain ⟨h1, h2, h3⟩ := welford_spec l [] ⟨0, 0, 0⟩ rfl (by simp) (by simp)
  simp only [List.nil_append] at h1 h2 h3
  have hne : l ≠ [] := by intro e; rw [e] at h; simp at h
  have hl : (l.length : T) ≠ 0 := by exact_mod_cast (by omega : l.length ≠ 0)
  unfold variance
  dsimp only
  rw [if_neg hne, h1, if_neg (by omega), h3]
  congr 1
  rw [sq_dev, eq_div_of_mul_eq hl h2, Nat.cast_sub (by omega)]
  congr 1
  · field_simp
    ring
  · simp

/-- `variance` of one value is `0 / 0`: it has no value. -/
theorem C19_single {T : Type} [Field T] (x : T) : variance [x] = none := by
  simp [variance, welfordStep]

/-- `variance` is not negative. -/
theorem C19_variance_nonneg {T : Type} [Field T] [LinearOrder T] [IsStrictOrderedRing T]
    (l : List T) (h : 2 ≤ l.length) : ∃ v, variance l = some v ∧ 0 ≤ v := by
  refine ⟨_, C19_variance l h, div_nonneg ?_ ?_⟩
  · apply List.sum_nonneg
    intro x hx
    obtain ⟨y, _, rfl⟩ := List.mem_map.1 hx
    exact sq_nonneg _
  · have : (2 : T) ≤ (l.length : T) := by exact_mod_cast h
    linarith

/-- `stdDev` is the non-negative square root of the variance. -/
theorem C19_stdDev (l : List ℝ) (h : 2 ≤ l.length) :
    ∃ s v, stdDev l = some s ∧ variance l = some v ∧ 0 ≤ s ∧ s * s = v := by
  obtain ⟨v, hv, h0⟩ := C19_variance_nonneg l h
  exact ⟨Real.sqrt v, v, by simp [stdDev, hv], hv, Real.sqrt_nonneg v, Real.mul_self_sqrt h0⟩

theorem countP_ge {T : Type} (p : T → Bool) (l : List T) (k : Nat) (hk : k ≤ l.length)
    (h : ∀ x ∈ l.take k, p x = true) : k ≤ l.countP p := by
  have h1 : (l.take k).countP p = k := by
    rw [List.countP_eq_length.2 h, List.length_take, Nat.min_eq_left hk]
  rw [← h1]
  exact (List.take_sublist k l).countP_le

theorem countP_ge' {T : Type} (p : T → Bool) (l : List T) (k : Nat)
    (h : ∀ x ∈ l.drop k, p x = true) : l.length - k ≤ l.countP p := by
  have h1 : (l.drop k).countP p = l.length - k := by
    rw [List.countP_eq_length.2 h, List.length_drop]
  rw [← h1]
  exact (List.drop_sublist k l).countP_le

theorem sorted_le {T : Type} [LinearOrder T] {l : List T} (hs : l.Pairwise (· ≤ ·)) {i j : Nat}
    {a b : T} (hij : i ≤ j) (ha : l[i]? = some a) (hb : l[j]? = some b) : a ≤ b := by
  obtain ⟨hi, rfl⟩ := List.getElem?_eq_some_iff.1 ha
  obtain ⟨hj, rfl⟩ := List.getElem?_eq_some_iff.1 hb
  rcases Nat.lt_or_eq_of_le hij with h | h
  · exact List.pairwise_iff_getElem.1 hs i j hi hj h
  · subst h; exact le_refl _

/-- `median` of a non-empty sorted range: at least half of the elements are at most the median and at
least half are at least the median, and it is the middle element or the mean of the two middle
ones. -/
theorem C19_median {T : Type} [Field T] [LinearOrder T] [IsStrictOrderedRing T] (l : List T)
    (h : l ≠ []) (hs : l.Pairwise (· ≤ ·)) :
    ∃ m, median l = some m ∧
      l.length ≤ 2 * l.countP (fun x => decide (x ≤ m)) ∧
      l.length ≤ 2 * l.countP (fun x => decide (m ≤ x)) ∧
      (l.length % 2 = 1 → l[l.length / 2]? = some m) ∧
      (l.length % 2 = 0 → ∃ a b, l[l.length / 2 - 1]? = some a ∧ l[l.length / 2]? = some b ∧
        2 * m = a + b) := by
  have hpos : 0 < l.length := List.length_pos_iff.2 h
  unfold median
  have memTake : ∀ k x, x ∈ l.take k → ∃ i, i < k ∧ l[i]? = some x := by
    intro k x hx
    obtain ⟨i, hi⟩ := List.getElem?_of_mem hx
    rw [List.getElem?_take] at hi
    split_ifs at hi with hk
    exact ⟨i, hk, hi⟩
  have memDrop : ∀ k x, x ∈ l.drop k → ∃ i, k ≤ i ∧ l[i]? = some x := by
    intro k x hx
    obtain ⟨i, hi⟩ := List.getElem?_of_mem hx
    rw [List.getElem?_drop] at hi
    exact ⟨k + i, by omega, hi⟩
  by_cases hodd : l.length % 2 = 1
  · rw [if_pos hodd]
    have hb : l[l.length / 2]? = some l[l.length / 2] := List.getElem?_eq_getElem (by omega)
    generalize l[l.length / 2] = m at hb
    refine ⟨m, hb, ?_, ?_, fun _ => hb, fun h => by omega⟩
    · have := countP_ge (fun x => decide (x ≤ m)) l (l.length / 2 + 1) (by omega) (by
        intro x hx
        obtain ⟨i, hi, hx⟩ := memTake _ _ hx
        simpa using sorted_le hs (by omega) hx hb)
      omega
    · have := countP_ge' (fun x => decide (m ≤ x)) l (l.length / 2) (by
        intro x hx
        obtain ⟨i, hi, hx⟩ := memDrop _ _ hx
        simpa using sorted_le hs hi hb hx)
      omega
  · rw [if_neg hodd]
    have hb : l[l.length / 2]? = some l[l.length / 2] := List.getElem?_eq_getElem (by omega)
    have ha : l[l.length / 2 - 1]? = some l[l.length / 2 - 1] := List.getElem?_eq_getElem (by omega)
    generalize l[l.length / 2] = b at hb
    generalize l[l.length / 2 - 1] = a at ha
    have hab : a ≤ b := sorted_le hs (by omega) ha hb
    refine ⟨(b + a) / ((2 : Nat) : T), by rw [ha, hb]; rfl, ?_, ?_, fun h => absurd h hodd,
      fun _ => ⟨a, b, ha, hb, ?_⟩⟩
    · have := countP_ge (fun x => decide (x ≤ (b + a) / ((2 : Nat) : T))) l (l.length / 2)
        (by omega) (by
        intro x hx
        obtain ⟨i, hi, hx⟩ := memTake _ _ hx
        have := sorted_le hs (by omega) hx ha
        simp only [decide_eq_true_eq]
        push_cast
        linarith)
      omega
    · have := countP_ge' (fun x => decide ((b + a) / ((2 : Nat) : T) ≤ x)) l (l.length / 2) (by
        intro x hx
        obtain ⟨i, hi, hx⟩ := memDrop _ _ hx
        have := sorted_le hs hi hb hx
        simp only [decide_eq_true_eq]
        push_cast
        linarith)
      omega
    · push_cast; ring

example : variance [(1 : ℚ), 2, 6] = some 7 := by
  rw [C19_variance _ (by simp)]; norm_num
example : ([1, 2, 6, 7] : List ℚ).Pairwise (· ≤ ·) := by norm_num

end Verif.Stats
