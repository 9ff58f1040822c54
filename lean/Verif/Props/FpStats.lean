import Verif.Lemmas.FpStats
import Mathlib.Data.Rat.Floor

/-! C124: sum, mean, median and variance in floating-point arithmetic. -/

namespace Verif.FpStatsP

open Verif.Fp

variable {K : Type} [Field K] [LinearOrder K] [IsStrictOrderedRing K] [FloorRing K] {p : ℕ} (R : Rounding K p)

/-- The sum of at most `128 * 2 ^ k` numbers: each takes part in at most `127 + k` additions. -/
theorem C124_sum (hp : 1 ≤ p) (k : ℕ) {l : List K} (h0 : l ≠ []) (h : l.length ≤ 128 * 2 ^ k) :
    ∃ s, pairwiseSum R l = some s ∧ |s - l.sum| ≤ ((1 + 1 / 2 ^ p) ^ (127 + k) - 1) * (l.map fun x => |x|).sum :=
  pairwise_error R hp k l h0 h

theorem u_small (hp : 24 ≤ p) : 32768 * ((1 : K) / 2 ^ p) ≤ 1 := by
  rw [mul_one_div, div_le_one (by positivity)]
  calc (32768 : K) = 2 ^ 15 := by norm_num
    _ ≤ 2 ^ p := pow_le_pow_right₀ (by norm_num) (by omega)

/-- For all numbers of elements that an `Int` can count the error is at most `152 * 2 ^ -p` times the sum of the magnitudes. -/
theorem C124_sum_int (hp : 24 ≤ p) {l : List K} (h0 : l ≠ []) (h : l.length < 2 ^ 31) :
    ∃ s, pairwiseSum R l = some s ∧ |s - l.sum| ≤ 152 / 2 ^ p * (l.map fun x => |x|).sum := by
  obtain ⟨s, h1, h2⟩ := C124_sum R (by omega) 24 h0 (by omega)
  refine ⟨s, h1, h2.trans (mul_le_mul_of_nonneg_right ?_ (absSum_nonneg l))⟩
  have hu : (0 : K) ≤ 1 / 2 ^ p := by positivity
  have := u_small (K := K) hp
  have := pow_bound hu 151 (by push_cast; linarith)
  rw [show (152 : K) / 2 ^ p = 152 * (1 / 2 ^ p) by ring]
  push_cast at this
  norm_num at this ⊢
  linarith

/-- The error of the mean. -/
theorem C124_mean (hp : 24 ≤ p) {l : List K} (h0 : l ≠ []) (h : l.length < 2 ^ 31) (hl : l.length ≤ 2 ^ p) :
    ∃ m, mean R l = some m ∧ |m - l.sum / l.length| ≤ 154 / 2 ^ p * ((l.map fun x => |x|).sum / l.length) := by
  obtain ⟨s, h1, h2⟩ := C124_sum_int R hp h0 h
  have hp1 : 1 ≤ p := by omega
  have n0 : (0 : K) < l.length := by exact_mod_cast List.length_pos_iff.2 h0
  have hu : (0 : K) ≤ 1 / 2 ^ p := by positivity
  have us := u_small (K := K) hp
  refine ⟨R.rnd (s / l.length), ?_, ?_⟩
  · unfold mean
    rw [h1, R.id (isFp_nat hp1 hl)]; rfl
  · have A0 : 0 ≤ (l.map fun x => |x|).sum / l.length := div_nonneg (absSum_nonneg l) n0.le
    have hs : |l.sum / l.length| ≤ (l.map fun x => |x|).sum / l.length := by
      rw [abs_div, Nat.abs_cast]; exact div_le_div_of_nonneg_right (abs_sum_le l) n0.le
    have hd : |s / l.length - l.sum / l.length| ≤ 152 * (1 / 2 ^ p) * ((l.map fun x => |x|).sum / l.length) := by
      rw [← sub_div, abs_div, Nat.abs_cast, ← mul_div_assoc]
      refine div_le_div_of_nonneg_right (h2.trans (le_of_eq (by ring))) n0.le
    rw [show (154 : K) / 2 ^ p = 154 * (1 / 2 ^ p) by ring]
    have r := rel_u R hp1 (s / l.length)
    have t1 := abs_add_le (R.rnd (s / l.length) - s / l.length) (s / l.length - l.sum / l.length)
    rw [sub_add_sub_cancel] at t1
    have t2 := abs_add_le (s / l.length - l.sum / l.length) (l.sum / l.length)
    rw [sub_add_cancel] at t2
    generalize (l.map fun x => |x|).sum / l.length = A at *
    generalize (1 : K) / 2 ^ p = u at *
    have t3 : |s / l.length| ≤ 2 * A := by nlinarith [mul_le_mul_of_nonneg_right us A0]
    have t4 := mul_le_mul_of_nonneg_left t3 hu
    linarith

/-- The mean of equal numbers can be another number, outside of the range of the data: the sum is a tie. -/
theorem C124_mean_fails : IsFp 53 (6004799503160666 : ℚ) ∧
    mean (ieee ℚ 53 (by norm_num)) [6004799503160666, 6004799503160666, 6004799503160666] = some (6004799503160667 : ℚ) :=
  ⟨⟨6004799503160666, 0, by norm_num, by norm_num⟩, by decide +kernel⟩

/-- The median of sorted numbers: the middle one, or a value between the two in the middle with a relative error of at most `2 ^ -p`. -/
theorem C124_median (hp : 1 ≤ p) {l : List K} (h0 : l ≠ []) (hl : ∀ x ∈ l, IsFp p x) (hs : l.Pairwise (· ≤ ·)) :
    (l.length % 2 = 1 → ∃ m, median R l = some m ∧ l[l.length / 2]? = some m) ∧
    (l.length % 2 = 0 → ∃ m a b, median R l = some m ∧ l[l.length / 2 - 1]? = some a ∧ l[l.length / 2]? = some b ∧ a ≤ m ∧ m ≤ b ∧
      |m - (a + b) / 2| ≤ 1 / 2 ^ p * |(a + b) / 2|) := by
  have n0 := List.length_pos_iff.2 h0
  constructor
  · intro h
    unfold median
    rw [if_pos h]
    have lt : l.length / 2 < l.length := by omega
    exact ⟨l[l.length / 2], List.getElem?_eq_getElem lt, List.getElem?_eq_getElem lt⟩
  · intro h
    have lt : l.length / 2 < l.length := by omega
    have lt' : l.length / 2 - 1 < l.length := by omega
    have ha := hl _ (List.getElem_mem lt')
    have hb := hl _ (List.getElem_mem lt)
    have hab : l[l.length / 2 - 1] ≤ l[l.length / 2] := List.pairwise_iff_getElem.1 hs _ _ lt' lt (by omega)
    refine ⟨R.rnd (R.rnd (l[l.length / 2] + l[l.length / 2 - 1]) / 2), l[l.length / 2 - 1], l[l.length / 2], ?_, List.getElem?_eq_getElem lt', List.getElem?_eq_getElem lt, ?_⟩
    · unfold median
      rw [if_neg (by omega), List.getElem?_eq_getElem lt', List.getElem?_eq_getElem lt]; rfl
    · generalize l[l.length / 2] = b at *
      generalize l[l.length / 2 - 1] = a at *
      rw [R.id (R.mem _).half]
      have b1 : R.rnd (b + a) ≤ 2 * b := R.le_of_le (by linarith) hb.double
      have b2 : 2 * a ≤ R.rnd (b + a) := R.ge_of_ge (by linarith) ha.double
      refine ⟨by linarith, by linarith, ?_⟩
      have r := rel_u R hp (b + a)
      rw [show R.rnd (b + a) / 2 - (a + b) / 2 = (R.rnd (b + a) - (b + a)) / 2 by ring, abs_div, abs_div, add_comm a b, abs_of_pos (by norm_num : (0 : K) < 2),
        ← mul_div_assoc]
      exact div_le_div_of_nonneg_right r (by norm_num)

theorem good_fold (hp : 1 ≤ p) (fused : Bool) (l : List K) : ∀ s : Welford K, Good p s → (∀ x ∈ l, IsFp p x) →
    Good p (l.foldl (welfordStep R fused) s) ∧ (l.foldl (welfordStep R fused) s).n = s.n + l.length := by
  induction l with
  | nil => intro s g _; exact ⟨g, rfl⟩
  | cons x l ih =>
    intro s g h
    have g' := (good_step R hp fused g (h x (by simp))).1
    obtain ⟨a, b⟩ := ih _ g' fun y hy => h y (by simp [hy])
    refine ⟨a, b.trans ?_⟩
    simp [welfordStep]; ring

omit [FloorRing K] in
theorem good_start : Good p (⟨0, 0, 0⟩ : Welford K) := ⟨isFp_zero, isFp_zero, le_rfl, fun _ => rfl⟩

/-- The variance of two or more numbers is never negative, so that its square root is defined. -/
theorem C124_variance_nonneg (hp : 1 ≤ p) (fused : Bool) {l : List K} (h2 : 2 ≤ l.length) (hl : ∀ x ∈ l, IsFp p x) :
    ∃ v, variance R fused l = some v ∧ 0 ≤ v := by
  obtain ⟨g, n⟩ := good_fold R hp fused l ⟨0, 0, 0⟩ good_start hl
  unfold variance
  rw [if_neg (by intro c; rw [c] at h2; simp at h2)]
  dsimp only at *
  rw [n, if_neg (by omega)]
  refine ⟨_, rfl, R.ge_of_ge (div_nonneg g.pos (R.ge_of_ge (Nat.cast_nonneg _) isFp_zero)) isFp_zero⟩

/-- The variance of equal numbers is zero. -/
theorem C124_variance_equal (hp : 1 ≤ p) (fused : Bool) {c : K} (hc : IsFp p c) {l : List K} (h2 : 2 ≤ l.length) (hl : ∀ x ∈ l, x = c) :
    variance R fused l = some 0 := by
  have key : ∀ (l : List K) (s : Welford K), (∀ x ∈ l, x = c) → s.mean = c → s.m2 = 0 → (l.foldl (welfordStep R fused) s).m2 = 0 := by
    intro l
    induction l with
    | nil => intro s _ _ h; exact h
    | cons x l ih =>
      intro s h hm h0
      obtain rfl := h x (by simp)
      refine ih _ (fun y hy => h y (by simp [hy])) ?_ ?_
      · simp only [welfordStep, hm, sub_self, R.zero, zero_div, add_zero, R.id hc]
      · simp only [welfordStep, hm, sub_self, R.zero, zero_div, add_zero, R.id hc, h0, mul_zero, ite_self]
  have first : ∀ x, x = c → (welfordStep R fused ⟨0, 0, 0⟩ x).mean = c ∧ (welfordStep R fused ⟨0, 0, 0⟩ x).m2 = 0 := by
    rintro x rfl
    have one : IsFp p (1 : K) := by simpa using isFp_pow (K := K) hp 0
    simp [welfordStep, R.id hc, R.id one, R.zero]
  have n := (good_fold R hp fused l ⟨0, 0, 0⟩ good_start fun x hx => (hl x hx) ▸ hc).2
  unfold variance
  rw [if_neg (by intro c; rw [c] at h2; simp at h2)]
  dsimp only at *
  rw [n, if_neg (by omega)]
  cases l with
  | nil => simp at h2
  | cons x l =>
    obtain ⟨f1, f2⟩ := first x (hl x (by simp))
    rw [List.foldl_cons, key l _ (fun y hy => hl y (by simp [hy])) f1 f2, zero_div, R.zero]

theorem near_fold (hp : 2 ≤ p) (fused : Bool) {B : K} (hB : IsFp p B) (l : List K) : ∀ (s : Welford K) (e : Stats.Welford K), Good p s → Near p B s e →
    (∀ x ∈ l, IsFp p x ∧ |x| ≤ B) → 8 * (s.n + l.length) ≤ 2 ^ p →
    Near p B (l.foldl (welfordStep R fused) s) (l.foldl Stats.welfordStep e) := by
  induction l with
  | nil => intro s e _ n _ _; exact n
  | cons x l ih =>
    intro s e g n h h8
    obtain ⟨hx, hxB⟩ := h x (by simp)
    rw [List.length_cons] at h8
    refine ih _ _ (good_step R (by omega) fused g hx).1 (near_step R hp fused hB g n hx hxB (by omega)) (fun y hy => h y (by simp [hy])) ?_
    simp only [welfordStep]
    omega

/-- The error of the variance of `n` numbers of magnitude at most `B`. -/
theorem C124_variance_error (hp : 2 ≤ p) (fused : Bool) {B : K} (hB : IsFp p B) {l : List K} (h2 : 2 ≤ l.length) (h8 : 8 * l.length ≤ 2 ^ p)
    (hl : ∀ x ∈ l, IsFp p x ∧ |x| ≤ B) :
    ∃ v, variance R fused l = some v ∧
      |v - (l.map fun x => (x - l.sum / l.length) ^ 2).sum / (l.length - 1)| ≤ (8 * l.length + 78) / 2 ^ p * B ^ 2 := by
  have hp1 : 1 ≤ p := by omega
  obtain ⟨g, n⟩ := good_fold R hp1 fused l ⟨0, 0, 0⟩ good_start fun x hx => (hl x hx).1
  have B0 : 0 ≤ B := by
    cases l with
    | nil => simp at h2
    | cons x l => exact (abs_nonneg x).trans (hl x (by simp)).2
  have near := near_fold R hp fused hB l ⟨0, 0, 0⟩ ⟨0, 0, 0⟩ good_start
    ⟨rfl, by simpa using B0, by simpa using B0, fun _ => rfl, by simp, by simp, by simp⟩ hl (by simpa using h8)
  have hne : l ≠ [] := by intro c; rw [c] at h2; simp at h2
  have ex := Stats.C19_variance l h2
  unfold Stats.variance at ex
  dsimp only at ex n near g
  rw [if_neg hne, near.n, n, if_neg (by omega)] at ex
  have ex' := Option.some.inj ex
  rw [← ex']
  unfold variance
  rw [if_neg hne]
  dsimp only
  rw [n, if_neg (by omega), zero_add, R.id (isFp_nat hp1 (by omega))]
  refine ⟨_, rfl, ?_⟩
  obtain ⟨-, -, -, -, -, top, m2⟩ := near
  have pos := g.pos
  rw [n, zero_add] at top m2
  generalize (l.foldl (welfordStep R fused) ⟨0, 0, 0⟩).m2 = m at *
  generalize (l.foldl Stats.welfordStep ⟨0, 0, 0⟩).m2 = M at *
  have c2 : (2 : K) ≤ l.length := by exact_mod_cast h2
  have ec : ((l.length - 1 : ℕ) : K) = l.length - 1 := by rw [Nat.cast_sub (by omega)]; simp
  rw [ec]
  generalize (l.length : K) = N at *
  have N1 : 0 < N - 1 := by linarith
  have r := rel_u R hp1 (m / (N - 1))
  have hu : (0 : K) < 1 / 2 ^ p := by positivity
  rw [show (8 * N + 78) / 2 ^ p = (8 * N + 78) * (1 / 2 ^ p) by ring]
  have t1 := abs_add_le (R.rnd (m / (N - 1)) - m / (N - 1)) (m / (N - 1) - M / (N - 1))
  rw [sub_add_sub_cancel] at t1
  have e1 : |m / (N - 1)| ≤ 12 * B ^ 2 := by
    rw [abs_div, abs_of_pos N1, abs_of_nonneg pos, div_le_iff₀ N1]
    nlinarith [sq_nonneg B]
  have e2 : |m / (N - 1) - M / (N - 1)| ≤ (8 * N + 66) * (1 / 2 ^ p) * B ^ 2 := by
    rw [← sub_div, abs_div, abs_of_pos N1, div_le_iff₀ N1]
    refine m2.trans ?_
    have : 0 ≤ (1 / 2 ^ p) * B ^ 2 := by positivity
    have : 4 * N ^ 2 + 33 * N ≤ (8 * N + 66) * (N - 1) := by nlinarith
    calc _ = (4 * N ^ 2 + 33 * N) * ((1 / 2 ^ p) * B ^ 2) := by ring
      _ ≤ (8 * N + 66) * (N - 1) * ((1 / 2 ^ p) * B ^ 2) := mul_le_mul_of_nonneg_right this (by positivity)
      _ = _ := by ring
  have e3 := mul_le_mul_of_nonneg_left e1 hu.le
  linarith

/-- The variance of different numbers can be zero: the mean of neighbours is rounded to the second. -/
theorem C124_variance_fails : ∃ x y : ℚ, IsFp 53 x ∧ IsFp 53 y ∧ x < y ∧
    ∀ fused, variance (ieee ℚ 53 (by norm_num)) fused [x, y] = some 0 := by
  refine ⟨2 ^ 52 + 1, 2 ^ 52 + 2, ⟨2 ^ 52 + 1, 0, by norm_num, by norm_num⟩, ⟨2 ^ 52 + 2, 0, by norm_num, by norm_num⟩, by norm_num, ?_⟩
  intro fused
  cases fused
  · decide +kernel
  · decide +kernel

/-- The hypotheses are met by IEEE arithmetic and data with an inexact mean. -/
example : (∀ x ∈ [(1 : ℚ), 2, 5, 7], IsFp 53 x ∧ |x| ≤ 7) ∧ [(1 : ℚ), 2, 5, 7].Pairwise (· ≤ ·) ∧ median (ieee ℚ 53 (by norm_num)) [1, 2, 5, 7] = some (7 / 2) ∧
    mean (ieee ℚ 53 (by norm_num)) [1, 2, 7] = some (rne 53 (10 / 3)) ∧ rne 53 (10 / 3 : ℚ) ≠ 10 / 3 := by
  refine ⟨?_, by decide +kernel, by decide +kernel, by decide +kernel, by decide +kernel⟩
  intro x hx
  simp only [List.mem_cons, List.not_mem_nil, or_false] at hx
  rcases hx with rfl | rfl | rfl | rfl
  · exact ⟨⟨1, 0, by norm_num, by norm_num⟩, by norm_num⟩
  · exact ⟨⟨2, 0, by norm_num, by norm_num⟩, by norm_num⟩
  · exact ⟨⟨5, 0, by norm_num, by norm_num⟩, by norm_num⟩
  · exact ⟨⟨7, 0, by norm_num, by norm_num⟩, by norm_num⟩

end Verif.FpStatsP
