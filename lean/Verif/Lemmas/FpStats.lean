import Verif.Model.FpStats
import Verif.Lemmas.FpTurn
import Verif.Props.Stats
import Mathlib.Algebra.BigOperators.Group.List.Basic
import Mathlib.Algebra.Order.BigOperators.Group.List

/-! Statistics in floating-point arithmetic. -/

set_option linter.unusedSectionVars false

namespace Verif.Fp

variable {K : Type} [Field K] [LinearOrder K] [IsStrictOrderedRing K] [FloorRing K] {p : ℕ} (R : Rounding K p)

/-- The sum of the magnitudes. -/
def absSum (l : List K) : K := (l.map fun x => |x|).sum

theorem absSum_nonneg (l : List K) : 0 ≤ absSum l := List.sum_nonneg (by simp)

theorem abs_sum_le (l : List K) : |l.sum| ≤ absSum l := by
  induction l with
  | nil => simp [absSum]
  | cons x l ih =>
    simp only [absSum, List.map_cons, List.sum_cons] at *
    exact (abs_add_le _ _).trans (by linarith)

/-- One more addition. -/
theorem sum_step (hp : 1 ≤ p) {s S A B c : K} {y Y : K} (hs : |s - S| ≤ (c - 1) * A) (hS : |S| ≤ A)
    (hy : |y - Y| ≤ (c - 1) * B) (hY : |Y| ≤ B) : |R.rnd (s + y) - (S + Y)| ≤ (c * (1 + 1 / 2 ^ p) - 1) * (A + B) := by
  have r := rel_u R hp (s + y)
  have hu : (0 : K) < 1 / 2 ^ p := by positivity
  generalize (1 : K) / 2 ^ p = u at *
  have h1 : |s + y - (S + Y)| ≤ (c - 1) * (A + B) := by
    rw [show s + y - (S + Y) = (s - S) + (y - Y) by ring]
    exact (abs_add_le _ _).trans (by linarith)
  have h2 : |s + y| ≤ c * (A + B) := by
    have : |s + y| ≤ |s + y - (S + Y)| + |S + Y| := by
      have := abs_add_le (s + y - (S + Y)) (S + Y)
      rwa [sub_add_cancel] at this
    have := abs_add_le S Y
    nlinarith
  have h3 : |R.rnd (s + y) - (S + Y)| ≤ |R.rnd (s + y) - (s + y)| + |s + y - (S + Y)| := by
    have := abs_add_le (R.rnd (s + y) - (s + y)) (s + y - (S + Y))
    rwa [sub_add_sub_cancel] at this
  have h4 := mul_le_mul_of_nonneg_left h2 hu.le
  nlinarith

theorem naive_fold (hp : 1 ≤ p) (l : List K) : ∀ (s S A : K) (j : ℕ), 0 ≤ A → |S| ≤ A → |s - S| ≤ ((1 + 1 / 2 ^ p) ^ j - 1) * A →
    |l.foldl (fun s y => R.rnd (s + y)) s - (S + l.sum)| ≤ ((1 + 1 / 2 ^ p) ^ (j + l.length) - 1) * (A + absSum l) := by
  induction l with
  | nil => intro s S A j _ _ h; simpa [absSum] using h
  | cons x l ih =>
    intro s S A j hA hS h
    have hu : (0 : K) < 1 / 2 ^ p := by positivity
    have one : (1 : K) ≤ (1 + 1 / 2 ^ p) ^ j := one_le_pow₀ (by linarith)
    have := sum_step R hp h hS (y := x) (Y := x) (by rw [sub_self, abs_zero]; exact mul_nonneg (by linarith) (abs_nonneg _)) le_rfl
    rw [← pow_succ] at this
    have := ih (R.rnd (s + x)) (S + x) (A + |x|) (j + 1) (by positivity) ((abs_add_le _ _).trans (by linarith)) this
    simp only [List.foldl_cons, List.sum_cons, List.length_cons, absSum, List.map_cons] at *
    rw [show j + (l.length + 1) = j + 1 + l.length by ring, ← add_assoc S, ← add_assoc A]
    exact this

theorem naive_error (hp : 1 ≤ p) {l : List K} (hl : l ≠ []) :
    ∃ s, naiveSum R l = some s ∧ |s - l.sum| ≤ ((1 + 1 / 2 ^ p) ^ (l.length - 1) - 1) * absSum l := by
  cases l with
  | nil => exact absurd rfl hl
  | cons x l =>
    refine ⟨_, rfl, ?_⟩
    have := naive_fold R hp l x x |x| 0 (abs_nonneg _) le_rfl (by simp)
    simpa [absSum] using this

theorem pow_mono_u {i j : ℕ} (h : i ≤ j) : (1 + 1 / 2 ^ p : K) ^ i ≤ (1 + 1 / 2 ^ p) ^ j :=
  pow_le_pow_right₀ (by have : (0 : K) < 1 / 2 ^ p := by positivity
                        linarith) h

theorem pairwise_error (hp : 1 ≤ p) (k : ℕ) : ∀ l : List K, l ≠ [] → l.length ≤ 128 * 2 ^ k →
    ∃ s, pairwiseSum R l = some s ∧ |s - l.sum| ≤ ((1 + 1 / 2 ^ p) ^ (127 + k) - 1) * absSum l := by
  induction k with
  | zero =>
    intro l hl hk
    obtain ⟨s, h1, h2⟩ := naive_error R hp hl
    refine ⟨s, ?_, h2.trans (mul_le_mul_of_nonneg_right ?_ (absSum_nonneg l))⟩
    · unfold pairwiseSum
      rw [if_pos (List.length_pos_iff.2 hl), if_pos (by simpa using hk), h1]
    · have := pow_mono_u (K := K) (p := p) (i := l.length - 1) (j := 127 + 0) (by simp at hk; omega)
      linarith
  | succ k ih =>
    intro l hl hk
    by_cases c : l.length ≤ 128
    · obtain ⟨s, h1, h2⟩ := naive_error R hp hl
      refine ⟨s, ?_, h2.trans (mul_le_mul_of_nonneg_right ?_ (absSum_nonneg l))⟩
      · unfold pairwiseSum
        rw [if_pos (List.length_pos_iff.2 hl), if_pos c, h1]
      · have := pow_mono_u (K := K) (p := p) (i := l.length - 1) (j := 127 + (k + 1)) (by omega)
        linarith
    · have e : l.take (l.length / 2) ++ l.drop (l.length / 2) = l := List.take_append_drop _ _
      rw [pow_succ] at hk
      obtain ⟨a, a1, a2⟩ := ih (l.take (l.length / 2)) (fun q => by
        have := congrArg List.length q
        rw [List.length_take, List.length_nil] at this
        omega) (by simp; omega)
      obtain ⟨b, b1, b2⟩ := ih (l.drop (l.length / 2)) (by intro q; have := congrArg List.length q; simp at this; omega) (by simp; omega)
      refine ⟨R.rnd (a + b), ?_, ?_⟩
      · unfold pairwiseSum
        rw [if_pos (List.length_pos_iff.2 hl), if_neg c, a1, b1]; rfl
      · have := sum_step R hp a2 (abs_sum_le _) b2 (abs_sum_le _)
        rw [← pow_succ, ← List.sum_append, e] at this
        have e2 : absSum (l.take (l.length / 2)) + absSum (l.drop (l.length / 2)) = absSum l := by
          unfold absSum; rw [← List.sum_append, ← List.map_append, e]
        rw [e2] at this
        exact this

/-- Bernoulli from above: for `j` roundings the factor is at most `1 + (j + 1) u`. -/
theorem pow_bound {u : K} (hu : 0 ≤ u) (j : ℕ) (h : ((j : K) + 1) * j * u ≤ 1) : (1 + u) ^ j ≤ 1 + (j + 1) * u := by
  have key : ∀ i : ℕ, i ≤ j → (1 + u) ^ i ≤ 1 + i * u + (i * (j * u)) * u := by
    intro i
    induction i with
    | zero => intro _; simp
    | succ i ih =>
      intro hi
      have h1 := ih (by omega)
      rw [pow_succ]
      have hij : (i : K) + 1 ≤ j := by exact_mod_cast hi
      have i0 : (0 : K) ≤ i := Nat.cast_nonneg i
      have j0 : (0 : K) ≤ j := Nat.cast_nonneg j
      have h2 : (1 + u) ^ i * (1 + u) ≤ (1 + i * u + (i * (j * u)) * u) * (1 + u) := mul_le_mul_of_nonneg_right h1 (by linarith)
      refine h2.trans ?_
      push_cast
      -- the difference is `(j - i - i j u) u ^ 2`
      have h3 : (j : K) * i * u ≤ (j : K) - i := by
        have h4 : (j : K) * i * u ≤ ((j : K) + 1) * j * u := by
          refine mul_le_mul_of_nonneg_right ?_ hu
          nlinarith
        linarith
      nlinarith [mul_nonneg hu hu, mul_le_mul_of_nonneg_right h3 (mul_nonneg hu hu)]
  have := key j le_rfl
  have j0 : (0 : K) ≤ j := Nat.cast_nonneg j
  have h5 : (j : K) * (j * u) ≤ 1 := by nlinarith [mul_nonneg j0 hu]
  nlinarith

/-! ### Welford's algorithm -/

/-- A value from one number to another. -/
def Btw (m x z : K) : Prop := (m ≤ z ∧ z ≤ x) ∨ (x ≤ z ∧ z ≤ m)

theorem Btw.abs_le {m x z B : K} (h : Btw m x z) (hm : |m| ≤ B) (hx : |x| ≤ B) : |z| ≤ B := by
  have h1 := _root_.abs_le.1 hm
  have h2 := _root_.abs_le.1 hx
  rw [_root_.abs_le]
  rcases h with ⟨a, b⟩ | ⟨a, b⟩ <;> constructor <;> linarith

theorem Btw.rnd {m x z : K} (hm : IsFp p m) (hx : IsFp p x) (h : Btw m x z) : Btw m x (R.rnd z) := by
  rcases h with ⟨a, b⟩ | ⟨a, b⟩
  · exact .inl ⟨R.ge_of_ge a hm, R.le_of_le b hx⟩
  · exact .inr ⟨R.ge_of_ge a hx, R.le_of_le b hm⟩

/-- The mean before it is rounded is between the old mean and the new value. -/
theorem new_mean (hp : 1 ≤ p) {m x : K} (hx : IsFp p x) {n : ℕ} (hn : 2 ≤ n ∨ n = 1 ∧ m = 0) :
    Btw m x (m + R.rnd (R.rnd (x - m) / R.rnd (n : K))) := by
  rcases hn with hn | ⟨rfl, rfl⟩
  · have two : IsFp p (2 : K) := by simpa using isFp_pow (K := K) hp 1
    have n2 : (2 : K) ≤ R.rnd (n : K) := R.ge_of_ge (by exact_mod_cast hn) two
    have r := rel_u R hp (x - m)
    have u2 : (1 : K) / 2 ^ p ≤ 1 / 2 := by
      refine one_div_le_one_div_of_le (by norm_num) ?_
      calc (2 : K) = 2 ^ 1 := by norm_num
        _ ≤ 2 ^ p := pow_le_pow_right₀ (by norm_num) hp
    have r2 : |R.rnd (x - m) - (x - m)| ≤ 1 / 2 * |x - m| := r.trans (mul_le_mul_of_nonneg_right u2 (abs_nonneg _))
    have d := R.mem (x - m)
    rcases le_total m x with c | c
    · have d0 : 0 ≤ R.rnd (x - m) := R.ge_of_ge (by linarith) isFp_zero
      rw [abs_of_nonneg (by linarith : 0 ≤ x - m)] at r2
      have d1 := (_root_.abs_le.1 r2).2
      have q0 : 0 ≤ R.rnd (R.rnd (x - m) / R.rnd (n : K)) := R.ge_of_ge (div_nonneg d0 (by linarith)) isFp_zero
      have q1 : R.rnd (R.rnd (x - m) / R.rnd (n : K)) ≤ R.rnd (x - m) / 2 :=
        R.le_of_le (div_le_div_of_nonneg_left d0 (by norm_num) n2) d.half
      exact .inl ⟨by linarith, by linarith⟩
    · have d0 : R.rnd (x - m) ≤ 0 := R.le_of_le (by linarith) isFp_zero
      rw [abs_of_nonpos (by linarith : x - m ≤ 0)] at r2
      have d1 := (_root_.abs_le.1 r2).1
      have q0 : R.rnd (R.rnd (x - m) / R.rnd (n : K)) ≤ 0 := R.le_of_le (div_nonpos_of_nonpos_of_nonneg d0 (by linarith)) isFp_zero
      have q1 : R.rnd (x - m) / 2 ≤ R.rnd (R.rnd (x - m) / R.rnd (n : K)) := by
        refine R.ge_of_ge ?_ d.half
        have := div_le_div_of_nonneg_left (neg_nonneg.2 d0) (by norm_num : (0 : K) < 2) n2
        rw [neg_div, neg_div] at this
        linarith
      exact .inr ⟨by linarith, by linarith⟩
  · have one : IsFp p (1 : K) := by simpa using isFp_pow (K := K) hp 0
    rw [sub_zero, R.id hx, Nat.cast_one, R.id one, div_one, R.id hx, zero_add]
    rcases le_total 0 x with c | c
    · exact .inl ⟨c, le_rfl⟩
    · exact .inr ⟨le_rfl, c⟩

/-- What holds between two passes of the loop. -/
structure Good (p : ℕ) (s : Welford K) : Prop where
  mean : IsFp p s.mean
  m2 : IsFp p s.m2
  pos : 0 ≤ s.m2
  zero : s.n = 0 → s.mean = 0

theorem good_step (hp : 1 ≤ p) (fused : Bool) {s : Welford K} (g : Good p s) {x : K} (hx : IsFp p x) :
    Good p (welfordStep R fused s x) ∧ Btw s.mean x (welfordStep R fused s x).mean ∧ s.m2 ≤ (welfordStep R fused s x).m2 ∧
      (s.n = 0 → (welfordStep R fused s x).mean = x) := by
  have hn : 2 ≤ s.n + 1 ∨ s.n + 1 = 1 ∧ s.mean = 0 := by
    rcases Nat.eq_zero_or_pos s.n with c | c
    · exact .inr ⟨by omega, g.zero c⟩
    · exact .inl (by omega)
  have b := (new_mean R hp hx hn).rnd R g.mean hx
  have first : s.n = 0 → R.rnd (s.mean + R.rnd (R.rnd (x - s.mean) / R.rnd ((s.n + 1 : ℕ) : K))) = x := by
    intro c
    have one : IsFp p (1 : K) := by simpa using isFp_pow (K := K) hp 0
    rw [c, g.zero c, sub_zero, R.id hx, zero_add, Nat.cast_one, R.id one, div_one, R.id hx, R.id hx]
  have nn : 0 ≤ R.rnd (x - s.mean) * R.rnd (x - R.rnd (s.mean + R.rnd (R.rnd (x - s.mean) / R.rnd ((s.n + 1 : ℕ) : K)))) := by
    rcases b with ⟨b1, b2⟩ | ⟨b1, b2⟩
    · exact mul_nonneg (R.ge_of_ge (by linarith) isFp_zero) (R.ge_of_ge (by linarith) isFp_zero)
    · exact mul_nonneg_of_nonpos_of_nonpos (R.le_of_le (by linarith) isFp_zero) (R.le_of_le (by linarith) isFp_zero)
  unfold welfordStep
  dsimp only
  refine ⟨⟨R.mem _, ?_, ?_, by simp⟩, b, ?_, first⟩
  · dsimp only; split <;> exact R.mem _
  · dsimp only
    split
    · exact R.ge_of_ge (add_nonneg g.pos nn) isFp_zero
    · exact R.ge_of_ge (add_nonneg g.pos (R.ge_of_ge nn isFp_zero)) isFp_zero
  · split
    · exact R.ge_of_ge (by linarith) g.m2
    · have := R.ge_of_ge nn isFp_zero
      exact R.ge_of_ge (by linarith) g.m2

theorem mean_arith {N m a x d q m' u B : K} (N1 : 1 ≤ N) (hu : 0 ≤ u) (h1 : |d - (x - m)| ≤ u * (2 * B)) (h2 : |q - d / N| ≤ u * (|d| / N)) (h3 : |d| ≤ 2 * B)
    (h4 : |m' - (m + q)| ≤ u * B) (h5 : 2 * (N - 1) * |m - a| ≤ ((N - 1) ^ 2 + 9 * (N - 1)) * u * B) :
    2 * N * |m' - (a + (x - a) / N)| ≤ (N ^ 2 + 9 * N) * u * B := by
  have N0 : 0 < N := by linarith
  have e : N * (m' - (a + (x - a) / N)) = N * (m' - (m + q)) + ((N - 1) * (m - a) + (N * (q - d / N) + (d - (x - m)))) := by
    field_simp; ring
  have e1 : N * |m' - (a + (x - a) / N)| = |N * (m' - (a + (x - a) / N))| := by rw [abs_mul, abs_of_pos N0]
  have t1 := abs_add_le (N * (m' - (m + q))) ((N - 1) * (m - a) + (N * (q - d / N) + (d - (x - m))))
  have t2 := abs_add_le ((N - 1) * (m - a)) (N * (q - d / N) + (d - (x - m)))
  have t3 := abs_add_le (N * (q - d / N)) (d - (x - m))
  rw [abs_mul N, abs_of_pos N0] at t1 t3
  rw [abs_mul (N - 1), abs_of_nonneg (by linarith : 0 ≤ N - 1)] at t2
  have h2' : N * |q - d / N| ≤ u * (2 * B) := by
    have := mul_le_mul_of_nonneg_left h2 N0.le
    rw [show N * (u * (|d| / N)) = u * |d| by field_simp] at this
    exact this.trans (mul_le_mul_of_nonneg_left h3 hu)
  have h4' := mul_le_mul_of_nonneg_left h4 N0.le
  rw [mul_assoc, e1, e]
  nlinarith

theorem prod_arith {d r dd rr u B N : K} (h1 : |d - dd| ≤ 2 * u * B + (N + 8) / 2 * u * B) (h2 : |r - rr| ≤ 2 * u * B + (N + 9) / 2 * u * B)
    (hr : |r| ≤ 2 * B) (hd : |dd| ≤ 2 * B) : |d * r - dd * rr| ≤ (2 * N + 25) * u * B ^ 2 := by
  rw [show d * r - dd * rr = (d - dd) * r + dd * (r - rr) by ring]
  refine (abs_add_le _ _).trans ?_
  rw [abs_mul, abs_mul]
  have a1 := mul_le_mul h1 hr (abs_nonneg _) ((abs_nonneg _).trans h1)
  have a2 := mul_le_mul hd h2 (abs_nonneg _) ((abs_nonneg _).trans hd)
  refine (add_le_add a1 a2).trans (le_of_eq (by ring))

/-- The difference between the run and the exact run after `n` values of at most `B`. -/
structure Near (p : ℕ) (B : K) (s : Welford K) (e : Stats.Welford K) : Prop where
  n : e.n = s.n
  mean : |s.mean| ≤ B
  exact : |e.mean| ≤ B
  zero : s.n = 0 → e.mean = 0
  dist : 2 * (s.n : K) * |s.mean - e.mean| ≤ ((s.n : K) ^ 2 + 9 * s.n) * (1 / 2 ^ p) * B
  top : s.m2 ≤ 6 * B ^ 2 * s.n
  m2 : |s.m2 - e.m2| ≤ (4 * (s.n : K) ^ 2 + 33 * s.n) * (1 / 2 ^ p) * B ^ 2

set_option maxHeartbeats 800000 in
theorem near_step (hp : 2 ≤ p) (fused : Bool) {B : K} (hB : IsFp p B) {s : Welford K} {e : Stats.Welford K} (g : Good p s) (h : Near p B s e) {x : K} (hx : IsFp p x)
    (hxB : |x| ≤ B) (hn : 8 * (s.n + 1) ≤ 2 ^ p) : Near p B (welfordStep R fused s x) (Stats.welfordStep e x) := by
  have hp1 : 1 ≤ p := by omega
  obtain ⟨g', btw, up, -⟩ := good_step R hp1 fused g hx
  have hu : (0 : K) < 1 / 2 ^ p := by positivity
  have hB0 : 0 ≤ B := (abs_nonneg x).trans hxB
  have hB2 : IsFp p (2 * B) := hB.double
  -- the number of values
  have hNf : R.rnd ((s.n + 1 : ℕ) : K) = ((s.n + 1 : ℕ) : K) := R.id (isFp_nat hp1 (by omega))
  have hN : 8 * ((s.n : K) + 1) * (1 / 2 ^ p) ≤ 1 := by
    rw [mul_one_div, div_le_one (by positivity)]; exact_mod_cast hn
  have u4 : 8 * ((1 : K) / 2 ^ p) ≤ 1 := by
    have : (0 : K) ≤ s.n := Nat.cast_nonneg _
    nlinarith
  -- the differences
  have hd2 : |x - s.mean| ≤ 2 * B := by
    have := abs_sub x s.mean
    have := h.mean
    linarith
  have d1 : |R.rnd (x - s.mean)| ≤ 2 * B := R.abs_le_of hd2 hB2
  have d2 : |R.rnd (x - s.mean) - (x - s.mean)| ≤ 1 / 2 ^ p * (2 * B) := (rel_u R hp1 _).trans (mul_le_mul_of_nonneg_left hd2 hu.le)
  have btw0 := new_mean R hp1 (m := s.mean) hx (n := s.n + 1) (by
    rcases Nat.eq_zero_or_pos s.n with c | c
    · exact .inr ⟨by omega, g.zero c⟩
    · exact .inl (by omega))
  have z1 := btw0.abs_le h.mean hxB
  rw [hNf] at btw0 z1
  have m1 := (rel_u R hp1 (s.mean + R.rnd (R.rnd (x - s.mean) / ((s.n + 1 : ℕ) : K)))).trans (mul_le_mul_of_nonneg_left z1 hu.le)
  have q1 := rel_u R hp1 (R.rnd (x - s.mean) / ((s.n + 1 : ℕ) : K))
  have m3 := btw.abs_le h.mean hxB
  obtain ⟨en, hm, hex, hz, hdist, htop, hm2⟩ := h
  have hN0 : (0 : K) < ((s.n + 1 : ℕ) : K) := by exact_mod_cast Nat.succ_pos _
  rw [abs_div, abs_of_pos hN0] at q1
  -- the new mean
  have key : 2 * ((s.n + 1 : ℕ) : K) * |R.rnd (s.mean + R.rnd (R.rnd (x - s.mean) / ((s.n + 1 : ℕ) : K))) - (e.mean + (x - e.mean) / ((s.n + 1 : ℕ) : K))| ≤
      (((s.n + 1 : ℕ) : K) ^ 2 + 9 * ((s.n + 1 : ℕ) : K)) * (1 / 2 ^ p) * B := by
    refine mean_arith (by push_cast; linarith [(Nat.cast_nonneg s.n : (0 : K) ≤ s.n)]) hu.le d2 q1 d1 m1 ?_
    push_cast
    rw [add_sub_cancel_right]; exact hdist
  have em : (Stats.welfordStep e x).mean = e.mean + (x - e.mean) / ((s.n + 1 : ℕ) : K) := by unfold Stats.welfordStep; dsimp only; rw [en]
  have em2 : (Stats.welfordStep e x).m2 = e.m2 + (x - e.mean) * (x - (e.mean + (x - e.mean) / ((s.n + 1 : ℕ) : K))) := by
    unfold Stats.welfordStep; dsimp only; rw [en]
  have sm : (welfordStep R fused s x).mean = R.rnd (s.mean + R.rnd (R.rnd (x - s.mean) / ((s.n + 1 : ℕ) : K))) := by
    unfold welfordStep; dsimp only; rw [hNf]
  have exact' : |e.mean + (x - e.mean) / ((s.n + 1 : ℕ) : K)| ≤ B := by
    have eq : e.mean + (x - e.mean) / ((s.n + 1 : ℕ) : K) = (s.n * e.mean + x) / ((s.n + 1 : ℕ) : K) := by
      push_cast at hN0 ⊢; field_simp; ring
    rw [eq, abs_div, abs_of_pos hN0, div_le_iff₀ hN0]
    refine (abs_add_le _ _).trans ?_
    rw [abs_mul, Nat.abs_cast]
    have := mul_le_mul_of_nonneg_left hex (Nat.cast_nonneg s.n : (0 : K) ≤ s.n)
    push_cast
    linarith
  rw [sm] at m3
  have sm2 : (welfordStep R fused s x).m2 = if fused then R.rnd (s.m2 + R.rnd (x - s.mean) * R.rnd (x - R.rnd (s.mean + R.rnd (R.rnd (x - s.mean) / ((s.n + 1 : ℕ) : K)))))
      else R.rnd (s.m2 + R.rnd (R.rnd (x - s.mean) * R.rnd (x - R.rnd (s.mean + R.rnd (R.rnd (x - s.mean) / ((s.n + 1 : ℕ) : K)))))) := by
    unfold welfordStep; dsimp only; rw [hNf]
  have pos' := g'.pos
  clear btw btw0 z1 m1 q1
  generalize R.rnd (s.mean + R.rnd (R.rnd (x - s.mean) / ((s.n + 1 : ℕ) : K))) = m' at *
  generalize e.mean + (x - e.mean) / ((s.n + 1 : ℕ) : K) = a' at *
  have hr2 : |x - m'| ≤ 2 * B := by
    have := abs_sub x m'
    linarith
  have r1 : |R.rnd (x - m')| ≤ 2 * B := R.abs_le_of hr2 hB2
  have r2 : |R.rnd (x - m') - (x - m')| ≤ 1 / 2 ^ p * (2 * B) := (rel_u R hp1 _).trans (mul_le_mul_of_nonneg_left hr2 hu.le)
  generalize R.rnd (x - m') = r at *
  generalize R.rnd (x - s.mean) = d at *
  have n0 : (0 : K) ≤ s.n := Nat.cast_nonneg _
  push_cast at key hN0
  have near0 : |s.mean - e.mean| ≤ (((s.n : K) + 1) + 8) / 2 * (1 / 2 ^ p) * B := by
    rcases Nat.eq_zero_or_pos s.n with c | c
    · rw [g.zero c, hz c, sub_zero, abs_zero]; positivity
    · have c' : (0 : K) < s.n := by exact_mod_cast c
      have : (2 * (s.n : K)) * |s.mean - e.mean| ≤ (2 * (s.n : K)) * ((((s.n : K) + 1) + 8) / 2 * (1 / 2 ^ p) * B) := hdist.trans (le_of_eq (by ring))
      exact le_of_mul_le_mul_left this (by positivity)
  have near1 : |m' - a'| ≤ (((s.n : K) + 1) + 9) / 2 * (1 / 2 ^ p) * B := by
    have : (2 * ((s.n : K) + 1)) * |m' - a'| ≤ (2 * ((s.n : K) + 1)) * ((((s.n : K) + 1) + 9) / 2 * (1 / 2 ^ p) * B) := key.trans (le_of_eq (by ring))
    exact le_of_mul_le_mul_left this (by positivity)
  have pr : |d * r - (x - e.mean) * (x - a')| ≤ (2 * ((s.n : K) + 1) + 25) * (1 / 2 ^ p) * B ^ 2 := by
    refine prod_arith ?_ ?_ r1 ?_
    · have := abs_add_le (d - (x - s.mean)) (-(s.mean - e.mean))
      rw [abs_neg, show d - (x - s.mean) + -(s.mean - e.mean) = d - (x - e.mean) by ring] at this
      linarith
    · have := abs_add_le (r - (x - m')) (-(m' - a'))
      rw [abs_neg, show r - (x - m') + -(m' - a') = r - (x - a') by ring] at this
      linarith
    · have := abs_sub x e.mean
      linarith
  have dr : |d * r| ≤ 4 * B ^ 2 := by
    rw [abs_mul]
    refine (mul_le_mul d1 r1 (abs_nonneg _) (by positivity)).trans (le_of_eq (by ring))
  -- the product that is added
  obtain ⟨t, ht, tm, tb, t0⟩ : ∃ t, |t - (x - e.mean) * (x - a')| ≤ (2 * ((s.n : K) + 1) + 29) * (1 / 2 ^ p) * B ^ 2 ∧
      (welfordStep R fused s x).m2 = R.rnd (s.m2 + t) ∧ |t| ≤ 5 * B ^ 2 ∧ True := by
    have B2 : 0 ≤ B ^ 2 := sq_nonneg B
    cases fused
    · refine ⟨R.rnd (d * r), ?_, by simpa using sm2, ?_, trivial⟩
      · have h1 := (rel_u R hp1 (d * r)).trans (mul_le_mul_of_nonneg_left dr hu.le)
        have := abs_add_le (R.rnd (d * r) - d * r) (d * r - (x - e.mean) * (x - a'))
        rw [sub_add_sub_cancel] at this
        linarith
      · have h1 := (rel_u R hp1 (d * r)).trans (mul_le_mul_of_nonneg_left dr hu.le)
        have := abs_add_le (R.rnd (d * r) - d * r) (d * r)
        rw [sub_add_cancel] at this
        nlinarith
    · refine ⟨d * r, ?_, by simpa using sm2, by linarith, trivial⟩
      have : 0 ≤ 4 * (1 / 2 ^ p * B ^ 2) := by positivity
      linarith
  have hs : |s.m2 + t| ≤ 6 * B ^ 2 * ((s.n : K) + 1) := by
    have := abs_add_le s.m2 t
    rw [abs_of_nonneg g.pos] at this
    have B2 : 0 ≤ B ^ 2 := sq_nonneg B
    nlinarith
  have hr := rel_u R hp1 (s.m2 + t)
  refine ⟨?_, by rw [sm]; exact m3, by rw [em]; exact exact', fun q => by simp [welfordStep] at q, ?_, ?_, ?_⟩
  · simp [welfordStep, Stats.welfordStep, en]
  · rw [sm, em]
    simpa [welfordStep] using key
  · have B2 : 0 ≤ B ^ 2 := sq_nonneg B
    rw [tm]
    have ab := abs_add_le s.m2 t
    rw [abs_of_nonneg g.pos] at ab
    have h1 := mul_le_mul_of_nonneg_left hs hu.le
    have h2 := (abs_le.1 hr).2
    have h3 := le_abs_self (s.m2 + t)
    have h4 : 1 / 2 ^ p * (6 * B ^ 2 * ((s.n : K) + 1)) ≤ B ^ 2 := by
      have := mul_le_mul_of_nonneg_right hN B2
      linarith
    have : ((welfordStep R fused s x).n : K) = s.n + 1 := by simp [welfordStep]
    rw [this]
    linarith
  · rw [tm, em2]
    have h1 := mul_le_mul_of_nonneg_left hs hu.le
    have t1 := abs_add_le (R.rnd (s.m2 + t) - (s.m2 + t)) ((s.m2 - e.m2) + (t - (x - e.mean) * (x - a')))
    have t2 := abs_add_le (s.m2 - e.m2) (t - (x - e.mean) * (x - a'))
    rw [show R.rnd (s.m2 + t) - (s.m2 + t) + ((s.m2 - e.m2) + (t - (x - e.mean) * (x - a'))) = R.rnd (s.m2 + t) - (e.m2 + (x - e.mean) * (x - a')) by ring] at t1
    have : ((welfordStep R fused s x).n : K) = s.n + 1 := by simp [welfordStep]
    rw [this]
    have e8 : (4 * ((s.n : K) + 1) ^ 2 + 33 * (s.n + 1)) * (1 / 2 ^ p) * B ^ 2 = (4 * (s.n : K) ^ 2 + 33 * s.n) * (1 / 2 ^ p) * B ^ 2 +
        (2 * ((s.n : K) + 1) + 29) * (1 / 2 ^ p) * B ^ 2 + 1 / 2 ^ p * (6 * B ^ 2 * ((s.n : K) + 1)) := by ring
    linarith

end Verif.Fp
