import Verif.Props.Roots
import Mathlib.Analysis.Calculus.Deriv.Pow
import Mathlib.Analysis.Calculus.Deriv.Mul
import Mathlib.Analysis.Calculus.Deriv.Add
import Mathlib.Topology.Order.MonotoneConvergence
import Mathlib.Topology.Algebra.Order.Field
import Mathlib.Topology.Instances.Real.Lemmas
import Mathlib.Tactic.Positivity
import Mathlib.Tactic.FieldSimp
import Mathlib.Tactic.LinearCombination

/-!
# C72: the Newton loop of `solveCubic`
-/

namespace Verif.Roots

open Filter Topology

/-- The cubic. -/
def cubic (a b c d x : ℝ) : ℝ := a * x ^ 3 + b * x ^ 2 + c * x + d

/-- The block marked `eval` computes the value of the cubic and its derivative. -/
theorem C72_eval (a b c d x : ℝ) :
    (eval a b c d x).2.2.2 = cubic a b c d x ∧
    HasDerivAt (cubic a b c d) (eval a b c d x).2.2.1 x := by
  constructor
  · unfold eval cubic; ring
  · have h : HasDerivAt (cubic a b c d)
        (a * (((3 : ℕ) : ℝ) * x ^ (3 - 1)) + b * (((2 : ℕ) : ℝ) * x ^ (2 - 1)) + c * 1) x :=
      ((((hasDerivAt_pow 3 x).const_mul a).add ((hasDerivAt_pow 2 x).const_mul b)).add
        ((hasDerivAt_id x).const_mul c)).add_const d
    convert h using 1
    unfold eval; norm_num; ring

/-! ## The reduced cubic `y³ + p y + T` with `T ≥ 0`, seen from below its least root -/

/-- One damped Newton step on the reduced cubic. -/
noncomputable def redStep (p T y : ℝ) : ℝ :=
  if 3 * y ^ 2 + p = 0 then y
  else y - (y ^ 3 + p * y + T) / (3 * y ^ 2 + p) / onePlusEps

theorem one_le_eps : 1 ≤ onePlusEps := by unfold onePlusEps; norm_num

theorem red_pos {p T y : ℝ} (hT : 0 ≤ T) (hy : y ≤ 0) (hg : y ^ 3 + p * y + T < 0) :
    y < 0 ∧ 0 < y ^ 2 + p ∧ 0 < 3 * y ^ 2 + p := by
  have h1 : y * (y ^ 2 + p) < 0 := by nlinarith
  have h2 : y < 0 := by
    rcases lt_or_eq_of_le hy with h | h
    · exact h
    · rw [h] at h1; simp at h1
  have h3 : 0 < y ^ 2 + p := by
    by_contra h
    have := mul_nonneg_of_nonpos_of_nonpos hy (not_lt.1 h)
    linarith
  exact ⟨h2, h3, by nlinarith [sq_nonneg y]⟩

theorem redStep_spec {p T y : ℝ} (hT : 0 ≤ T) (hy : y ≤ 0) (hg : y ^ 3 + p * y + T < 0) :
    y < redStep p T y ∧ redStep p T y < 0 ∧
    redStep p T y ^ 3 + p * redStep p T y + T ≤ 0 ∧
    (redStep p T y - y) * (3 * y ^ 2 + p) * onePlusEps = -(y ^ 3 + p * y + T) := by
  obtain ⟨h1, h2, h3⟩ := red_pos hT hy hg
  unfold redStep
  rw [if_neg h3.ne']
  obtain ⟨δ, hδ⟩ : ∃ δ, δ = -((y ^ 3 + p * y + T) / (3 * y ^ 2 + p) / onePlusEps) := ⟨_, rfl⟩
  have he : y - (y ^ 3 + p * y + T) / (3 * y ^ 2 + p) / onePlusEps = y + δ := by rw [hδ]; ring
  have e1 := one_le_eps
  have e0 : 0 < onePlusEps := lt_of_lt_of_le one_pos e1
  have hm : δ * (3 * y ^ 2 + p) * onePlusEps = -(y ^ 3 + p * y + T) := by
    have : (y ^ 3 + p * y + T) / (3 * y ^ 2 + p) / onePlusEps * (3 * y ^ 2 + p) * onePlusEps =
        y ^ 3 + p * y + T := by
      rw [mul_assoc, mul_comm (3 * y ^ 2 + p), ← mul_assoc, div_mul_cancel₀ _ e0.ne',
        div_mul_cancel₀ _ h3.ne']
    rw [hδ]; linear_combination -this
  rw [he]
  have hdp : 0 < δ := by
    by_contra h
    have : δ * (3 * y ^ 2 + p) * onePlusEps ≤ 0 :=
      mul_nonpos_of_nonpos_of_nonneg (mul_nonpos_of_nonpos_of_nonneg (not_lt.1 h) h3.le) e0.le
    linarith
  have hd1 : δ * (3 * y ^ 2 + p) ≤ -(y ^ 3 + p * y + T) := by
    have : 0 < δ * (3 * y ^ 2 + p) := mul_pos hdp h3
    nlinarith
  have hd2 : δ < -y := by
    by_contra h
    have h' : -y ≤ δ := not_lt.1 h
    have : -y * (3 * y ^ 2 + p) ≤ δ * (3 * y ^ 2 + p) := mul_le_mul_of_nonneg_right h' h3.le
    have hy3 : 0 < -y ^ 3 := by
      have := mul_pos (neg_pos.2 h1) (sq_pos_of_neg h1)
      nlinarith
    nlinarith
  refine ⟨by linarith, by linarith, ?_, by rw [add_sub_cancel_left]; exact hm⟩
  have h4 : 3 * y + δ ≤ 0 := by linarith
  have h5 := mul_nonneg_of_nonpos_of_nonpos (neg_nonpos.2 (sq_nonneg δ)) h4
  nlinarith

theorem redStep_root {p T y : ℝ} (hg : y ^ 3 + p * y + T = 0) : redStep p T y = y := by
  unfold redStep; rw [hg]; simp

/-- The points the loop visits: not positive, with non-positive value, left of the extrema. -/
structure Below (p T y : ℝ) : Prop where
  nonpos : y ≤ 0
  value : y ^ 3 + p * y + T ≤ 0
  left : 0 ≤ y ^ 2 + p

/-- Below such a point there is no root. -/
theorem Below.least {p T y z : ℝ} (h : Below p T y) (hz : z ^ 3 + p * z + T = 0) : y ≤ z := by
  by_contra h'
  have h' : z < y := not_le.1 h'
  have hzn : z < 0 := lt_of_lt_of_le h' h.nonpos
  have h3 : y ^ 2 < z ^ 2 := by nlinarith [h.nonpos]
  have h4 : 0 < z ^ 2 + p := by linarith [h.left]
  have h5 := mul_pos (sub_pos.2 h') h4
  have h6 := mul_nonneg (neg_nonneg.2 h.nonpos) (sub_nonneg.2 h3.le)
  nlinarith [h.value]

theorem Below.step {p T y : ℝ} (hT : 0 ≤ T) (h : Below p T y) : Below p T (redStep p T y) := by
  rcases lt_or_eq_of_le h.value with hg | hg
  · obtain ⟨h1, h2, h3, -⟩ := redStep_spec hT h.nonpos hg
    refine ⟨h2.le, h3, ?_⟩
    by_contra h4
    have := mul_pos_of_neg_of_neg h2 (not_le.1 h4)
    nlinarith
  · rw [redStep_root hg]; exact h

/-- The steps converge to a root, and it is the least one. -/
theorem Below.tendsto {p T y : ℝ} (hT : 0 ≤ T) (h : Below p T y) :
    ∃ L, L ^ 3 + p * L + T = 0 ∧ (∀ z, z ^ 3 + p * z + T = 0 → L ≤ z) ∧
      Tendsto (fun n => (redStep p T)^[n] y) atTop (𝓝 L) := by
  have hb : ∀ n, Below p T ((redStep p T)^[n] y) := by
    intro n
    induction n with
    | zero => exact h
    | succ n ih => rw [Function.iterate_succ_apply']; exact ih.step hT
  have hle : ∀ n, (redStep p T)^[n] y ≤ (redStep p T)^[n + 1] y := by
    intro n
    rw [Function.iterate_succ_apply']
    rcases lt_or_eq_of_le (hb n).value with hg | hg
    · exact (redStep_spec hT (hb n).nonpos hg).1.le
    · rw [redStep_root hg]
  have hmono : Monotone fun n => (redStep p T)^[n] y := monotone_nat_of_le_succ hle
  have hbd : BddAbove (Set.range fun n => (redStep p T)^[n] y) := by
    refine ⟨0, ?_⟩
    rintro _ ⟨n, rfl⟩
    exact (hb n).nonpos
  obtain ⟨L, hL⟩ : ∃ L, Tendsto (fun n => (redStep p T)^[n] y) atTop (𝓝 L) :=
    ⟨_, tendsto_atTop_ciSup hmono hbd⟩
  have hL1 : Tendsto (fun n => (redStep p T)^[n + 1] y) atTop (𝓝 L) := hL.comp (tendsto_add_atTop_nat 1)
  have heq : ∀ n, ((redStep p T)^[n + 1] y - (redStep p T)^[n] y) * (3 * ((redStep p T)^[n] y) ^ 2 + p) *
      onePlusEps = -(((redStep p T)^[n] y) ^ 3 + p * ((redStep p T)^[n] y) + T) := by
    intro n
    rw [Function.iterate_succ_apply']
    rcases lt_or_eq_of_le (hb n).value with hg | hg
    · exact (redStep_spec hT (hb n).nonpos hg).2.2.2
    · rw [redStep_root hg, hg]; simp
  have l1 : Tendsto (fun n => ((redStep p T)^[n + 1] y - (redStep p T)^[n] y) *
      (3 * ((redStep p T)^[n] y) ^ 2 + p) * onePlusEps) atTop (𝓝 ((L - L) * (3 * L ^ 2 + p) * onePlusEps)) :=
    ((hL1.sub hL).mul (((hL.pow 2).const_mul 3).add_const p)).mul_const onePlusEps
  have l2 : Tendsto (fun n => -(((redStep p T)^[n] y) ^ 3 + p * ((redStep p T)^[n] y) + T)) atTop
      (𝓝 (-(L ^ 3 + p * L + T))) :=
    (((hL.pow 3).add (hL.const_mul p)).add_const T).neg
  have l3 := tendsto_nhds_unique (l1.congr heq) l2
  refine ⟨L, ?_, fun z hz => ?_, hL⟩
  · rw [sub_self, zero_mul, zero_mul] at l3; linarith
  · exact le_of_tendsto' hL fun n => (hb n).least hz

/-! ## The cubic of `solveCubic` -/

/-- The inflection point of the cubic. -/
noncomputable def infl (a b : ℝ) : ℝ := -(b / a) / 3

/-- The first coefficient of the reduced cubic. -/
noncomputable def redP (a b c d : ℝ) : ℝ := (eval a b c d (infl a b)).2.2.1 / a
/-- The constant of the reduced cubic. -/
noncomputable def redT (a b c d : ℝ) : ℝ := |(eval a b c d (infl a b)).2.2.2 / a|

theorem startWith_s (lam : ℝ) (cbrt : ℝ → ℝ) (a b c d : ℝ) :
    (startWith lam cbrt a b c d).2.2 = 1 ∨ (startWith lam cbrt a b c d).2.2 = -1 := by
  unfold startWith; dsimp only; split_ifs <;> simp

theorem s_mul_t (lam : ℝ) (cbrt : ℝ → ℝ) (a b c d : ℝ) :
    (startWith lam cbrt a b c d).2.2 * ((eval a b c d (infl a b)).2.2.2 / a) = redT a b c d := by
  unfold startWith redT infl; dsimp only
  split_ifs with h
  · rw [abs_of_neg h]; ring
  · rw [abs_of_nonneg (not_lt.1 h)]; ring

/-- The cubic in the reduced variable. -/
theorem cubic_red (a b c d x s : ℝ) (ha : a ≠ 0) (hs : s = 1 ∨ s = -1)
    (hT : s * ((eval a b c d (infl a b)).2.2.2 / a) = redT a b c d) :
    s * (cubic a b c d x / a) =
      (s * (x - infl a b)) ^ 3 + redP a b c d * (s * (x - infl a b)) + redT a b c d ∧
    (eval a b c d x).2.2.1 / a = 3 * (s * (x - infl a b)) ^ 2 + redP a b c d := by
  rw [← hT]
  constructor
  · rcases hs with rfl | rfl <;>
    · unfold cubic redP eval infl; dsimp only; field_simp; ring
  · rcases hs with rfl | rfl <;>
    · unfold redP eval infl; dsimp only; field_simp; ring

theorem newtonStep_red (a b c d x s : ℝ) (ha : a ≠ 0) (hs : s = 1 ∨ s = -1)
    (hT : s * ((eval a b c d (infl a b)).2.2.2 / a) = redT a b c d) :
    s * (newtonStep a b c d x - infl a b) =
      redStep (redP a b c d) (redT a b c d) (s * (x - infl a b)) := by
  obtain ⟨h1, h2⟩ := cubic_red a b c d x s ha hs hT
  unfold newtonStep redStep
  dsimp only
  rw [← h1, ← h2, (C72_eval a b c d x).1]
  by_cases h0 : (eval a b c d x).2.2.1 = 0
  · rw [if_pos h0, if_pos (by rw [h0, zero_div])]
  · rw [if_neg h0, if_neg (div_ne_zero h0 ha)]
    have e0 : onePlusEps ≠ 0 := (lt_of_lt_of_le one_pos one_le_eps).ne'
    field_simp
    ring

theorem cbrt_nonneg {cbrt : ℝ → ℝ} (hcb : ∀ y, 0 ≤ y → cbrt y ^ 3 = y) {y : ℝ} (hy : 0 ≤ y) :
    0 ≤ cbrt y := by
  by_contra h
  have h' := not_le.1 h
  have := hcb y hy
  nlinarith [mul_pos (neg_pos.2 h') (sq_pos_of_neg h')]

/-- The first point in the reduced variable. -/
theorem start_red (lam : ℝ) (cbrt : ℝ → ℝ) (a b c d : ℝ) :
    (startWith lam cbrt a b c d).2.2 * ((startWith lam cbrt a b c d).2.1 - infl a b) =
      -(if redP a b c d < 0 then
          lam * max (cbrt (redT a b c d)) (Real.sqrt (-redP a b c d)) else cbrt (redT a b c d)) := by
  have hs := startWith_s lam cbrt a b c d
  have hx : (startWith lam cbrt a b c d).2.1 = infl a b - (startWith lam cbrt a b c d).2.2 *
      (if redP a b c d < 0 then
          lam * max (cbrt (redT a b c d)) (Real.sqrt (-redP a b c d)) else cbrt (redT a b c d)) := by
    unfold startWith redP redT infl
    dsimp only
    simp only [neg_div, gt_iff_lt, neg_pos]
  rw [hx]
  rcases hs with hs | hs <;> rw [hs] <;> ring

/-- Wherever the factor is at least one, the first point is left of the extrema (mirrored if `s` is
negative); it only remains to know the sign of the cubic there. -/
theorem start_below (lam : ℝ) (hlam : 1 ≤ lam) (cbrt : ℝ → ℝ) (hcb : ∀ y, 0 ≤ y → cbrt y ^ 3 = y)
    (a b c d : ℝ) (ha : a ≠ 0)
    (hq : (startWith lam cbrt a b c d).2.2 * (cubic a b c d (startWith lam cbrt a b c d).2.1 / a) ≤ 0) :
    Below (redP a b c d) (redT a b c d)
      ((startWith lam cbrt a b c d).2.2 * ((startWith lam cbrt a b c d).2.1 - infl a b)) := by
  have hk : 0 ≤ cbrt (redT a b c d) := cbrt_nonneg hcb (abs_nonneg _)
  have hy := start_red lam cbrt a b c d
  refine ⟨?_, ?_, ?_⟩
  · rw [hy, neg_nonpos]
    split_ifs
    · exact mul_nonneg (by linarith) (le_trans hk (le_max_left _ _))
    · exact hk
  · rw [← (cubic_red a b c d _ _ ha (startWith_s lam cbrt a b c d) (s_mul_t lam cbrt a b c d)).1]
    exact hq
  · rw [hy]
    split_ifs with hp
    · obtain ⟨m, hm⟩ : ∃ m, m = max (cbrt (redT a b c d)) (Real.sqrt (-redP a b c d)) := ⟨_, rfl⟩
      rw [← hm]
      have h1 : Real.sqrt (-redP a b c d) ≤ m := hm ▸ le_max_right _ _
      have h2 : -redP a b c d ≤ m ^ 2 := by
        have := Real.sq_sqrt (neg_nonneg.2 hp.le)
        nlinarith [Real.sqrt_nonneg (-redP a b c d)]
      have h3 : m ^ 2 * 1 ≤ m ^ 2 * lam ^ 2 := mul_le_mul_of_nonneg_left (by nlinarith) (sq_nonneg m)
      nlinarith
    · nlinarith [sq_nonneg (-cbrt (redT a b c d)), not_lt.1 hp]

/-- With a factor `lam` that has `lam³ ≥ lam + 1`, the first point is never past the extreme root. -/
theorem C72_start (lam : ℝ) (hlam : 1 ≤ lam) (h3 : lam + 1 ≤ lam ^ 3) (cbrt : ℝ → ℝ)
    (hcb : ∀ y, 0 ≤ y → cbrt y ^ 3 = y) (a b c d : ℝ) (ha : a ≠ 0) :
    (startWith lam cbrt a b c d).2.2 * (cubic a b c d (startWith lam cbrt a b c d).2.1 / a) ≤ 0 := by
  rw [(cubic_red a b c d _ _ ha (startWith_s lam cbrt a b c d) (s_mul_t lam cbrt a b c d)).1, start_red]
  have hk : 0 ≤ cbrt (redT a b c d) := cbrt_nonneg hcb (abs_nonneg _)
  have hk3 : cbrt (redT a b c d) ^ 3 = redT a b c d := hcb _ (abs_nonneg _)
  split_ifs with hp
  · have hw := Real.sq_sqrt (neg_nonneg.2 hp.le)
    have hw0 := Real.sqrt_nonneg (-redP a b c d)
    obtain ⟨w, hw'⟩ : ∃ w, w = Real.sqrt (-redP a b c d) := ⟨_, rfl⟩
    obtain ⟨k, hk'⟩ : ∃ k, k = cbrt (redT a b c d) := ⟨_, rfl⟩
    rw [← hw'] at hw hw0 ⊢
    rw [← hk'] at hk hk3 ⊢
    obtain ⟨m, hm⟩ : ∃ m, m = max k w := ⟨_, rfl⟩
    have h1 : k ≤ m := hm ▸ le_max_left _ _
    have h2 : w ≤ m := hm ▸ le_max_right _ _
    rw [← hm, ← hk3]
    have hm0 : 0 ≤ m := le_trans hk h1
    have e1 : k ^ 3 ≤ m ^ 3 := pow_le_pow_left₀ hk h1 3
    have e2 : w ^ 2 ≤ m ^ 2 := pow_le_pow_left₀ hw0 h2 2
    have e3 : -redP a b c d * (lam * m) ≤ m ^ 2 * (lam * m) :=
      mul_le_mul_of_nonneg_right (hw ▸ e2) (mul_nonneg (by linarith) hm0)
    have e4 : m ^ 3 * (lam + 1) ≤ m ^ 3 * lam ^ 3 := mul_le_mul_of_nonneg_left h3 (pow_nonneg hm0 3)
    nlinarith
  · have := mul_nonneg (not_lt.1 hp) hk
    nlinarith

theorem newton_iterate (a b c d s : ℝ) (fuel : Nat) (x0 x : ℝ)
    (h : newton a b c d s fuel x0 = some x) :
    ∃ n, n < fuel ∧ x = (newtonStep a b c d)^[n] x0 ∧ ¬ s * newtonStep a b c d x > s * x := by
  induction fuel generalizing x0 with
  | zero => cases h
  | succ fuel ih =>
    unfold newton at h
    dsimp only at h
    split_ifs at h with hc
    · obtain ⟨n, h1, h2, h3⟩ := ih _ h
      exact ⟨n + 1, by omega, by rw [Function.iterate_succ_apply]; exact h2, h3⟩
    · cases h
      exact ⟨0, by omega, rfl, hc⟩

theorem iterate_red (a b c d s x : ℝ) (ha : a ≠ 0) (hs : s = 1 ∨ s = -1)
    (hT : s * ((eval a b c d (infl a b)).2.2.2 / a) = redT a b c d) (n : Nat) :
    s * ((newtonStep a b c d)^[n] x - infl a b) =
      (redStep (redP a b c d) (redT a b c d))^[n] (s * (x - infl a b)) := by
  induction n generalizing x with
  | zero => rfl
  | succ n ih => rw [Function.iterate_succ_apply, Function.iterate_succ_apply, ih,
      newtonStep_red a b c d x s ha hs hT]

theorem root_iff (a b c d x s : ℝ) (ha : a ≠ 0) (hs : s = 1 ∨ s = -1)
    (hT : s * ((eval a b c d (infl a b)).2.2.2 / a) = redT a b c d) :
    cubic a b c d x = 0 ↔
      (s * (x - infl a b)) ^ 3 + redP a b c d * (s * (x - infl a b)) + redT a b c d = 0 := by
  rw [← (cubic_red a b c d x s ha hs hT).1]
  have : s ≠ 0 := by rcases hs with rfl | rfl <;> norm_num
  constructor
  · intro h; rw [h]; simp
  · intro h
    rcases mul_eq_zero.1 h with h | h
    · exact absurd h this
    · exact (div_eq_zero_iff.1 h).resolve_right ha

/-- The loop, started not past the extreme root, moves towards it and can only stop on it: whatever it
returns is an exact root, and no root lies further out in the direction it came from. -/
theorem C72_stops (lam : ℝ) (hlam : 1 ≤ lam) (cbrt : ℝ → ℝ) (hcb : ∀ y, 0 ≤ y → cbrt y ^ 3 = y)
    (a b c d : ℝ) (ha : a ≠ 0)
    (hq : (startWith lam cbrt a b c d).2.2 * (cubic a b c d (startWith lam cbrt a b c d).2.1 / a) ≤ 0)
    (fuel : Nat) (x : ℝ)
    (hx : newton a b c d (startWith lam cbrt a b c d).2.2 fuel (startWith lam cbrt a b c d).2.1 = some x) :
    cubic a b c d x = 0 ∧ ∀ z, cubic a b c d z = 0 →
      (startWith lam cbrt a b c d).2.2 * x ≤ (startWith lam cbrt a b c d).2.2 * z := by
  have hb := start_below lam hlam cbrt hcb a b c d ha hq
  have hs := startWith_s lam cbrt a b c d
  have hT := s_mul_t lam cbrt a b c d
  obtain ⟨n, -, hn, hstop⟩ := newton_iterate _ _ _ _ _ _ _ _ hx
  generalize (startWith lam cbrt a b c d).2.2 = s at *
  generalize (startWith lam cbrt a b c d).2.1 = x0 at *
  have hT0 : 0 ≤ redT a b c d := abs_nonneg _
  have hbn : Below (redP a b c d) (redT a b c d) (s * (x - infl a b)) := by
    rw [hn, iterate_red a b c d s x0 ha hs hT]
    clear hn
    induction n with
    | zero => exact hb
    | succ n ih => rw [Function.iterate_succ_apply']; exact ih.step hT0
  have hroot : (s * (x - infl a b)) ^ 3 + redP a b c d * (s * (x - infl a b)) + redT a b c d = 0 := by
    rcases lt_or_eq_of_le hbn.value with hg | hg
    · exfalso
      apply hstop
      have := (redStep_spec hT0 hbn.nonpos hg).1
      rw [← newtonStep_red a b c d x s ha hs hT] at this
      linarith
    · exact hg
  refine ⟨(root_iff a b c d x s ha hs hT).2 hroot, fun z hz => ?_⟩
  have := hbn.least ((root_iff a b c d z s ha hs hT).1 hz)
  linarith

/-- The points of the loop converge to the extreme root. -/
theorem C72_converges (lam : ℝ) (hlam : 1 ≤ lam) (cbrt : ℝ → ℝ) (hcb : ∀ y, 0 ≤ y → cbrt y ^ 3 = y)
    (a b c d : ℝ) (ha : a ≠ 0)
    (hq : (startWith lam cbrt a b c d).2.2 * (cubic a b c d (startWith lam cbrt a b c d).2.1 / a) ≤ 0) :
    ∃ L, cubic a b c d L = 0 ∧
      (∀ z, cubic a b c d z = 0 →
        (startWith lam cbrt a b c d).2.2 * L ≤ (startWith lam cbrt a b c d).2.2 * z) ∧
      Tendsto (fun n => (newtonStep a b c d)^[n] (startWith lam cbrt a b c d).2.1) atTop (𝓝 L) := by
  have hb := start_below lam hlam cbrt hcb a b c d ha hq
  have hs := startWith_s lam cbrt a b c d
  have hT := s_mul_t lam cbrt a b c d
  generalize (startWith lam cbrt a b c d).2.2 = s at *
  generalize (startWith lam cbrt a b c d).2.1 = x0 at *
  obtain ⟨L, h1, h2, h3⟩ := hb.tendsto (show 0 ≤ redT a b c d from abs_nonneg _)
  have hss : s * s = 1 := by rcases hs with rfl | rfl <;> norm_num
  have hLe : s * ((infl a b + s * L) - infl a b) = L := by linear_combination L * hss
  refine ⟨infl a b + s * L, (root_iff a b c d _ s ha hs hT).2 (by rw [hLe]; exact h1), fun z hz => ?_, ?_⟩
  · have := h2 _ ((root_iff a b c d z s ha hs hT).1 hz)
    linarith
  · have h4 := (h3.const_mul s).const_add (infl a b)
    refine h4.congr fun n => ?_
    rw [← iterate_red a b c d s x0 ha hs hT]
    linear_combination ((newtonStep a b c d)^[n] x0 - infl a b) * hss

/-- Together: whenever `solveCubic` returns, the loop having started not past the extreme root, its
three values are sorted, contain only roots and sentinels, and contain every real root. -/
theorem C72_roots (cbrt : ℝ → ℝ) (hcb : ∀ y, 0 ≤ y → cbrt y ^ 3 = y) (fuel : Nat) (a b c d : ℝ)
    (ha : a ≠ 0) (r : ℝ × ℝ × ℝ) (hr : solveCubic cbrt fuel a b c d = some r)
    (hq : (start cbrt a b c d).2.2 * (cubic a b c d (start cbrt a b c d).2.1 / a) ≤ 0) :
    CubicRoots a b c d r :=
  C21_roots cbrt hcb fuel a b c d ha r hr fun x hx =>
    (C72_stops lambda (by unfold lambda; norm_num) cbrt hcb a b c d ha hq fuel x hx).1

/-- What the code has for `lambda`: the start is past the root by at most one part in `10 ^ 19`.
Missing for the full statement: the bound zero. -/
theorem C72_start_partial (cbrt : ℝ → ℝ) (hcb : ∀ y, 0 ≤ y → cbrt y ^ 3 = y) (a b c d : ℝ) (ha : a ≠ 0) :
    (start cbrt a b c d).2.2 * (cubic a b c d (start cbrt a b c d).2.1 / a) ≤
      max (cbrt (redT a b c d)) (Real.sqrt (-redP a b c d)) ^ 3 / 10 ^ 19 := by
  unfold start
  rw [(cubic_red a b c d _ _ ha (startWith_s lambda cbrt a b c d) (s_mul_t lambda cbrt a b c d)).1, start_red]
  have hk : 0 ≤ cbrt (redT a b c d) := cbrt_nonneg hcb (abs_nonneg _)
  have hk3 : cbrt (redT a b c d) ^ 3 = redT a b c d := hcb _ (abs_nonneg _)
  obtain ⟨k, hk'⟩ : ∃ k, k = cbrt (redT a b c d) := ⟨_, rfl⟩
  rw [← hk'] at hk hk3 ⊢
  split_ifs with hp
  · have hw := Real.sq_sqrt (neg_nonneg.2 hp.le)
    have hw0 := Real.sqrt_nonneg (-redP a b c d)
    obtain ⟨w, hw'⟩ : ∃ w, w = Real.sqrt (-redP a b c d) := ⟨_, rfl⟩
    rw [← hw'] at hw hw0 ⊢
    obtain ⟨m, hm⟩ : ∃ m, m = max k w := ⟨_, rfl⟩
    have h1 : k ≤ m := hm ▸ le_max_left _ _
    have h2 : w ≤ m := hm ▸ le_max_right _ _
    rw [← hm, ← hk3]
    have hm0 : 0 ≤ m := le_trans hk h1
    have hl : 0 ≤ lambda := by unfold lambda; norm_num
    have e1 : k ^ 3 ≤ m ^ 3 := pow_le_pow_left₀ hk h1 3
    have e2 : w ^ 2 ≤ m ^ 2 := pow_le_pow_left₀ hw0 h2 2
    have e3 : -redP a b c d * (lambda * m) ≤ m ^ 2 * (lambda * m) :=
      mul_le_mul_of_nonneg_right (hw ▸ e2) (mul_nonneg hl hm0)
    have h3 : lambda + 1 ≤ lambda ^ 3 + 1 / 10 ^ 19 := by unfold lambda; norm_num
    have e4 : m ^ 3 * (lambda + 1) ≤ m ^ 3 * (lambda ^ 3 + 1 / 10 ^ 19) :=
      mul_le_mul_of_nonneg_left h3 (pow_nonneg hm0 3)
    nlinarith
  · have h1 := mul_nonneg (not_lt.1 hp) hk
    have h2 : 0 ≤ max k (Real.sqrt (-redP a b c d)) ^ 3 / 10 ^ 19 := by
      have : 0 ≤ max k (Real.sqrt (-redP a b c d)) := le_trans hk (le_max_left _ _)
      positivity
    nlinarith

/-- The literal falls short of `lambda³ = lambda + 1`. For `x³ - x + 1` the loop therefore starts past
the only root and stops at once, on a point that is not a root. -/
theorem C72_lambda_fails (cbrt : ℝ → ℝ) (hcb : ∀ y, 0 ≤ y → cbrt y ^ 3 = y) :
    lambda ^ 3 < lambda + 1 ∧
    newton 1 0 (-1) 1 (start cbrt 1 0 (-1) 1).2.2 1 (start cbrt 1 0 (-1) 1).2.1 = some (-lambda) ∧
    cubic 1 0 (-1) 1 (-lambda) ≠ 0 := by
  have hl : lambda ^ 3 < lambda + 1 := by unfold lambda; norm_num
  have h1 : cbrt 1 = 1 := by
    have h := hcb 1 zero_le_one
    have h0 := cbrt_nonneg hcb (zero_le_one (α := ℝ))
    nlinarith [sq_nonneg (cbrt 1 - 1), sq_nonneg (cbrt 1), mul_nonneg h0 (sq_nonneg (cbrt 1))]
  have hs : start cbrt 1 0 (-1) 1 = (0, -lambda, 1) := by
    unfold start startWith eval
    norm_num [h1]
  refine ⟨hl, ?_, ?_⟩
  · rw [hs]
    unfold newton newtonStep eval
    dsimp only
    have hl1 : 1 < lambda := by unfold lambda; norm_num
    have hdq : 0 < (1 * -lambda + (1 * -lambda + 0)) * -lambda + ((1 * -lambda + 0) * -lambda + -1) := by
      nlinarith
    have hq : 0 < ((1 * -lambda + 0) * -lambda + -1) * -lambda + 1 := by nlinarith
    have hpos := div_pos (div_pos hq hdq) (lt_of_lt_of_le one_pos one_le_eps)
    rw [if_neg hdq.ne', if_neg]
    intro h
    rw [gt_iff_lt] at h
    linarith
  · unfold cubic
    intro h
    nlinarith

/-- Concrete: `(x-1)(x-2)(x-3)` satisfies the hypothesis on the start, whatever `cbrt` returns for the
zero constant of the reduced cubic. -/
example (cbrt : ℝ → ℝ) (hcb : ∀ y, 0 ≤ y → cbrt y ^ 3 = y) :
    (start cbrt 1 (-6) 11 (-6)).2.2 *
      (cubic 1 (-6) 11 (-6) (start cbrt 1 (-6) 11 (-6)).2.1 / 1) ≤ 0 := by
  have h0 : cbrt 0 = 0 := by
    have := hcb 0 le_rfl
    exact pow_eq_zero_iff (by norm_num) |>.1 this
  have hs : start cbrt 1 (-6) 11 (-6) = (2, 2 - lambda, 1) := by
    unfold start startWith eval
    norm_num [h0]
  rw [hs]
  unfold cubic lambda
  norm_num

end Verif.Roots
