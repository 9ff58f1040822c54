import Verif.Lemmas.FpLerp
import Mathlib.Data.Rat.Floor
import Mathlib.Analysis.Real.Sqrt

/-! C126: linear interpolation in floating-point arithmetic: points of segments and cross sections between temperatures. -/

set_option linter.unusedSectionVars false

namespace Verif.FpLerpP

open Verif.Fp

variable {K : Type} [Field K] [LinearOrder K] [IsStrictOrderedRing K] [FloorRing K] {p : ℕ} (R : Rounding K p)

/-- The segment begins exactly at its first point. -/
theorem C126_start (fused : Bool) {a b : K} (ha : IsFp p a) : lerp R fused a b 0 = a := lerp_zero R fused ha

/-- The coordinates go from one end to the other without turning back. -/
theorem C126_monotone (fused : Bool) {a b r s : K} (hr : r ≤ s) :
    (a ≤ b → lerp R fused a b r ≤ lerp R fused a b s) ∧ (b ≤ a → lerp R fused a b s ≤ lerp R fused a b r) :=
  ⟨fun h => lerp_mono R fused h hr, fun h => lerp_anti R fused h hr⟩

/-- No point of the segment is before its beginning. -/
theorem C126_after_start (fused : Bool) {a b r : K} (ha : IsFp p a) (hr : 0 ≤ r) : (a ≤ b → a ≤ lerp R fused a b r) ∧ (b ≤ a → lerp R fused a b r ≤ a) := by
  constructor
  · intro h
    have := lerp_mono R fused h hr
    rwa [lerp_zero R fused ha] at this
  · intro h
    have := lerp_anti R fused h hr
    rwa [lerp_zero R fused ha] at this

/-- If neither end is more than twice the other, the segment ends exactly at its second point, and no point of it is outside. -/
theorem C126_between (hp : 1 ≤ p) (fused : Bool) {a b r : K} (ha : IsFp p a) (hb : IsFp p b) (h1 : a ≤ 2 * b) (h2 : b ≤ 2 * a) (r0 : 0 ≤ r) (r1 : r ≤ 1) :
    lerp R fused a b 1 = b ∧ min a b ≤ lerp R fused a b r ∧ lerp R fused a b r ≤ max a b := by
  have e : lerp R fused a b 1 = b := by
    rw [lerp_one, R.id (hb.sub_exact hp ha h1 h2), add_sub_cancel, R.id hb]
  refine ⟨e, ?_⟩
  rcases le_total a b with c | c
  · rw [min_eq_left c, max_eq_right c]
    refine ⟨(C126_after_start R fused ha r0).1 c, ?_⟩
    have := lerp_mono R fused c r1
    rwa [e] at this
  · rw [min_eq_right c, max_eq_left c]
    refine ⟨?_, (C126_after_start R fused ha r0).2 c⟩
    have := lerp_anti R fused c r1
    rwa [e] at this

/-- More generally if the difference of the ends is a number of the format. -/
theorem C126_end_exact (fused : Bool) {a b : K} (hb : IsFp p b) (h : IsFp p (b - a)) : lerp R fused a b 1 = b := by
  rw [lerp_one, R.id h, add_sub_cancel, R.id hb]

/-- In all cases the error of the end is small. -/
theorem C126_end (hp : 1 ≤ p) (fused : Bool) (a b : K) : |lerp R fused a b 1 - b| ≤ 1 / 2 ^ p * |b| + 2 / 2 ^ p * |b - a| := by
  rw [lerp_one]
  have u0 : (0 : K) < 1 / 2 ^ p := by positivity
  have u1 : (1 : K) / 2 ^ p ≤ 1 := by rw [div_le_one (by positivity)]; exact one_le_pow₀ (by norm_num)
  have r1 := rel_u R hp (b - a)
  have r2 := rel_u R hp (a + R.rnd (b - a))
  rw [show (2 : K) / 2 ^ p = 2 * (1 / 2 ^ p) by ring]
  have t1 := abs_add_le (R.rnd (a + R.rnd (b - a)) - (a + R.rnd (b - a))) (R.rnd (b - a) - (b - a))
  rw [show R.rnd (a + R.rnd (b - a)) - (a + R.rnd (b - a)) + (R.rnd (b - a) - (b - a)) = R.rnd (a + R.rnd (b - a)) - b by ring] at t1
  have t2 := abs_add_le b (R.rnd (b - a) - (b - a))
  rw [show b + (R.rnd (b - a) - (b - a)) = a + R.rnd (b - a) by ring] at t2
  have d0 := abs_nonneg (b - a)
  have t3 := mul_le_mul_of_nonneg_left t2 u0.le
  have t4 := mul_le_mul_of_nonneg_left r1 u0.le
  generalize (1 : K) / 2 ^ p = u at *
  have t5 : u * (u * |b - a|) ≤ 1 * (u * |b - a|) := mul_le_mul_of_nonneg_right u1 (mul_nonneg u0.le d0)
  linarith

/-- The error of each point. -/
theorem C126_error (hp : 2 ≤ p) (fused : Bool) {a b r M : K} (ha : |a| ≤ M) (hb : |b| ≤ M) (r0 : 0 ≤ r) (r1 : r ≤ 1) :
    |lerp R fused a b r - (a + r * (b - a))| ≤ 13 / 2 ^ p * M := by
  have hp1 : 1 ≤ p := by omega
  have u0 : (0 : K) < 1 / 2 ^ p := by positivity
  have u4 : (1 : K) / 2 ^ p ≤ 1 / 4 := by
    refine one_div_le_one_div_of_le (by norm_num) ?_
    calc (4 : K) = 2 ^ 2 := by norm_num
      _ ≤ 2 ^ p := pow_le_pow_right₀ (by norm_num) hp
  have M0 : 0 ≤ M := (abs_nonneg a).trans ha
  have e1 := mulAdd_error R hp1 fused (a := a) (b := r) (c := R.rnd (b - a))
  have e2 := rel_u R hp1 (b - a)
  have db : |b - a| ≤ 2 * M := by
    have := abs_sub b a
    linarith
  rw [show (3 : K) / 2 ^ p = 3 * (1 / 2 ^ p) by ring] at e1
  rw [show (13 : K) / 2 ^ p = 13 * (1 / 2 ^ p) by ring]
  show |mulAdd R fused a r (R.rnd (b - a)) - (a + r * (b - a))| ≤ _
  generalize mulAdd R fused a r (R.rnd (b - a)) = v at *
  have t1 := abs_add_le (v - (a + r * R.rnd (b - a))) (r * (R.rnd (b - a) - (b - a)))
  rw [show v - (a + r * R.rnd (b - a)) + r * (R.rnd (b - a) - (b - a)) = v - (a + r * (b - a)) by ring, abs_mul r, abs_of_nonneg r0] at t1
  rw [abs_mul r, abs_of_nonneg r0] at e1
  have t2 := abs_add_le (R.rnd (b - a) - (b - a)) (b - a)
  rw [sub_add_cancel] at t2
  have q0 := abs_nonneg (R.rnd (b - a) - (b - a))
  have q1 := abs_nonneg (R.rnd (b - a))
  generalize |R.rnd (b - a) - (b - a)| = x at *
  generalize |R.rnd (b - a)| = y at *
  generalize (1 : K) / 2 ^ p = u at *
  have x1 : x ≤ u * (2 * M) := e2.trans (mul_le_mul_of_nonneg_left db u0.le)
  have x2 : r * x ≤ 1 * x := mul_le_mul_of_nonneg_right r1 q0
  have y2 : r * y ≤ 1 * y := mul_le_mul_of_nonneg_right r1 q1
  have uM : 0 ≤ u * M := mul_nonneg u0.le M0
  have uM2 : u * (u * M) ≤ 1 / 4 * (u * M) := mul_le_mul_of_nonneg_right u4 uM
  have e3 : 3 * u * (|a| + r * y) ≤ 3 * u * (M + (2 * M + u * (2 * M))) := mul_le_mul_of_nonneg_left (by linarith) (by linarith)
  nlinarith

/-! ## Cross sections between two temperatures -/

/-- The weight is missing only if the roots of the two temperatures are the same number. -/
theorem C126_weight_none (hp : 1 ≤ p) (sq : K → K) (t0 t1 t : K) : weight R sq t0 t1 t = none ↔ sq t0 = sq t1 := by
  unfold weight
  split
  · next h => exact ⟨fun _ => (sub_eq_zero.1 ((R.zero_iff hp).1 h)).symm, fun _ => rfl⟩
  · next h => exact ⟨fun c => (by cases c), fun c => absurd (by rw [c, sub_self, R.zero]) h⟩

/-- The weight is never outside of the unit interval, and does not decrease with the temperature. -/
theorem C126_weight (hp : 1 ≤ p) {sq : K → K} (hs : Monotone sq) {t0 t1 t t' d d' : K} (h0 : t0 ≤ t) (ht : t ≤ t') (h1 : t' ≤ t1)
    (hd : weight R sq t0 t1 t = some d) (hd' : weight R sq t0 t1 t' = some d') : 0 ≤ d ∧ d ≤ d' ∧ d' ≤ 1 := by
  unfold weight at hd hd'
  split at hd
  · cases hd
  · next hz =>
    rw [if_neg hz] at hd'
    rw [← Option.some.inj hd, ← Option.some.inj hd']
    have a0 := hs h0
    have a1 := hs ht
    have a2 := hs h1
    have w0 : 0 < R.rnd (sq t1 - sq t0) := lt_of_le_of_ne (R.ge_of_ge (by linarith) isFp_zero) (Ne.symm hz)
    have n0 : 0 ≤ R.rnd (sq t - sq t0) := R.ge_of_ge (by linarith) isFp_zero
    have one : IsFp p (1 : K) := by simpa using isFp_nat (K := K) hp (n := 1) (Nat.one_le_two_pow)
    refine ⟨R.ge_of_ge (by positivity) isFp_zero, R.mono (div_le_div_of_nonneg_right (R.mono (by linarith)) w0.le), R.le_of_le ?_ one⟩
    rw [div_le_one w0]
    exact R.mono (by linarith)

/-- Cross sections that are not negative stay so. -/
theorem C126_xs_nonneg (hp : 1 ≤ p) (fused : Bool) {sq : K → K} (hs : Monotone sq) {t0 t1 t x0 x1 v : K} (h0 : t0 ≤ t) (h1 : t ≤ t1) (f0 : IsFp p x0)
    (n0 : 0 ≤ x0) (n1 : 0 ≤ x1) (h : interpValue R fused sq t0 t1 t x0 x1 = some v) : 0 ≤ v := by
  obtain ⟨d, hd, h⟩ := Option.bind_eq_some_iff.1 h
  obtain ⟨d0, -, d1⟩ := C126_weight R hp hs h0 le_rfl h1 hd hd
  rw [← Option.some.inj h]
  rcases le_total x0 x1 with c | c
  · exact n0.trans ((C126_after_start R fused f0 d0).1 c)
  · refine le_trans ?_ (lerp_anti R fused c d1)
    rw [lerp_one]
    refine R.ge_of_ge ?_ isFp_zero
    have := R.ge_of_ge (x := x1 - x0) (y := -x0) (by linarith) f0.neg
    linarith

/-- A cross section of the temperatures on both sides that does not change by more than a factor of two is interpolated to a value between the two. -/
theorem C126_xs_between (hp : 1 ≤ p) (fused : Bool) {sq : K → K} (hs : Monotone sq) {t0 t1 t x0 x1 v : K} (h0 : t0 ≤ t) (h1 : t ≤ t1) (f0 : IsFp p x0)
    (f1 : IsFp p x1) (g1 : x0 ≤ 2 * x1) (g2 : x1 ≤ 2 * x0) (h : interpValue R fused sq t0 t1 t x0 x1 = some v) : min x0 x1 ≤ v ∧ v ≤ max x0 x1 := by
  obtain ⟨d, hd, h⟩ := Option.bind_eq_some_iff.1 h
  obtain ⟨d0, -, d1⟩ := C126_weight R hp hs h0 le_rfl h1 hd hd
  rw [← Option.some.inj h]
  exact (C126_between R hp fused f0 f1 g1 g2 d0 d1).2

/-- In all cases it is so up to the error of the end. -/
theorem C126_xs_bounds (hp : 1 ≤ p) (fused : Bool) {sq : K → K} (hs : Monotone sq) {t0 t1 t x0 x1 v : K} (h0 : t0 ≤ t) (h1 : t ≤ t1) (f0 : IsFp p x0)
    (h : interpValue R fused sq t0 t1 t x0 x1 = some v) :
    min x0 x1 - (1 / 2 ^ p * |x1| + 2 / 2 ^ p * |x1 - x0|) ≤ v ∧ v ≤ max x0 x1 + (1 / 2 ^ p * |x1| + 2 / 2 ^ p * |x1 - x0|) := by
  obtain ⟨d, hd, h⟩ := Option.bind_eq_some_iff.1 h
  obtain ⟨d0, -, d1⟩ := C126_weight R hp hs h0 le_rfl h1 hd hd
  rw [← Option.some.inj h]
  obtain ⟨e1, e2⟩ := abs_le.1 (C126_end R hp fused x0 x1)
  have E0 : 0 ≤ 1 / 2 ^ p * |x1| + 2 / 2 ^ p * |x1 - x0| := by positivity
  rcases le_total x0 x1 with c | c
  · rw [min_eq_left c, max_eq_right c]
    have a := (C126_after_start R fused f0 d0).1 c
    have b := lerp_mono R fused c d1
    constructor <;> linarith
  · rw [min_eq_right c, max_eq_left c]
    have a := (C126_after_start R fused f0 d0).2 c
    have b := lerp_anti R fused c d1
    constructor <;> linarith

/-- The interpolated value follows the temperature. -/
theorem C126_xs_monotone (hp : 1 ≤ p) (fused : Bool) {sq : K → K} (hs : Monotone sq) {t0 t1 t t' x0 x1 v v' : K} (h0 : t0 ≤ t) (ht : t ≤ t') (h1 : t' ≤ t1)
    (h : interpValue R fused sq t0 t1 t x0 x1 = some v) (h' : interpValue R fused sq t0 t1 t' x0 x1 = some v') : (x0 ≤ x1 → v ≤ v') ∧ (x1 ≤ x0 → v' ≤ v) := by
  obtain ⟨d, hd, h⟩ := Option.bind_eq_some_iff.1 h
  obtain ⟨d', hd', h'⟩ := Option.bind_eq_some_iff.1 h'
  obtain ⟨-, d1, -⟩ := C126_weight R hp hs h0 ht h1 hd hd'
  rw [← Option.some.inj h, ← Option.some.inj h']
  exact C126_monotone R fused d1

/-- A segment may end beyond its second point. -/
theorem C126_end_fails : ∃ a b : ℚ, IsFp 53 a ∧ IsFp 53 b ∧ 0 < a ∧ a < b ∧ ∀ fused, b < lerp (ieee ℚ 53 (by norm_num)) fused a b 1 := by
  refine ⟨3 / 2, 2 ^ 52 + 5, ⟨3, -1, by norm_num, by norm_num⟩, ⟨2 ^ 52 + 5, 0, by norm_num, by norm_num⟩, by norm_num, by norm_num, fun fused => ?_⟩
  cases fused <;> decide +kernel

/-- The root of the code, rounded, does not decrease. -/
example (R : Rounding ℝ 53) : Monotone fun t => R.rnd (√t) := fun _ _ h => R.mono (Real.sqrt_le_sqrt h)

/-- A segment with inexact points, and cross sections of 300 K and 600 K at 400 K for a root that is the identity. -/
example : lerp (ieee ℚ 53 (by norm_num)) false (rne 53 (1 / 10)) (rne 53 (7 / 10)) (rne 53 (1 / 3)) = rne 53 (3 / 10) ∧
    interpValue (ieee ℚ 53 (by norm_num)) false _root_.id 300 600 400 (rne 53 (1 / 10)) (rne 53 (15 / 100)) = some (rne 53 (7 / 60)) := by
  decide +kernel

end Verif.FpLerpP
