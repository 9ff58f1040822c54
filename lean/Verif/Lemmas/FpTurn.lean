import Verif.Lemmas.FpKahan
import Verif.Props.FpSpec

/-! Orientation in floating-point arithmetic. -/

namespace Verif.Fp

open Verif.FpSpec

set_option linter.unusedSectionVars false

variable {K : Type} [Field K] [LinearOrder K] [IsStrictOrderedRing K] [FloorRing K] {p : ℕ} (R : Rounding K p)

theorem areCCW_exact (hp : 2 ≤ p) {a b c : K × K} (h1 : IsFp p (b.1 - a.1)) (h2 : IsFp p (b.2 - a.2)) (h3 : IsFp p (c.1 - a.1)) (h4 : IsFp p (c.2 - a.2)) :
    areCCW R a b c = true ↔ 0 ≤ turn a b c := by
  unfold areCCW cross sub turn
  rw [decide_eq_true_iff]
  dsimp only
  rw [R.id h1, R.id h2, R.id h3, R.id h4, ← not_lt, (det_sign R hp h1 h2 h3 h4).2.2, not_lt, sub_nonneg]

/-- Differences of points of a grid. -/
theorem grid_diff (hp : 1 ≤ p) {k m n : ℤ} (hm : |m| ≤ 2 ^ (p - 1)) (hn : |n| ≤ 2 ^ (p - 1)) : IsFp p ((m : K) * 2 ^ k - n * 2 ^ k) := by
  have e : (m : K) * 2 ^ k - n * 2 ^ k = ((m - n : ℤ) : K) * 2 ^ k := by push_cast; ring
  rw [e]
  refine isFp_int hp ?_ k
  have := abs_sub m n
  obtain ⟨q, rfl⟩ : ∃ q, p = q + 1 := ⟨p - 1, by omega⟩
  rw [pow_succ]
  simp only [Nat.add_sub_cancel] at hm hn
  linarith

theorem rel_u (hp : 1 ≤ p) (x : K) : |R.rnd x - x| ≤ 1 / 2 ^ p * |x| := by
  rw [abs_sub_comm]; refine (R.rel hp x).trans (le_of_eq (by ring))

/-- The product of two numbers with a relative error. -/
theorem prod_near {u x y x' y' : K} (hu : 0 ≤ u) (hx : |x' - x| ≤ u * |x|) (hy : |y' - y| ≤ u * |y|) :
    |x' * y' - x * y| ≤ (2 * u + u ^ 2) * |x * y| := by
  have e : x' * y' - x * y = (x' - x) * (y' - y) + (x' - x) * y + x * (y' - y) := by ring
  rw [e, abs_mul]
  have t1 := abs_add_le ((x' - x) * (y' - y) + (x' - x) * y) (x * (y' - y))
  have t2 := abs_add_le ((x' - x) * (y' - y)) ((x' - x) * y)
  rw [abs_mul, abs_mul] at t2
  rw [abs_mul x] at t1
  have a1 : |x' - x| * |y' - y| ≤ (u * |x|) * (u * |y|) := mul_le_mul hx hy (abs_nonneg _) (by positivity)
  have a2 : |x' - x| * |y| ≤ (u * |x|) * |y| := mul_le_mul_of_nonneg_right hx (abs_nonneg _)
  have a3 : |x| * |y' - y| ≤ |x| * (u * |y|) := mul_le_mul_of_nonneg_left hy (abs_nonneg _)
  nlinarith

theorem cross_error (hp : 5 ≤ p) (a b c : K × K) :
    |cross R (sub R b a) (sub R c a) - turn a b c| ≤
      6 / 2 ^ p * (|b.1 - a.1| * |c.2 - a.2| + |b.2 - a.2| * |c.1 - a.1|) := by
  unfold cross sub turn
  dsimp only
  have hp1 : 1 ≤ p := by omega
  have D := det_error R hp1 (R.mem (b.1 - a.1)) (R.mem (b.2 - a.2)) (R.mem (c.1 - a.1)) (R.mem (c.2 - a.2))
  have r1 := rel_u R hp1 (b.1 - a.1)
  have r2 := rel_u R hp1 (b.2 - a.2)
  have r3 := rel_u R hp1 (c.1 - a.1)
  have r4 := rel_u R hp1 (c.2 - a.2)
  generalize det2x2 R _ _ _ _ = d at *
  generalize R.rnd (b.1 - a.1) = x1 at *
  generalize R.rnd (b.2 - a.2) = x2 at *
  generalize R.rnd (c.1 - a.1) = x3 at *
  generalize R.rnd (c.2 - a.2) = x4 at *
  generalize b.1 - a.1 = y1 at *
  generalize b.2 - a.2 = y2 at *
  generalize c.1 - a.1 = y3 at *
  generalize c.2 - a.2 = y4 at *
  have hu0 : (0 : K) ≤ 1 / 2 ^ p := by positivity
  have hu1 : (1 : K) / 2 ^ p ≤ 1 / 32 := by
    refine one_div_le_one_div_of_le (by norm_num) ?_
    calc (32 : K) = 2 ^ 5 := by norm_num
      _ ≤ 2 ^ p := pow_le_pow_right₀ (by norm_num) hp
  have e1 : (3 : K) / 2 ^ p + 2 / 2 ^ (2 * p) = 3 * (1 / 2 ^ p) + 2 * (1 / 2 ^ p) ^ 2 := by
    rw [two_mul p, pow_add]; ring
  have e2 : (6 : K) / 2 ^ p = 6 * (1 / 2 ^ p) := by ring
  rw [e1] at D
  rw [e2]
  generalize (1 : K) / 2 ^ p = u at *
  have n1 := prod_near hu0 r1 r4
  have n2 := prod_near hu0 r2 r3
  rw [abs_mul y1] at n1
  rw [abs_mul y2] at n2
  generalize hS : |y1| * |y4| + |y2| * |y3| = S
  have S0 : 0 ≤ S := by rw [← hS]; positivity
  have t1 : |x1 * x4 - x2 * x3 - (y1 * y4 - y2 * y3)| ≤ (2 * u + u ^ 2) * S := by
    have e : x1 * x4 - x2 * x3 - (y1 * y4 - y2 * y3) = (x1 * x4 - y1 * y4) - (x2 * x3 - y2 * y3) := by ring
    rw [e]
    refine (abs_sub _ _).trans ?_
    rw [← hS]; linarith
  have t2 : |y1 * y4 - y2 * y3| ≤ S := by
    refine (abs_sub _ _).trans ?_
    rw [abs_mul, abs_mul, hS]
  have t3 : |x1 * x4 - x2 * x3| ≤ (1 + 2 * u + u ^ 2) * S := by
    have := abs_sub_abs_le_abs_sub (x1 * x4 - x2 * x3) (y1 * y4 - y2 * y3)
    linarith
  have t4 : |d - (y1 * y4 - y2 * y3)| ≤ |d - (x1 * x4 - x2 * x3)| + |x1 * x4 - x2 * x3 - (y1 * y4 - y2 * y3)| := by
    have e : d - (y1 * y4 - y2 * y3) = (d - (x1 * x4 - x2 * x3)) + (x1 * x4 - x2 * x3 - (y1 * y4 - y2 * y3)) := by ring
    rw [e]; exact abs_add_le _ _
  have t5 : (3 * u + 2 * u ^ 2) * |x1 * x4 - x2 * x3| ≤ (3 * u + 2 * u ^ 2) * ((1 + 2 * u + u ^ 2) * S) :=
    mul_le_mul_of_nonneg_left t3 (by positivity)
  have t6 : (3 * u + 2 * u ^ 2) * (1 + 2 * u + u ^ 2) + (2 * u + u ^ 2) ≤ 6 * u := by nlinarith [mul_nonneg hu0 hu0, mul_nonneg hu0 (mul_nonneg hu0 hu0), sq_nonneg u, mul_nonneg hu0 (sub_nonneg.2 hu1), mul_nonneg (mul_nonneg hu0 hu0) (sub_nonneg.2 hu1), mul_nonneg (mul_nonneg (mul_nonneg hu0 hu0) hu0) (sub_nonneg.2 hu1)]
  nlinarith

/-- Division by a number with a relative error. -/
theorem div_near {t x D d : K} (ht : t < 1) (hD : D ≠ 0) (h : |d - D| ≤ t * |D|) : |x / d - x / D| ≤ t / (1 - t) * |x / D| := by
  have D0 : 0 < |D| := abs_pos.2 hD
  have hd : (1 - t) * |D| ≤ |d| := by
    have := abs_sub_abs_le_abs_sub D d
    rw [abs_sub_comm] at this
    linarith
  have d0 : 0 < |d| := lt_of_lt_of_le (mul_pos (by linarith) D0) hd
  have dn : d ≠ 0 := abs_pos.1 d0
  have e : x / d - x / D = (x / D) * ((D - d) / d) := by field_simp
  rw [e, abs_mul, mul_comm]
  refine mul_le_mul_of_nonneg_right ?_ (abs_nonneg _)
  rw [abs_div, abs_sub_comm, div_le_div_iff₀ d0 (by linarith)]
  have t0 : 0 ≤ t := by
    by_contra c
    push Not at c
    have := abs_nonneg (d - D)
    nlinarith
  nlinarith

theorem quot_error (hp : 5 ≤ p) {x D d : K} (hD : D ≠ 0) (h : |d - D| ≤ (3 / 2 ^ p + 2 / 2 ^ (2 * p)) * |D|) :
    |R.rnd (x / d) - x / D| ≤ 5 / 2 ^ p * |x / D| := by
  have hp1 : 1 ≤ p := by omega
  have hu0 : (0 : K) < 1 / 2 ^ p := by positivity
  have hu1 : (1 : K) / 2 ^ p ≤ 1 / 32 := by
    refine one_div_le_one_div_of_le (by norm_num) ?_
    calc (32 : K) = 2 ^ 5 := by norm_num
      _ ≤ 2 ^ p := pow_le_pow_right₀ (by norm_num) hp
  have e1 : (3 : K) / 2 ^ p + 2 / 2 ^ (2 * p) = 3 * (1 / 2 ^ p) + 2 * (1 / 2 ^ p) ^ 2 := by
    rw [two_mul p, pow_add]; ring
  have e2 : (5 : K) / 2 ^ p = 5 * (1 / 2 ^ p) := by ring
  have r := rel_u R hp1 (x / d)
  rw [e1] at h
  rw [e2]
  generalize (1 : K) / 2 ^ p = u at *
  have ht : 3 * u + 2 * u ^ 2 < 1 := by nlinarith
  have n := div_near (x := x) ht hD h
  generalize x / d = y at *
  generalize x / D = z at *
  have ty : |y| ≤ |z| + (3 * u + 2 * u ^ 2) / (1 - (3 * u + 2 * u ^ 2)) * |z| := by
    have := abs_sub_abs_le_abs_sub y z; linarith
  have tt : |R.rnd y - z| ≤ |R.rnd y - y| + |y - z| := by
    have e : R.rnd y - z = (R.rnd y - y) + (y - z) := by ring
    rw [e]; exact abs_add_le _ _
  have q : (3 * u + 2 * u ^ 2) / (1 - (3 * u + 2 * u ^ 2)) ≤ 7 / 2 * u := by
    rw [div_le_iff₀ (by linarith)]
    nlinarith [mul_pos hu0 hu0, mul_nonneg hu0.le (sub_nonneg.2 hu1), mul_nonneg (mul_pos hu0 hu0).le (sub_nonneg.2 hu1)]
  have qz := mul_le_mul_of_nonneg_right q (abs_nonneg z)
  have yz : u * |y| ≤ u * (|z| + 7 / 2 * u * |z|) := mul_le_mul_of_nonneg_left (by linarith) hu0.le
  have : u * (|z| + 7 / 2 * u * |z|) + 7 / 2 * u * |z| ≤ 5 * u * |z| := by
    nlinarith [mul_nonneg hu0.le (abs_nonneg z), mul_nonneg (mul_nonneg hu0.le (abs_nonneg z)) (sub_nonneg.2 hu1)]
  linarith

end Verif.Fp
