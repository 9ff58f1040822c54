import Verif.Model.FpQLeft
import Verif.Lemmas.FpTurn
import Verif.Lemmas.FpArea
import Verif.Lemmas.FpNorm
import Mathlib.Tactic.Linarith
import Mathlib.Tactic.FieldSimp
import Mathlib.Tactic.LinearCombination

/-! Helper lemmas for the side of a quadratic segment in floating-point arithmetic. -/

set_option linter.unusedSectionVars false

namespace Verif.Fp.QLeft

open Verif.Fp

variable {p : ℕ} (R : Rounding ℝ p)

theorem unit_256 (hp : 8 ≤ p) : (1 : ℝ) / 2 ^ p ≤ 1 / 256 := by
  refine one_div_le_one_div_of_le (by norm_num) ?_
  calc (256 : ℝ) = 2 ^ 8 := by norm_num
    _ ≤ 2 ^ p := pow_le_pow_right₀ (by norm_num) hp

/-! ### The root of a rounded square -/

/-- A positive number has a representation with all its digits. -/
theorem normal (hp : 1 ≤ p) {x : ℝ} (h : IsFp p x) (x0 : 0 < x) : ∃ m k : ℤ, 2 ^ (p - 1) ≤ m ∧ m < 2 ^ p ∧ x = m * 2 ^ k := by
  obtain ⟨m, k, hm, e⟩ := h
  have hk := two_pos' (K := ℝ) k
  have m0 : 0 < m := by
    have : (0 : ℝ) < m := by
      by_contra c
      push Not at c
      have := mul_nonpos_of_nonpos_of_nonneg c hk.le
      linarith
    exact_mod_cast this
  rw [abs_of_pos m0] at hm
  obtain ⟨n, rfl⟩ : ∃ n : ℕ, m = n := ⟨m.toNat, by omega⟩
  have n0 : n ≠ 0 := by omega
  have hn : n < 2 ^ p := by exact_mod_cast hm
  have lt : Nat.log 2 n < p := Nat.log_lt_of_lt_pow n0 hn
  have a := Nat.pow_log_le_self 2 n0
  have b := Nat.lt_pow_succ_log_self (b := 2) (by norm_num) n
  obtain ⟨d, hd⟩ : ∃ d, p = Nat.log 2 n + 1 + d := ⟨p - (Nat.log 2 n + 1), by omega⟩
  refine ⟨n * 2 ^ d, k - d, ?_, ?_, ?_⟩
  · rw [show p - 1 = Nat.log 2 n + d by omega, pow_add]
    have : ((2 : ℤ) ^ Nat.log 2 n) ≤ n := by exact_mod_cast a
    exact mul_le_mul_of_nonneg_right this (by positivity)
  · have : (n : ℤ) < 2 ^ (Nat.log 2 n + 1) := by exact_mod_cast b
    calc (n : ℤ) * 2 ^ d < 2 ^ (Nat.log 2 n + 1) * 2 ^ d := by
          exact mul_lt_mul_of_pos_right this (by positivity)
      _ = 2 ^ p := by rw [← pow_add, ← hd]
  · rw [e, zpow_sub₀ (by norm_num), zpow_natCast]
    push_cast
    field_simp

/-- Numbers above a power of two are multiples of its last digit. -/
theorem multiple {w : ℝ} (h : IsFp p w) {k : ℤ} (hp : 1 ≤ p) (hw : (2 : ℝ) ^ (p - 1) * 2 ^ k ≤ w) : ∃ n : ℤ, w = n * 2 ^ k := by
  obtain ⟨m, j, hm, rfl⟩ := h
  have hj := two_pos' (K := ℝ) j
  have hk := two_pos' (K := ℝ) k
  have hm' : (m : ℝ) < 2 ^ p := by
    have := (abs_lt.1 hm).2
    exact_mod_cast this
  have l : (2 : ℝ) ^ (p - 1) * 2 ^ k < 2 ^ p * 2 ^ j := lt_of_le_of_lt hw (mul_lt_mul_of_pos_right hm' hj)
  have e : (2 : ℝ) ^ p = 2 ^ (p - 1) * 2 := by rw [← pow_succ]; congr 1; omega
  have q0 : (0 : ℝ) < 2 ^ (p - 1) := by positivity
  rw [e, mul_assoc] at l
  have l' := lt_of_mul_lt_mul_left l q0.le
  have l2 : (2 : ℝ) ^ k < 2 ^ (j + 1) := by rw [zpow_add₀ (by norm_num), zpow_one]; linarith
  have := (zpow_lt_zpow_iff_right₀ (by norm_num : (1 : ℝ) < 2)).1 l2
  obtain ⟨d, rfl⟩ : ∃ d : ℕ, j = d + k := ⟨(j - k).toNat, by omega⟩
  refine ⟨m * 2 ^ d, ?_⟩
  rw [zpow_add₀ (by norm_num), zpow_natCast]
  push_cast
  ring

/-- The rounded root of the rounded square of a positive number is that number. -/
theorem sqrt_sq (hp : 1 ≤ p) {x : ℝ} (h : IsFp p x) (x0 : 0 < x) : R.rnd (Real.sqrt (R.rnd (x * x))) = x := by
  obtain ⟨m, k, m1, m2, e⟩ := normal hp h x0
  have hk := two_pos' (K := ℝ) k
  rcases m1.lt_or_eq with c | c
  · have M1 : (2 : ℝ) ^ (p - 1) + 1 ≤ m := by exact_mod_cast c
    have M2 : (m : ℝ) + 1 ≤ 2 ^ p := by exact_mod_cast m2
    have pp : (0 : ℝ) < 2 ^ p := by positivity
    have qq : (0 : ℝ) < 2 ^ (p - 1) := by positivity
    set y := R.rnd (x * x) with hy
    have xx : 0 < x * x := mul_pos x0 x0
    have ry := R.rel hp (x * x)
    rw [abs_of_pos xx, ← hy] at ry
    have y0 : 0 < y := R.pos hp xx
    set s := Real.sqrt y with hs
    have s0 : 0 < s := Real.sqrt_pos.2 y0
    have ss : s * s = y := Real.mul_self_sqrt y0.le
    -- the root is less than half a unit away
    have key : |s - x| < 2 ^ k / 2 := by
      have f : |s - x| * (s + x) ≤ x * (x / 2 ^ p) := by
        have : |s - x| * (s + x) = |x * x - y| := by
          rw [← abs_of_pos (add_pos s0 x0), ← abs_mul, abs_sub_comm (x * x) y, ← ss]
          congr 1
          ring
        rw [this]
        exact ry.trans (le_of_eq (by ring))
      have xu : x / 2 ^ p < 2 ^ k := by
        rw [div_lt_iff₀ pp, e]
        nlinarith
      have xu' : x / 2 ^ p + 2 ^ k / 2 ^ p ≤ 2 ^ k := by
        rw [← add_div, div_le_iff₀ pp, e]
        nlinarith
      by_contra g
      push Not at g
      rcases le_or_gt x s with c1 | c1
      · have : 2 ^ k / 2 * (s + x) ≤ x * (x / 2 ^ p) := (mul_le_mul_of_nonneg_right g (by linarith)).trans f
        have t := mul_lt_mul_of_pos_left xu x0
        nlinarith
      · rw [abs_of_neg (by linarith)] at g f
        have hx : (2 : ℝ) ^ (p - 1) * 2 ^ k + 2 ^ k ≤ x := by rw [e]; nlinarith
        -- the square is not below that of the power of two
        have hv : IsFp p (((2 : ℝ) ^ (p - 1) * 2 ^ k) * ((2 : ℝ) ^ (p - 1) * 2 ^ k)) := by
          rw [← zpow_natCast, ← zpow_add₀ (by norm_num), ← zpow_add₀ (by norm_num)]
          exact isFp_pow hp _
        have z0 : 0 < (2 : ℝ) ^ (p - 1) * 2 ^ k := mul_pos qq hk
        have hy1 : ((2 : ℝ) ^ (p - 1) * 2 ^ k) * ((2 : ℝ) ^ (p - 1) * 2 ^ k) ≤ y := R.ge_of_ge (by nlinarith) hv
        have hs1 : (2 : ℝ) ^ (p - 1) * 2 ^ k ≤ s := by
          by_contra c2
          push Not at c2
          nlinarith
        have : -(s - x) * (s + x) = x * x - y := by rw [← ss]; ring
        -- the error of the square is at most half of its last digit
        have err := R.err hp (x := x * x) (k := (p : ℤ) + k + k) (by
          rw [abs_of_pos xx, zpow_add₀ (by norm_num), zpow_add₀ (by norm_num), zpow_natCast, e]
          have : (m : ℝ) * m ≤ 2 ^ p * 2 ^ p := mul_le_mul (by linarith) (by linarith) (by linarith [qq]) pp.le
          have k2 : 0 < (2 : ℝ) ^ k * 2 ^ k := mul_pos hk hk
          nlinarith)
        rw [← hy] at err
        have err2 := (le_abs_self _).trans err
        rw [← this] at err2
        have e2 : (2 : ℝ) ^ ((p : ℤ) + k + k) = 2 * (2 ^ (p - 1) * 2 ^ k) * 2 ^ k := by
          have e3 : (2 : ℝ) ^ p = 2 * 2 ^ (p - 1) := by rw [← pow_succ']; congr 1; omega
          rw [zpow_add₀ (by norm_num), zpow_add₀ (by norm_num), zpow_natCast, e3]
          ring
        rw [e2] at err2
        nlinarith
    have near := R.nearest s x h
    set w := R.rnd s with hw
    have wx : |w - x| < 2 ^ k := by
      calc |w - x| = |(s - x) - (s - w)| := by congr 1; ring
        _ ≤ |s - x| + |s - w| := abs_sub _ _
        _ < 2 ^ k := by linarith
    have hw2 : (2 : ℝ) ^ (p - 1) * 2 ^ k ≤ w := by
      have := (abs_lt.1 wx).1
      have : (2 : ℝ) ^ (p - 1) * 2 ^ k + 2 ^ k ≤ x := by rw [e]; nlinarith
      linarith
    obtain ⟨n, hn⟩ := multiple (R.mem s) hp hw2
    rw [← hw] at hn
    rw [hn, e, ← sub_mul, abs_mul, abs_of_pos hk] at wx
    have : |(n : ℝ) - m| < 1 := by
      by_contra c
      push Not at c
      nlinarith
    have : |n - m| < 1 := by exact_mod_cast this
    have : n = m := by
      have := Int.abs_lt_one_iff.1 this
      omega
    rw [hn, e, this]
  · have xp : x = 2 ^ ((p - 1 : ℕ) + k) := by
      rw [e, ← c, zpow_add₀ (by norm_num), zpow_natCast]
      push_cast
      ring
    have : IsFp p (x * x) := by
      rw [xp, ← zpow_add₀ (by norm_num)]
      exact isFp_pow hp _
    rw [R.id this, Real.sqrt_mul_self x0.le, R.id h]

/-! ### The height of the curve -/

theorem prodIf_err (hp : 1 ≤ p) (f : Bool) (x : ℝ) : |prodIf R f x - x| ≤ 1 / 2 ^ p * |x| := by
  unfold prodIf
  split
  · rw [sub_self, abs_zero]; positivity
  · exact rel_u R hp x

theorem fp_one (hp : 1 ≤ p) : IsFp p (1 : ℝ) := by simpa using isFp_pow (K := ℝ) hp 0

theorem fp_four {x : ℝ} (h : IsFp p x) : IsFp p (4 * x) := by
  have := h.double.double
  rwa [← mul_assoc, show (2 : ℝ) * 2 = 4 by norm_num] at this

/-- The height is within four roundings of its largest value, whatever the place. -/
theorem height_err (hp : 1 ≤ p) (f : QLeftFuse) {b r0 : ℝ} (hb : IsFp p b) (b0 : 0 ≤ b) (r1 : 0 ≤ r0) (r2 : r0 ≤ 1) :
    |qHeight R f b (R.rnd r0) - b * (r0 * (1 - r0))| ≤ 4 * (1 / 2 ^ p) * b := by
  set u : ℝ := 1 / 2 ^ p with hu
  have u0 : 0 ≤ u := unit_nonneg p
  have e0 := rel_u R hp r0
  rw [← hu, abs_of_nonneg r1] at e0
  set r := R.rnd r0 with hr
  have ra : 0 ≤ r := R.ge_of_ge r1 isFp_zero
  have rb : r ≤ 1 := R.le_of_le r2 (fp_one hp)
  have rbb : 0 ≤ r * b := mul_nonneg ra b0
  have rbb' : r * b ≤ b := mul_le_of_le_one_left b0 rb
  have e1 := prodIf_err R hp f.y (r * -b)
  rw [← hu, mul_neg, abs_neg, abs_of_nonneg rbb] at e1
  have t1 : -b ≤ prodIf R f.y (-(r * b)) := by
    unfold prodIf
    split
    · linarith
    · exact R.ge_of_ge (by linarith) hb.neg
  have t2 : prodIf R f.y (-(r * b)) ≤ 0 := by
    unfold prodIf
    split
    · linarith
    · exact R.le_of_le (by linarith) isFp_zero
  unfold qHeight
  rw [mul_neg]
  generalize prodIf R f.y (-(r * b)) = t at *
  have e2 := rel_u R hp (b + t)
  have bt : 0 ≤ b + t := by linarith
  rw [← hu, abs_of_nonneg bt] at e2
  have s1 : 0 ≤ R.rnd (b + t) := R.ge_of_ge (by linarith) isFp_zero
  have s2 : R.rnd (b + t) ≤ b := R.le_of_le (by linarith) hb
  generalize R.rnd (b + t) = s at *
  have rs0 := mul_nonneg ra s1
  have e3 := rel_u R hp (r * s)
  rw [← hu, abs_of_nonneg rs0] at e3
  generalize R.rnd (r * s) = q at *
  have rs1 : r * s ≤ b := by nlinarith
  have ub : 0 ≤ u * b := mul_nonneg u0 b0
  have a1 : |t + r * b| ≤ u * b := by
    have : t - -(r * b) = t + r * b := by ring
    rw [this] at e1
    exact e1.trans (mul_le_mul_of_nonneg_left rbb' u0)
  have a2 : |s - (b + t)| ≤ u * b := e2.trans (mul_le_mul_of_nonneg_left (by linarith) u0)
  have a3 : |q - r * s| ≤ u * b := e3.trans (mul_le_mul_of_nonneg_left rs1 u0)
  have a4 : |s - b * (1 - r)| ≤ 2 * (u * b) := by
    have : s - b * (1 - r) = (s - (b + t)) + (t + r * b) := by ring
    rw [this]
    exact (abs_add_le _ _).trans (by linarith)
  have a5 : |r * s - b * (r * (1 - r))| ≤ 2 * (u * b) := by
    have : r * s - b * (r * (1 - r)) = r * (s - b * (1 - r)) := by ring
    rw [this, abs_mul, abs_of_nonneg ra]
    exact (mul_le_of_le_one_left (abs_nonneg _) rb).trans a4
  have a6 : |b * (r * (1 - r)) - b * (r0 * (1 - r0))| ≤ u * b := by
    have : b * (r * (1 - r)) - b * (r0 * (1 - r0)) = b * ((r - r0) * (1 - r - r0)) := by ring
    rw [this, abs_mul, abs_mul, abs_of_nonneg b0, mul_comm u b]
    refine mul_le_mul_of_nonneg_left ?_ b0
    have k1 : |1 - r - r0| ≤ 1 := abs_le.2 ⟨by linarith, by linarith⟩
    have k2 : |r - r0| ≤ u := e0.trans (mul_le_of_le_one_right u0 r2)
    exact (mul_le_of_le_one_right (abs_nonneg _) k1).trans k2
  have : q - b * (r0 * (1 - r0)) = (q - r * s) + (r * s - b * (r * (1 - r))) + (b * (r * (1 - r)) - b * (r0 * (1 - r0))) := by ring
  rw [this]
  refine (abs_add_three _ _ _).trans ?_
  linarith

/-! ### The box -/

theorem box_flat (f0 f1 : Bool) {l : ℝ} (h : IsFp p l) (l0 : 0 < l) : qBox R f0 f1 0 l (l / 2) = (0, l) := by
  have hh := h.half
  have a : (qCoeffs R f0 0 l (l / 2)).2 = 0 := by
    unfold qCoeffs
    dsimp only
    rw [sub_zero, R.id hh, show l / 2 - l = -(l / 2) by ring, R.id hh.neg, add_neg_cancel, R.zero, mul_zero, R.zero]
  unfold qBox
  dsimp only
  rw [if_pos a, min_eq_left l0.le, max_eq_right l0.le]

/-- The computed top of the curve is less than eight roundings below the middle node. -/
theorem box_top (hp : 8 ≤ p) (f0 f1 : Bool) {h : ℝ} (hh : IsFp p h) (h0 : 0 < h) :
    (qBox R f0 f1 0 0 h).1 ≤ 0 ∧ h - 8 * (1 / 2 ^ p) * h ≤ (qBox R f0 f1 0 0 h).2 := by
  have hp1 : 1 ≤ p := by omega
  have u1 := unit_256 hp
  set u : ℝ := 1 / 2 ^ p with hu
  have u0 : 0 ≤ u := unit_nonneg p
  have a : (qCoeffs R f0 0 0 h).2 = -(4 * h) := by
    unfold qCoeffs
    dsimp only
    rw [sub_zero, R.id hh, show h + h = 2 * h by ring, R.id hh.double, show -2 * (2 * h) = -(4 * h) by ring, R.id (fp_four hh).neg]
  have b : Off u 2 (4 * h) (qCoeffs R f0 0 0 h).1 := by
    unfold qCoeffs
    dsimp only
    rw [sub_zero, R.id hh]
    have g : Off u 1 (3 * h) (prodIf R f0 (3 * h)) := by
      unfold prodIf
      split
      · exact (Off.refl u _).weaken u0 (by linarith) (by linarith) (by norm_num)
      · exact Off.rnd R hp1 (by linarith) (Off.refl _ _)
    have g2 : Off u 1 h h := (Off.refl u _).weaken u0 (by linarith) h0.le (by norm_num)
    have := Off.rnd R hp1 (x := 3 * h + h) (by linarith) (Off.add u0 (by linarith) g g2)
    rwa [show 3 * h + h = 4 * h by ring] at this
  have bm : IsFp p (qCoeffs R f0 0 0 h).1 := R.mem _
  unfold qBox
  dsimp only
  rw [a]
  generalize (qCoeffs R f0 0 0 h).1 = b' at *
  rw [if_neg (by linarith), min_self, max_self, R.id bm.half]
  have b0 : 0 < b' := b.pos (by linarith) (by linarith)
  have hb : Off u 2 (2 * h) (b' / 2) := ⟨by linarith [b.1], by linarith [b.2]⟩
  have e : -(b' / 2) / -(4 * h) = b' / 2 / (4 * h) := by rw [neg_div_neg_eq]
  rw [e]
  have r : Off u 3 (1 / 2) (R.rnd (b' / 2 / (4 * h))) := by
    refine Off.rnd R hp1 (by norm_num) ⟨?_, ?_⟩
    · rw [le_div_iff₀ (by linarith)]; linarith [hb.1]
    · rw [div_le_iff₀ (by linarith)]; linarith [hb.2]
  generalize R.rnd (b' / 2 / (4 * h)) = r' at *
  have r0 : 0 < r' := r.pos (by linarith) (by norm_num)
  have r1 : r' < 1 := by
    have := r.2
    have k : (1 + u) ^ 3 ≤ (1 + 1 / 256) ^ 3 := pow_le_pow_left₀ (by linarith) (by linarith) 3
    norm_num at k
    linarith
  rw [if_pos ⟨r0, r1⟩]
  refine ⟨min_le_left _ _, le_trans ?_ (le_max_right _ _)⟩
  rw [zero_add]
  have m := r.mul u0 (by linarith) (by norm_num) (by linarith) hb
  have pr : Off u 6 (1 / 2 * (2 * h)) (prodIf R f1 (r' * (b' / 2))) := by
    unfold prodIf
    split
    · exact m.weaken u0 (by linarith) (by linarith) (by norm_num)
    · exact Off.rnd R hp1 (by linarith) m
  have fin := (Off.rnd R hp1 (by linarith) pr).1
  rw [show (1 : ℝ) / 2 * (2 * h) = h by ring, ← hu] at fin
  refine le_trans ?_ fin
  have := one_add_mul_le_pow (a := -u) (by linarith) 7
  rw [← sub_eq_add_neg] at this
  push_cast at this
  have : h * (1 + 7 * -u) ≤ h * (1 - u) ^ (6 + 1) := mul_le_mul_of_nonneg_left this h0.le
  have := mul_nonneg u0 h0.le
  linarith

/-! ### The change of coordinates -/

/-- The four directions of the axes. -/
def Axis (u : P2 ℝ) : Prop := u = (1, 0) ∨ u = (-1, 0) ∨ u = (0, 1) ∨ u = (0, -1)

theorem sum2_left (f : Bool × Bool) {c x : ℝ} (hx : IsFp p (c * x)) (y : ℝ) : sum2 R f c 0 x y = c * x := by
  unfold sum2 prodIf
  rw [zero_mul, R.zero, ite_self, add_zero]
  split
  · exact R.id hx
  · rw [R.id hx, R.id hx]

theorem sum2_right (f : Bool × Bool) {c y : ℝ} (hy : IsFp p (c * y)) (x : ℝ) : sum2 R f 0 c x y = c * y := by
  unfold sum2 prodIf
  rw [zero_mul, R.zero, ite_self, zero_add]
  split
  · exact R.id hy
  · rw [R.id hy, R.id hy]

/-- The rotation of a chord along an axis is exact. -/
theorem rotate_axis (f : QLeftFuse) {u : P2 ℝ} (hu : Axis u) {x y : ℝ} (hx : IsFp p x) (hy : IsFp p y) :
    qRotate R f u (x * u.1 - y * u.2, x * u.2 + y * u.1) = (x, y) := by
  unfold qRotate
  rcases hu with rfl | rfl | rfl | rfl <;> dsimp only <;> simp only [neg_zero, neg_neg, mul_zero, sub_zero, zero_add, add_zero, zero_sub, mul_one, mul_neg]
  · rw [sum2_left R _ (by rwa [one_mul]), sum2_right R _ (by rwa [one_mul]), one_mul, one_mul]
  · rw [sum2_left R _ (by simpa using hx), sum2_right R _ (by simpa using hy)]
    simp
  · rw [sum2_right R _ (by simpa using hx), sum2_left R _ (by simpa using hy)]
    simp
  · rw [sum2_right R _ (by simpa using hx), sum2_left R _ (by simpa using hy)]
    simp

theorem norm_axis (hp : 1 ≤ p) (f : Bool) {u : P2 ℝ} (hu : Axis u) {l : ℝ} (h : IsFp p l) (l0 : 0 < l) : norm R Real.sqrt f [l * u.1, l * u.2] = l := by
  have e := sqrt_sq R hp h l0
  have m := R.id (R.mem (l * l))
  unfold norm squaredNorm dot
  rcases hu with rfl | rfl | rfl | rfl <;> simp only [dotLoop, mulAdd, mul_zero, mul_one, mul_neg, neg_mul, neg_neg, zero_add, add_zero, R.zero, m, ite_self, e]

theorem unit_axis (hp : 1 ≤ p) {u : P2 ℝ} (hu : Axis u) {l : ℝ} (l0 : 0 < l) : R.rnd (l * u.1 / l) = u.1 ∧ R.rnd (l * u.2 / l) = u.2 := by
  have f1 := fp_one (p := p) hp
  rw [mul_div_cancel_left₀ _ l0.ne', mul_div_cancel_left₀ _ l0.ne']
  rcases hu with rfl | rfl | rfl | rfl <;> dsimp only
  · exact ⟨R.id f1, R.zero⟩
  · exact ⟨R.id f1.neg, R.zero⟩
  · exact ⟨R.zero, R.id f1⟩
  · exact ⟨R.zero, R.id f1.neg⟩

/-! ### The decision -/

/-- Over the middle of the chord there is one root. -/
theorem above_eq (f : QLeftFuse) {invalid limit l h x y : ℝ} (hi : limit < invalid) (hl : IsFp p l) (l0 : 0 < l) (hh : IsFp p h) :
    qLeftAbove R f invalid limit l (l / 2) h x y = decide (qHeight R f (4 * h) (R.rnd (x / l)) ≤ y) := by
  have e : R.rnd (-l + R.rnd (4 * (l / 2))) = l := by
    rw [show 4 * (l / 2) = 2 * l by ring, R.id hl.double, show -l + 2 * l = l by ring, R.id hl]
  unfold qLeftAbove solveQuadratic
  dsimp only
  rw [e, neg_add_cancel, R.zero, if_pos rfl, if_neg l0.ne', neg_neg, R.id (fp_four hh)]
  simp only [gt_iff_lt, hi, if_true, ge_iff_le]

variable {l h x y : ℝ}

/-- After the change of coordinates, in the lower part of the box. -/
theorem turned_eq (hp : 8 ≤ p) (f : QLeftFuse) {invalid limit : ℝ} (hi : limit < invalid) (hl : IsFp p l) (l0 : 0 < l) (hh : IsFp p h) (h0 : 0 < h) (x0 : 0 ≤ x)
    (x1 : x ≤ l) (y0 : 0 ≤ y) (y1 : y ≤ h - 8 * (1 / 2 ^ p) * h) :
    qLeftTurned R f invalid limit (l, 0) (l / 2, h) (x, y) = decide (qHeight R f (4 * h) (R.rnd (x / l)) ≤ y) ∧
    qLeftTurned R f invalid limit (l, 0) (l / 2, -h) (x, -y) = !decide (qHeight R f (4 * h) (R.rnd (x / l)) ≤ y) := by
  have b := box_top R hp f.b0 f.b1 hh h0
  have n : decide (-h ≥ 0) = false := decide_eq_false (by linarith)
  unfold qLeftTurned
  dsimp only
  rw [n]
  simp only [ge_iff_le, h0.le, decide_true, if_true, Bool.false_eq_true, if_false, neg_neg]
  rw [box_flat R _ _ hl l0, above_eq R f hi hl l0 hh]
  have c : (0 : ℝ) ≤ x ∧ x ≤ l ∧ (qBox R f.b0 f.b1 0 0 h).1 ≤ y ∧ y ≤ (qBox R f.b0 f.b1 0 0 h).2 := ⟨x0, x1, b.1.trans y0, y1.trans b.2⟩
  exact ⟨if_pos c, if_pos c⟩

/-- After the change of coordinates, the curve above the chord. -/
theorem turned_up (hp : 8 ≤ p) (f : QLeftFuse) {invalid limit : ℝ} (hi : limit < invalid) (hl : IsFp p l) (l0 : 0 < l) (hh : IsFp p h) (h0 : 0 < h) (x0 : 0 ≤ x)
    (x1 : x ≤ l) :
    (4 * h * (x / l * (1 - x / l)) + 16 * (1 / 2 ^ p) * h < y → qLeftTurned R f invalid limit (l, 0) (l / 2, h) (x, y) = true) ∧
    (0 ≤ y → y < 4 * h * (x / l * (1 - x / l)) - 16 * (1 / 2 ^ p) * h → qLeftTurned R f invalid limit (l, 0) (l / 2, h) (x, y) = false) := by
  have hp1 : 1 ≤ p := by omega
  have u0 := unit_nonneg (K := ℝ) p
  have r0 : 0 ≤ x / l := div_nonneg x0 l0.le
  have r1 : x / l ≤ 1 := (div_le_one l0).2 x1
  have e := height_err R hp1 f (fp_four hh) (by linarith) r0 r1
  have b := box_top R hp f.b0 f.b1 hh h0
  unfold qLeftTurned
  dsimp only
  simp only [ge_iff_le, h0.le, decide_true, if_true]
  rw [box_flat R _ _ hl l0, above_eq R f hi hl l0 hh]
  have e' := abs_le.1 e
  have q : 4 * (x / l * (1 - x / l)) ≤ 1 := by nlinarith [sq_nonneg (2 * (x / l) - 1)]
  generalize x / l * (1 - x / l) = c at *
  generalize qHeight R f (4 * h) (R.rnd (x / l)) = t at *
  constructor
  · intro k
    split
    · exact decide_eq_true (by linarith)
    · rfl
  · intro k1 k2
    have g1 := mul_le_mul_of_nonneg_right q h0.le
    have g2 : 0 ≤ 1 / 2 ^ p * h := mul_nonneg u0 h0.le
    rw [if_pos ⟨x0, x1, b.1.trans k1, le_trans (by linarith) b.2⟩]
    exact decide_eq_false (by linarith)

/-- After the change of coordinates, the curve below the chord. -/
theorem turned_down (hp : 8 ≤ p) (f : QLeftFuse) {invalid limit : ℝ} (hi : limit < invalid) (hl : IsFp p l) (l0 : 0 < l) (hh : IsFp p h) (h0 : 0 < h) (x0 : 0 ≤ x)
    (x1 : x ≤ l) :
    (4 * h * (x / l * (1 - x / l)) + 16 * (1 / 2 ^ p) * h < y → qLeftTurned R f invalid limit (l, 0) (l / 2, -h) (x, -y) = false) ∧
    (0 ≤ y → y < 4 * h * (x / l * (1 - x / l)) - 16 * (1 / 2 ^ p) * h → qLeftTurned R f invalid limit (l, 0) (l / 2, -h) (x, -y) = true) := by
  have hp1 : 1 ≤ p := by omega
  have u0 := unit_nonneg (K := ℝ) p
  have r0 : 0 ≤ x / l := div_nonneg x0 l0.le
  have r1 : x / l ≤ 1 := (div_le_one l0).2 x1
  have e := height_err R hp1 f (fp_four hh) (by linarith) r0 r1
  have b := box_top R hp f.b0 f.b1 hh h0
  have n : decide (-h ≥ 0) = false := decide_eq_false (by linarith)
  unfold qLeftTurned
  dsimp only
  rw [n]
  simp only [Bool.false_eq_true, if_false, neg_neg]
  rw [box_flat R _ _ hl l0, above_eq R f hi hl l0 hh]
  have e' := abs_le.1 e
  have q : 4 * (x / l * (1 - x / l)) ≤ 1 := by nlinarith [sq_nonneg (2 * (x / l) - 1)]
  generalize x / l * (1 - x / l) = c at *
  generalize qHeight R f (4 * h) (R.rnd (x / l)) = t at *
  constructor
  · intro k
    split
    · rw [decide_eq_true (show t ≤ y by linarith)]; rfl
    · rfl
  · intro k1 k2
    have g1 := mul_le_mul_of_nonneg_right q h0.le
    have g2 : 0 ≤ 1 / 2 ^ p * h := mul_nonneg u0 h0.le
    rw [if_pos ⟨x0, x1, b.1.trans k1, le_trans (by linarith) b.2⟩]
    rw [decide_eq_false (show ¬ t ≤ y by linarith)]; rfl

/-! ### Straight segments -/

/-- A middle node that is clearly off the chord is not taken for one on it. -/
theorem not_straight (hp : 8 ≤ p) (f : Bool) {eps2 : ℝ} {u : P2 ℝ} (hu : Axis u) (hl : IsFp p l) (l0 : 0 < l) (hh : IsFp p h) (he : 2 * eps2 ≤ h ^ 2)
    {q0 q1 q2 : P2 ℝ} (s1 : sub R q1 q0 = (l * u.1, l * u.2)) (s2 : sub R q2 q0 = (l / 2 * u.1 - h * u.2, l / 2 * u.2 + h * u.1)) :
    qIsStraight R f eps2 q0 q1 q2 = false := by
  have hp1 : 1 ≤ p := by omega
  have u1 := unit_256 hp
  have u0 := unit_nonneg (K := ℝ) p
  have n : squaredNorm R f [l * u.1, l * u.2] = R.rnd (l * l) := by
    have m := R.id (R.mem (l * l))
    unfold squaredNorm dot
    rcases hu with rfl | rfl | rfl | rfl <;> simp only [dotLoop, mulAdd, mul_zero, mul_one, mul_neg, neg_mul, neg_neg, zero_add, add_zero, R.zero, m, ite_self]
  have hl2 := hl.half
  have d := det_error R hp1 (a := l * u.1) (b := l * u.2) (c := l / 2 * u.1 - h * u.2) (d := l / 2 * u.2 + h * u.1)
    (by rcases hu with rfl | rfl | rfl | rfl <;> simp [hl, hl.neg, isFp_zero])
    (by rcases hu with rfl | rfl | rfl | rfl <;> simp [hl, hl.neg, isFp_zero])
    (by rcases hu with rfl | rfl | rfl | rfl <;> simp [hl2, hl2.neg, hh, hh.neg])
    (by rcases hu with rfl | rfl | rfl | rfl <;> simp [hl2, hl2.neg, hh, hh.neg])
  have ex : l * u.1 * (l / 2 * u.2 + h * u.1) - l * u.2 * (l / 2 * u.1 - h * u.2) = l * h := by
    rcases hu with rfl | rfl | rfl | rfl <;> ring
  rw [ex] at d
  unfold qIsStraight
  dsimp only
  rw [s1, s2]
  dsimp only
  rw [n]
  split
  · rfl
  unfold cross
  dsimp only
  generalize det2x2 R (l * u.1) (l * u.2) (l / 2 * u.1 - h * u.2) (l / 2 * u.2 + h * u.1) = cp at *
  refine decide_eq_false (not_lt.2 ?_)
  have ll : 0 < l * l := mul_pos l0 l0
  have N := R.pos hp1 ll
  have N1 := (abs_le.1 (rel_u R hp1 (l * l))).2
  rw [abs_of_pos ll] at N1
  generalize R.rnd (l * l) = n' at *
  have pw : (2 : ℝ) / 2 ^ (2 * p) = 2 * (1 / 2 ^ p) * (1 / 2 ^ p) := by rw [two_mul p, pow_add]; field_simp
  rw [pw, show (3 : ℝ) / 2 ^ p = 3 * (1 / 2 ^ p) by ring] at d
  have e1 := (abs_le.1 (rel_u R hp1 (cp * cp))).1
  have e2 := (abs_le.1 (rel_u R hp1 (R.rnd (cp * cp) / n'))).1
  have c0 : 0 ≤ cp * cp := mul_self_nonneg cp
  have k0 : 0 ≤ R.rnd (cp * cp) / n' := div_nonneg (R.ge_of_ge c0 isFp_zero) N.le
  rw [abs_of_nonneg c0] at e1
  rw [abs_of_nonneg k0] at e2
  generalize R.rnd (R.rnd (cp * cp) / n') = w at *
  generalize R.rnd (cp * cp) = c at *
  generalize (1 : ℝ) / 2 ^ p = v at *
  have L0 := abs_nonneg (l * h)
  have d1 : |l * h| * (63 / 64) ≤ |cp| := by
    have := abs_sub_abs_le_abs_sub (l * h) cp
    rw [abs_sub_comm] at this
    have : (3 * v + 2 * v * v) * |l * h| ≤ 1 / 64 * |l * h| := mul_le_mul_of_nonneg_right (by nlinarith) L0
    linarith
  have d2 : (l * h) ^ 2 * (9 / 10) ≤ cp * cp := by
    have := mul_self_le_mul_self (by positivity) d1
    rw [abs_mul_abs_self] at this
    have e := sq_abs (l * h)
    nlinarith [sq_nonneg |l * h|]
  have d3 : (l * h) ^ 2 * (8 / 10) ≤ c := by nlinarith [sq_nonneg (l * h)]
  have d4 : h ^ 2 * (7 / 10) ≤ c / n' := by
    rw [le_div_iff₀ N]
    have : n' ≤ l * l * (257 / 256) := by nlinarith
    have : h ^ 2 * (7 / 10) * n' ≤ h ^ 2 * (7 / 10) * (l * l * (257 / 256)) := mul_le_mul_of_nonneg_left this (by positivity)
    nlinarith [sq_nonneg (l * h)]
  nlinarith [sq_nonneg h]

end Verif.Fp.QLeft
