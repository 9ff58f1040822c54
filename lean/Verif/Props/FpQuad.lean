import Verif.Lemmas.FpQuad
import Mathlib.Data.Rat.Floor

/-! C143: quadratic segments and cells in floating-point arithmetic. -/

set_option linter.unusedSectionVars false

namespace Verif.FpQuadP

open Verif.Fp

variable {K : Type} [Field K] [LinearOrder K] [IsStrictOrderedRing K] [FloorRing K] {p : ℕ} (R : Rounding K p)

/-- One coordinate of the parabola that is `v0` at 0, `v2` at 1/2 and `v1` at 1. -/
def curve (v0 v1 v2 r : K) : K := (1 - 2 * r) * (1 - r) * v0 + r * (2 * r - 1) * v1 + 4 * r * (1 - r) * v2

/-- Twice the exact signed area of a triangle. -/
def turn (a b c : P2 K) : K := (b.1 - a.1) * (c.2 - a.2) - (b.2 - a.2) * (c.1 - a.1)

/-- The vector from `a` to `b` is representable. -/
def Exact (p : ℕ) (a b : P2 K) : Prop := IsFp p (b.1 - a.1) ∧ IsFp p (b.2 - a.2)

theorem sub_exact {a b : P2 K} (h : Exact p a b) : sub R b a = (b.1 - a.1, b.2 - a.2) := by
  unfold sub
  rw [R.id h.1, R.id h.2]

/-! ### Interpolation -/

theorem fp_one (hp : 1 ≤ p) : IsFp p (1 : K) := by simpa using isFp_pow (K := K) hp 0

theorem prodIf_one (f : Bool) {x : K} (hx : IsFp p x) : prodIf R f (1 * x) = x := by
  unfold prodIf; rw [one_mul, R.id hx]; simp

theorem prodIf_zero (f : Bool) (x : K) : prodIf R f (0 * x) = 0 := by
  unfold prodIf; rw [zero_mul, R.zero]; simp

/-- **C143**: the three nodes of a segment are exact. -/
theorem C143_nodes (hp : 1 ≤ p) (f0 f1 f2 : Bool) {v0 v1 v2 : K} (h0 : IsFp p v0) (h1 : IsFp p v1) (h2 : IsFp p v2) :
    qInterp R f0 f1 f2 v0 v1 v2 0 = v0 ∧ qInterp R f0 f1 f2 v0 v1 v2 1 = v1 ∧ qInterp R f0 f1 f2 v0 v1 v2 (1 / 2) = v2 := by
  have o := fp_one (K := K) hp
  have r1 : R.rnd 1 = 1 := R.id o
  have rm : R.rnd (-1) = -1 := R.id o.neg
  have r2 : R.rnd 2 = 2 := by have := R.id o.double; rwa [mul_one] at this
  have rm2 : R.rnd (-2) = -2 := by have := R.id o.double.neg; rwa [mul_one] at this
  have rh : R.rnd (-(1 / 2)) = -(1 / 2) := R.id o.half.neg
  have r0 := R.zero
  refine ⟨?_, ?_, ?_⟩
  · have e : qInterp R f0 f1 f2 v0 v1 v2 0 = R.rnd (R.rnd (prodIf R f0 (1 * v0) + prodIf R f1 (0 * v1)) + prodIf R f2 (0 * v2)) := by
      unfold qInterp
      dsimp only
      have r4 : R.rnd (-4 * 0) = 0 := by rw [mul_zero, r0]
      have r5 : R.rnd (2 * 0) = 0 := by rw [mul_zero, r0]
      have rp : R.rnd (-1 * -1) = 1 := by rw [neg_mul_neg, mul_one, r1]
      rw [r4, r5, zero_sub, rm, rp, mul_zero (-1 : K), zero_mul (-1 : K), r0]
    rw [e, prodIf_one R f0 h0, prodIf_zero, prodIf_zero, add_zero, add_zero, R.id h0, R.id h0]
  · have e : qInterp R f0 f1 f2 v0 v1 v2 1 = R.rnd (R.rnd (prodIf R f0 (0 * v0) + prodIf R f1 (1 * v1)) + prodIf R f2 (0 * v2)) := by
      unfold qInterp
      dsimp only
      rw [mul_one, r2, mul_one, sub_self, r0, mul_zero, mul_zero, r0]
      norm_num only
      rw [r1, r1]
    rw [e, prodIf_one R f1 h1, prodIf_zero, prodIf_zero, add_zero, zero_add, R.id h1, R.id h1]
  · have e : qInterp R f0 f1 f2 v0 v1 v2 (1 / 2) = R.rnd (R.rnd (prodIf R f0 (0 * v0) + prodIf R f1 (0 * v1)) + prodIf R f2 (1 * v2)) := by
      unfold qInterp
      dsimp only
      rw [show (2 : K) * (1 / 2) = 1 by norm_num, r1, sub_self, r0, zero_mul, zero_mul, r0, show (-4 : K) * (1 / 2) = -2 by norm_num, rm2,
        show (1 / 2 - 1 : K) = -(1 / 2) by norm_num, rh, show (-2 : K) * -(1 / 2) = 1 by norm_num, r1]
    rw [e, prodIf_one R f2 h2, prodIf_zero, prodIf_zero, zero_add, R.zero, zero_add, R.id h2]

/-- **C143**: the error of an interpolated coordinate is at most six roundings of the sum of the magnitudes of the three terms, inside or outside the segment. -/
theorem C143_interpolate (hp : 1 ≤ p) (f0 f1 f2 : Bool) {r : K} (hr : IsFp p r) (v0 v1 v2 : K) :
    |qInterp R f0 f1 f2 v0 v1 v2 r - curve v0 v1 v2 r| ≤
      ((1 + 1 / 2 ^ p) ^ 6 - 1) * (|(1 - 2 * r) * (1 - r)| * |v0| + |r * (2 * r - 1)| * |v1| + |4 * r * (1 - r)| * |v2|) := by
  have h := qInterp_error R hp f0 f1 f2 hr v0 v1 v2
  rw [abs_mul, abs_mul ((2 * r - 1) * r), abs_mul (-4 * r * (r - 1))] at h
  have e0 : (2 * r - 1) * (r - 1) = (1 - 2 * r) * (1 - r) := by ring
  have e1 : (2 * r - 1) * r = r * (2 * r - 1) := by ring
  have e2 : -4 * r * (r - 1) = 4 * r * (1 - r) := by ring
  rw [e0, e1, e2] at h
  exact h

/-- **C143**: on the segment, the error is at most eight roundings of the largest coordinate of a node. -/
theorem C143_interpolate_unit (hp : 6 ≤ p) (f0 f1 f2 : Bool) {r : K} (hr : IsFp p r) (r0 : 0 ≤ r) (r1 : r ≤ 1) {v0 v1 v2 M : K} (h0 : |v0| ≤ M) (h1 : |v1| ≤ M) (h2 : |v2| ≤ M) :
    |qInterp R f0 f1 f2 v0 v1 v2 r - curve v0 v1 v2 r| ≤ 8 / 2 ^ p * M := by
  refine (C143_interpolate R (by omega) f0 f1 f2 hr v0 v1 v2).trans ?_
  have u0 := unit_nonneg (K := K) p
  have u1 : (1 : K) / 2 ^ p ≤ 1 / 64 := by
    refine one_div_le_one_div_of_le (by norm_num) ?_
    calc (64 : K) = 2 ^ 6 := by norm_num
      _ ≤ 2 ^ p := pow_le_pow_right₀ (by norm_num) hp
  have M0 : 0 ≤ M := (abs_nonneg _).trans h0
  have w : |(1 - 2 * r) * (1 - r)| + |r * (2 * r - 1)| + |4 * r * (1 - r)| ≤ 5 / 4 := by
    rw [abs_of_nonneg (show 0 ≤ 4 * r * (1 - r) from mul_nonneg (by linarith) (by linarith))]
    rcases le_total r (1 / 2) with h | h
    · rw [abs_of_nonneg (mul_nonneg (by linarith) (by linarith)), abs_of_nonpos (mul_nonpos_of_nonneg_of_nonpos r0 (by linarith))]
      nlinarith [sq_nonneg (4 * r - 1)]
    · rw [abs_of_nonpos (mul_nonpos_of_nonpos_of_nonneg (by linarith) (by linarith)), abs_of_nonneg (mul_nonneg r0 (by linarith))]
      nlinarith [sq_nonneg (4 * r - 3)]
  have m0 := mul_le_mul_of_nonneg_left h0 (abs_nonneg ((1 - 2 * r) * (1 - r)))
  have m1 := mul_le_mul_of_nonneg_left h1 (abs_nonneg (r * (2 * r - 1)))
  have m2 := mul_le_mul_of_nonneg_left h2 (abs_nonneg (4 * r * (1 - r)))
  have mw := mul_le_mul_of_nonneg_right w M0
  have e8 : (8 : K) / 2 ^ p * M = 8 * (1 / 2 ^ p) * M := by ring
  rw [e8]
  have g := one_le_grow u0 6
  generalize (1 : K) / 2 ^ p = u at *
  have k : (1 + u) ^ 6 - 1 ≤ 32 / 5 * u := by
    have a2 : u ^ 2 ≤ 1 / 64 * u := by nlinarith
    have a3 : u ^ 3 ≤ 1 / 64 * u ^ 2 := by nlinarith [sq_nonneg u]
    have a4 : u ^ 4 ≤ 1 / 64 * u ^ 3 := by nlinarith [pow_nonneg u0 3]
    have a5 : u ^ 5 ≤ 1 / 64 * u ^ 4 := by nlinarith [pow_nonneg u0 4]
    have a6 : u ^ 6 ≤ 1 / 64 * u ^ 5 := by nlinarith [pow_nonneg u0 5]
    have e : (1 + u) ^ 6 - 1 = 6 * u + 15 * u ^ 2 + 20 * u ^ 3 + 15 * u ^ 4 + 6 * u ^ 5 + u ^ 6 := by ring
    rw [e]
    linarith
  calc ((1 + u) ^ 6 - 1) * (|(1 - 2 * r) * (1 - r)| * |v0| + |r * (2 * r - 1)| * |v1| + |4 * r * (1 - r)| * |v2|) ≤ ((1 + u) ^ 6 - 1) * (5 / 4 * M) :=
        mul_le_mul_of_nonneg_left (by linarith) g
    _ ≤ 32 / 5 * u * (5 / 4 * M) := mul_le_mul_of_nonneg_right k (by linarith)
    _ = 8 * u * M := by ring

/-- **C143**: the two cells of an edge, which see it in opposite directions, compute the same points, to the last digit, if rounding is symmetric, `1 - r` is representable and the
two products of the ends are treated alike. -/
theorem C143_reverse (hodd : ∀ x, R.rnd (-x) = -R.rnd x) (f f2 : Bool) {r : K} (hr : IsFp p r) (hr' : IsFp p (1 - r)) (v0 v1 v2 : K) :
    qInterp R f f f2 v1 v0 v2 (1 - r) = qInterp R f f f2 v0 v1 v2 r := by
  have h4 : IsFp p (-4 * r) := by
    have := hr.double.double.neg
    rwa [show -(2 * (2 * r)) = -4 * r by ring] at this
  have h4' : IsFp p (-4 * (1 - r)) := by
    have := hr'.double.double.neg
    rwa [show -(2 * (2 * (1 - r))) = -4 * (1 - r) by ring] at this
  have hb : R.rnd (r - 1) = r - 1 := by
    have := R.id hr'.neg
    rwa [neg_sub] at this
  have hb' : R.rnd (1 - r - 1) = -r := by
    rw [show 1 - r - 1 = -r by ring]; exact R.id hr.neg
  unfold qInterp
  dsimp only
  rw [R.id hr.double, R.id hr'.double, R.id h4, R.id h4', hb, hb', show 2 * (1 - r) - 1 = -(2 * r - 1) by ring, hodd]
  rw [show -R.rnd (2 * r - 1) * -r = R.rnd (2 * r - 1) * r by ring, show -R.rnd (2 * r - 1) * (1 - r) = R.rnd (2 * r - 1) * (r - 1) by ring,
    show -4 * (1 - r) * -r = -4 * r * (r - 1) by ring, add_comm (prodIf R f (R.rnd (R.rnd (2 * r - 1) * r) * v1))]

/-- **C143**: the derivative, with an error of four roundings of the magnitudes of its two terms. -/
theorem C143_jacobian (hp : 1 ≤ p) (f0 f1 : Bool) {r : K} (hr : IsFp p r) (v0 v1 v2 : K) :
    |qJacobian R f0 f1 v0 v1 v2 r - ((4 * r - 3) * (v0 - v2) + (4 * r - 1) * (v1 - v2))| ≤
      ((1 + 1 / 2 ^ p) ^ 4 - 1) * (|(4 * r - 3) * (v0 - v2)| + |(4 * r - 1) * (v1 - v2)|) :=
  qJacobian_error R hp f0 f1 hr v0 v1 v2

/-! ### The box -/

/-- How far the box may be from the curve. -/
def slack (p : ℕ) (v0 v1 v2 : K) : K := (31 * (|v2 - v0| + |v2 - v1|) + |v0|) / 2 ^ p

/-- **C143**: the box contains the ends. -/
theorem C143_box_ends (f0 f1 : Bool) (v0 v1 v2 : K) :
    (qBox R f0 f1 v0 v1 v2).1 ≤ min v0 v1 ∧ max v0 v1 ≤ (qBox R f0 f1 v0 v1 v2).2 := by
  unfold qBox
  dsimp only
  split
  · exact ⟨le_rfl, le_rfl⟩
  · split
    · exact ⟨min_le_left _ _, le_max_left _ _⟩
    · exact ⟨le_rfl, le_rfl⟩

section
variable (hp : 5 ≤ p) (f0 f1 : Bool) (v0 v1 v2 : K)
include hp

/-- The curve with the computed coefficients. -/
theorem seen {s : K} (s0 : 0 ≤ s) (s1 : s ≤ 1) :
    |v0 + s * (qCoeffs R f0 v0 v1 v2).1 + s ^ 2 * (qCoeffs R f0 v0 v1 v2).2 - curve v0 v1 v2 s| ≤ 15 * (1 / 2 ^ p) * (|v2 - v0| + |v2 - v1|) := by
  obtain ⟨hb, ha⟩ := qCoeffs_error R hp f0 v0 v1 v2
  generalize (qCoeffs R f0 v0 v1 v2).1 = b at *
  generalize (qCoeffs R f0 v0 v1 v2).2 = a at *
  have e : v0 + s * b + s ^ 2 * a - curve v0 v1 v2 s = s * (b - (3 * (v2 - v0) + (v2 - v1))) + s ^ 2 * (a - -2 * ((v2 - v0) + (v2 - v1))) := by
    unfold curve; ring
  rw [e]
  refine (abs_add_le _ _).trans ?_
  rw [abs_mul, abs_mul, abs_of_nonneg s0, abs_of_nonneg (sq_nonneg s)]
  have h1 : s ^ 2 ≤ 1 := by nlinarith
  have := mul_le_mul s1 hb (abs_nonneg _) zero_le_one
  have := mul_le_mul h1 ha (abs_nonneg _) zero_le_one
  linarith

theorem coeff_size : |(qCoeffs R f0 v0 v1 v2).1| ≤ 4 * (|v2 - v0| + |v2 - v1|) ∧ |(qCoeffs R f0 v0 v1 v2).2| ≤ 3 * (|v2 - v0| + |v2 - v1|) := by
  obtain ⟨hb, ha⟩ := qCoeffs_error R hp f0 v0 v1 v2
  have u0 := unit_nonneg (K := K) p
  have u1 := unit_32 (K := K) hp
  have b1 := abs_sub_abs_le_abs_sub (qCoeffs R f0 v0 v1 v2).1 (3 * (v2 - v0) + (v2 - v1))
  have a1 := abs_sub_abs_le_abs_sub (qCoeffs R f0 v0 v1 v2).2 (-2 * ((v2 - v0) + (v2 - v1)))
  have b2 := abs_add_le (3 * (v2 - v0)) (v2 - v1)
  have a2 := abs_add_le (v2 - v0) (v2 - v1)
  rw [abs_mul] at b2 a1
  rw [abs_of_pos (by norm_num : (0 : K) < 3)] at b2
  rw [show |(-2 : K)| = 2 by norm_num] at a1
  have s0 := abs_nonneg (v2 - v0)
  have s1 := abs_nonneg (v2 - v1)
  generalize (1 : K) / 2 ^ p = u at *
  constructor <;> nlinarith

/-- The values that bound the seen curve. -/
theorem extremum_near (ha : (qCoeffs R f0 v0 v1 v2).2 ≠ 0) (h0 : 0 < -((qCoeffs R f0 v0 v1 v2).1 / 2) / (qCoeffs R f0 v0 v1 v2).2)
    (h1 : -((qCoeffs R f0 v0 v1 v2).1 / 2) / (qCoeffs R f0 v0 v1 v2).2 < 1) :
    (qBox R f0 f1 v0 v1 v2).1 - (16 * (1 / 2 ^ p) * (|v2 - v0| + |v2 - v1|) + 1 / 2 ^ p * |v0|) ≤
        v0 + -((qCoeffs R f0 v0 v1 v2).1 / 2) / (qCoeffs R f0 v0 v1 v2).2 * ((qCoeffs R f0 v0 v1 v2).1 / 2) ∧
      v0 + -((qCoeffs R f0 v0 v1 v2).1 / 2) / (qCoeffs R f0 v0 v1 v2).2 * ((qCoeffs R f0 v0 v1 v2).1 / 2) ≤
        (qBox R f0 f1 v0 v1 v2).2 + (16 * (1 / 2 ^ p) * (|v2 - v0| + |v2 - v1|) + 1 / 2 ^ p * |v0|) := by
  have u0 := unit_nonneg (K := K) p
  obtain ⟨hb, ha'⟩ := coeff_size R hp f0 v0 v1 v2
  have hs := seen R hp f0 v0 v1 v2 (s := 1) zero_le_one le_rfl
  have c1 : curve v0 v1 v2 1 = v1 := by unfold curve; ring
  rw [c1, one_mul, one_pow, one_mul] at hs
  have hbf : IsFp p (qCoeffs R f0 v0 v1 v2).1 := R.mem _
  have ends := C143_box_ends R f0 f1 v0 v1 v2
  have vv0 := mul_nonneg u0 (abs_nonneg v0)
  have sS := mul_nonneg u0 (add_nonneg (abs_nonneg (v2 - v0)) (abs_nonneg (v2 - v1)))
  rcases qBox_extremum R hp f1 v0 hb ha' ha hbf rfl h0 h1 with ⟨r0, r1, hx⟩ | ⟨-, hx⟩
  · have hbox : qBox R f0 f1 v0 v1 v2 = (min (min v0 v1) (R.rnd (v0 + prodIf R f1 (R.rnd (-R.rnd ((qCoeffs R f0 v0 v1 v2).1 / 2) / (qCoeffs R f0 v0 v1 v2).2) * R.rnd ((qCoeffs R f0 v0 v1 v2).1 / 2)))),
        max (max v0 v1) (R.rnd (v0 + prodIf R f1 (R.rnd (-R.rnd ((qCoeffs R f0 v0 v1 v2).1 / 2) / (qCoeffs R f0 v0 v1 v2).2) * R.rnd ((qCoeffs R f0 v0 v1 v2).1 / 2))))) := by
      unfold qBox
      dsimp only
      rw [if_neg ha, if_pos ⟨r0, r1⟩]
    rw [hbox]
    dsimp only
    generalize R.rnd (v0 + prodIf R f1 (R.rnd (-R.rnd ((qCoeffs R f0 v0 v1 v2).1 / 2) / (qCoeffs R f0 v0 v1 v2).2) * R.rnd ((qCoeffs R f0 v0 v1 v2).1 / 2))) = x at *
    have l := min_le_right (min v0 v1) x
    have g := le_max_right (max v0 v1) x
    have hx := abs_le.1 hx
    constructor <;> linarith [hx.1, hx.2]
  · have l := ends.1.trans (min_le_right v0 v1)
    have g := (le_max_right v0 v1).trans ends.2
    have hx := abs_le.1 hx
    have hs := abs_le.1 hs
    constructor <;> linarith [hx.1, hx.2, hs.1, hs.2]

/-- **C143**: the curve is in the box, up to rounding errors of the distances of the nodes and of the first coordinate. -/
theorem C143_box {s : K} (s0 : 0 ≤ s) (s1 : s ≤ 1) :
    (qBox R f0 f1 v0 v1 v2).1 - slack p v0 v1 v2 ≤ curve v0 v1 v2 s ∧ curve v0 v1 v2 s ≤ (qBox R f0 f1 v0 v1 v2).2 + slack p v0 v1 v2 := by
  have u0 := unit_nonneg (K := K) p
  have hs := seen R hp f0 v0 v1 v2 s0 s1
  have h1 := seen R hp f0 v0 v1 v2 (s := 1) zero_le_one le_rfl
  have c1 : curve v0 v1 v2 1 = v1 := by unfold curve; ring
  rw [c1, one_mul, one_pow, one_mul] at h1
  have ends := C143_box_ends R f0 f1 v0 v1 v2
  have l0 := ends.1.trans (min_le_left v0 v1)
  have l1 := ends.1.trans (min_le_right v0 v1)
  have g0 := (le_max_left v0 v1).trans ends.2
  have g1 := (le_max_right v0 v1).trans ends.2
  have ex := extremum_near R hp f0 f1 v0 v1 v2
  have e : slack p v0 v1 v2 = 15 * (1 / 2 ^ p) * (|v2 - v0| + |v2 - v1|) + (16 * (1 / 2 ^ p) * (|v2 - v0| + |v2 - v1|) + 1 / 2 ^ p * |v0|) := by
    unfold slack; ring
  have vv0 := mul_nonneg u0 (abs_nonneg v0)
  have sS := mul_nonneg u0 (add_nonneg (abs_nonneg (v2 - v0)) (abs_nonneg (v2 - v1)))
  rw [e]
  have hs := abs_le.1 hs
  have h1 := abs_le.1 h1
  generalize (qCoeffs R f0 v0 v1 v2).1 = b at *
  generalize (qCoeffs R f0 v0 v1 v2).2 = a at *
  generalize (qBox R f0 f1 v0 v1 v2).1 = lo at *
  generalize (qBox R f0 f1 v0 v1 v2).2 = hi at *
  generalize (1 : K) / 2 ^ p * |v0| = V at *
  have eS : ∀ x : K, x * (1 / 2 ^ p) * (|v2 - v0| + |v2 - v1|) = x * (1 / 2 ^ p * (|v2 - v0| + |v2 - v1|)) := fun x => by ring
  rw [eS] at hs h1 ex ⊢
  rw [eS]
  generalize (1 : K) / 2 ^ p * (|v2 - v0| + |v2 - v1|) = S at *
  constructor
  · have := quad_le (c := -v0) (b := -b) (a := -a) (M := -lo + (16 * S + V)) s0 s1 (by linarith) (by linarith [h1.1, h1.2]) (fun ha q0 q1 => by
      have e1 : -(-b / 2) / -a = -(b / 2) / a := by rw [div_neg, neg_div, neg_neg, neg_div, neg_div]
      rw [e1] at q0 q1 ⊢
      have := (ex (ne_of_gt (by linarith)) q0 q1).1
      linarith)
    linarith [hs.1, hs.2]
  · have := quad_le (c := v0) (b := b) (a := a) (M := hi + (16 * S + V)) s0 s1 (by linarith) (by linarith [h1.1, h1.2]) (fun ha q0 q1 => (ex ha.ne q0 q1).2)
    linarith [hs.1, hs.2]

/-- **C143**: the box is not larger than the curve needs, up to the same errors. -/
theorem C143_box_tight : (∃ s, 0 ≤ s ∧ s ≤ 1 ∧ |(qBox R f0 f1 v0 v1 v2).1 - curve v0 v1 v2 s| ≤ slack p v0 v1 v2) ∧
    ∃ s, 0 ≤ s ∧ s ≤ 1 ∧ |(qBox R f0 f1 v0 v1 v2).2 - curve v0 v1 v2 s| ≤ slack p v0 v1 v2 := by
  have u0 := unit_nonneg (K := K) p
  have k0 : 0 ≤ slack p v0 v1 v2 := by unfold slack; positivity
  have c0 : curve v0 v1 v2 0 = v0 := by unfold curve; ring
  have c1 : curve v0 v1 v2 1 = v1 := by unfold curve; ring
  have near : ∀ y, y = v0 ∨ y = v1 → ∃ s, 0 ≤ s ∧ s ≤ 1 ∧ |y - curve v0 v1 v2 s| ≤ slack p v0 v1 v2 := by
    rintro y (rfl | rfl)
    · exact ⟨0, le_rfl, zero_le_one, by rw [c0, sub_self, abs_zero]; exact k0⟩
    · exact ⟨1, zero_le_one, le_rfl, by rw [c1, sub_self, abs_zero]; exact k0⟩
  unfold qBox
  dsimp only
  split
  · exact ⟨near _ (min_choice _ _), near _ (max_choice _ _)⟩
  rename_i ha
  split
  swap
  · exact ⟨near _ (min_choice _ _), near _ (max_choice _ _)⟩
  rename_i hr
  obtain ⟨hb, ha'⟩ := coeff_size R hp f0 v0 v1 v2
  have hbf : IsFp p (qCoeffs R f0 v0 v1 v2).1 := R.mem _
  have hp1 : 1 ≤ p := by omega
  have hx : ∃ s, 0 ≤ s ∧ s ≤ 1 ∧ |R.rnd (v0 + prodIf R f1 (R.rnd (-R.rnd ((qCoeffs R f0 v0 v1 v2).1 / 2) / (qCoeffs R f0 v0 v1 v2).2) * R.rnd ((qCoeffs R f0 v0 v1 v2).1 / 2))) -
      curve v0 v1 v2 s| ≤ slack p v0 v1 v2 := by
    have q0 : 0 < -((qCoeffs R f0 v0 v1 v2).1 / 2) / (qCoeffs R f0 v0 v1 v2).2 := by
      have := (R.pos_iff hp1).1 hr.1
      rwa [R.id hbf.half] at this
    have q1 : -((qCoeffs R f0 v0 v1 v2).1 / 2) / (qCoeffs R f0 v0 v1 v2).2 < 1 := by
      have h := hr.2
      rw [R.id hbf.half] at h
      by_contra hc
      have := R.ge_of_ge (not_lt.1 hc) (fp_one hp1)
      linarith
    refine ⟨_, q0.le, q1.le, ?_⟩
    rcases qBox_extremum R hp f1 v0 hb ha' ha hbf rfl q0 q1 with ⟨-, -, hx⟩ | ⟨h, -⟩
    · have hs := seen R hp f0 v0 v1 v2 q0.le q1.le
      have e1 : v0 + -((qCoeffs R f0 v0 v1 v2).1 / 2) / (qCoeffs R f0 v0 v1 v2).2 * (qCoeffs R f0 v0 v1 v2).1 +
          (-((qCoeffs R f0 v0 v1 v2).1 / 2) / (qCoeffs R f0 v0 v1 v2).2) ^ 2 * (qCoeffs R f0 v0 v1 v2).2 =
          v0 + -((qCoeffs R f0 v0 v1 v2).1 / 2) / (qCoeffs R f0 v0 v1 v2).2 * ((qCoeffs R f0 v0 v1 v2).1 / 2) := by
        generalize (qCoeffs R f0 v0 v1 v2).1 = b at *
        generalize (qCoeffs R f0 v0 v1 v2).2 = a at *
        have : b = -(2 * (-(b / 2) / a * a)) := by field_simp
        have : b / 2 = -(-(b / 2) / a * a) := by linarith
        generalize -(b / 2) / a = ρ at *
        rw [this]
        have : b = -(2 * (ρ * a)) := by assumption
        rw [this]; ring
      rw [e1] at hs
      refine (abs_sub_le _ _ _).trans ((add_le_add hx hs).trans ?_)
      have e : slack p v0 v1 v2 = 31 * (1 / 2 ^ p * (|v2 - v0| + |v2 - v1|)) + 1 / 2 ^ p * |v0| := by unfold slack; ring
      have sS := mul_nonneg u0 (add_nonneg (abs_nonneg (v2 - v0)) (abs_nonneg (v2 - v1)))
      rw [e]
      linarith
    · exact absurd hr.2 (not_lt.2 h)
  constructor
  · rcases min_choice (min v0 v1) (R.rnd (v0 + prodIf R f1 (R.rnd (-R.rnd ((qCoeffs R f0 v0 v1 v2).1 / 2) / (qCoeffs R f0 v0 v1 v2).2) * R.rnd ((qCoeffs R f0 v0 v1 v2).1 / 2)))) with h | h <;> rw [h]
    · exact near _ (min_choice _ _)
    · exact hx
  · rcases max_choice (max v0 v1) (R.rnd (v0 + prodIf R f1 (R.rnd (-R.rnd ((qCoeffs R f0 v0 v1 v2).1 / 2) / (qCoeffs R f0 v0 v1 v2).2) * R.rnd ((qCoeffs R f0 v0 v1 v2).1 / 2)))) with h | h <;> rw [h]
    · exact near _ (max_choice _ _)
    · exact hx

end

/-- **C143 fails** for the box without errors: with `double`, the box of the segment from -1 to -1 through 2⁻⁶⁰ ends at 0, below its third node. -/
theorem C143_box_fails (f0 f1 : Bool) : IsFp 53 (1 / 2 ^ 60 : ℚ) ∧ curve (-1) (-1) (1 / 2 ^ 60) (1 / 2) = (1 / 2 ^ 60 : ℚ) ∧
    (qBox (ieee ℚ 53 (by decide)) f0 f1 (-1) (-1) (1 / 2 ^ 60)).2 < 1 / 2 ^ 60 := by
  refine ⟨⟨1, -60, by norm_num, by norm_num⟩, by unfold curve; norm_num, ?_⟩
  revert f0 f1
  decide +kernel

/-! ### Straight and curved edges -/

theorem enclosed_rel (hp : 1 ≤ p) (f : Bool) {q0 q1 q2 : P2 K} (h1 : Exact p q0 q1) (h2 : Exact p q0 q2) : Rel (1 / 2 ^ p) 5 (2 / 3 * turn q0 q2 q1) (qEnclosed R f q0 q1 q2) := by
  have u0 := unit_nonneg (K := K) p
  unfold qEnclosed
  rw [sub_exact R h1, sub_exact R h2]
  have c := cross_rel R hp (u := (q2.1 - q0.1, q2.2 - q0.2)) (v := (q1.1 - q0.1, q1.2 - q0.2)) h2.1 h2.2 h1.1 h1.2
  exact (((Rel.refl _ (2 / 3 : K)).rnd R hp).mul u0 c).prod R hp f

/-- **C143**: the enclosed area, with representable differences from the first node: exact sign, and a relative error of five roundings. -/
theorem C143_enclosed (hp : 2 ≤ p) {q0 q1 q2 : P2 K} (h1 : Exact p q0 q1) (h2 : Exact p q0 q2) :
    (0 < qEnclosed R false q0 q1 q2 ↔ 0 < turn q0 q2 q1) ∧ (qEnclosed R false q0 q1 q2 = 0 ↔ turn q0 q2 q1 = 0) ∧
    |qEnclosed R false q0 q1 q2 - 2 / 3 * turn q0 q2 q1| ≤ ((1 + 1 / 2 ^ p) ^ 5 - 1) * |2 / 3 * turn q0 q2 q1| := by
  refine ⟨?_, ?_, enclosed_rel R (by omega) false h1 h2⟩
  · unfold qEnclosed prodIf
    rw [sub_exact R h1, sub_exact R h2]
    have s := det_sign R hp h2.1 h2.2 h1.1 h1.2
    have t : 0 < R.rnd (2 / 3 : K) := R.pos (by omega) (by norm_num)
    show 0 < R.rnd _ ↔ _
    rw [R.pos_iff (by omega), mul_pos_iff_of_pos_left t]
    exact s.1.trans sub_pos.symm
  · unfold qEnclosed prodIf
    rw [sub_exact R h1, sub_exact R h2]
    have s := det_sign R hp h2.1 h2.2 h1.1 h1.2
    have t : 0 < R.rnd (2 / 3 : K) := R.pos (by omega) (by norm_num)
    show R.rnd _ = 0 ↔ _
    rw [R.zero_iff (by omega), mul_eq_zero, or_iff_right t.ne']
    exact s.2.1.trans sub_eq_zero.symm

/-- **C143**: `curvesLeft` and the sign of the enclosed area agree, whatever the nodes. -/
theorem C143_curvesLeft (hp : 1 ≤ p) (q0 q1 q2 : P2 K) : qCurvesLeft R q0 q1 q2 = true ↔ 0 ≤ qEnclosed R false q0 q1 q2 := by
  have t : 0 < R.rnd (2 / 3 : K) := R.pos hp (by norm_num)
  unfold qCurvesLeft areCCW qEnclosed prodIf
  rw [decide_eq_true_iff]
  show _ ↔ 0 ≤ R.rnd _
  rw [← not_lt, ← not_lt, R.neg_iff hp, not_lt, not_lt, mul_nonneg_iff_of_pos_left t]

/-- The squared distance. -/
def dist2 (a b : P2 K) : K := (b.1 - a.1) ^ 2 + (b.2 - a.2) ^ 2

theorem sq_off (hp : 1 ≤ p) (fused : Bool) (a b : P2 K) :
    Off (1 / 2 ^ p) 4 (dist2 a b) (squaredNorm R fused [(sub R b a).1, (sub R b a).2]) := by
  have := sqNorm_off R hp fused [b.1 - a.1, b.2 - a.2]
  have e : sumSq [b.1 - a.1, b.2 - a.2] = dist2 a b := by simp [sumSq, dist2, sq]
  rw [e] at this
  exact this

/-- The height of the middle node above the chord, squared, as computed. -/
theorem height_off (hp : 5 ≤ p) (fused : Bool) {q0 q1 q2 : P2 K} (h1 : Exact p q0 q1) (h2 : Exact p q0 q2) (hd : 0 < dist2 q0 q1) :
    Off (1 / 2 ^ p) 18 (turn q0 q1 q2 ^ 2 / dist2 q0 q1)
      (R.rnd (R.rnd (cross R (sub R q1 q0) (sub R q2 q0) * cross R (sub R q1 q0) (sub R q2 q0)) / squaredNorm R fused [(sub R q1 q0).1, (sub R q1 q0).2])) := by
  have u0 := unit_nonneg (K := K) p
  have u1 := unit_32 (K := K) hp
  have hp1 : 1 ≤ p := by omega
  have hsq := sq_off R hp1 fused q0 q1
  rw [sub_exact R h1, sub_exact R h2] at *
  have c := cross_rel R hp1 (u := (q1.1 - q0.1, q1.2 - q0.2)) (v := (q2.1 - q0.1, q2.2 - q0.2)) h1.1 h1.2 h2.1 h2.2
  have e : (q1.1 - q0.1) * (q2.2 - q0.2) - (q1.2 - q0.2) * (q2.1 - q0.1) = turn q0 q1 q2 := rfl
  dsimp only at c hsq ⊢
  rw [e] at c
  generalize cross R (q1.1 - q0.1, q1.2 - q0.2) (q2.1 - q0.1, q2.2 - q0.2) = x at *
  generalize turn q0 q1 q2 = t at *
  have ho : Off (1 / 2 ^ p) 4 |t| |x| := by
    unfold Rel at c
    have a1 := abs_sub_abs_le_abs_sub x t
    have a2 := abs_sub_abs_le_abs_sub t x
    rw [abs_sub_comm] at a2
    have t0 := abs_nonneg t
    generalize (1 : K) / 2 ^ p = u at *
    constructor
    · have : (1 - u) ^ 4 ≤ 1 - ((1 + u) ^ 3 - 1) := by
        have a2 : 0 ≤ u ^ 2 := sq_nonneg u
        nlinarith [mul_nonneg u0 (sub_nonneg.2 u1), mul_nonneg a2 (sub_nonneg.2 u1), mul_nonneg (mul_nonneg a2 u0) (sub_nonneg.2 u1)]
      have := mul_le_mul_of_nonneg_left this t0
      linarith
    · have : (1 + u) ^ 3 ≤ (1 + u) ^ 4 := pow_le_pow_right₀ (by linarith) (by norm_num)
      have := mul_le_mul_of_nonneg_left this t0
      linarith
  have m := (ho.mul u0 (by linarith) (abs_nonneg t) (abs_nonneg t) ho).rnd R hp1 (mul_nonneg (abs_nonneg t) (abs_nonneg t))
  rw [abs_mul_abs_self, abs_mul_abs_self, ← sq] at m
  have d := m.div u0 (by linarith) (sq_nonneg t) hd hsq
  exact d.rnd R hp1 (div_nonneg (sq_nonneg t) hd.le)

/-- **C143**: an edge that `isStraight` accepts has its middle node nearer to the first than the last one is, and within the tolerance of the chord, both up to rounding errors. -/
theorem C143_straight (hp : 5 ≤ p) (fused : Bool) (eps2 : K) {q0 q1 q2 : P2 K} (h1 : Exact p q0 q1) (h2 : Exact p q0 q2) (h : qIsStraight R fused eps2 q0 q1 q2 = true) :
    dist2 q0 q2 * (1 - 1 / 2 ^ p) ^ 4 < dist2 q0 q1 * (1 + 1 / 2 ^ p) ^ 4 ∧ turn q0 q1 q2 ^ 2 / dist2 q0 q1 * (1 - 1 / 2 ^ p) ^ 18 < eps2 := by
  have hp1 : 1 ≤ p := by omega
  unfold qIsStraight at h
  dsimp only at h
  split at h
  · cases h
  rename_i hlt
  rw [not_le] at hlt
  have s1 := sq_off R hp1 fused q0 q1
  have s2 := sq_off R hp1 fused q0 q2
  refine ⟨s2.1.trans_lt (hlt.trans_le s1.2), ?_⟩
  have d0 : 0 ≤ dist2 q0 q1 := by unfold dist2; positivity
  have hd : 0 < dist2 q0 q1 := by
    rcases d0.lt_or_eq with g | g
    · exact g
    · rw [← g] at s1
      have z := s1.zero
      rw [z] at hlt
      have d2 : 0 ≤ dist2 q0 q2 := by unfold dist2; positivity
      exact absurd (s2.nonneg (unit_nonneg p) (unit_le p) d2) (not_le.2 hlt)
  exact (height_off R hp fused h1 h2 hd).1.trans_lt (of_decide_eq_true h)

/-- **C143**: and it accepts every edge that meets both conditions by more than the errors. -/
theorem C143_straight_complete (hp : 5 ≤ p) (fused : Bool) (eps2 : K) {q0 q1 q2 : P2 K} (h1 : Exact p q0 q1) (h2 : Exact p q0 q2)
    (h : dist2 q0 q2 * (1 + 1 / 2 ^ p) ^ 4 < dist2 q0 q1 * (1 - 1 / 2 ^ p) ^ 4) (ht : turn q0 q1 q2 ^ 2 / dist2 q0 q1 * (1 + 1 / 2 ^ p) ^ 18 < eps2) :
    qIsStraight R fused eps2 q0 q1 q2 = true := by
  have hp1 : 1 ≤ p := by omega
  have u0 := unit_nonneg (K := K) p
  have u1 := unit_lt (K := K) hp1
  have s1 := sq_off R hp1 fused q0 q1
  have s2 := sq_off R hp1 fused q0 q2
  have d2 : 0 ≤ dist2 q0 q2 := by unfold dist2; positivity
  have hd : 0 < dist2 q0 q1 := by
    have : 0 < dist2 q0 q1 * (1 - 1 / 2 ^ p) ^ 4 := lt_of_le_of_lt (by positivity) h
    exact pos_of_mul_pos_left this (pow_nonneg (by linarith) 4)
  unfold qIsStraight
  dsimp only
  rw [if_neg (not_le.2 (s2.2.trans_lt (h.trans_le s1.1)))]
  exact decide_eq_true ((height_off R hp fused h1 h2 hd).2.trans_lt ht)

/-- **C143**: in particular an edge whose middle node is the midpoint. -/
theorem C143_straight_midpoint (hp : 5 ≤ p) (fused : Bool) (eps2 : K) (he : 0 < eps2) {q0 q1 q2 : P2 K} (h1 : Exact p q0 q1) (hne : q0 ≠ q1)
    (hm : q2 = ((q0.1 + q1.1) / 2, (q0.2 + q1.2) / 2)) : qIsStraight R fused eps2 q0 q1 q2 = true := by
  have u0 := unit_nonneg (K := K) p
  have u1 := unit_32 (K := K) hp
  have x1 : q2.1 - q0.1 = (q1.1 - q0.1) / 2 := by rw [hm]; ring
  have x2 : q2.2 - q0.2 = (q1.2 - q0.2) / 2 := by rw [hm]; ring
  have h2 : Exact p q0 q2 := ⟨by rw [x1]; exact h1.1.half, by rw [x2]; exact h1.2.half⟩
  have hd : 0 < dist2 q0 q1 := by
    have d0 : 0 ≤ dist2 q0 q1 := by unfold dist2; positivity
    refine lt_of_le_of_ne d0 fun hz => hne ?_
    unfold dist2 at hz
    have a := sq_nonneg (q1.1 - q0.1)
    have b := sq_nonneg (q1.2 - q0.2)
    have a0 : (q1.1 - q0.1) ^ 2 = 0 := by linarith
    have b0 : (q1.2 - q0.2) ^ 2 = 0 := by linarith
    exact Prod.ext (sub_eq_zero.1 (pow_eq_zero_iff (by norm_num) |>.1 a0)).symm (sub_eq_zero.1 (pow_eq_zero_iff (by norm_num) |>.1 b0)).symm
  have e4 : dist2 q0 q2 = dist2 q0 q1 / 4 := by unfold dist2; rw [x1, x2]; ring
  have et : turn q0 q1 q2 = 0 := by unfold turn; rw [x1, x2]; ring
  refine C143_straight_complete R hp fused eps2 h1 h2 ?_ ?_
  · rw [e4, div_mul_eq_mul_div, div_lt_iff₀ (by norm_num), mul_assoc]
    refine mul_lt_mul_of_pos_left ?_ hd
    generalize (1 : K) / 2 ^ p = u at *
    have a : (1 + u) ^ 4 ≤ (33 / 32) ^ 4 := pow_le_pow_left₀ (by linarith) (by linarith) 4
    have b : (31 / 32) ^ 4 ≤ (1 - u) ^ 4 := pow_le_pow_left₀ (by norm_num) (by linarith) 4
    norm_num at a b
    linarith
  · rw [et]; simpa using he

/-! ### Areas of cells -/

/-- The exact area of a quadratic triangle: the triangle and two thirds of the parallelograms of its edges. -/
def area6 (v0 v1 v2 v3 v4 v5 : P2 K) : K := turn v0 v1 v2 / 2 + (2 / 3 * turn v0 v3 v1 + (2 / 3 * turn v1 v4 v2 + 2 / 3 * turn v2 v5 v0))

/-- The sum of the magnitudes of its terms. -/
def size6 (v0 v1 v2 v3 v4 v5 : P2 K) : K := |turn v0 v1 v2 / 2| + (|2 / 3 * turn v0 v3 v1| + (|2 / 3 * turn v1 v4 v2| + |2 / 3 * turn v2 v5 v0|))

/-- The same for a quadratic quadrilateral. -/
def area8 (v0 v1 v2 v3 v4 v5 v6 v7 : P2 K) : K :=
  (turn v0 v1 v2 + turn v0 v2 v3) / 2 + (2 / 3 * turn v0 v4 v1 + (2 / 3 * turn v1 v5 v2 + (2 / 3 * turn v2 v6 v3 + 2 / 3 * turn v3 v7 v0)))

/-- The same for a quadratic quadrilateral. -/
def size8 (v0 v1 v2 v3 v4 v5 v6 v7 : P2 K) : K :=
  |(turn v0 v1 v2 + turn v0 v2 v3) / 2| + (|2 / 3 * turn v0 v4 v1| + (|2 / 3 * turn v1 v5 v2| + (|2 / 3 * turn v2 v6 v3| + |2 / 3 * turn v3 v7 v0|)))

theorem tri_rel (hp : 1 ≤ p) {a b c : P2 K} (h1 : Exact p a b) (h2 : Exact p a c) : Rel (1 / 2 ^ p) 5 (turn a b c / 2) (triArea R a b c) := by
  have u0 := unit_nonneg (K := K) p
  unfold triArea
  rw [rnd_half R (cross_mem R _ _), sub_exact R h1, sub_exact R h2]
  have c' := cross_rel R hp (u := (b.1 - a.1, b.2 - a.2)) (v := (c.1 - a.1, c.2 - a.2)) h1.1 h1.2 h2.1 h2.2
  have := (c'.mul u0 (Rel.refl _ (1 / 2 : K))).mono u0 (show 3 + 0 ≤ 5 by norm_num)
  rw [mul_one_div, mul_one_div] at this
  exact this

theorem quad_rel (hp : 1 ≤ p) {a b c d : P2 K} (h1 : Exact p a c) (h2 : Exact p b d) : Rel (1 / 2 ^ p) 5 ((turn a b c + turn a c d) / 2) (quadArea R a b c d) := by
  have u0 := unit_nonneg (K := K) p
  unfold quadArea
  rw [rnd_half R (cross_mem R _ _), sub_exact R h1, sub_exact R h2]
  have c' := cross_rel R hp (u := (c.1 - a.1, c.2 - a.2)) (v := (d.1 - b.1, d.2 - b.2)) h1.1 h1.2 h2.1 h2.2
  have := (c'.mul u0 (Rel.refl _ (1 / 2 : K))).mono u0 (show 3 + 0 ≤ 5 by norm_num)
  rw [mul_one_div, mul_one_div] at this
  have k : turn a b c + turn a c d = (c.1 - a.1) * (d.2 - b.2) - (c.2 - a.2) * (d.1 - b.1) := by unfold turn; ring
  rw [k]
  exact this

/-- **C143**: the area of a quadratic triangle: an error of eight roundings of the sum of the magnitudes of its parts. -/
theorem C143_triangle (hp : 1 ≤ p) (f : Bool) {v0 v1 v2 v3 v4 v5 : P2 K} (h01 : Exact p v0 v1) (h02 : Exact p v0 v2) (h03 : Exact p v0 v3) (h12 : Exact p v1 v2) (h14 : Exact p v1 v4)
    (h20 : Exact p v2 v0) (h25 : Exact p v2 v5) :
    |tri6Area R f v0 v1 v2 v3 v4 v5 - area6 v0 v1 v2 v3 v4 v5| ≤ ((1 + 1 / 2 ^ p) ^ 8 - 1) * size6 v0 v1 v2 v3 v4 v5 := by
  have := qAreaLoop_error R hp f (fun e => 2 / 3 * turn e.1 e.2.2 e.2.1) [(v0, v1, v3), (v1, v2, v4), (v2, v0, v5)] 5 (turn v0 v1 v2 / 2) (triArea R v0 v1 v2) _ le_rfl (by
    intro e he
    simp only [List.mem_cons, List.not_mem_nil, or_false] at he
    rcases he with rfl | rfl | rfl
    · exact enclosed_rel R hp f h01 h03
    · exact enclosed_rel R hp f h12 h14
    · exact enclosed_rel R hp f h20 h25) (tri_rel R hp h01 h02) le_rfl
  simpa [area6, size6, tri6Area] using this

/-- **C143**: the area of a quadratic quadrilateral, with nine. -/
theorem C143_quadrilateral (hp : 1 ≤ p) (f : Bool) {v0 v1 v2 v3 v4 v5 v6 v7 : P2 K} (h02 : Exact p v0 v2) (h13 : Exact p v1 v3) (h01 : Exact p v0 v1) (h04 : Exact p v0 v4)
    (h12 : Exact p v1 v2) (h15 : Exact p v1 v5) (h23 : Exact p v2 v3) (h26 : Exact p v2 v6) (h30 : Exact p v3 v0) (h37 : Exact p v3 v7) :
    |quad8Area R f v0 v1 v2 v3 v4 v5 v6 v7 - area8 v0 v1 v2 v3 v4 v5 v6 v7| ≤ ((1 + 1 / 2 ^ p) ^ 9 - 1) * size8 v0 v1 v2 v3 v4 v5 v6 v7 := by
  have := qAreaLoop_error R hp f (fun e => 2 / 3 * turn e.1 e.2.2 e.2.1) [(v0, v1, v4), (v1, v2, v5), (v2, v3, v6), (v3, v0, v7)] 5 ((turn v0 v1 v2 + turn v0 v2 v3) / 2)
    (quadArea R v0 v1 v2 v3) _ le_rfl (by
    intro e he
    simp only [List.mem_cons, List.not_mem_nil, or_false] at he
    rcases he with rfl | rfl | rfl | rfl
    · exact enclosed_rel R hp f h01 h04
    · exact enclosed_rel R hp f h12 h15
    · exact enclosed_rel R hp f h23 h26
    · exact enclosed_rel R hp f h30 h37) (quad_rel R hp h02 h13) le_rfl
  simpa [area8, size8, quad8Area] using this

/-- **C143**: a cell whose edges all curve outwards has parts of one sign, so that the relative error of its area is eight roundings. -/
theorem C143_triangle_convex (hp : 1 ≤ p) (f : Bool) {v0 v1 v2 v3 v4 v5 : P2 K} (h01 : Exact p v0 v1) (h02 : Exact p v0 v2) (h03 : Exact p v0 v3) (h12 : Exact p v1 v2) (h14 : Exact p v1 v4)
    (h20 : Exact p v2 v0) (h25 : Exact p v2 v5) (t : 0 ≤ turn v0 v1 v2) (t0 : 0 ≤ turn v0 v3 v1) (t1 : 0 ≤ turn v1 v4 v2) (t2 : 0 ≤ turn v2 v5 v0) :
    |tri6Area R f v0 v1 v2 v3 v4 v5 - area6 v0 v1 v2 v3 v4 v5| ≤ ((1 + 1 / 2 ^ p) ^ 8 - 1) * area6 v0 v1 v2 v3 v4 v5 := by
  have := C143_triangle R hp f h01 h02 h03 h12 h14 h20 h25
  have e : size6 v0 v1 v2 v3 v4 v5 = area6 v0 v1 v2 v3 v4 v5 := by
    unfold size6 area6
    rw [abs_of_nonneg (by linarith), abs_of_nonneg (by linarith), abs_of_nonneg (by linarith), abs_of_nonneg (by linarith)]
  rwa [e] at this

/-- **C143**: if the middle nodes are on the chords, with representable differences, the area is that of the triangle, to the last digit. -/
theorem C143_triangle_straight (hp : 2 ≤ p) (f : Bool) {v0 v1 v2 v3 v4 v5 : P2 K} (h01 : Exact p v0 v1) (h03 : Exact p v0 v3) (h12 : Exact p v1 v2) (h14 : Exact p v1 v4)
    (h20 : Exact p v2 v0) (h25 : Exact p v2 v5) (t0 : turn v0 v3 v1 = 0) (t1 : turn v1 v4 v2 = 0) (t2 : turn v2 v5 v0 = 0) :
    tri6Area R f v0 v1 v2 v3 v4 v5 = triArea R v0 v1 v2 := by
  have z : ∀ {q0 q1 q2 : P2 K}, Exact p q0 q1 → Exact p q0 q2 → turn q0 q2 q1 = 0 → qEnclosed R f q0 q1 q2 = 0 := by
    intro q0 q1 q2 h1 h2 ht
    have r := enclosed_rel R (by omega) f h1 h2
    unfold Rel at r
    rw [ht, mul_zero, abs_zero, mul_zero, sub_zero] at r
    exact abs_nonpos_iff.1 r
  refine qAreaLoop_straight R f _ _ (R.mem _) ?_
  intro e he
  simp only [List.mem_cons, List.not_mem_nil, or_false] at he
  rcases he with rfl | rfl | rfl
  · exact z h01 h03 t0
  · exact z h12 h14 t1
  · exact z h20 h25 t2

/-! ### Cases -/

theorem exact_int {a b : P2 ℚ} (m n : ℤ) (hm : |m| < 2 ^ 53) (hn : |n| < 2 ^ 53) (h1 : b.1 - a.1 = m) (h2 : b.2 - a.2 = n) : Exact 53 a b :=
  ⟨⟨m, 0, hm, by rw [h1]; simp⟩, ⟨n, 0, hn, by rw [h2]; simp⟩⟩

/-- A cell with three edges that curve outwards. -/
example (f : Bool) : |tri6Area (ieee ℚ 53 (by decide)) f (0, 0) (4, 0) (0, 4) (2, -1) (3, 3) (-1, 2) - 56 / 3| ≤ ((1 + 1 / 2 ^ 53) ^ 8 - 1) * (56 / 3) := by
  have h := C143_triangle_convex (ieee ℚ 53 (by decide)) (by decide) f (v0 := (0, 0)) (v1 := (4, 0)) (v2 := (0, 4)) (v3 := (2, -1)) (v4 := (3, 3)) (v5 := (-1, 2))
    (exact_int 4 0 (by norm_num) (by norm_num) (by norm_num) (by norm_num)) (exact_int 0 4 (by norm_num) (by norm_num) (by norm_num) (by norm_num))
    (exact_int 2 (-1) (by norm_num) (by norm_num) (by norm_num) (by norm_num)) (exact_int (-4) 4 (by norm_num) (by norm_num) (by norm_num) (by norm_num))
    (exact_int (-1) 3 (by norm_num) (by norm_num) (by norm_num) (by norm_num)) (exact_int 0 (-4) (by norm_num) (by norm_num) (by norm_num) (by norm_num))
    (exact_int (-1) (-2) (by norm_num) (by norm_num) (by norm_num) (by norm_num)) (by norm_num [turn]) (by norm_num [turn]) (by norm_num [turn]) (by norm_num [turn])
  have e : area6 ((0, 0) : P2 ℚ) (4, 0) (0, 4) (2, -1) (3, 3) (-1, 2) = 56 / 3 := by
    norm_num [area6, turn]
  rw [e] at h
  exact h

/-- A curved and a straight edge. -/
example (fused : Bool) : qIsStraight (ieee ℚ 53 (by decide)) fused (1 / 10 ^ 14) (0, 0) (6, 2) (3, 1) = true ∧ qIsStraight (ieee ℚ 53 (by decide)) fused (1 / 10 ^ 14) (0, 0) (6, 2) (3, 2) = false := by
  constructor
  · exact C143_straight_midpoint _ (by decide) fused _ (by norm_num) (exact_int 6 2 (by norm_num) (by norm_num) (by norm_num) (by norm_num)) (by decide) (by norm_num)
  · rw [← Bool.not_eq_true]
    intro h
    have := (C143_straight _ (by decide) fused _ (exact_int 6 2 (by norm_num) (by norm_num) (by norm_num) (by norm_num))
      (exact_int 3 2 (by norm_num) (by norm_num) (by norm_num) (by norm_num)) h).2
    norm_num [turn, dist2] at this

/-- A point of an edge, seen from both sides. -/
example : qInterp (ieee ℚ 53 (by decide)) false false false (1 / 3) 1 2 (1 / 4) = qInterp (ieee ℚ 53 (by decide)) false false false 1 (1 / 3) 2 (3 / 4) := by decide +kernel

example (f0 f1 : Bool) : curve 0 1 2 (5 / 8) ≤ (qBox (ieee ℚ 53 (by decide)) f0 f1 0 1 2).2 + 1 / 2 ^ 46 := by
  have := (C143_box (ieee ℚ 53 (by decide)) (by decide) f0 f1 (0 : ℚ) 1 2 (s := 5 / 8) (by norm_num) (by norm_num)).2
  refine this.trans ?_
  norm_num [slack]

end Verif.FpQuadP
