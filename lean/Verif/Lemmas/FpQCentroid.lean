import Verif.Model.FpQCentroid
import Verif.Lemmas.FpNorm
import Verif.Lemmas.FpQLength

/-! The errors of the centroid of a quadratic cell, step by step. -/

namespace Verif.Fp.QCen

open Verif.Fp Verif.Fp.QLen

variable {p : ℕ} (R : Rounding ℝ p)

/-- A sum of two products of which the first factors have a relative error of five units. -/
theorem sum2_err (hp : 1 ≤ p) (hu : (1 : ℝ) / 2 ^ p ≤ 1 / 4096) (f : Bool × Bool) {a a' b b' x y X : ℝ} (ha : |a' - a| ≤ 5 * (1 / 2 ^ p) * |a|)
    (hb : |b' - b| ≤ 5 * (1 / 2 ^ p) * |b|) (hX : |a * x| + |b * y| ≤ X) :
    |sum2 R f a' b' x y - (a * x + b * y)| ≤ 8 * (1 / 2 ^ p) * X := by
  have u0 := unit_nonneg (K := ℝ) p
  unfold sum2
  have e1 : |a' * x - a * x| ≤ 5 * (1 / 2 ^ p) * |a * x| := by
    rw [← sub_mul, abs_mul, abs_mul, ← mul_assoc]
    exact mul_le_mul_of_nonneg_right ha (abs_nonneg x)
  have e2 : |b' * y - b * y| ≤ 5 * (1 / 2 ^ p) * |b * y| := by
    rw [← sub_mul, abs_mul, abs_mul, ← mul_assoc]
    exact mul_le_mul_of_nonneg_right hb (abs_nonneg y)
  have r1 := prod_le R hp f.1 (size le_rfl e1)
  have r2 := prod_le R hp f.2 (size le_rfl e2)
  have s := add_err (tri r1 e1) (tri r2 e2)
  have z : |a * x + b * y| ≤ X := (abs_add_le _ _).trans hX
  have z0 : 0 ≤ X := (abs_nonneg _).trans z
  have A0 := abs_nonneg (a * x)
  have B0 := abs_nonneg (b * y)
  generalize |a * x| = A at *
  generalize |b * y| = B at *
  generalize a * x + b * y = Z at *
  generalize prodIf R f.1 (a' * x) + prodIf R f.2 (b' * y) = Z' at *
  clear ha hb e1 e2 r1 r2
  have s' : |Z' - Z| ≤ (6 + 5 / 4096) * (1 / 2 ^ p) * X := by
    refine s.trans ?_
    generalize (1 : ℝ) / 2 ^ p = u at *
    have q1 : u * (A + B) ≤ u * X := mul_le_mul_of_nonneg_left hX u0
    have q2 : u * (u * (A + B)) ≤ 1 / 4096 * (u * X) := mul_le_mul hu q1 (by positivity) (by norm_num)
    linarith
  have t := tri (rnd_le R hp (size z s')) s'
  refine t.trans ?_
  generalize (1 : ℝ) / 2 ^ p = u at *
  have q0 := mul_nonneg u0 z0
  have q2 : u * (u * X) ≤ 1 / 4096 * (u * X) := mul_le_mul_of_nonneg_right hu q0
  linarith

/-- The coordinates of the unit vector. -/
theorem unit_err (hp : 1 ≤ p) (hu : (1 : ℝ) / 2 ^ p ≤ 1 / 4096) {N n x : ℝ} (N0 : 0 < N) (h : Off (1 / 2 ^ p) 3 N n) :
    0 < n ∧ |R.rnd (x / n) - x / N| ≤ 5 * (1 / 2 ^ p) * |x / N| := by
  have u0 := unit_nonneg (K := ℝ) p
  have n0 : 0 < n := Off.pos (lt_of_le_of_lt hu (by norm_num)) N0 h
  refine ⟨n0, ?_⟩
  have h1 := h.1
  have h2 := h.2
  have e : |x / n - x / N| ≤ (3 + 1 / 100) * (1 / 2 ^ p) * |x / N| := by
    have r : x / n - x / N = (N - n) / n * (x / N) := by field_simp
    rw [r, abs_mul]
    refine mul_le_mul_of_nonneg_right ?_ (abs_nonneg _)
    rw [abs_div, abs_of_pos n0, div_le_iff₀ n0, abs_le]
    generalize (1 : ℝ) / 2 ^ p = u at *
    have c1 : N * (1 - 3 * u) ≤ n := le_trans (mul_le_mul_of_nonneg_left (by nlinarith [mul_nonneg u0 u0]) N0.le) h1
    have c2 : n ≤ N * (1 + (3 + 1 / 1000) * u) := h2.trans (mul_le_mul_of_nonneg_left (by nlinarith [mul_nonneg u0 u0, mul_nonneg (mul_nonneg u0 u0) u0]) N0.le)
    have q := mul_nonneg N0.le u0
    have q2 : N * u * u ≤ 1 / 4096 * (N * u) := by nlinarith
    have q3 : u * (N * (1 - 3 * u)) ≤ u * n := mul_le_mul_of_nonneg_left c1 u0
    constructor <;> nlinarith
  have t := tri (rnd_le R hp (size le_rfl e)) e
  refine t.trans ?_
  have A0 := abs_nonneg (x / N)
  generalize |x / N| = A at *
  generalize (1 : ℝ) / 2 ^ p = u at *
  have q2 : u * (u * A) ≤ 1 / 4096 * (u * A) := mul_le_mul_of_nonneg_right hu (mul_nonneg u0 A0)
  have := mul_nonneg u0 A0
  linarith

/-- The sum of the magnitudes of the terms of a scalar product with a unit vector. -/
theorem cauchy {a b x y L : ℝ} (h : a ^ 2 + b ^ 2 = 1) (L0 : 0 ≤ L) (hL : x ^ 2 + y ^ 2 ≤ L ^ 2) : |a * x| + |b * y| ≤ L := by
  refine abs_le_of_sq_le_sq' ?_ L0 |>.2
  rw [abs_mul, abs_mul]
  have e : (|a| * |x| + |b| * |y|) ^ 2 = (|a| ^ 2 + |b| ^ 2) * (|x| ^ 2 + |y| ^ 2) - (|a| * |y| - |b| * |x|) ^ 2 := by ring
  rw [e, sq_abs, sq_abs, sq_abs, sq_abs, h]
  nlinarith [sq_nonneg (|a| * |y| - |b| * |x|)]

/-- A product with the tenth. -/
theorem tenth_err (hp : 1 ≤ p) (hu : (1 : ℝ) / 2 ^ p ≤ 1 / 4096) {x x' X e : ℝ} (hx : |x| ≤ X) (h : |x' - x| ≤ e * (1 / 2 ^ p) * X) (e1 : e ≤ 64) :
    |R.rnd (x' * R.rnd (1 / 10)) - x / 10| ≤ (e + 3) / 10 * (1 / 2 ^ p) * X := by
  have u0 := unit_nonneg (K := ℝ) p
  have X0 : 0 ≤ X := (abs_nonneg _).trans hx
  have t : |R.rnd (1 / 10) - (1 / 10 : ℝ)| ≤ 1 / 2 ^ p * (1 / 10) := rnd_le R hp (by rw [abs_of_pos (by norm_num)])
  have t' : |R.rnd (1 / 10)| ≤ (1 / 10 : ℝ) + 1 / 2 ^ p * (1 / 10) := size (by rw [abs_of_pos (by norm_num)]) t
  have m := mul_err hx t' h t
  rw [mul_one_div] at m
  have z : |x / 10| ≤ X / 10 := by
    rw [abs_div, abs_of_pos (by norm_num : (0 : ℝ) < 10)]
    exact div_le_div_of_nonneg_right hx (by norm_num)
  have m' : |x' * R.rnd (1 / 10) - x / 10| ≤ (e + 1 + 64 / 4096) / 10 * (1 / 2 ^ p) * X := by
    refine m.trans ?_
    generalize (1 : ℝ) / 2 ^ p = u at *
    have q := mul_nonneg u0 X0
    have q2 : u * (u * X) ≤ 1 / 4096 * (u * X) := mul_le_mul_of_nonneg_right hu q
    have q3 : e * (u * (u * X)) ≤ 64 * (1 / 4096 * (u * X)) := mul_le_mul e1 q2 (by positivity) (by norm_num)
    linarith
  refine (tri (rnd_le R hp (size z m')) m').trans ?_
  generalize (1 : ℝ) / 2 ^ p = u at *
  have q := mul_nonneg u0 X0
  have q2 : u * (u * X) ≤ 1 / 4096 * (u * X) := mul_le_mul_of_nonneg_right hu q
  have q3 : e * (u * (u * X)) ≤ 64 * (1 / 4096 * (u * X)) := mul_le_mul e1 q2 (by positivity) (by norm_num)
  linarith

/-- The sum of line 962. -/
theorem sum34_err (hp : 1 ≤ p) (hu : (1 : ℝ) / 2 ^ p ≤ 1 / 4096) (f : Bool × Bool) {a a' b b' L : ℝ} (ha : |a| ≤ L) (hb : |b| ≤ L)
    (ga : |a' - a| ≤ 8 * (1 / 2 ^ p) * L) (gb : |b' - b| ≤ 8 * (1 / 2 ^ p) * L) :
    |sum2 R f 3 4 a' b' - (3 * a + 4 * b)| ≤ 11 * (1 / 2 ^ p) * (7 * L) := by
  have u0 := unit_nonneg (K := ℝ) p
  have L0 : 0 ≤ L := (abs_nonneg _).trans ha
  unfold sum2
  have e1 : |3 * a' - 3 * a| ≤ 3 * (8 * (1 / 2 ^ p) * L) := by
    rw [← mul_sub, abs_mul, abs_of_pos (by norm_num : (0 : ℝ) < 3)]
    linarith
  have e2 : |4 * b' - 4 * b| ≤ 4 * (8 * (1 / 2 ^ p) * L) := by
    rw [← mul_sub, abs_mul, abs_of_pos (by norm_num : (0 : ℝ) < 4)]
    linarith
  have z1 : |3 * a| ≤ 3 * L := by rw [abs_mul, abs_of_pos (by norm_num : (0 : ℝ) < 3)]; linarith
  have z2 : |4 * b| ≤ 4 * L := by rw [abs_mul, abs_of_pos (by norm_num : (0 : ℝ) < 4)]; linarith
  have s := add_err (tri (prod_le R hp f.1 (size z1 e1)) e1) (tri (prod_le R hp f.2 (size z2 e2)) e2)
  have z : |3 * a + 4 * b| ≤ 7 * L := (abs_add_le _ _).trans (by linarith)
  refine (tri (rnd_le R hp (size z s)) s).trans ?_
  clear s e1 e2 z1 z2 z
  generalize (1 : ℝ) / 2 ^ p = u at *
  have q := mul_nonneg u0 L0
  have q2 : u * (u * L) ≤ 1 / 4096 * (u * L) := mul_le_mul_of_nonneg_right hu q
  have q3 : u * (u * (u * L)) ≤ 1 / 4096 * (1 / 4096 * (u * L)) := mul_le_mul hu q2 (by positivity) (by norm_num)
  linarith

/-- The way back: a coordinate of the matrix with the vector, and the shift. -/
theorem back_err (hp : 1 ≤ p) (hu : (1 : ℝ) / 2 ^ p ≤ 1 / 4096) (f : Bool × Bool) {a a' b b' x x' y y' L q : ℝ} (a1 : |a| ≤ 1) (b1 : |b| ≤ 1)
    (ha : |a' - a| ≤ 5 * (1 / 2 ^ p) * |a|) (hb : |b' - b| ≤ 5 * (1 / 2 ^ p) * |b|) (hx : |x| ≤ 7 / 10 * L) (hy : |y| ≤ 4 / 10 * L)
    (gx : |x' - x| ≤ 10 * (1 / 2 ^ p) * L) (gy : |y' - y| ≤ 6 * (1 / 2 ^ p) * L) (hz : |a * x + b * y| ≤ L) :
    |R.rnd (sum2 R f a' b' x' y' + q) - (a * x + b * y + q)| ≤ 1 / 2 ^ p * (28 * L + |q|) := by
  have u0 := unit_nonneg (K := ℝ) p
  have L0 : 0 ≤ L := (abs_nonneg _).trans hz
  have ha' : |a' - a| ≤ 5 * (1 / 2 ^ p) := ha.trans (by nlinarith)
  have hb' : |b' - b| ≤ 5 * (1 / 2 ^ p) := hb.trans (by nlinarith)
  have m1 := mul_err a1 (size hx gx) ha' gx
  have m2 := mul_err b1 (size hy gy) hb' gy
  have n1 : |a' * x' - a * x| ≤ 14 * (1 / 2 ^ p) * L := by
    refine m1.trans ?_
    generalize (1 : ℝ) / 2 ^ p = u at *
    have q := mul_nonneg u0 L0
    have q2 : u * (u * L) ≤ 1 / 4096 * (u * L) := mul_le_mul_of_nonneg_right hu q
    linarith
  have n2 : |b' * y' - b * y| ≤ 9 * (1 / 2 ^ p) * L := by
    refine m2.trans ?_
    generalize (1 : ℝ) / 2 ^ p = u at *
    have q := mul_nonneg u0 L0
    have q2 : u * (u * L) ≤ 1 / 4096 * (u * L) := mul_le_mul_of_nonneg_right hu q
    linarith
  have z1 : |a * x| ≤ 7 / 10 * L := by rw [abs_mul]; nlinarith [abs_nonneg x]
  have z2 : |b * y| ≤ 4 / 10 * L := by rw [abs_mul]; nlinarith [abs_nonneg y]
  have s := add_err (tri (prod_le R hp f.1 (size z1 n1)) n1) (tri (prod_le R hp f.2 (size z2 n2)) n2)
  have t := tri (rnd_le R hp (size hz s)) s
  unfold sum2
  generalize R.rnd (prodIf R f.1 (a' * x') + prodIf R f.2 (b' * y')) = Z' at *
  generalize a * x + b * y = Z at *
  have t' : |Z' - Z| ≤ 26 * (1 / 2 ^ p) * L := by
    refine t.trans ?_
    clear t s m1 m2 n1 n2 z1 z2
    generalize (1 : ℝ) / 2 ^ p = u at *
    have q := mul_nonneg u0 L0
    have q2 : u * (u * L) ≤ 1 / 4096 * (u * L) := mul_le_mul_of_nonneg_right hu q
    have q3 : u * (u * (u * L)) ≤ 1 / 4096 * (1 / 4096 * (u * L)) := mul_le_mul hu q2 (by positivity) (by norm_num)
    linarith
  have w : |Z' + q - (Z + q)| ≤ 26 * (1 / 2 ^ p) * L := by rwa [add_sub_add_right_eq_sub]
  have z : |Z + q| ≤ L + |q| := (abs_add_le _ _).trans (by linarith)
  refine (tri (rnd_le R hp (size z w)) w).trans ?_
  clear t s m1 m2 n1 n2 z1 z2 w z t'
  generalize (1 : ℝ) / 2 ^ p = u at *
  have q := mul_nonneg u0 L0
  have q2 : u * (u * L) ≤ 1 / 4096 * (u * L) := mul_le_mul_of_nonneg_right hu q
  linarith

set_option maxHeartbeats 1000000 in
/-- The two coordinates, for a unit vector `(a, b)` and its roundings, the chord `N (a, b)` and the vector `(wx, wy)` to the third node. -/
theorem core_err (hp1 : 1 ≤ p) (hu : (1 : ℝ) / 2 ^ p ≤ 1 / 4096) (m : QCenFuse) {a a' b b' N L wx wy qx qy : ℝ} (L0 : 0 ≤ L) (N0 : 0 < N) (NL : N ≤ L)
    (un : a ^ 2 + b ^ 2 = 1) (ex : |a' - a| ≤ 5 * (1 / 2 ^ p) * |a|) (ey : |b' - b| ≤ 5 * (1 / 2 ^ p) * |b|)
    (l1 : (a * N) ^ 2 + (b * N) ^ 2 ≤ L ^ 2) (l2 : wx ^ 2 + wy ^ 2 ≤ L ^ 2) :
    |R.rnd (sum2 R m.ux a' (-b') (R.rnd (sum2 R m.w 3 4 (sum2 R m.d2 a' b' (a * N) (b * N)) (sum2 R m.d3 a' b' wx wy) * R.rnd (1 / 10)))
        (R.rnd (R.rnd (4 * sum2 R m.d4 (-b') a' wx wy) * R.rnd (1 / 10))) + qx) - (qx + (3 * (a * N) + 4 * wx) / 10)| ≤ 1 / 2 ^ p * (28 * L + |qx|) ∧
    |R.rnd (sum2 R m.uy b' a' (R.rnd (sum2 R m.w 3 4 (sum2 R m.d2 a' b' (a * N) (b * N)) (sum2 R m.d3 a' b' wx wy) * R.rnd (1 / 10)))
        (R.rnd (R.rnd (4 * sum2 R m.d4 (-b') a' wx wy) * R.rnd (1 / 10))) + qy) - (qy + (3 * (b * N) + 4 * wy) / 10)| ≤ 1 / 2 ^ p * (28 * L + |qy|) := by
  have u0 := unit_nonneg (K := ℝ) p
  have a1 : |a| ≤ 1 := (sq_le_one_iff_abs_le_one a).1 (by nlinarith [sq_nonneg b])
  have b1 : |b| ≤ 1 := (sq_le_one_iff_abs_le_one b).1 (by nlinarith [sq_nonneg a])
  have un' : (-b) ^ 2 + a ^ 2 = 1 := by linarith [un]
  have eb : |-b' - -b| ≤ 5 * (1 / 2 ^ p) * |-b| := by rwa [← neg_add', abs_neg, abs_neg, ← sub_eq_add_neg]
  have d2 := sum2_err R hp1 hu m.d2 ex ey (cauchy un L0 l1)
  have d3 := sum2_err R hp1 hu m.d3 ex ey (cauchy un L0 l2)
  have d4 := sum2_err R hp1 hu m.d4 eb ex (cauchy un' L0 l2)
  have k2 : a * (a * N) + b * (b * N) = N := by linear_combination N * un
  rw [k2] at d2
  have z2 : |N| ≤ L := by rwa [abs_of_pos N0]
  have z3 : |a * wx + b * wy| ≤ L := (abs_add_le _ _).trans (cauchy un L0 l2)
  have z4 : |-b * wx + a * wy| ≤ L := (abs_add_le _ _).trans (cauchy un' L0 l2)
  have c0 := sum34_err R hp1 hu m.w z2 z3 d2 d3
  have w0 : |3 * N + 4 * (a * wx + b * wy)| ≤ 7 * L := by
    refine (abs_add_le _ _).trans ?_
    rw [abs_mul, abs_mul, abs_of_pos (by norm_num : (0 : ℝ) < 3), abs_of_pos (by norm_num : (0 : ℝ) < 4)]
    linarith
  have t0 := tenth_err R hp1 hu w0 c0 (by norm_num)
  have w1 : |4 * (-b * wx + a * wy)| ≤ 4 * L := by
    rw [abs_mul, abs_of_pos (by norm_num : (0 : ℝ) < 4)]
    linarith
  have c1 : |R.rnd (4 * sum2 R m.d4 (-b') a' wx wy) - 4 * (-b * wx + a * wy)| ≤ 10 * (1 / 2 ^ p) * (4 * L) := by
    have g : |4 * sum2 R m.d4 (-b') a' wx wy - 4 * (-b * wx + a * wy)| ≤ 4 * (8 * (1 / 2 ^ p) * L) := by
      rw [← mul_sub, abs_mul, abs_of_pos (by norm_num : (0 : ℝ) < 4)]
      linarith
    refine (tri (rnd_le R hp1 (size w1 g)) g).trans ?_
    clear g t0 c0 d2 d3 d4 ex ey eb
    generalize (1 : ℝ) / 2 ^ p = u at *
    have q := mul_nonneg u0 L0
    have q2 : u * (u * L) ≤ 1 / 4096 * (u * L) := mul_le_mul_of_nonneg_right hu q
    linarith
  have t1 := tenth_err R hp1 hu w1 c1 (by norm_num)
  have x0 : |(3 * N + 4 * (a * wx + b * wy)) / 10| ≤ 7 / 10 * L := by
    rw [abs_div, abs_of_pos (by norm_num : (0 : ℝ) < 10)]
    linarith
  have y0 : |4 * (-b * wx + a * wy) / 10| ≤ 4 / 10 * L := by
    rw [abs_div, abs_of_pos (by norm_num : (0 : ℝ) < 10)]
    linarith
  have uL := mul_nonneg u0 L0
  have gx := t0.trans (show (11 + 3) / 10 * (1 / 2 ^ p) * (7 * L) ≤ 10 * (1 / 2 ^ p) * L by linarith)
  have gy := t1.trans (show (10 + 3) / 10 * (1 / 2 ^ p) * (4 * L) ≤ 6 * (1 / 2 ^ p) * L by linarith)
  have r1 : a * ((3 * N + 4 * (a * wx + b * wy)) / 10) + -b * (4 * (-b * wx + a * wy) / 10) = (3 * (a * N) + 4 * wx) / 10 := by
    linear_combination 4 / 10 * wx * un
  have r2 : b * ((3 * N + 4 * (a * wx + b * wy)) / 10) + a * (4 * (-b * wx + a * wy) / 10) = (3 * (b * N) + 4 * wy) / 10 := by
    linear_combination 4 / 10 * wy * un
  have le1 : ∀ {x y : ℝ}, x ^ 2 + y ^ 2 ≤ L ^ 2 → |x| ≤ L ∧ |y| ≤ L := fun {x y} h =>
    ⟨abs_le_of_sq_le_sq (by nlinarith [sq_nonneg y]) L0, abs_le_of_sq_le_sq (by nlinarith [sq_nonneg x]) L0⟩
  have bd : ∀ {x y : ℝ}, |x| ≤ L → |y| ≤ L → |(3 * x + 4 * y) / 10| ≤ L := by
    intro x y hx hy
    rw [abs_le] at *
    constructor <;> linarith [hx.1, hx.2, hy.1, hy.2]
  have f1 := back_err R hp1 hu m.ux (q := qx) a1 (by rwa [abs_neg]) ex eb x0 y0 gx gy (by rw [r1]; exact bd (le1 l1).1 (le1 l2).1)
  have f2 := back_err R hp1 hu m.uy (q := qy) b1 a1 ey ex x0 y0 gx gy (by rw [r2]; exact bd (le1 l1).2 (le1 l2).2)
  rw [r1] at f1
  rw [r2] at f2
  rw [add_comm qx, add_comm qy]
  exact ⟨f1, f2⟩

/-- The centroid of the region between a quadratic segment and its chord. -/
theorem enclosed_centroid_err (hp : 12 ≤ p) (m : QCenFuse) {q0 q1 q2 : P2 ℝ} (h1 : IsFp p (q1.1 - q0.1) ∧ IsFp p (q1.2 - q0.2))
    (h2 : IsFp p (q2.1 - q0.1) ∧ IsFp p (q2.2 - q0.2)) (hne : q0 ≠ q1) {L : ℝ} (L0 : 0 ≤ L)
    (l1 : (q1.1 - q0.1) ^ 2 + (q1.2 - q0.2) ^ 2 ≤ L ^ 2) (l2 : (q2.1 - q0.1) ^ 2 + (q2.2 - q0.2) ^ 2 ≤ L ^ 2) :
    ∃ c, qEnclosedCentroid R Real.sqrt m q0 q1 q2 = some c ∧
      |c.1 - (3 * q0.1 + 3 * q1.1 + 4 * q2.1) / 10| ≤ 1 / 2 ^ p * (28 * L + |q0.1|) ∧
      |c.2 - (3 * q0.2 + 3 * q1.2 + 4 * q2.2) / 10| ≤ 1 / 2 ^ p * (28 * L + |q0.2|) := by
  have hp1 : 1 ≤ p := by omega
  have u0 := unit_nonneg (K := ℝ) p
  have hu : (1 : ℝ) / 2 ^ p ≤ 1 / 4096 := by
    refine one_div_le_one_div_of_le (by norm_num) ?_
    calc (4096 : ℝ) = 2 ^ 12 := by norm_num
      _ ≤ 2 ^ p := pow_le_pow_right₀ (by norm_num) hp
  have hs : IsSqrt Real.sqrt := fun x h => ⟨Real.sqrt_nonneg x, Real.mul_self_sqrt h⟩
  have on := norm_off R hp1 hs m.n (v := [q1.1 - q0.1, q1.2 - q0.2]) (by
    intro x hx
    simp only [List.mem_cons, List.not_mem_nil, or_false] at hx
    rcases hx with rfl | rfl
    · exact h1.1
    · exact h1.2)
  have ss : sumSq [q1.1 - q0.1, q1.2 - q0.2] = (q1.1 - q0.1) ^ 2 + (q1.2 - q0.2) ^ 2 := by simp [sumSq]; ring
  rw [ss] at on
  unfold qEnclosedCentroid
  have s1 : sub R q1 q0 = (q1.1 - q0.1, q1.2 - q0.2) := by unfold sub; rw [R.id h1.1, R.id h1.2]
  have s2 : sub R q2 q0 = (q2.1 - q0.1, q2.2 - q0.2) := by unfold sub; rw [R.id h2.1, R.id h2.2]
  dsimp only
  rw [s1, s2]
  dsimp only
  have nz : 0 < (q1.1 - q0.1) ^ 2 + (q1.2 - q0.2) ^ 2 := by
    by_contra hn
    refine hne (Prod.ext ?_ ?_)
    · nlinarith [sq_nonneg (q1.1 - q0.1), sq_nonneg (q1.2 - q0.2)]
    · nlinarith [sq_nonneg (q1.1 - q0.1), sq_nonneg (q1.2 - q0.2)]
  have N0 : 0 < √((q1.1 - q0.1) ^ 2 + (q1.2 - q0.2) ^ 2) := Real.sqrt_pos.2 nz
  have NN := Real.sq_sqrt nz.le
  have NL : √((q1.1 - q0.1) ^ 2 + (q1.2 - q0.2) ^ 2) ≤ L := Real.sqrt_le_iff.2 ⟨L0, l1⟩
  have g0 : q0.1 + (3 * (q1.1 - q0.1) + 4 * (q2.1 - q0.1)) / 10 = (3 * q0.1 + 3 * q1.1 + 4 * q2.1) / 10 := by ring
  have g1 : q0.2 + (3 * (q1.2 - q0.2) + 4 * (q2.2 - q0.2)) / 10 = (3 * q0.2 + 3 * q1.2 + 4 * q2.2) / 10 := by ring
  rw [← g0, ← g1]
  generalize √((q1.1 - q0.1) ^ 2 + (q1.2 - q0.2) ^ 2) = N at *
  generalize norm R Real.sqrt m.n [q1.1 - q0.1, q1.2 - q0.2] = n at *
  generalize q1.1 - q0.1 = vx at *
  generalize q1.2 - q0.2 = vy at *
  generalize q2.1 - q0.1 = wx at *
  generalize q2.2 - q0.2 = wy at *
  have e3 : ([vx, vy].length + 3) / 2 + 1 = 3 := by simp
  rw [e3] at on
  obtain ⟨n0, ex⟩ := unit_err R hp1 hu (x := vx) N0 on
  obtain ⟨-, ey⟩ := unit_err R hp1 hu (x := vy) N0 on
  rw [if_neg n0.ne']
  have vx' : vx = vx / N * N := by field_simp
  have vy' : vy = vy / N * N := by field_simp
  have un : (vx / N) ^ 2 + (vy / N) ^ 2 = 1 := by
    rw [div_pow, div_pow, ← add_div, ← NN, div_self (pow_pos N0 2).ne']
  generalize R.rnd (vx / n) = a' at *
  generalize R.rnd (vy / n) = b' at *
  generalize vx / N = a at *
  generalize vy / N = b at *
  subst vx' vy'
  exact ⟨_, rfl, core_err R hp1 hu m L0 N0 NL un ex ey l1 l2⟩

end Verif.Fp.QCen
