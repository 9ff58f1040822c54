import Verif.Model.FpQRay
import Verif.Lemmas.FpQuad
import Verif.Lemmas.FpRoots

/-! Lemmas on rays and quadratic segments in floating-point arithmetic. -/

namespace Verif.Fp

variable {p : ℕ} (R : Rounding ℝ p)

/-- The cross product of a vector known with an error. -/
theorem cross_near (hp : 8 ≤ p) {u v d : P2 ℝ} {M e D : ℝ} (hu : IsFp2 p u) (hd : IsFp2 p d) (m1 : |u.1| ≤ M) (m2 : |u.2| ≤ M) (e1 : |u.1 - v.1| ≤ e) (e2 : |u.2 - v.2| ≤ e)
    (d1 : |d.1| ≤ D) (d2 : |d.2| ≤ D) :
    |cross R u d - (v.1 * d.2 - v.2 * d.1)| ≤ 61 / 10 * (1 / 2 ^ p) * (M * D) + 2 * (e * D) ∧ |cross R u d| ≤ 21 / 10 * (M * D) := by
  have u0 := unit_nonneg (K := ℝ) p
  have u1 := u_le hp
  have c := cross_rel R (by omega) hu.1 hu.2 hd.1 hd.2
  unfold Rel at c
  have D0 : 0 ≤ D := (abs_nonneg _).trans d1
  have M0 : 0 ≤ M := (abs_nonneg _).trans m1
  have e0 : 0 ≤ e := (abs_nonneg _).trans e1
  have s : |u.1 * d.2 - u.2 * d.1| ≤ 2 * (M * D) := by
    refine (abs_sub _ _).trans ?_
    rw [abs_mul, abs_mul]
    have := mul_le_mul m1 d2 (abs_nonneg _) M0
    have := mul_le_mul m2 d1 (abs_nonneg _) M0
    linarith
  have t : |(u.1 * d.2 - u.2 * d.1) - (v.1 * d.2 - v.2 * d.1)| ≤ 2 * (e * D) := by
    have e' : (u.1 * d.2 - u.2 * d.1) - (v.1 * d.2 - v.2 * d.1) = (u.1 - v.1) * d.2 - (u.2 - v.2) * d.1 := by ring
    rw [e']
    refine (abs_sub _ _).trans ?_
    rw [abs_mul, abs_mul]
    have := mul_le_mul e1 d2 (abs_nonneg _) e0
    have := mul_le_mul e2 d1 (abs_nonneg _) e0
    linarith
  generalize (1 : ℝ) / 2 ^ p = w at *
  have k : (1 + w) ^ 3 - 1 ≤ 61 / 20 * w := by
    have a2 : w ^ 2 ≤ 1 / 256 * w := by nlinarith
    have a3 : w ^ 3 ≤ 1 / 256 * w ^ 2 := by nlinarith [sq_nonneg w]
    have e' : (1 + w) ^ 3 - 1 = 3 * w + 3 * w ^ 2 + w ^ 3 := by ring
    rw [e']; linarith
  have MD := mul_nonneg M0 D0
  have c2 : |cross R u d - (u.1 * d.2 - u.2 * d.1)| ≤ 61 / 20 * w * (2 * (M * D)) :=
    c.trans ((mul_le_mul_of_nonneg_right k (abs_nonneg _)).trans (mul_le_mul_of_nonneg_left s (by linarith)))
  constructor
  · have := abs_sub_le (cross R u d) (u.1 * d.2 - u.2 * d.1) (v.1 * d.2 - v.2 * d.1)
    linarith
  · have := abs_sub_abs_le_abs_sub (cross R u d) (u.1 * d.2 - u.2 * d.1)
    have : w * (M * D) ≤ 1 / 256 * (M * D) := mul_le_mul_of_nonneg_right u1 MD
    linarith

/-- A value that solves a quadratic equation up to the error of `solveQuadratic`. -/
theorem residual {a b c s x1 x2 w A B : ℝ} (w0 : 0 ≤ w) (w1 : w ≤ 1 / 256) (h : ∀ x, a * x ^ 2 + b * x + c = a * (x - x1) * (x - x2)) (hs : |s - x1| ≤ 7 * w * |x1|)
    (s0 : 0 ≤ s) (s1 : s ≤ 1) (hA : |a| ≤ A) (hB : |b| ≤ B) : |a * s ^ 2 + b * s + c| ≤ w * (8 * B + 16 * A) := by
  have A0 := (abs_nonneg _).trans hA
  have B0 := (abs_nonneg _).trans hB
  have x1b : |x1| ≤ 103 / 100 := by
    have t := abs_sub_abs_le_abs_sub x1 s
    rw [abs_sub_comm x1 s, abs_of_nonneg s0] at t
    have := mul_le_mul_of_nonneg_right w1 (abs_nonneg x1)
    nlinarith
  have hb : b = -(a * x1 + a * x2) := by
    have h0 := h 0
    have h1 := h 1
    have h2 := h (-1)
    linarith
  have ax2 : |a * x2| ≤ B + 103 / 100 * A := by
    have e : a * x2 = -b - a * x1 := by rw [hb]; ring
    rw [e]
    refine (abs_sub _ _).trans ?_
    rw [abs_neg, abs_mul]
    have := mul_le_mul hA x1b (abs_nonneg _) A0
    linarith
  have k : |a * (s - x2)| ≤ B + 203 / 100 * A := by
    rw [mul_sub]
    refine (abs_sub _ _).trans ?_
    have : |a * s| ≤ A := by
      rw [abs_mul, abs_of_nonneg s0]
      nlinarith [abs_nonneg a]
    linarith
  rw [h, show a * (s - x1) * (s - x2) = (s - x1) * (a * (s - x2)) by ring, abs_mul]
  have l : |s - x1| ≤ 721 / 100 * w := hs.trans (by nlinarith)
  refine (mul_le_mul l k (abs_nonneg _) (by linarith)).trans ?_
  nlinarith [mul_nonneg w0 A0, mul_nonneg w0 B0]

/-- A computed dot product. -/
theorem dot2_near (hp : 8 ≤ p) (f : Bool) {x y x' y' d1 d2 M e D : ℝ} (hx : |x| ≤ M) (hy : |y| ≤ M) (ex : |x - x'| ≤ e) (ey : |y - y'| ≤ e) (h1 : |d1| ≤ D) (h2 : |d2| ≤ D) :
    |dot R f [x, y] [d1, d2] - (x' * d1 + y' * d2)| ≤ 41 / 10 * (1 / 2 ^ p) * (M * D) + 2 * (e * D) := by
  have u0 := unit_nonneg (K := ℝ) p
  have u1 := u_le hp
  have hp1 : 1 ≤ p := by omega
  have D0 : 0 ≤ D := (abs_nonneg _).trans h1
  have M0 : 0 ≤ M := (abs_nonneg _).trans hx
  have e0 : 0 ≤ e := (abs_nonneg _).trans ex
  have hd : dot R f [x, y] [d1, d2] = R.rnd (R.rnd (x * d1) + prodIf R f (y * d2)) := by
    show mulAdd R f (R.rnd (x * d1)) y d2 = _
    unfold mulAdd prodIf
    cases f <;> simp
  rw [hd]
  have s : _ ≤ ((1 + 1 / 2 ^ p : ℝ) ^ 2 - 1) * _ := Rel.step R hp1 (k := 1) (l := 1) le_rfl ((Rel.refl _ (x * d1)).rnd R hp1) le_rfl ((Rel.refl _ (y * d2)).prod R hp1 f)
  generalize R.rnd (R.rnd (x * d1) + prodIf R f (y * d2)) = r at *
  generalize (1 : ℝ) / 2 ^ p = w at *
  have k : (1 + w) ^ 2 - 1 ≤ 41 / 20 * w := by nlinarith
  have m : |x * d1| + |y * d2| ≤ 2 * (M * D) := by
    rw [abs_mul, abs_mul]
    have := mul_le_mul hx h1 (abs_nonneg _) M0
    have := mul_le_mul hy h2 (abs_nonneg _) M0
    linarith
  have s2 := s.trans ((mul_le_mul_of_nonneg_right k (by positivity)).trans (mul_le_mul_of_nonneg_left m (by linarith)))
  have t : |(x * d1 + y * d2) - (x' * d1 + y' * d2)| ≤ 2 * (e * D) := by
    have e' : (x * d1 + y * d2) - (x' * d1 + y' * d2) = (x - x') * d1 + (y - y') * d2 := by ring
    rw [e']
    refine (abs_add_le _ _).trans ?_
    rw [abs_mul, abs_mul]
    have := mul_le_mul ex h1 (abs_nonneg _) e0
    have := mul_le_mul ey h2 (abs_nonneg _) e0
    linarith
  have := abs_sub_le r (x * d1 + y * d2) (x' * d1 + y' * d2)
  linarith

/-- One coordinate of the point of the curve, seen from the origin of the ray. -/
theorem qRayPoint_near (hp : 8 ≤ p) (fi fo : Bool) {voc vb va s c b a S W : ℝ} (s0 : 0 ≤ s) (s1 : s ≤ 1) (hvb : |vb| ≤ 4 * S) (hva : |va| ≤ 3 * S)
    (eb : |vb - b| ≤ 10 * (1 / 2 ^ p) * S) (ea : |va - a| ≤ 5 * (1 / 2 ^ p) * S) (hc : |c| ≤ W) (ec : |voc - c| ≤ 1 / 2 ^ p * W) :
    |qRayPoint R fi fo voc vb va s - (c + s * b + s ^ 2 * a)| ≤ 1 / 2 ^ p * (40 * S + 21 / 10 * W) ∧ |qRayPoint R fi fo voc vb va s| ≤ 15 / 2 * S + 51 / 50 * W := by
  have u0 := unit_nonneg (K := ℝ) p
  have u1 := u_le hp
  have hp1 : 1 ≤ p := by omega
  have S0 : 0 ≤ S := by linarith [abs_nonneg va]
  have W0 : 0 ≤ W := (abs_nonneg _).trans hc
  unfold qRayPoint
  have t1 := ((Rel.refl (1 / 2 ^ p) (s * va)).prod R hp1 fi)
  generalize prodIf R fi (s * va) = x1 at *
  have r1 := rel_u R hp1 (vb + x1)
  generalize R.rnd (vb + x1) = x2 at *
  have t2 := ((Rel.refl (1 / 2 ^ p) (s * x2)).prod R hp1 fo)
  generalize prodIf R fo (s * x2) = x3 at *
  have r2 := rel_u R hp1 (voc + x3)
  generalize R.rnd (voc + x3) = x4 at *
  unfold Rel at t1 t2
  generalize (1 : ℝ) / 2 ^ p = w at *
  rw [zero_add, pow_one, add_sub_cancel_left] at t1 t2
  have sm : ∀ y : ℝ, |s * y| ≤ |y| := fun y => by
    rw [abs_mul, abs_of_nonneg s0]
    exact mul_le_of_le_one_left (abs_nonneg _) s1
  have wS : w * S ≤ 1 / 256 * S := mul_le_mul_of_nonneg_right u1 S0
  have wW : w * W ≤ 1 / 256 * W := mul_le_mul_of_nonneg_right u1 W0
  have wS0 := mul_nonneg u0 S0
  have wW0 := mul_nonneg u0 W0
  have a1 : |x1 - s * va| ≤ w * (3 * S) := t1.trans (mul_le_mul_of_nonneg_left ((sm va).trans hva) u0)
  have a2 : |x1| ≤ 3 * S + w * (3 * S) := by linarith [abs_sub_abs_le_abs_sub x1 (s * va), sm va]
  have a3 : |vb + x1| ≤ 71 / 10 * S := by linarith [abs_add_le vb x1]
  have a4 : |x2 - (vb + x1)| ≤ w * (71 / 10 * S) := r1.trans (mul_le_mul_of_nonneg_left a3 u0)
  have a5 : |x2| ≤ 72 / 10 * S := by linarith [abs_sub_abs_le_abs_sub x2 (vb + x1)]
  have a6 : |x3 - s * x2| ≤ w * (72 / 10 * S) := t2.trans (mul_le_mul_of_nonneg_left ((sm x2).trans a5) u0)
  have a7 : |x3| ≤ 73 / 10 * S := by linarith [abs_sub_abs_le_abs_sub x3 (s * x2), sm x2]
  have a8 : |voc| ≤ W + w * W := by linarith [abs_sub_abs_le_abs_sub voc c]
  have a9 : |voc + x3| ≤ 73 / 10 * S + 101 / 100 * W := by linarith [abs_add_le voc x3]
  have a10 : |x4 - (voc + x3)| ≤ w * (73 / 10 * S + 101 / 100 * W) := r2.trans (mul_le_mul_of_nonneg_left a9 u0)
  constructor
  · have e : x4 - (c + s * b + s ^ 2 * a) = (x4 - (voc + x3)) + ((voc - c) + ((x3 - s * x2) + (s * (x2 - (vb + x1)) + (s * (x1 - s * va) + (s * (vb - b) + s * (s * (va - a))))))) := by ring
    rw [e]
    have b1 := abs_add_le (x4 - (voc + x3)) ((voc - c) + ((x3 - s * x2) + (s * (x2 - (vb + x1)) + (s * (x1 - s * va) + (s * (vb - b) + s * (s * (va - a)))))))
    have b2 := abs_add_le (voc - c) ((x3 - s * x2) + (s * (x2 - (vb + x1)) + (s * (x1 - s * va) + (s * (vb - b) + s * (s * (va - a))))))
    have b3 := abs_add_le (x3 - s * x2) (s * (x2 - (vb + x1)) + (s * (x1 - s * va) + (s * (vb - b) + s * (s * (va - a)))))
    have b4 := abs_add_le (s * (x2 - (vb + x1))) (s * (x1 - s * va) + (s * (vb - b) + s * (s * (va - a))))
    have b5 := abs_add_le (s * (x1 - s * va)) (s * (vb - b) + s * (s * (va - a)))
    have b6 := abs_add_le (s * (vb - b)) (s * (s * (va - a)))
    have c1 := sm (x2 - (vb + x1))
    have c2 := sm (x1 - s * va)
    have c3 := sm (vb - b)
    have c4 := (sm (s * (va - a))).trans (sm (va - a))
    linarith
  · linarith [abs_sub_abs_le_abs_sub x4 (voc + x3)]

end Verif.Fp
