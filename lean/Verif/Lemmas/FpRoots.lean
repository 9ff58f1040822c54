import Verif.Lemmas.FpTurn
import Verif.Model.FpRoots
import Verif.Props.Roots

/-! Lemmas on the quadratic equation in floating-point arithmetic. -/

namespace Verif.Fp

set_option linter.unusedSectionVars false

section
variable {K : Type} [Field K] [LinearOrder K] [IsStrictOrderedRing K] [FloorRing K] {p : ℕ} (R : Rounding K p)

theorem disc_eq {a : K} (ha : IsFp p a) (b c : K) : disc R a b c = det2x2 R b (4 * a) c b := by
  have h4 : IsFp p (4 * a) := by
    have := ha.double.double
    have e : 2 * (2 * a) = 4 * a := by ring
    rwa [e] at this
  unfold disc det2x2 fma
  dsimp only
  rw [R.id h4]
  have e : -c * (4 * a) = -(4 * a) * c := by ring
  rw [e]

theorem IsFp.four {a : K} (ha : IsFp p a) : IsFp p (4 * a) := by
  have := ha.double.double
  have e : 2 * (2 * a) = 4 * a := by ring
  rwa [e] at this

theorem disc_error (hp : 1 ≤ p) {a b c : K} (ha : IsFp p a) (hb : IsFp p b) (hc : IsFp p c) :
    |disc R a b c - (b ^ 2 - 4 * a * c)| ≤ (3 / 2 ^ p + 2 / 2 ^ (2 * p)) * |b ^ 2 - 4 * a * c| := by
  rw [disc_eq R ha]
  have := det_error R hp hb ha.four hc hb
  rwa [← sq] at this

theorem disc_sign (hp : 2 ≤ p) {a b c : K} (ha : IsFp p a) (hb : IsFp p b) (hc : IsFp p c) :
    (disc R a b c < 0 ↔ b ^ 2 - 4 * a * c < 0) ∧ (disc R a b c = 0 ↔ b ^ 2 - 4 * a * c = 0) := by
  rw [disc_eq R ha]
  have := det_sign R hp hb ha.four hc hb
  rw [this.2.2, this.2.1, ← sq, sub_neg, sub_eq_zero]
  exact ⟨Iff.rfl, Iff.rfl⟩

/-- Rounding adds to a relative error. -/
theorem rnd_near (hp : 1 ≤ p) {t x y : K} (h : |y - x| ≤ t * |x|) : |R.rnd y - x| ≤ (t + 1 / 2 ^ p * (1 + t)) * |x| := by
  have r := rel_u R hp y
  have ty : |y| ≤ (1 + t) * |x| := by have := abs_sub_abs_le_abs_sub y x; linarith
  have tt : |R.rnd y - x| ≤ |R.rnd y - y| + |y - x| := by
    have e : R.rnd y - x = (R.rnd y - y) + (y - x) := by ring
    rw [e]; exact abs_add_le _ _
  have : 1 / 2 ^ p * |y| ≤ 1 / 2 ^ p * ((1 + t) * |x|) := mul_le_mul_of_nonneg_left ty (by positivity)
  linarith

/-- Two numbers with a relative error, sorted. -/
theorem sort_near {t x y X Y : K} (ht : t < 1) (h0 : 0 ≤ t) (hx : |x - X| ≤ t * |X|) (hy : |y - Y| ≤ t * |Y|) :
    |(if y < x then (y, x) else (x, y)).1 - (if Y < X then (Y, X) else (X, Y)).1| ≤ t * |(if Y < X then (Y, X) else (X, Y)).1| ∧
    |(if y < x then (y, x) else (x, y)).2 - (if Y < X then (Y, X) else (X, Y)).2| ≤ t * |(if Y < X then (Y, X) else (X, Y)).2| := by
  have m1 : ∀ a b : K, a ≤ b → a - t * |a| ≤ b - t * |b| := by
    intro a b h
    have := abs_sub_abs_le_abs_sub b a
    rw [abs_of_nonneg (by linarith : 0 ≤ b - a)] at this
    nlinarith
  have m2 : ∀ a b : K, a ≤ b → a + t * |a| ≤ b + t * |b| := by
    intro a b h
    have := abs_sub_abs_le_abs_sub a b
    rw [abs_of_nonpos (by linarith : a - b ≤ 0)] at this
    nlinarith
  rw [abs_le] at hx hy
  split <;> rename_i h1 <;> split <;> rename_i h2 <;> dsimp only <;> rw [abs_le, abs_le]
  · exact ⟨hy, hx⟩
  · have a := m1 X Y (not_lt.1 h2)
    have b := m2 X Y (not_lt.1 h2)
    refine ⟨⟨?_, ?_⟩, ⟨?_, ?_⟩⟩ <;> linarith [hx.1, hx.2, hy.1, hy.2]
  · have a := m1 Y X h2.le
    have b := m2 Y X h2.le
    have := not_lt.1 h1
    refine ⟨⟨?_, ?_⟩, ⟨?_, ?_⟩⟩ <;> linarith [hx.1, hx.2, hy.1, hy.2]
  · exact ⟨hx, hy⟩

end

variable {p : ℕ} (R : Rounding ℝ p)

theorem sqrt_near {t d D : ℝ} (hd : 0 ≤ d) (hD : 0 ≤ D) (h : |d - D| ≤ t * D) : |Real.sqrt d - Real.sqrt D| ≤ t * Real.sqrt D := by
  have sd := Real.sqrt_nonneg d
  have sD := Real.sqrt_nonneg D
  rcases hD.eq_or_lt with rfl | hD'
  · have : d = 0 := by
      rw [mul_zero, sub_zero] at h
      exact abs_eq_zero.1 (le_antisymm h (abs_nonneg _))
    rw [this]; simp
  · have sp := Real.sqrt_pos.2 hD'
    have e : d - D = (Real.sqrt d - Real.sqrt D) * (Real.sqrt d + Real.sqrt D) := by
      have a := Real.mul_self_sqrt hd
      have b := Real.mul_self_sqrt hD
      linear_combination b - a
    have eD : t * D = t * Real.sqrt D * Real.sqrt D := by rw [mul_assoc, Real.mul_self_sqrt hD]
    rw [e, abs_mul, abs_of_nonneg (by linarith : 0 ≤ Real.sqrt d + Real.sqrt D), eD] at h
    have : |Real.sqrt d - Real.sqrt D| * Real.sqrt D ≤ t * Real.sqrt D * Real.sqrt D :=
      le_trans (mul_le_mul_of_nonneg_left (by linarith) (abs_nonneg _)) h
    exact le_of_mul_le_mul_right this sp

theorem u_le (hp : 8 ≤ p) : (1 : ℝ) / 2 ^ p ≤ 1 / 256 := by
  refine one_div_le_one_div_of_le (by norm_num) ?_
  calc (256 : ℝ) = 2 ^ 8 := by norm_num
    _ ≤ 2 ^ p := pow_le_pow_right₀ (by norm_num) hp

/-- The error of `q`. -/
theorem quadQ_error (hp : 8 ≤ p) {a b c : ℝ} (ha : IsFp p a) (hb : IsFp p b) (hc : IsFp p c) (hD : 0 ≤ b ^ 2 - 4 * a * c) :
    |quadQ R b (disc R a b c) - -(b + Roots.copysign (Real.sqrt (b ^ 2 - 4 * a * c)) b) / 2| ≤
      11 / 2 * (1 / 2 ^ p) * |-(b + Roots.copysign (Real.sqrt (b ^ 2 - 4 * a * c)) b) / 2| := by
  have hp1 : 1 ≤ p := by omega
  have hd : 0 ≤ disc R a b c := by rw [← not_lt, (disc_sign R (by omega) ha hb hc).1, not_lt]; exact hD
  have e := disc_error R hp1 ha hb hc
  rw [abs_of_nonneg hD] at e
  have hq : quadQ R b (disc R a b c) = -R.rnd (b + copysign (fsqrt R (disc R a b c)) b) / 2 := by
    unfold quadQ
    exact R.id (R.mem _).neg.half
  have s1 := sqrt_near hd hD e
  have sD := Real.sqrt_nonneg (b ^ 2 - 4 * a * c)
  have sd := Real.sqrt_nonneg (disc R a b c)
  generalize hS : Real.sqrt (b ^ 2 - 4 * a * c) = S at *
  have s2 := rnd_near R hp1 (x := S) (y := Real.sqrt (disc R a b c)) (by rw [abs_of_nonneg sD]; exact s1)
  have hr : 0 ≤ fsqrt R (disc R a b c) := R.ge_of_ge sd isFp_zero
  have s2 : |fsqrt R (disc R a b c) - S| ≤ _ := s2
  generalize fsqrt R (disc R a b c) = s at *
  -- the sum
  have key : |(b + copysign s b) - (b + Roots.copysign S b)| ≤
      (3 / 2 ^ p + 2 / 2 ^ (2 * p) + 1 / 2 ^ p * (1 + (3 / 2 ^ p + 2 / 2 ^ (2 * p)))) * |b + Roots.copysign S b| := by
    have c1 : |copysign s b - Roots.copysign S b| = |s - S| := by
      unfold copysign Roots.copysign
      rw [abs_of_nonneg hr, abs_of_nonneg sD]
      split
      · rw [abs_sub_comm]; congr 1; ring
      · rfl
    have c2 : S ≤ |b + Roots.copysign S b| := by
      unfold Roots.copysign
      rw [abs_of_nonneg sD]
      split
      · rw [abs_of_nonpos (by linarith)]; linarith
      · rw [abs_of_nonneg (by linarith)]; linarith
    have c3 : b + copysign s b - (b + Roots.copysign S b) = copysign s b - Roots.copysign S b := by ring
    rw [c3, c1]
    rw [abs_of_nonneg sD] at s2
    exact s2.trans (mul_le_mul_of_nonneg_left c2 (by positivity))
  have k2 := rnd_near R hp1 key
  rw [hq]
  have e1 : -R.rnd (b + copysign s b) / 2 - -(b + Roots.copysign S b) / 2 = -((R.rnd (b + copysign s b) - (b + Roots.copysign S b)) / 2) := by ring
  have e2 : -(b + Roots.copysign S b) / 2 = -((b + Roots.copysign S b) / 2) := by ring
  rw [e1, e2, abs_neg, abs_neg, abs_div, abs_div, abs_of_pos (by norm_num : (0 : ℝ) < 2)]
  refine (div_le_div_of_nonneg_right k2 (by norm_num)).trans ?_
  rw [mul_div_assoc]
  refine mul_le_mul_of_nonneg_right ?_ (by positivity)
  have hu0 : (0 : ℝ) < 1 / 2 ^ p := by positivity
  have hu1 : (1 : ℝ) / 2 ^ p ≤ 1 / 256 := u_le hp
  have e3 : (3 : ℝ) / 2 ^ p + 2 / 2 ^ (2 * p) = 3 * (1 / 2 ^ p) + 2 * (1 / 2 ^ p) ^ 2 := by
    rw [two_mul p, pow_add]; ring
  rw [e3]
  generalize (1 : ℝ) / 2 ^ p = u at *
  have u2 : u ^ 2 ≤ u / 256 := by nlinarith
  have u3 : u ^ 3 ≤ u / 256 := by nlinarith [sq_nonneg u]
  have u4 : u ^ 4 ≤ u / 256 := by nlinarith [sq_nonneg u, mul_pos hu0 (mul_pos hu0 hu0)]
  nlinarith

theorem inexact_a (hp : 8 ≤ p) {a q Q : ℝ} (h : |q - Q| ≤ 11 / 2 * (1 / 2 ^ p) * |Q|) : |R.rnd (q / a) - Q / a| ≤ 7 / 2 ^ p * |Q / a| := by
  have h' : |q / a - Q / a| ≤ 11 / 2 * (1 / 2 ^ p) * |Q / a| := by
    rw [← sub_div, abs_div, abs_div, ← mul_div_assoc]
    exact div_le_div_of_nonneg_right h (abs_nonneg _)
  refine (rnd_near R (by omega) h').trans (mul_le_mul_of_nonneg_right ?_ (abs_nonneg _))
  have hu0 : (0 : ℝ) < 1 / 2 ^ p := by positivity
  have hu1 : (1 : ℝ) / 2 ^ p ≤ 1 / 256 := u_le hp
  have e : (7 : ℝ) / 2 ^ p = 7 * (1 / 2 ^ p) := by ring
  rw [e]
  generalize (1 : ℝ) / 2 ^ p = u at *
  nlinarith

theorem inexact_c (hp : 8 ≤ p) {c q Q : ℝ} (hQ : Q ≠ 0) (h : |q - Q| ≤ 11 / 2 * (1 / 2 ^ p) * |Q|) : |R.rnd (c / q) - c / Q| ≤ 7 / 2 ^ p * |c / Q| := by
  have hu0 : (0 : ℝ) < 1 / 2 ^ p := by positivity
  have hu1 : (1 : ℝ) / 2 ^ p ≤ 1 / 256 := u_le hp
  have ht : 11 / 2 * (1 / 2 ^ p) < (1 : ℝ) := by linarith
  have n := div_near (x := c) ht hQ h
  have n' : |c / q - c / Q| ≤ 23 / 4 * (1 / 2 ^ p) * |c / Q| := by
    refine n.trans (mul_le_mul_of_nonneg_right ?_ (abs_nonneg _))
    rw [div_le_iff₀ (by linarith)]
    generalize (1 : ℝ) / 2 ^ p = u at *
    nlinarith
  refine (rnd_near R (by omega) n').trans (mul_le_mul_of_nonneg_right ?_ (abs_nonneg _))
  have e : (7 : ℝ) / 2 ^ p = 7 * (1 / 2 ^ p) := by ring
  rw [e]
  generalize (1 : ℝ) / 2 ^ p = u at *
  nlinarith

end Verif.Fp
