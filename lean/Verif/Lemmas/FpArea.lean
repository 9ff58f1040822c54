import Verif.Model.FpArea
import Verif.Lemmas.FpRay
import Verif.Lemmas.FpDist

/-! Helper lemmas for areas and centroids in floating-point arithmetic. -/

set_option linter.unusedSectionVars false

namespace Verif.Fp

variable {K : Type} [Field K] [LinearOrder K] [IsStrictOrderedRing K] [FloorRing K] {p : ℕ} (R : Rounding K p)

theorem rnd_half {x : K} (h : IsFp p x) : R.rnd (x / 2) = x / 2 := R.id h.half

theorem cross_mem (u v : P2 K) : IsFp p (cross R u v) := R.mem _

/-- A quotient. -/
theorem Off.div {u : K} (u0 : 0 ≤ u) (u1 : u ≤ 1 / 2) {k l : ℕ} {x y x' y' : K} (x0 : 0 ≤ x) (y0 : 0 < y) (h : Off u k x x') (g : Off u l y y') :
    Off u (k + 2 * l) (x / y) (x' / y') := by
  have a0 : 0 < 1 - u := by linarith
  have b0 : 0 < 1 + u := by linarith
  have y0' : 0 < y' := lt_of_lt_of_le (mul_pos y0 (pow_pos a0 l)) g.1
  have x0' : 0 ≤ x' := h.nonneg u0 (by linarith) x0
  have one : (1 - u) ^ l * (1 + u) ^ (2 * l) ≥ 1 := by
    rw [pow_mul, ← mul_pow]
    refine one_le_pow₀ ?_
    have : (1 - u) * (1 + u) ^ 2 = 1 + u * (1 - u - u ^ 2) := by ring
    rw [this]
    have : 0 ≤ u * (1 - u - u ^ 2) := mul_nonneg u0 (by nlinarith)
    linarith
  have two : (1 + u) ^ l * (1 - u) ^ (2 * l) ≤ 1 := by
    rw [pow_mul, ← mul_pow]
    refine pow_le_one₀ (by positivity) ?_
    have : (1 + u) * (1 - u) ^ 2 = 1 - u * (1 + u - u ^ 2) := by ring
    rw [this]
    have : 0 ≤ u * (1 + u - u ^ 2) := mul_nonneg u0 (by nlinarith)
    linarith
  have p1 : 0 ≤ (1 - u) ^ (2 * l) := pow_nonneg a0.le _
  have p2 : 0 ≤ (1 + u) ^ (2 * l) := pow_nonneg b0.le _
  have q1 : 0 ≤ x * (1 - u) ^ k := mul_nonneg x0 (pow_nonneg a0.le _)
  constructor
  · rw [pow_add, div_mul_eq_mul_div, div_le_div_iff₀ y0 y0']
    calc x * ((1 - u) ^ k * (1 - u) ^ (2 * l)) * y' = x * (1 - u) ^ k * ((1 - u) ^ (2 * l) * y') := by ring
      _ ≤ x * (1 - u) ^ k * y := by
        refine mul_le_mul_of_nonneg_left ?_ q1
        calc (1 - u) ^ (2 * l) * y' ≤ (1 - u) ^ (2 * l) * (y * (1 + u) ^ l) := mul_le_mul_of_nonneg_left g.2 p1
          _ = y * ((1 + u) ^ l * (1 - u) ^ (2 * l)) := by ring
          _ ≤ y * 1 := mul_le_mul_of_nonneg_left two y0.le
          _ = y := mul_one y
      _ ≤ x' * y := mul_le_mul_of_nonneg_right h.1 y0.le
  · rw [pow_add, div_mul_eq_mul_div, div_le_div_iff₀ y0' y0]
    calc x' * y ≤ x * (1 + u) ^ k * y := mul_le_mul_of_nonneg_right h.2 y0.le
      _ ≤ x * (1 + u) ^ k * ((1 + u) ^ (2 * l) * y') := by
        refine mul_le_mul_of_nonneg_left ?_ (mul_nonneg x0 (pow_nonneg b0.le _))
        calc y = y * 1 := (mul_one y).symm
          _ ≤ y * ((1 - u) ^ l * (1 + u) ^ (2 * l)) := mul_le_mul_of_nonneg_left one y0.le
          _ = (1 + u) ^ (2 * l) * (y * (1 - u) ^ l) := by ring
          _ ≤ (1 + u) ^ (2 * l) * y' := mul_le_mul_of_nonneg_left g.1 p2
      _ = x * ((1 + u) ^ k * (1 + u) ^ (2 * l)) * y' := by ring

/-- A sum of products of what is not negative. -/
theorem Off.mulAdd' (hp : 1 ≤ p) (fused : Bool) {k : ℕ} {x y x' b c : K} (x0 : 0 ≤ x) (y0 : 0 ≤ y) (h : Off (1 / 2 ^ p) (k + 1) x x') (g : Off (1 / 2 ^ p) k y (b * c)) :
    Off (1 / 2 ^ p) (k + 2) (x + y) (Fp.mulAdd R fused x' b c) := by
  have u0 := unit_nonneg (K := K) p
  have u1 := unit_le (K := K) p
  unfold Fp.mulAdd
  split
  · exact Off.rnd R hp (add_nonneg x0 y0) (h.add u0 u1 (g.weaken u0 u1 y0 (by omega)))
  · exact Off.rnd R hp (add_nonneg x0 y0) (h.add u0 u1 (Off.rnd R hp y0 g))

/-- A cross product that is not negative, as four relative errors. -/
theorem cross_off (hp : 5 ≤ p) {u v : P2 K} (hu : IsFp2 p u) (hv : IsFp2 p v) (h : 0 ≤ exactCross u v) : Off (1 / 2 ^ p) 4 (exactCross u v) (cross R u v) := by
  have e := det_error R (by omega) hu.1 hu.2 hv.1 hv.2
  change |cross R u v - exactCross u v| ≤ _ * |exactCross u v| at e
  rw [abs_of_nonneg h] at e
  have u0 : (0 : K) < 1 / 2 ^ p := by positivity
  have u1 : (1 : K) / 2 ^ p ≤ 1 / 32 := by
    refine one_div_le_one_div_of_le (by norm_num) ?_
    calc (32 : K) = 2 ^ 5 := by norm_num
      _ ≤ 2 ^ p := pow_le_pow_right₀ (by norm_num) hp
  have s1 : (3 : K) / 2 ^ p = 3 * (1 / 2 ^ p) := by ring
  have s2 : (2 : K) / 2 ^ (2 * p) = 2 * (1 / 2 ^ p) ^ 2 := by rw [pow_mul']; ring
  rw [s1, s2] at e
  generalize (1 : K) / 2 ^ p = w at *
  generalize exactCross u v = X at *
  generalize cross R u v = Y at *
  obtain ⟨e1, e2⟩ := abs_le.1 e
  have w2 : w ^ 2 ≤ w / 32 := by nlinarith
  have w20 : 0 ≤ w ^ 2 := sq_nonneg w
  have w30 : 0 ≤ w ^ 3 := pow_nonneg u0.le 3
  have w40 : 0 ≤ w ^ 4 := pow_nonneg u0.le 4
  have w4 : w ^ 4 ≤ w ^ 3 := by
    have : w ^ 4 = w ^ 3 * w := by ring
    nlinarith
  constructor
  · have : (1 - w) ^ 4 ≤ 1 - (3 * w + 2 * w ^ 2) := by
      have : (1 - w) ^ 4 = 1 - 4 * w + 6 * w ^ 2 - 4 * w ^ 3 + w ^ 4 := by ring
      linarith
    have := mul_le_mul_of_nonneg_left this h
    linarith
  · have : 1 + (3 * w + 2 * w ^ 2) ≤ (1 + w) ^ 4 := by
      have : (1 + w) ^ 4 = 1 + 4 * w + 6 * w ^ 2 + 4 * w ^ 3 + w ^ 4 := by ring
      linarith
    have := mul_le_mul_of_nonneg_left this h
    linarith

/-- One step of a sum of rounded terms. -/
theorem term_step (hp : 1 ≤ p) {e t : K} (he : t ≤ e) {acc acc' A x x' : K} (h : |acc' - acc| ≤ e * A) (hA : |acc| ≤ A) (hx : |x' - x| ≤ t * |x|) :
    |R.rnd (acc' + x') - (acc + x)| ≤ ((1 + 1 / 2 ^ p) * (1 + e) - 1) * (A + |x|) := by
  have r := rel_u R hp (acc' + x')
  have u0 := unit_nonneg (K := K) p
  generalize (1 : K) / 2 ^ p = u at *
  have a0 : 0 ≤ |x| := abs_nonneg x
  have d : |acc' + x' - (acc + x)| ≤ e * (A + |x|) := by
    have e1 : acc' + x' - (acc + x) = (acc' - acc) + (x' - x) := by ring
    rw [e1]
    have := mul_le_mul_of_nonneg_right he a0
    linarith [abs_add_le (acc' - acc) (x' - x)]
  have m : |acc' + x'| ≤ (1 + e) * (A + |x|) := by
    have k : |acc' + x'| ≤ |acc' + x' - (acc + x)| + |acc + x| := by
      have := abs_add_le (acc' + x' - (acc + x)) (acc + x)
      rwa [sub_add_cancel] at this
    linarith [abs_add_le acc x]
  have t1 : |R.rnd (acc' + x') - (acc + x)| ≤ |R.rnd (acc' + x') - (acc' + x')| + |acc' + x' - (acc + x)| := abs_sub_le _ _ _
  have := mul_le_mul_of_nonneg_left m u0
  have e2 : ((1 + u) * (1 + e) - 1) * (A + |x|) = u * ((1 + e) * (A + |x|)) + e * (A + |x|) := by ring
  linarith

end Verif.Fp
