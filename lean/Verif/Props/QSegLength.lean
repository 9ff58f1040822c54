import Verif.Model.QSeg
import Verif.Props.Quadratic
import Mathlib.Analysis.SpecialFunctions.Log.Deriv
import Mathlib.Analysis.SpecialFunctions.Sqrt
import Mathlib.MeasureTheory.Integral.IntervalIntegral.FundThmCalculus

/-!
# C74: the length of a quadratic segment
-/

namespace Verif.Geom

open Verif.Roots

/-- The length of the curve: the integral of its speed. -/
noncomputable def arcLength (q : Poly 3 2 ℝ) : ℝ := ∫ r in (0 : ℝ)..1, Real.sqrt (sqNorm (qsegJac q r))

theorem disc_eq (a b c : ℝ) : disc a b c = b ^ 2 - 4 * a * c := by unfold disc; ring

/-- Where `4 a c > b²` and `a > 0`, twice the root of `a` times the root of the quadratic exceeds its
derivative. -/
theorem arg_pos (a b c r : ℝ) (ha : 0 < a) (hd : b ^ 2 < 4 * a * c) :
    0 < a * r ^ 2 + b * r + c ∧
    0 < b + 2 * a * r + 2 * Real.sqrt a * Real.sqrt (a * r ^ 2 + b * r + c) := by
  have h1 : 0 < a * r ^ 2 + b * r + c := by
    have : 0 < 4 * a * (a * r ^ 2 + b * r + c) := by nlinarith [sq_nonneg (2 * a * r + b)]
    by_contra h
    have := mul_nonpos_of_nonneg_of_nonpos (by linarith : (0:ℝ) ≤ 4 * a) (not_lt.1 h)
    linarith
  refine ⟨h1, ?_⟩
  have hs : 0 < 2 * Real.sqrt a * Real.sqrt (a * r ^ 2 + b * r + c) := by
    have := Real.sqrt_pos.2 ha
    have := Real.sqrt_pos.2 h1
    positivity
  have hsq : (2 * Real.sqrt a * Real.sqrt (a * r ^ 2 + b * r + c)) ^ 2 = 4 * a * (a * r ^ 2 + b * r + c) := by
    rw [mul_pow, mul_pow, Real.sq_sqrt ha.le, Real.sq_sqrt h1.le]; ring
  by_contra h
  have h' : 2 * Real.sqrt a * Real.sqrt (a * r ^ 2 + b * r + c) ≤ -(b + 2 * a * r) := by linarith [not_lt.1 h]
  have := pow_le_pow_left₀ hs.le h' 2
  nlinarith

/-- The antiderivative of the root of a quadratic without real roots. -/
theorem antideriv (a b c r : ℝ) (ha : 0 < a) (hd : b ^ 2 < 4 * a * c) :
    HasDerivAt (fun r => (b + 2 * a * r) * Real.sqrt (a * r ^ 2 + b * r + c) / (4 * a) -
      (b ^ 2 - 4 * a * c) * Real.log (b + 2 * a * r + 2 * Real.sqrt a * Real.sqrt (a * r ^ 2 + b * r + c)) /
        (8 * Real.sqrt a ^ 3)) (Real.sqrt (a * r ^ 2 + b * r + c)) r := by
  obtain ⟨hS, hA⟩ := arg_pos a b c r ha hd
  have hl : HasDerivAt (fun r : ℝ => b + 2 * a * r) (2 * a) r := by
    simpa using ((hasDerivAt_id r).const_mul (2 * a)).const_add b
  have hq : HasDerivAt (fun r : ℝ => a * r ^ 2 + b * r + c) (b + 2 * a * r) r := by
    have h := ((((hasDerivAt_pow 2 r).const_mul a).add ((hasDerivAt_id r).const_mul b)).add_const c)
    refine h.congr_deriv ?_
    norm_num; ring
  have hs := hq.sqrt hS.ne'
  have h1 := (hl.mul hs).div_const (4 * a)
  have h2 := (((hl.add (hs.const_mul (2 * Real.sqrt a))).log hA.ne').const_mul (b ^ 2 - 4 * a * c)).div_const
    (8 * Real.sqrt a ^ 3)
  have h3 := h1.sub h2
  refine h3.congr_deriv ?_
  have hsa : 0 < Real.sqrt a := Real.sqrt_pos.2 ha
  have hss : 0 < Real.sqrt (a * r ^ 2 + b * r + c) := Real.sqrt_pos.2 hS
  have ea : a = Real.sqrt a ^ 2 := (Real.sq_sqrt ha.le).symm
  have es : a * r ^ 2 + b * r + c = Real.sqrt (a * r ^ 2 + b * r + c) ^ 2 := (Real.sq_sqrt hS.le).symm
  obtain ⟨w, hw⟩ : ∃ w, w = Real.sqrt (a * r ^ 2 + b * r + c) := ⟨_, rfl⟩
  obtain ⟨t, ht⟩ : ∃ t, t = Real.sqrt a := ⟨_, rfl⟩
  rw [← hw] at hss es hA ⊢
  rw [← ht] at hsa ea hA ⊢
  have hA' := hA.ne'
  have key : (2 * a + 2 * t * ((b + 2 * a * r) / (2 * w))) / (b + 2 * a * r + 2 * t * w) = t / w := by
    rw [div_eq_div_iff hA' hss.ne']
    field_simp
    rw [ea]; ring
  have hL : (b + 2 * a * r) ^ 2 - (b ^ 2 - 4 * a * c) = 4 * a * w ^ 2 := by rw [← es]; ring
  have hgoal : (2 * a * w + (b + 2 * a * r) * ((b + 2 * a * r) / (2 * w))) / (4 * a) -
      (b ^ 2 - 4 * a * c) * (t / w) / (8 * t ^ 3) = w := by
    have e1 : (b ^ 2 - 4 * a * c) * (t / w) / (8 * t ^ 3) = (b ^ 2 - 4 * a * c) / (8 * a * w) := by
      rw [ea]; field_simp
    rw [e1]
    have hane := ha.ne'
    have hwne := hss.ne'
    rw [div_sub_div _ _ (by positivity) (by positivity), div_eq_iff (by positivity)]
    have e2 : (b + 2 * a * r) * ((b + 2 * a * r) / (2 * w)) * w = (b + 2 * a * r) ^ 2 / 2 := by field_simp
    linear_combination 8 * a * e2 + 4 * a * hL
  rw [mul_div_assoc] at hgoal
  rw [← key] at hgoal
  refine Eq.trans ?_ hgoal
  simp only [Pi.add_apply, mul_div_assoc]
  rw [← hw]

/-- The formula of the code is the integral of the root of the quadratic. -/
theorem lengthFormula_eq (a b c : ℝ) (ha : 0 < a) (hd : b ^ 2 < 4 * a * c) :
    lengthFormula a b c = some (∫ r in (0 : ℝ)..1, Real.sqrt (a * r ^ 2 + b * r + c)) := by
  have hint : ∫ r in (0 : ℝ)..1, Real.sqrt (a * r ^ 2 + b * r + c) = _ :=
    intervalIntegral.integral_eq_sub_of_hasDerivAt (fun r _ => antideriv a b c r ha hd)
      (Continuous.intervalIntegrable (by fun_prop) _ _)
  rw [hint]
  have h0 := (arg_pos a b c 0 ha hd).2
  have h1 := (arg_pos a b c 1 ha hd).2
  have hsa : 0 < Real.sqrt a := Real.sqrt_pos.2 ha
  have ea : Real.sqrt a ^ 2 = a := Real.sq_sqrt ha.le
  simp only [mul_zero, mul_one, one_pow, add_zero, zero_add, ne_eq, OfNat.ofNat_ne_zero,
    not_false_eq_true, zero_pow] at h0 h1 ⊢
  unfold lengthFormula
  dsimp only
  have h1' : 0 < 2 * Real.sqrt a * Real.sqrt (a + b + c) + (2 * a + b) := by linarith
  have h0' : 0 < 2 * Real.sqrt a * Real.sqrt c + b := by linarith
  have hden : 0 < 8 * Real.sqrt a * Real.sqrt a * Real.sqrt a := by positivity
  rw [if_neg h1'.ne', if_neg (not_le.2 (div_pos h0' h1')), if_neg hden.ne', disc_eq,
    Real.log_div h0'.ne' h1'.ne']
  have e0 : b + 2 * Real.sqrt a * Real.sqrt c = 2 * Real.sqrt a * Real.sqrt c + b := by ring
  have e1 : b + 2 * a + 2 * Real.sqrt a * Real.sqrt (a + b + c) =
      2 * Real.sqrt a * Real.sqrt (a + b + c) + (2 * a + b) := by ring
  rw [e0, e1]
  congr 1
  have e4 : ∀ x : ℝ, x / (4 * a) = 2 * Real.sqrt a * x / (8 * Real.sqrt a * Real.sqrt a * Real.sqrt a) := by
    intro x
    rw [div_eq_div_iff (by positivity) hden.ne']
    linear_combination 8 * Real.sqrt a * x * ea
  have e8 : 8 * Real.sqrt a ^ 3 = 8 * Real.sqrt a * Real.sqrt a * Real.sqrt a := by ring
  rw [e4, e4, e8]
  ring

theorem speed_eq (q : Poly 3 2 ℝ) (r : ℝ) :
    sqNorm (qsegJac q r) = 4 * sqNorm (polyCoeffs q).2.2 * r ^ 2 +
      4 * dot (polyCoeffs q).2.2 (polyCoeffs q).2.1 * r + sqNorm (polyCoeffs q).2.1 := by
  unfold sqNorm dot
  simp only [Fin.sum_univ_two, qsegJac, polyCoeffs]; ring

/-- A segment that is not straight: the length is the integral of the speed, if the three vertices are
not on a line. -/
theorem C74_length (eps2 : ℝ) (q : Poly 3 2 ℝ) (hs : isStraight eps2 q = false)
    (hc : cross (q 1 - q 0) (q 2 - q 0) ≠ 0) : qsegLength eps2 q = some (arcLength q) := by
  unfold qsegLength arcLength
  rw [hs]
  simp only [Bool.false_eq_true, if_false, speed_eq]
  have hcr : cross (polyCoeffs q).2.2 (polyCoeffs q).2.1 = 4 * cross (q 1 - q 0) (q 2 - q 0) := by
    simp only [cross_eq, polyCoeffs, Pi.sub_apply]; ring
  have hlag : sqNorm (polyCoeffs q).2.2 * sqNorm (polyCoeffs q).2.1 -
      dot (polyCoeffs q).2.2 (polyCoeffs q).2.1 ^ 2 = cross (polyCoeffs q).2.2 (polyCoeffs q).2.1 ^ 2 := by
    unfold sqNorm dot
    simp only [Fin.sum_univ_two, cross_eq]; ring
  have hpos : 0 < cross (polyCoeffs q).2.2 (polyCoeffs q).2.1 ^ 2 := by
    rw [hcr]
    exact sq_pos_of_ne_zero (mul_ne_zero (by norm_num) hc)
  have hA : 0 < sqNorm (polyCoeffs q).2.2 := by
    refine lt_of_le_of_ne (sqNorm_nonneg _) fun h => ?_
    rw [← h] at hlag
    nlinarith [sq_nonneg (dot (polyCoeffs q).2.2 (polyCoeffs q).2.1)]
  exact lengthFormula_eq _ _ _ (by linarith) (by nlinarith)

/-- A straight segment: the distance of the ends is returned, and that is the length of the curve if
the middle vertex lies on the chord, in its middle half. -/
theorem C74_straight (eps2 : ℝ) (q : Poly 3 2 ℝ) (hs : isStraight eps2 q = true) :
    qsegLength eps2 q = some (Real.sqrt (sqDist (q 0) (q 1))) ∧
    ∀ m : ℝ, 1 / 4 ≤ m → m ≤ 3 / 4 → (∀ i, q 2 i = q 0 i + m * (q 1 i - q 0 i)) →
      arcLength q = Real.sqrt (sqDist (q 0) (q 1)) := by
  refine ⟨by unfold qsegLength; rw [if_pos hs], fun m h1 h2 hm => ?_⟩
  unfold arcLength
  have e : ∀ r ∈ Set.uIcc (0 : ℝ) 1, Real.sqrt (sqNorm (qsegJac q r)) =
      (4 * m - 1 + (4 - 8 * m) * r) * Real.sqrt (sqDist (q 0) (q 1)) := by
    intro r hr
    rw [Set.uIcc_of_le zero_le_one] at hr
    have hf : 0 ≤ 4 * m - 1 + (4 - 8 * m) * r := by
      have e : 4 * m - 1 + (4 - 8 * m) * r = (4 * m - 1) * (1 - r) + (3 - 4 * m) * r := by ring
      rw [e]
      exact add_nonneg (mul_nonneg (by linarith) (by linarith [hr.2])) (mul_nonneg (by linarith) hr.1)
    have : sqNorm (qsegJac q r) = (4 * m - 1 + (4 - 8 * m) * r) ^ 2 * sqDist (q 0) (q 1) := by
      unfold sqNorm sqDist qsegJac
      simp only [Fin.sum_univ_two, hm]; ring
    rw [this, Real.sqrt_mul (sq_nonneg _), Real.sqrt_sq hf]
  rw [intervalIntegral.integral_congr e, intervalIntegral.integral_mul_const]
  have : ∫ r in (0 : ℝ)..1, (4 * m - 1 + (4 - 8 * m) * r) = 1 := by
    have := integral_poly5 (4 * m - 1) (4 - 8 * m) 0 0 0 0
    simp only [zero_mul, add_zero] at this
    rw [this]; ring
  rw [this, one_mul]

/-- The sum over the edges of a curved cell. -/
theorem C74_perimeter {m : Nat} (eps2 : ℝ) (v : Poly (2 * (m + 1)) 2 ℝ)
    (hs : ∀ i, isStraight eps2 (getEdge2 v i) = false)
    (hc : ∀ i, cross (getEdge2 v i 1 - getEdge2 v i 0) (getEdge2 v i 2 - getEdge2 v i 0) ≠ 0) :
    qpolyPerimeter eps2 v = some (∑ i, arcLength (getEdge2 v i)) := by
  have hl : ∀ i, qsegLength eps2 (getEdge2 v i) = some (arcLength (getEdge2 v i)) := fun i =>
    C74_length eps2 _ (hs i) (hc i)
  unfold qpolyPerimeter
  rw [hl]
  show (List.finRange m).foldlM _ (arcLength (getEdge2 v 0)) = _
  have h : ∀ (l : List (Fin m)) (s : ℝ),
      l.foldlM (fun s i => (qsegLength eps2 (getEdge2 v i.succ)).map (s + ·)) s =
        some (s + (l.map fun i => arcLength (getEdge2 v i.succ)).sum) := by
    intro l
    induction l with
    | nil => intro s; simp
    | cons x l ih => intro s; rw [List.foldlM_cons, hl]; simp only [Option.map_some, Option.bind_eq_bind,
        Option.bind_some]; rw [ih, List.map_cons, List.sum_cons]; congr 1; ring
  rw [h, Fin.sum_univ_succ]
  congr 2

/-- Three vertices on a line, the middle one outside of the chord: the formula evaluates
`0 * log(0)`, and there is no result. -/
theorem C74_collinear_fails (eps2 : ℝ) (q : Poly 3 2 ℝ) (m : ℝ) (hm : 1 ≤ m ∨ m ≤ -1)
    (hq : ∀ i, q 2 i = q 0 i + m * (q 1 i - q 0 i)) : qsegLength eps2 q = none := by
  have hn : sqNorm (q 2 - q 0) = m ^ 2 * sqNorm (q 1 - q 0) := by
    unfold sqNorm
    simp only [Fin.sum_univ_two, Pi.sub_apply, hq]; ring
  have hm2 : 1 ≤ m ^ 2 := by rcases hm with h | h <;> nlinarith
  have hpos := sqNorm_nonneg (q 1 - q 0)
  have hs : isStraight eps2 q = false := by
    unfold isStraight
    dsimp only
    rw [if_pos (by rw [hn]; nlinarith)]
  unfold qsegLength
  rw [hs]
  simp only [Bool.false_eq_true, if_false]
  obtain ⟨S, hS⟩ : ∃ S, S = sqNorm (q 1 - q 0) := ⟨_, rfl⟩
  obtain ⟨k, hk⟩ : ∃ k, k = (2 * m - 1) * (4 * m - 1) := ⟨_, rfl⟩
  have hk0 : 0 ≤ k := by rw [hk]; rcases hm with h | h <;> nlinarith
  have ea : 4 * sqNorm (polyCoeffs q).2.2 = 16 * (2 * m - 1) ^ 2 * S := by
    rw [hS]; unfold sqNorm polyCoeffs
    simp only [Fin.sum_univ_two, Pi.sub_apply, hq]; ring
  have eb : 4 * dot (polyCoeffs q).2.2 (polyCoeffs q).2.1 = -(8 * k * S) := by
    rw [hS, hk]; unfold dot polyCoeffs sqNorm
    simp only [Fin.sum_univ_two, Pi.sub_apply, hq]; ring
  have ec : sqNorm (polyCoeffs q).2.1 = (4 * m - 1) ^ 2 * S := by
    rw [hS]; unfold sqNorm polyCoeffs
    simp only [Fin.sum_univ_two, Pi.sub_apply, hq]; ring
  rw [ea, eb, ec]
  have hS0 : 0 ≤ S := hS ▸ hpos
  have hz : 2 * Real.sqrt (16 * (2 * m - 1) ^ 2 * S) * Real.sqrt ((4 * m - 1) ^ 2 * S) + -(8 * k * S) = 0 := by
    have : Real.sqrt (16 * (2 * m - 1) ^ 2 * S) * Real.sqrt ((4 * m - 1) ^ 2 * S) = 4 * k * S := by
      rw [← Real.sqrt_mul (by positivity)]
      rw [show 16 * (2 * m - 1) ^ 2 * S * ((4 * m - 1) ^ 2 * S) = (4 * k * S) ^ 2 by rw [hk]; ring]
      exact Real.sqrt_sq (by positivity)
    linear_combination 2 * this
  unfold lengthFormula
  dsimp only
  rw [hz]
  simp

/-- Three vertices on a line, the middle one close to an end: the curve runs past that end and back,
which the length leaves out. -/
theorem C74_overshoot_fails : ∃ q : Poly 3 2 ℝ, ∀ eps2 > 0,
    qsegLength eps2 q = some 1 ∧ 1 < arcLength q := by
  refine ⟨![![0, 0], ![1, 0], ![9 / 10, 0]], fun eps2 he => ⟨?_, ?_⟩⟩
  · have hs : isStraight eps2 (![![0, 0], ![1, 0], ![9 / 10, 0]] : Poly 3 2 ℝ) = true := by
      unfold isStraight
      dsimp only
      rw [cross_eq]
      unfold sqNorm
      simp only [Fin.sum_univ_two, Pi.sub_apply, Matrix.cons_val_zero, Matrix.cons_val_one, Matrix.cons_val]
      norm_num
      exact he
    rw [(C74_straight eps2 _ hs).1]
    unfold sqDist
    simp
  · unfold arcLength
    have e : ∀ r : ℝ, sqNorm (qsegJac (![![0, 0], ![1, 0], ![9 / 10, 0]] : Poly 3 2 ℝ) r) =
        (13 / 5 - 16 / 5 * r) ^ 2 := by
      intro r
      unfold sqNorm qsegJac
      simp only [Fin.sum_univ_two, Matrix.cons_val_zero, Matrix.cons_val_one, Matrix.cons_val]
      ring
    simp only [e, Real.sqrt_sq_eq_abs]
    have h1 := integral_poly5 (13 / 5) (-16 / 5) 0 0 (-26 / 5) (32 / 5)
    have h2 : ∫ r in (0 : ℝ)..1, (13 / 5 + -16 / 5 * r + 0 * r ^ 2 + 0 * r ^ 3 + -26 / 5 * r ^ 4 + 32 / 5 * r ^ 5) ≤
        ∫ r in (0 : ℝ)..1, |13 / 5 - 16 / 5 * r| := by
      refine intervalIntegral.integral_mono_on zero_le_one (Continuous.intervalIntegrable (by fun_prop) _ _)
        (Continuous.intervalIntegrable (by fun_prop) _ _) fun r hr => ?_
      have hr4 : r ^ 4 ≤ 1 := pow_le_one₀ hr.1 hr.2
      have hr0 : 0 ≤ r ^ 4 := by positivity
      have e2 : 13 / 5 + -16 / 5 * r + 0 * r ^ 2 + 0 * r ^ 3 + -26 / 5 * r ^ 4 + 32 / 5 * r ^ 5 =
          (13 / 5 - 16 / 5 * r) * (1 - 2 * r ^ 4) := by ring
      rw [e2]
      refine le_trans (le_abs_self _) ?_
      rw [abs_mul]
      refine mul_le_of_le_one_right (abs_nonneg _) ?_
      rw [abs_le]; constructor <;> linarith
    rw [h1] at h2
    refine lt_of_lt_of_le ?_ h2
    norm_num

/-- Concrete: the arch over `(1,1)` is not straight and its vertices are not on a line. -/
example : isStraight 1 (![![0, 0], ![1, 0], ![1 / 2, 5]] : Poly 3 2 ℝ) = false ∧
    cross ((![![0, 0], ![1, 0], ![1 / 2, 5]] : Poly 3 2 ℝ) 1 - (![![0, 0], ![1, 0], ![1 / 2, 5]] : Poly 3 2 ℝ) 0)
      ((![![0, 0], ![1, 0], ![1 / 2, 5]] : Poly 3 2 ℝ) 2 - (![![0, 0], ![1, 0], ![1 / 2, 5]] : Poly 3 2 ℝ) 0) ≠ 0 := by
  constructor
  · unfold isStraight sqNorm
    simp only [Fin.sum_univ_two, Pi.sub_apply, Matrix.cons_val_zero, Matrix.cons_val_one, Matrix.cons_val]
    norm_num
  · simp only [cross_eq, Pi.sub_apply, Matrix.cons_val_zero, Matrix.cons_val_one, Matrix.cons_val]; norm_num

end Verif.Geom
