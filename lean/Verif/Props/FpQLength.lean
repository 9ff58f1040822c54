import Verif.Lemmas.FpQLengthSum
import Verif.Lemmas.FpNorm
import Verif.Props.QSegLength

/-!
# C147: the length of a quadratic segment in floating-point arithmetic
-/

set_option linter.unusedSectionVars false

namespace Verif.PropsFpQLength

open Verif.Fp Verif.Fp.QLen

/-- The length of a vector. -/
noncomputable def norm2 (v : P2 ℝ) : ℝ := √(v.1 ^ 2 + v.2 ^ 2)

/-- The speed of the curve `x0 + r x1 + r² x2`. -/
noncomputable def speed (x1 x2 : P2 ℝ) (r : ℝ) : ℝ := norm2 (x1.1 + 2 * r * x2.1, x1.2 + 2 * r * x2.2)

/-- The length of the curve. -/
noncomputable def arc (x1 x2 : P2 ℝ) : ℝ := ∫ r in (0 : ℝ)..1, speed x1 x2 r

/-- The mean of the reciprocal of the speed. -/
noncomputable def slowness (x1 x2 : P2 ℝ) : ℝ := ∫ r in (0 : ℝ)..1, 1 / speed x1 x2 r

/-- The mathematical functions of the library: the root is rounded correctly, the logarithm is within a unit in the last place. -/
structure Libm (p : ℕ) (m : QLenMath ℝ) : Prop where
  sqrt : ∀ x, m.sqrt x = √x
  log : ∀ x, 0 < x → IsFp p x → |m.log x - Real.log x| ≤ 2 / 2 ^ p * |Real.log x|

/-! ### The integrals -/

section
variable (a b c : ℝ) (ha : 0 < a) (hd : b ^ 2 < 4 * a * c)
include ha hd

theorem log_deriv (r : ℝ) : HasDerivAt (fun r => Real.log (b + 2 * a * r + 2 * √a * √(a * r ^ 2 + b * r + c))) (√a * (1 / √(a * r ^ 2 + b * r + c))) r := by
  obtain ⟨hS, hA⟩ := Geom.arg_pos a b c r ha hd
  have hl : HasDerivAt (fun r : ℝ => b + 2 * a * r) (2 * a) r := by
    simpa using ((hasDerivAt_id r).const_mul (2 * a)).const_add b
  have hq : HasDerivAt (fun r : ℝ => a * r ^ 2 + b * r + c) (b + 2 * a * r) r := by
    have h := ((((hasDerivAt_pow 2 r).const_mul a).add ((hasDerivAt_id r).const_mul b)).add_const c)
    refine h.congr_deriv ?_
    norm_num; ring
  have h3 := ((hl.add ((hq.sqrt hS.ne').const_mul (2 * √a))).log hA.ne')
  refine h3.congr_deriv ?_
  have hsa : 0 < √a := Real.sqrt_pos.2 ha
  have hss : 0 < √(a * r ^ 2 + b * r + c) := Real.sqrt_pos.2 hS
  have ea : a = √a ^ 2 := (Real.sq_sqrt ha.le).symm
  simp only [Pi.add_apply]
  obtain ⟨w, hw⟩ : ∃ w, w = √(a * r ^ 2 + b * r + c) := ⟨_, rfl⟩
  obtain ⟨t, ht⟩ : ∃ t, t = √a := ⟨_, rfl⟩
  rw [← hw] at hss hA ⊢
  rw [← ht] at hsa ea hA ⊢
  rw [mul_one_div, div_eq_div_iff hA.ne' hss.ne']
  field_simp
  rw [ea]; ring

theorem log_integral : Real.log ((2 * √a * √(a + b + c) + (2 * a + b)) / (2 * √a * √c + b)) = √a * ∫ r in (0 : ℝ)..1, 1 / √(a * r ^ 2 + b * r + c) := by
  have hc : Continuous fun r : ℝ => √a * (1 / √(a * r ^ 2 + b * r + c)) := by
    refine continuous_const.mul (Continuous.div continuous_const (by fun_prop) fun r => ?_)
    exact (Real.sqrt_pos.2 (Geom.arg_pos a b c r ha hd).1).ne'
  rw [← intervalIntegral.integral_const_mul, intervalIntegral.integral_eq_sub_of_hasDerivAt (fun r _ => log_deriv a b c ha hd r) (hc.intervalIntegrable _ _)]
  have h0 := (Geom.arg_pos a b c 0 ha hd).2
  have h1 := (Geom.arg_pos a b c 1 ha hd).2
  simp only [mul_zero, mul_one, one_pow, add_zero, zero_add, ne_eq, OfNat.ofNat_ne_zero, not_false_eq_true, zero_pow] at h0 h1 ⊢
  have e0 : b + 2 * √a * √c = 2 * √a * √c + b := by ring
  have e1 : b + 2 * a + 2 * √a * √(a + b + c) = 2 * √a * √(a + b + c) + (2 * a + b) := by ring
  rw [e0] at h0 ⊢
  rw [e1] at h1 ⊢
  rw [Real.log_div h1.ne' h0.ne']

theorem integral_formula : ∫ r in (0 : ℝ)..1, √(a * r ^ 2 + b * r + c) =
    ((b ^ 2 - 4 * (a * c)) * Real.log ((2 * (√a * √c) + b) / (2 * (√a * √(a + b + c)) + (2 * a + b))) + √a * (2 * ((2 * a + b) * √(a + b + c) - b * √c))) / (8 * √a ^ 3) := by
  have h := Geom.lengthFormula_eq a b c ha hd
  have h0 := (Geom.arg_pos a b c 0 ha hd).2
  have h1 := (Geom.arg_pos a b c 1 ha hd).2
  have hsa : 0 < √a := Real.sqrt_pos.2 ha
  simp only [mul_zero, mul_one, one_pow, add_zero, zero_add, ne_eq, OfNat.ofNat_ne_zero, not_false_eq_true, zero_pow] at h0 h1
  have h1' : 0 < 2 * √a * √(a + b + c) + (2 * a + b) := by linarith
  have h0' : 0 < 2 * √a * √c + b := by linarith
  have hden : 0 < 8 * √a * √a * √a := by positivity
  unfold Geom.lengthFormula at h
  dsimp only at h
  rw [if_neg h1'.ne', if_neg (not_le.2 (div_pos h0' h1')), if_neg hden.ne', Geom.disc_eq] at h
  rw [← Option.some.inj h]
  have x1 : 2 * (√a * √c) = 2 * √a * √c := by ring
  have x2 : 2 * (√a * √(a + b + c)) = 2 * √a * √(a + b + c) := by ring
  have x3 : 8 * √a ^ 3 = 8 * √a * √a * √a := by ring
  have x4 : 4 * (a * c) = 4 * a * c := by ring
  rw [x1, x2, x3, x4]

end

/-! ### The formula -/

section
variable {p : ℕ} (R : Rounding ℝ p)

theorem sqn_err (hp : 12 ≤ p) (f : Bool) (x y : ℝ) : |squaredNorm R f [x, y] - (x ^ 2 + y ^ 2)| ≤ 2001 / 1000 * (1 / 2 ^ p) * (x ^ 2 + y ^ 2) := by
  have u0 := unit_nonneg (K := ℝ) p
  have u1 : (1 : ℝ) / 2 ^ p ≤ 1 / 4096 := by
    refine one_div_le_one_div_of_le (by norm_num) ?_
    calc (4096 : ℝ) = 2 ^ 12 := by norm_num
      _ ≤ 2 ^ p := pow_le_pow_right₀ (by norm_num) hp
  have h1 : Off (1 / 2 ^ p) (0 + 1) (x * x) (R.rnd (x * x)) := (Off.refl _ _).rnd R (by omega) (mul_self_nonneg x)
  have h2 : Off (1 / 2 ^ p) 2 (x * x + y * y) (mulAdd R f (R.rnd (x * x)) y y) := Off.mulAdd R (by omega) f (mul_self_nonneg x) (mul_self_nonneg y) h1 (Off.refl _ _)
  have e : squaredNorm R f [x, y] = mulAdd R f (R.rnd (x * x)) y y := rfl
  have e2 : x ^ 2 + y ^ 2 = x * x + y * y := by ring
  rw [e, e2]
  have q0 : 0 ≤ x * x + y * y := add_nonneg (mul_self_nonneg x) (mul_self_nonneg y)
  obtain ⟨l, r⟩ := h2
  generalize mulAdd R f (R.rnd (x * x)) y y = z at *
  generalize x * x + y * y = q at *
  generalize (1 : ℝ) / 2 ^ p = u at *
  have i := mul_nonneg u0 q0
  have j := mul_le_mul_of_nonneg_right u1 i
  rw [abs_le]
  constructor <;> nlinarith

theorem dot_err (hp : 12 ≤ p) (f : Bool) (x y z w : ℝ) : |dot R f [x, y] [z, w] - (x * z + y * w)| ≤ 2001 / 1000 * (1 / 2 ^ p) * (√(x ^ 2 + y ^ 2) * √(z ^ 2 + w ^ 2)) := by
  have p1 : 1 ≤ p := by omega
  have u0 := unit_nonneg (K := ℝ) p
  have u1 : (1 : ℝ) / 2 ^ p ≤ 1 / 4096 := by
    refine one_div_le_one_div_of_le (by norm_num) ?_
    calc (4096 : ℝ) = 2 ^ 12 := by norm_num
      _ ≤ 2 ^ p := pow_le_pow_right₀ (by norm_num) hp
  have cs : |x * z| + |y * w| ≤ √(x ^ 2 + y ^ 2) * √(z ^ 2 + w ^ 2) := by
    rw [← Real.sqrt_mul (by positivity)]
    refine Real.le_sqrt_of_sq_le ?_
    rw [abs_mul, abs_mul]
    have a1 := sq_abs x; have a2 := sq_abs y; have a3 := sq_abs z; have a4 := sq_abs w
    rw [← a1, ← a2, ← a3, ← a4]
    nlinarith [sq_nonneg (|x| * |w| - |y| * |z|)]
  have e : dot R f [x, y] [z, w] = R.rnd (R.rnd (x * z) + prodIf R f (y * w)) := by
    show mulAdd R f (R.rnd (x * z)) y w = _
    unfold mulAdd prodIf
    split <;> rfl
  rw [e]
  have h1 := rnd_le R p1 (le_refl |x * z|)
  have h2 := prod_le R p1 f (le_refl |y * w|)
  have s1 := add_err h1 h2
  have h3 := rnd_le R p1 (size (abs_add_le (x * z) (y * w)) s1)
  refine (tri h3 s1).trans ?_
  have q0 : 0 ≤ |x * z| + |y * w| := by positivity
  have i := mul_nonneg u0 q0
  have j := mul_le_mul_of_nonneg_right u1 i
  have t := mul_le_mul_of_nonneg_left cs u0
  linarith

theorem four_fp {x : ℝ} (h : IsFp p x) : R.rnd (4 * x) = 4 * x := by
  have e : 2 * (2 * x) = 4 * x := by ring
  have := R.id h.double.double
  rwa [e] at this

/-- The formula, on computed coefficients of the curve: where the two of them are not parallel at the scale of half the digits, the result is the length of
the curve up to rounding. -/
theorem C147_formula (hp : 12 ≤ p) {m : QLenMath ℝ} (hm : Libm p m) (x1 x2 : P2 ℝ) (h0 : x2.1 * x1.2 - x2.2 * x1.1 ≠ 0)
    (hc : 64 * (1 / 2 ^ p) * ((2 * norm2 x2) ^ 2 * (2 * norm2 x2 + norm2 x1) ^ 2) ≤ (x2.1 * x1.2 - x2.2 * x1.1) ^ 2) :
    ∃ l, qLenFormula R m (qSpeed R m.vec x1 x2).1 (qSpeed R m.vec x1 x2).2.1 (qSpeed R m.vec x1 x2).2.2 = some l ∧
      |l - arc x1 x2| ≤ (60 / (2 * norm2 x2) + 15 * slowness x1 x2) * (1 / 2 ^ p) * (2 * norm2 x2 + norm2 x1) ^ 2 := by
  have u1 : (1 : ℝ) / 2 ^ p ≤ 1 / 4096 := by
    refine one_div_le_one_div_of_le (by norm_num) ?_
    calc (4096 : ℝ) = 2 ^ 12 := by norm_num
      _ ≤ 2 ^ p := pow_le_pow_right₀ (by norm_num) hp
  have u0 := unit_nonneg (K := ℝ) p
  have q0 : 0 < (x2.1 * x1.2 - x2.2 * x1.1) ^ 2 := by positivity
  have lag : (x2.1 ^ 2 + x2.2 ^ 2) * (x1.1 ^ 2 + x1.2 ^ 2) = (x2.1 * x1.2 - x2.2 * x1.1) ^ 2 + (x2.1 * x1.1 + x2.2 * x1.2) ^ 2 := by ring
  have A0 : 0 < x2.1 ^ 2 + x2.2 ^ 2 := by
    refine lt_of_le_of_ne (by positivity) fun h => ?_
    rw [← h] at lag; nlinarith [sq_nonneg (x2.1 * x1.1 + x2.2 * x1.2)]
  have C0 : 0 < x1.1 ^ 2 + x1.2 ^ 2 := by
    refine lt_of_le_of_ne (by positivity) fun h => ?_
    rw [← h] at lag; nlinarith [sq_nonneg (x2.1 * x1.1 + x2.2 * x1.2)]
  obtain ⟨A, hA⟩ : ∃ A, A = 4 * (x2.1 ^ 2 + x2.2 ^ 2) := ⟨_, rfl⟩
  obtain ⟨B, hB⟩ : ∃ B, B = 4 * (x2.1 * x1.1 + x2.2 * x1.2) := ⟨_, rfl⟩
  obtain ⟨C, hC⟩ : ∃ C, C = x1.1 ^ 2 + x1.2 ^ 2 := ⟨_, rfl⟩
  have A1 : 0 < A := by linarith
  have C1 : 0 < C := by linarith
  have disc4 : 4 * A * C - B ^ 2 = 16 * (x2.1 * x1.2 - x2.2 * x1.1) ^ 2 := by rw [hA, hB, hC]; linear_combination 16 * lag
  have hd : B ^ 2 < 4 * A * C := by linarith
  obtain ⟨T0, -⟩ := Geom.arg_pos A B C 1 A1 hd
  have T1 : 0 < A + B + C := by linarith
  have nα : 2 * norm2 x2 = √A := by
    rw [hA, Real.sqrt_mul (by norm_num), show (4 : ℝ) = 2 ^ 2 by norm_num, Real.sqrt_sq (by norm_num)]; rfl
  have nγ : norm2 x1 = √C := by rw [hC]; rfl
  have sp : ∀ r, speed x1 x2 r = √(A * r ^ 2 + B * r + C) := by
    intro r; unfold speed norm2; dsimp only; rw [hA, hB, hC]; congr 1; ring
  rw [nα, nγ] at hc ⊢
  have α0 := Real.sqrt_pos.2 A1
  have γ0 := Real.sqrt_pos.2 C1
  have β0 := Real.sqrt_pos.2 T1
  have αs := Real.sq_sqrt A1.le
  have γs := Real.sq_sqrt C1.le
  have βs := Real.sq_sqrt T1.le
  have sit : Sit p √A √(A + B + C) √C (√A + √C) (1 / 2 ^ p * (√A + √C) ^ 2 / √(A + B + C) ^ 2) B := by
    refine ⟨u1, α0, β0, γ0, rfl, ?_, ?_, ?_, ?_, ?_⟩
    · rw [βs, αs, γs]
    · refine abs_le_of_sq_le_sq ?_ (by positivity)
      have : (2 * (√A * √C)) ^ 2 = 4 * A * C := by rw [mul_pow, mul_pow, αs, γs]; ring
      rw [this]; exact hd.le
    · refine abs_le_of_sq_le_sq ?_ (by positivity)
      have : (2 * (√A * √(A + B + C))) ^ 2 = 4 * A * (A + B + C) := by rw [mul_pow, mul_pow, αs, βs]; ring
      rw [this, αs]; nlinarith
    · exact div_mul_cancel₀ _ (pow_pos β0 2).ne'
    · have e : 4 * (√A ^ 2 * √C ^ 2) - B ^ 2 = 16 * (x2.1 * x1.2 - x2.2 * x1.1) ^ 2 := by rw [αs, γs, ← disc4]; ring
      rw [e]; linarith
  have coef : Coef p √A √C B (qSpeed R m.vec x1 x2).1 (qSpeed R m.vec x1 x2).2.1 (qSpeed R m.vec x1 x2).2.2 := by
    refine ⟨R.mem _, R.mem _, ?_, ?_, ?_, ?_⟩
    · show IsFp p (mulAdd R m.vec _ _ _)
      unfold mulAdd; split <;> exact R.mem _
    · rw [αs]
      show |R.rnd (4 * squaredNorm R m.vec [x2.1, x2.2]) - A| ≤ _
      have f : IsFp p (squaredNorm R m.vec [x2.1, x2.2]) := by
        show IsFp p (mulAdd R m.vec _ _ _)
        unfold mulAdd; split <;> exact R.mem _
      rw [four_fp R f, hA, ← mul_sub, abs_mul, abs_of_pos (by norm_num : (0 : ℝ) < 4)]
      have := sqn_err R hp m.vec x2.1 x2.2
      linarith
    · show |R.rnd (4 * dot R m.vec [x2.1, x2.2] [x1.1, x1.2]) - B| ≤ _
      have f : IsFp p (dot R m.vec [x2.1, x2.2] [x1.1, x1.2]) := by
        show IsFp p (mulAdd R m.vec _ _ _)
        unfold mulAdd; split <;> exact R.mem _
      rw [four_fp R f, hB, ← mul_sub, abs_mul, abs_of_pos (by norm_num : (0 : ℝ) < 4), ← nα, ← nγ]
      have := dot_err R hp m.vec x2.1 x2.2 x1.1 x1.2
      have e : √(x2.1 ^ 2 + x2.2 ^ 2) * √(x1.1 ^ 2 + x1.2 ^ 2) = norm2 x2 * norm2 x1 := rfl
      rw [e] at this
      have i : 0 ≤ 1 / 2 ^ p * (norm2 x2 * norm2 x1) := mul_nonneg u0 (mul_nonneg (Real.sqrt_nonneg _) (Real.sqrt_nonneg _))
      linarith
    · rw [γs, hC]; exact sqn_err R hp m.vec x1.1 x1.2
  obtain ⟨l, hl, er⟩ := formula_err R sit coef hm.sqrt hm.log
  refine ⟨l, hl, ?_⟩
  rw [αs, γs, ← integral_formula A B C A1 hd] at er
  have harc : arc x1 x2 = ∫ r in (0 : ℝ)..1, √(A * r ^ 2 + B * r + C) := by unfold arc; simp only [sp]
  have hslow : slowness x1 x2 = ∫ r in (0 : ℝ)..1, 1 / √(A * r ^ 2 + B * r + C) := by unfold slowness; simp only [sp]
  have hlog := log_integral A B C A1 hd
  rw [← hslow] at hlog
  have s0 : 0 ≤ slowness x1 x2 := by
    rw [hslow]
    refine intervalIntegral.integral_nonneg (by norm_num) fun r _ => by positivity
  have labs : |Real.log ((2 * (√A * √C) + B) / (2 * (√A * √(A + B + C)) + (2 * A + B)))| = √A * slowness x1 x2 := by
    have e : (2 * (√A * √C) + B) / (2 * (√A * √(A + B + C)) + (2 * A + B)) = ((2 * √A * √(A + B + C) + (2 * A + B)) / (2 * √A * √C + B))⁻¹ := by
      rw [inv_div, mul_assoc, mul_assoc]
    rw [e, Real.log_inv, abs_neg, hlog, abs_of_nonneg (mul_nonneg α0.le s0)]
  rw [labs, ← harc] at er
  refine er.trans (le_of_eq ?_)
  field_simp

/-! ### The coefficients -/

theorem norm2_sub (u v : P2 ℝ) : |norm2 u - norm2 v| ≤ |u.1 - v.1| + |u.2 - v.2| := by
  have key : ∀ u v : P2 ℝ, norm2 u ≤ norm2 v + (|u.1 - v.1| + |u.2 - v.2|) := by
    intro u v
    have a0 := abs_nonneg (u.1 - v.1)
    have b0 := abs_nonneg (u.2 - v.2)
    have n0 : 0 ≤ norm2 v := Real.sqrt_nonneg _
    have ns : norm2 v ^ 2 = v.1 ^ 2 + v.2 ^ 2 := Real.sq_sqrt (by positivity)
    refine Real.sqrt_le_iff.2 ⟨by linarith, ?_⟩
    have h1 : |v.1| ≤ norm2 v := Real.abs_le_sqrt (by nlinarith [sq_nonneg v.2])
    have h2 : |v.2| ≤ norm2 v := Real.abs_le_sqrt (by nlinarith [sq_nonneg v.1])
    have e1 : u.1 ^ 2 ≤ v.1 ^ 2 + 2 * |v.1| * |u.1 - v.1| + |u.1 - v.1| ^ 2 := by
      have t : |u.1| ≤ |v.1| + |u.1 - v.1| := by have := abs_sub_abs_le_abs_sub u.1 v.1; linarith
      have := pow_le_pow_left₀ (abs_nonneg _) t 2
      rw [sq_abs] at this
      have := sq_abs v.1
      nlinarith
    have e2 : u.2 ^ 2 ≤ v.2 ^ 2 + 2 * |v.2| * |u.2 - v.2| + |u.2 - v.2| ^ 2 := by
      have t : |u.2| ≤ |v.2| + |u.2 - v.2| := by have := abs_sub_abs_le_abs_sub u.2 v.2; linarith
      have := pow_le_pow_left₀ (abs_nonneg _) t 2
      rw [sq_abs] at this
      have := sq_abs v.2
      nlinarith
    have f1 := mul_le_mul_of_nonneg_right h1 a0
    have f2 := mul_le_mul_of_nonneg_right h2 b0
    nlinarith [mul_nonneg a0 b0]
  have h1 := key u v
  have h2 := key v u
  rw [abs_sub_comm v.1, abs_sub_comm v.2] at h2
  rw [abs_le]; constructor <;> linarith

theorem speed_cont (x1 x2 : P2 ℝ) : Continuous (speed x1 x2) := by unfold speed norm2; fun_prop

/-- Curves with close coefficients have close lengths. -/
theorem arc_sub {x1 x2 y1 y2 : P2 ℝ} {e f : ℝ} (h1 : |x1.1 - y1.1| + |x1.2 - y1.2| ≤ e) (h2 : |x2.1 - y2.1| + |x2.2 - y2.2| ≤ f) : |arc x1 x2 - arc y1 y2| ≤ e + 2 * f := by
  unfold arc
  rw [← intervalIntegral.integral_sub ((speed_cont x1 x2).intervalIntegrable _ _) ((speed_cont y1 y2).intervalIntegrable _ _)]
  have := intervalIntegral.norm_integral_le_of_norm_le_const (a := (0 : ℝ)) (b := 1) (C := e + 2 * f) (f := fun r => speed x1 x2 r - speed y1 y2 r) ?_
  · simpa using this
  · intro r hr
    rw [Set.uIoc_of_le (by norm_num)] at hr
    rw [Real.norm_eq_abs]
    refine (norm2_sub _ _).trans ?_
    dsimp only
    have key : ∀ a b c d : ℝ, |a + 2 * r * b - (c + 2 * r * d)| ≤ |a - c| + 2 * |b - d| := by
      intro a b c d
      have e : a + 2 * r * b - (c + 2 * r * d) = (a - c) + 2 * r * (b - d) := by ring
      rw [e]
      refine (abs_add_le _ _).trans ?_
      rw [abs_mul, abs_of_nonneg (by linarith [hr.1] : 0 ≤ 2 * r)]
      have := mul_le_mul_of_nonneg_right (by linarith [hr.2] : 2 * r ≤ 2) (abs_nonneg (b - d))
      linarith
    have k1 := key x1.1 x2.1 y1.1 y2.1
    have k2 := key x1.2 x2.2 y1.2 y2.2
    linarith

/-- The coefficients of the curve through three nodes: of `r` and of `r²`. -/
def coef1 (q0 q1 q2 : P2 ℝ) : P2 ℝ := (3 * (q2.1 - q0.1) + (q2.1 - q1.1), 3 * (q2.2 - q0.2) + (q2.2 - q1.2))
def coef2 (q0 q1 q2 : P2 ℝ) : P2 ℝ := (-2 * ((q2.1 - q0.1) + (q2.1 - q1.1)), -2 * ((q2.2 - q0.2) + (q2.2 - q1.2)))

/-- The size of the curve. -/
def extent (q0 q1 q2 : P2 ℝ) : ℝ := |q2.1 - q0.1| + |q2.1 - q1.1| + (|q2.2 - q0.2| + |q2.2 - q1.2|)

/-- The curve that these are the coefficients of goes from the first node to the second by the third. -/
theorem coef_nodes (q0 q1 q2 : P2 ℝ) : q0.1 + (coef1 q0 q1 q2).1 + (coef2 q0 q1 q2).1 = q1.1 ∧ q0.2 + (coef1 q0 q1 q2).2 + (coef2 q0 q1 q2).2 = q1.2 ∧
    q0.1 + 1 / 2 * (coef1 q0 q1 q2).1 + (1 / 2) ^ 2 * (coef2 q0 q1 q2).1 = q2.1 ∧ q0.2 + 1 / 2 * (coef1 q0 q1 q2).2 + (1 / 2) ^ 2 * (coef2 q0 q1 q2).2 = q2.2 := by
  refine ⟨?_, ?_, ?_, ?_⟩ <;> simp only [coef1, coef2] <;> ring

/-- A segment that is not taken to be straight. -/
theorem C147_length_partial (hp : 12 ≤ p) {m : QLenMath ℝ} (hm : Libm p m) {eps2 : ℝ} {q0 q1 q2 : P2 ℝ} (hs : qIsStraight R m.vec eps2 q0 q1 q2 = false) :
    ∃ x1 x2 : P2 ℝ, |x1.1 - (coef1 q0 q1 q2).1| + |x1.2 - (coef1 q0 q1 q2).2| ≤ 10 * (1 / 2 ^ p) * extent q0 q1 q2 ∧
      |x2.1 - (coef2 q0 q1 q2).1| + |x2.2 - (coef2 q0 q1 q2).2| ≤ 5 * (1 / 2 ^ p) * extent q0 q1 q2 ∧
      (x2.1 * x1.2 - x2.2 * x1.1 ≠ 0 → 64 * (1 / 2 ^ p) * ((2 * norm2 x2) ^ 2 * (2 * norm2 x2 + norm2 x1) ^ 2) ≤ (x2.1 * x1.2 - x2.2 * x1.1) ^ 2 →
        ∃ l, qLength R m eps2 q0 q1 q2 = some l ∧
          |l - arc (coef1 q0 q1 q2) (coef2 q0 q1 q2)| ≤
            (60 / (2 * norm2 x2) + 15 * slowness x1 x2) * (1 / 2 ^ p) * (2 * norm2 x2 + norm2 x1) ^ 2 + 20 * (1 / 2 ^ p) * extent q0 q1 q2) := by
  have hx := qCoeffs_error R (by omega : 5 ≤ p) m.bx q0.1 q1.1 q2.1
  have hy := qCoeffs_error R (by omega : 5 ≤ p) m.by' q0.2 q1.2 q2.2
  have c1 : |(qCoeffs R m.bx q0.1 q1.1 q2.1).1 - (coef1 q0 q1 q2).1| + |(qCoeffs R m.by' q0.2 q1.2 q2.2).1 - (coef1 q0 q1 q2).2| ≤ 10 * (1 / 2 ^ p) * extent q0 q1 q2 := by
    unfold extent coef1; dsimp only; linarith [hx.1, hy.1]
  have c2 : |(qCoeffs R m.bx q0.1 q1.1 q2.1).2 - (coef2 q0 q1 q2).1| + |(qCoeffs R m.by' q0.2 q1.2 q2.2).2 - (coef2 q0 q1 q2).2| ≤ 5 * (1 / 2 ^ p) * extent q0 q1 q2 := by
    unfold extent coef2; dsimp only; linarith [hx.2, hy.2]
  refine ⟨((qCoeffs R m.bx q0.1 q1.1 q2.1).1, (qCoeffs R m.by' q0.2 q1.2 q2.2).1), ((qCoeffs R m.bx q0.1 q1.1 q2.1).2, (qCoeffs R m.by' q0.2 q1.2 q2.2).2), c1, c2, fun h0 hc => ?_⟩
  obtain ⟨l, hl, er⟩ := C147_formula R hp hm _ _ h0 hc
  refine ⟨l, ?_, ?_⟩
  · unfold qLength
    rw [hs]
    exact hl
  · have a := arc_sub (x1 := ((qCoeffs R m.bx q0.1 q1.1 q2.1).1, (qCoeffs R m.by' q0.2 q1.2 q2.2).1)) (x2 := ((qCoeffs R m.bx q0.1 q1.1 q2.1).2, (qCoeffs R m.by' q0.2 q1.2 q2.2).2)) c1 c2
    refine (tri er a).trans (le_of_eq ?_)
    ring

/-- A segment that is taken to be straight: the distance of its ends. -/
theorem C147_straight (hp : 12 ≤ p) {m : QLenMath ℝ} (hm : Libm p m) {eps2 : ℝ} {q0 q1 q2 : P2 ℝ} (hs : qIsStraight R m.vec eps2 q0 q1 q2 = true) :
    ∃ l, qLength R m eps2 q0 q1 q2 = some l ∧ |l - norm2 (q1.1 - q0.1, q1.2 - q0.2)| ≤ 31 / 10 * (1 / 2 ^ p) * norm2 (q1.1 - q0.1, q1.2 - q0.2) := by
  have sq : IsSqrt m.sqrt := fun x hx => by rw [hm.sqrt]; exact ⟨Real.sqrt_nonneg _, Real.mul_self_sqrt hx⟩
  have o := distance_off R (by omega : 1 ≤ p) sq m.vec (n := 2) (a := [q0.1, q0.2]) (b := [q1.1, q1.2]) rfl rfl
  have e : m.sqrt (exactDist2 [q0.1, q0.2] [q1.1, q1.2]) = norm2 (q1.1 - q0.1, q1.2 - q0.2) := by
    rw [hm.sqrt]
    unfold norm2
    congr 1
    simp [exactDist2, sumSq]
    ring
  rw [e] at o
  refine ⟨_, by unfold qLength; rw [if_pos hs], ?_⟩
  have o : Off (1 / 2 ^ p) 3 _ (R.rnd (m.sqrt (squaredDistanceTo R m.vec [q0.1, q0.2] [q1.1, q1.2]))) := o
  have n0 : 0 ≤ norm2 (q1.1 - q0.1, q1.2 - q0.2) := Real.sqrt_nonneg _
  have u0 := unit_nonneg (K := ℝ) p
  have u1 : (1 : ℝ) / 2 ^ p ≤ 1 / 4096 := by
    refine one_div_le_one_div_of_le (by norm_num) ?_
    calc (4096 : ℝ) = 2 ^ 12 := by norm_num
      _ ≤ 2 ^ p := pow_le_pow_right₀ (by norm_num) hp
  obtain ⟨a, b⟩ := o
  generalize R.rnd (m.sqrt (squaredDistanceTo R m.vec [q0.1, q0.2] [q1.1, q1.2])) = l at *
  generalize norm2 (q1.1 - q0.1, q1.2 - q0.2) = n at *
  generalize (1 : ℝ) / 2 ^ p = u at *
  have b1 : (1 + u) ^ 3 ≤ 1 + 31 / 10 * u := by nlinarith [mul_nonneg u0 u0, mul_nonneg (mul_nonneg u0 u0) u0]
  have b2 : 1 - 31 / 10 * u ≤ (1 - u) ^ 3 := by nlinarith [mul_nonneg u0 u0, mul_nonneg (mul_nonneg u0 u0) u0]
  have c1 := mul_le_mul_of_nonneg_left b1 n0
  have c2 := mul_le_mul_of_nonneg_left b2 n0
  rw [abs_le]; constructor <;> linarith

end

/-! ### The perimeter -/

section
variable {p : ℕ} (R : Rounding ℝ p)

theorem perimeter_loop (hp : 1 ≤ p) (m : QLenMath ℝ) (eps2 : ℝ) : ∀ (es : List (P2 ℝ × P2 ℝ × P2 ℝ)) (ls : List ℝ) (k : ℕ) (acc acc' A : ℝ),
    List.Forall₂ (fun e l => qLength R m eps2 e.1 e.2.1 e.2.2 = some l) es ls → |acc' - acc| ≤ ((1 + 1 / 2 ^ p) ^ k - 1) * A → |acc| ≤ A →
    ∃ s, qPerimeterLoop R m eps2 acc' es = some s ∧ |s - (acc + ls.sum)| ≤ ((1 + 1 / 2 ^ p) ^ (k + es.length) - 1) * (A + (ls.map abs).sum) := by
  intro es ls k acc acc' A h
  induction h generalizing k acc acc' A with
  | nil => intro h1 _; exact ⟨acc', rfl, by simpa using h1⟩
  | @cons e l es ls he _ ih =>
    intro h1 h2
    have st := Rel.step R hp (k := k) (l := 0) (by omega) h1 h2 (Rel.refl _ l)
    obtain ⟨s, hs, hb⟩ := ih (k + 1) (acc + l) (R.rnd (acc' + l)) (A + |l|) st ((abs_add_le _ _).trans (by linarith))
    obtain ⟨q0, q1, q2⟩ := e
    refine ⟨s, by rw [qPerimeterLoop, he]; exact hs, ?_⟩
    rw [List.sum_cons, List.map_cons, List.sum_cons, List.length_cons, ← add_assoc acc, ← add_assoc A, Nat.add_comm es.length 1, ← Nat.add_assoc k]
    exact hb

/-- The perimeter is the sum of the lengths of the edges, up to a rounding for each edge but the first. -/
theorem C147_perimeter (hp : 1 ≤ p) (m : QLenMath ℝ) (eps2 : ℝ) (e : P2 ℝ × P2 ℝ × P2 ℝ) (es : List (P2 ℝ × P2 ℝ × P2 ℝ)) {l : ℝ} {ls : List ℝ}
    (h : List.Forall₂ (fun e l => qLength R m eps2 e.1 e.2.1 e.2.2 = some l) (e :: es) (l :: ls)) :
    ∃ s, qPerimeter R m eps2 e es = some s ∧ |s - (l :: ls).sum| ≤ ((1 + 1 / 2 ^ p) ^ es.length - 1) * ((l :: ls).map abs).sum := by
  cases h with
  | cons h1 h2 =>
    obtain ⟨s, hs, hb⟩ := perimeter_loop R hp m eps2 es ls 0 l l |l| h2 (by simp) le_rfl
    refine ⟨s, by unfold qPerimeter; rw [h1]; exact hs, ?_⟩
    rw [Nat.zero_add] at hb
    simpa using hb

end

theorem loop_none {K : Type} [Field K] [LinearOrder K] {p : ℕ} (R : Rounding K p) (m : QLenMath K) (eps2 : K) : ∀ (es : List (P2 K × P2 K × P2 K)) (s : K),
    (∃ e ∈ es, qLength R m eps2 e.1 e.2.1 e.2.2 = none) → qPerimeterLoop R m eps2 s es = none
  | [], _, h => by obtain ⟨e, h, -⟩ := h; simp at h
  | (q0, q1, q2) :: es, s, h => by
    rw [qPerimeterLoop]
    cases hl : qLength R m eps2 q0 q1 q2 with
    | none => rfl
    | some l =>
      refine loop_none R m eps2 es _ ?_
      obtain ⟨e, he, hn⟩ := h
      rcases List.mem_cons.1 he with rfl | he
      · rw [hl] at hn; cases hn
      · exact ⟨e, he, hn⟩

/-- An edge without a length leaves the polygon without a perimeter. -/
theorem C147_perimeter_none {K : Type} [Field K] [LinearOrder K] {p : ℕ} (R : Rounding K p) (m : QLenMath K) (eps2 : K) (e : P2 K × P2 K × P2 K) (es : List (P2 K × P2 K × P2 K))
    (h : ∃ x ∈ e :: es, qLength R m eps2 x.1 x.2.1 x.2.2 = none) : qPerimeter R m eps2 e es = none := by
  unfold qPerimeter
  cases hl : qLength R m eps2 e.1 e.2.1 e.2.2 with
  | none => rfl
  | some l =>
    refine loop_none R m eps2 es _ ?_
    obtain ⟨x, hx, hn⟩ := h
    rcases List.mem_cons.1 hx with rfl | hx
    · rw [hl] at hn; cases hn
    · exact ⟨x, hx, hn⟩

/-! ### A length that is not a number -/

/-- With double precision: a curve of length 512 that is not straight has no length in one direction, and has it in the other. -/
theorem C147_length_fails (m : QLenMath ℚ) (hs : ∀ x, 0 ≤ x → m.sqrt (x * x) = x) {eps2 : ℚ} (he : eps2 ≤ 1 / 10 ^ 14) :
    IsFp 53 (1 / 2 ^ 23 : ℚ) ∧ qIsStraight (ieee ℚ 53 (by norm_num)) m.vec eps2 (0, 0) (512, 0) (352, 1 / 2 ^ 23) = false ∧
    qLength (ieee ℚ 53 (by norm_num)) m eps2 (0, 0) (512, 0) (352, 1 / 2 ^ 23) = none ∧
    qLength (ieee ℚ 53 (by norm_num)) m eps2 (512, 0) (0, 0) (352, 1 / 2 ^ 23) = some 512 := by
  have st : ∀ f : Bool, qIsStraight (ieee ℚ 53 (by norm_num)) f eps2 (0, 0) (512, 0) (352, 1 / 2 ^ 23) = false ∧
      qIsStraight (ieee ℚ 53 (by norm_num)) f eps2 (512, 0) (0, 0) (352, 1 / 2 ^ 23) = false := by
    have key : ∀ (f : Bool) (q0 q1 q2 : P2 ℚ), qIsStraight (ieee ℚ 53 (by norm_num)) f (1 / 10 ^ 14) q0 q1 q2 = false → qIsStraight (ieee ℚ 53 (by norm_num)) f eps2 q0 q1 q2 = false := by
      intro f q0 q1 q2
      unfold qIsStraight
      dsimp only
      split
      · exact fun h => h
      · intro h
        rw [decide_eq_false_iff_not, not_lt] at h ⊢
        exact he.trans h
    intro f
    refine ⟨key f _ _ _ ?_, key f _ _ _ ?_⟩ <;> cases f <;> decide +kernel
  have s1 : m.sqrt 589824 = 768 := by have := hs 768 (by norm_num); norm_num at this; exact this
  have s2 : m.sqrt 802816 = 896 := by have := hs 896 (by norm_num); norm_num at this; exact this
  have s3 : m.sqrt 16384 = 128 := by have := hs 128 (by norm_num); norm_num at this; exact this
  have k1 : ∀ bx by' vec : Bool, qSpeed (ieee ℚ 53 (by norm_num)) vec
      ((qCoeffs (ieee ℚ 53 (by norm_num)) bx 0 512 352).1, (qCoeffs (ieee ℚ 53 (by norm_num)) by' 0 0 (1 / 2 ^ 23)).1)
      ((qCoeffs (ieee ℚ 53 (by norm_num)) bx 0 512 352).2, (qCoeffs (ieee ℚ 53 (by norm_num)) by' 0 0 (1 / 2 ^ 23)).2) = (589824, -1376256, 802816) := by
    intro bx by' vec
    cases bx <;> cases by' <;> cases vec <;> decide +kernel
  have k2 : ∀ bx by' vec : Bool, qSpeed (ieee ℚ 53 (by norm_num)) vec
      ((qCoeffs (ieee ℚ 53 (by norm_num)) bx 512 0 352).1, (qCoeffs (ieee ℚ 53 (by norm_num)) by' 0 0 (1 / 2 ^ 23)).1)
      ((qCoeffs (ieee ℚ 53 (by norm_num)) bx 512 0 352).2, (qCoeffs (ieee ℚ 53 (by norm_num)) by' 0 0 (1 / 2 ^ 23)).2) = (589824, 196608, 16384) := by
    intro bx by' vec
    cases bx <;> cases by' <;> cases vec <;> decide +kernel
  refine ⟨⟨1, -23, by norm_num, by norm_num⟩, (st _).1, ?_, ?_⟩
  · unfold qLength
    rw [if_neg (by rw [(st _).1]; exact Bool.false_ne_true)]
    dsimp only
    rw [k1]
    have a1 : (ieee ℚ 53 (by norm_num)).rnd ((ieee ℚ 53 (by norm_num)).rnd ((589824 : ℚ) + -1376256) + 802816) = 16384 := by decide +kernel
    have a2 : (ieee ℚ 53 (by norm_num)).rnd (768 : ℚ) = 768 := by decide +kernel
    have a3 : (ieee ℚ 53 (by norm_num)).rnd (896 : ℚ) = 896 := by decide +kernel
    have a4 : (ieee ℚ 53 (by norm_num)).rnd (128 : ℚ) = 128 := by decide +kernel
    have d : ∀ f : Bool, (ieee ℚ 53 (by norm_num)).rnd (prodIf (ieee ℚ 53 (by norm_num)) f ((ieee ℚ 53 (by norm_num)).rnd (2 * 768) * 128) +
        (ieee ℚ 53 (by norm_num)).rnd ((ieee ℚ 53 (by norm_num)).rnd (2 * 589824) + (-1376256 : ℚ))) = 0 := by
      intro f; cases f <;> decide +kernel
    unfold qLenFormula
    dsimp only
    rw [a1, s1, s3, a2, a4, if_neg (by norm_num), if_pos (d _)]
  · unfold qLength
    rw [if_neg (by rw [(st _).2]; exact Bool.false_ne_true)]
    dsimp only
    rw [k2]
    have a1 : (ieee ℚ 53 (by norm_num)).rnd ((ieee ℚ 53 (by norm_num)).rnd ((589824 : ℚ) + 196608) + 16384) = 802816 := by decide +kernel
    have a2 : (ieee ℚ 53 (by norm_num)).rnd (768 : ℚ) = 768 := by decide +kernel
    have a3 : (ieee ℚ 53 (by norm_num)).rnd (896 : ℚ) = 896 := by decide +kernel
    have a4 : (ieee ℚ 53 (by norm_num)).rnd (128 : ℚ) = 128 := by decide +kernel
    have n : ∀ f : Bool, (ieee ℚ 53 (by norm_num)).rnd (prodIf (ieee ℚ 53 (by norm_num)) f ((ieee ℚ 53 (by norm_num)).rnd (2 * 768) * 128) + (196608 : ℚ)) = 393216 := by
      intro f; cases f <;> decide +kernel
    have d : ∀ f : Bool, (ieee ℚ 53 (by norm_num)).rnd (prodIf (ieee ℚ 53 (by norm_num)) f ((ieee ℚ 53 (by norm_num)).rnd (2 * 768) * 896) +
        (ieee ℚ 53 (by norm_num)).rnd ((ieee ℚ 53 (by norm_num)).rnd (2 * 589824) + (196608 : ℚ))) = 2752512 := by
      intro f; cases f <;> decide +kernel
    have r : ¬ (ieee ℚ 53 (by norm_num)).rnd ((393216 : ℚ) / 2752512) ≤ 0 := by decide +kernel
    have z : disc (ieee ℚ 53 (by norm_num)) (589824 : ℚ) 196608 16384 = 0 := by decide +kernel
    have z2 : ∀ (f : Bool) (x : ℚ), prodIf (ieee ℚ 53 (by norm_num)) f (0 * x) = 0 := by
      intro f x
      unfold prodIf
      rw [zero_mul]
      split
      · rfl
      · exact Rounding.zero _
    have g : ∀ f h t : Bool, (ieee ℚ 53 (by norm_num)).rnd (0 + prodIf (ieee ℚ 53 (by norm_num)) t (768 * (ieee ℚ 53 (by norm_num)).rnd (2 * (ieee ℚ 53 (by norm_num)).rnd
        (prodIf (ieee ℚ 53 (by norm_num)) f ((ieee ℚ 53 (by norm_num)).rnd ((ieee ℚ 53 (by norm_num)).rnd (2 * 589824) + (196608 : ℚ)) * 896) - prodIf (ieee ℚ 53 (by norm_num)) h (196608 * 128))))) =
        1855425871872 := by
      intro f h t; cases f <;> cases h <;> cases t <;> decide +kernel
    have e : (ieee ℚ 53 (by norm_num)).rnd ((ieee ℚ 53 (by norm_num)).rnd ((ieee ℚ 53 (by norm_num)).rnd (8 * 768) * 768) * (768 : ℚ)) = 3623878656 := by decide +kernel
    unfold qLenFormula
    dsimp only
    rw [a1, s1, s2, s3, a2, a3, a4, if_neg (by norm_num), d, n, if_neg (by norm_num), if_neg r, z, z2, g, e, if_neg (by norm_num)]
    refine congrArg some ?_
    decide +kernel

/-- So a triangle with that edge has no perimeter. -/
example (m : QLenMath ℚ) (hs : ∀ x, 0 ≤ x → m.sqrt (x * x) = x) (es : List (P2 ℚ × P2 ℚ × P2 ℚ)) :
    qPerimeter (ieee ℚ 53 (by norm_num)) m (1 / 10 ^ 14) ((0, 0), (512, 0), (352, 1 / 2 ^ 23)) es = none :=
  C147_perimeter_none _ m _ _ es ⟨_, List.mem_cons_self, (C147_length_fails m hs le_rfl).2.2.1⟩

/-- An arch with the sagitta of a semicircle meets the hypotheses. -/
example {m : QLenMath ℝ} (hm : Libm 53 m) : ∃ l, qLenFormula (ieee ℝ 53 (by norm_num)) m (qSpeed (ieee ℝ 53 (by norm_num)) m.vec (2, 4) (0, -4)).1
    (qSpeed (ieee ℝ 53 (by norm_num)) m.vec (2, 4) (0, -4)).2.1 (qSpeed (ieee ℝ 53 (by norm_num)) m.vec (2, 4) (0, -4)).2.2 = some l ∧
    |l - arc (2, 4) (0, -4)| ≤ (60 / (2 * norm2 (0, -4)) + 15 * slowness (2, 4) (0, -4)) * (1 / 2 ^ 53) * (2 * norm2 (0, -4) + norm2 (2, 4)) ^ 2 := by
  refine C147_formula _ (by norm_num) hm (2, 4) (0, -4) (by norm_num) ?_
  have n2 : norm2 (0, -4) = 4 := by
    unfold norm2; norm_num
    rw [show (16 : ℝ) = 4 ^ 2 by norm_num, Real.sqrt_sq (by norm_num)]
  have n1 : norm2 (2, 4) ≤ 5 := by
    unfold norm2; norm_num
    rw [Real.sqrt_le_left (by norm_num)]; norm_num
  have n0 : 0 ≤ norm2 (2, 4) := Real.sqrt_nonneg _
  rw [n2]
  have : (2 * 4 + norm2 (2, 4)) ^ 2 ≤ 13 ^ 2 := pow_le_pow_left₀ (by linarith) (by linarith) 2
  norm_num
  linarith

end Verif.PropsFpQLength
