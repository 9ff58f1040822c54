import Verif.Lemmas.FpCubicStop
import Verif.Lemmas.FpCast
import Verif.Props.FpRoots
import Verif.Props.Roots
import Verif.Props.Algorithm
import Mathlib.Analysis.SpecialFunctions.Pow.Real

/-!
# C150: `solveCubic` in floating-point arithmetic
-/

namespace Verif.FpCubicP

open Fp Fp.QLen FpRootsP

variable {p : ℕ} (R : Rounding ℝ p)

/-- A sorted triple of `x`, which is a root of the cubic, and of approximations of the two other roots; or of `x` and twice the mark for a missing root, if no other number is a root. -/
structure Approx (p : ℕ) (inv a b c d x : ℝ) (r : ℝ × ℝ × ℝ) : Prop where
  sorted : r.1 ≤ r.2.1 ∧ r.2.1 ≤ r.2.2
  root : a * x ^ 3 + b * x ^ 2 + c * x + d = 0
  others : ((∀ z, a * z ^ 3 + b * z ^ 2 + c * z + d = 0 → z = x) ∧ [r.1, r.2.1, r.2.2].Perm [inv, inv, x]) ∨
    ∃ z1 z2 y1 y2, (∀ z, a * z ^ 3 + b * z ^ 2 + c * z + d = a * (z - x) * (z - z1) * (z - z2)) ∧ |y1 - z1| ≤ 7 / 2 ^ p * |z1| ∧ |y2 - z2| ≤ 7 / 2 ^ p * |z2| ∧
      [r.1, r.2.1, r.2.2].Perm [y1, y2, x]

theorem finish_sorted (inv a b1 c2 x : ℝ) : (cubicFinish R inv a b1 c2 x).1 ≤ (cubicFinish R inv a b1 c2 x).2.1 ∧ (cubicFinish R inv a b1 c2 x).2.1 ≤ (cubicFinish R inv a b1 c2 x).2.2 ∧
    [(cubicFinish R inv a b1 c2 x).1, (cubicFinish R inv a b1 c2 x).2.1, (cubicFinish R inv a b1 c2 x).2.2].Perm [(solveQuadratic R inv a b1 c2).1, (solveQuadratic R inv a b1 c2).2, x] := by
  obtain ⟨r0, r1, r2, h1, h2, h3⟩ := Alg.C11_sort3 _ Roots.ltReal_strictWeak (solveQuadratic R inv a b1 c2).1 (solveQuadratic R inv a b1 c2).2 x
  rw [show cubicFinish R inv a b1 c2 x = (r0, r1, r2) from h1]
  simp at h3
  exact ⟨h3.1.1, h3.2, h2⟩

/-- The end of the function solves the product of `z - x` and the quadratic. -/
theorem finish_approx (hp : 8 ≤ p) (inv : ℝ) {a b1 c2 : ℝ} (x : ℝ) (h0 : a ≠ 0) (ha : IsFp p a) (hb : IsFp p b1) (hc : IsFp p c2) :
    Approx p inv a (b1 - a * x) (c2 - b1 * x) (-c2 * x) x (cubicFinish R inv a b1 c2 x) := by
  obtain ⟨s1, s2, s3⟩ := finish_sorted R inv a b1 c2 x
  have e : ∀ z, a * z ^ 3 + (b1 - a * x) * z ^ 2 + (c2 - b1 * x) * z + -c2 * x = (z - x) * (a * z ^ 2 + b1 * z + c2) := fun z => by ring
  refine ⟨⟨s1, s2⟩, by rw [e, sub_self, zero_mul], ?_⟩
  by_cases h : ∃ z : ℝ, a * z ^ 2 + b1 * z + c2 = 0
  · obtain ⟨z1, z2, -, g, -, k1, k2⟩ := C122_roots R hp inv ha hb hc h0 h
    refine .inr ⟨z1, z2, _, _, fun z => ?_, k1, k2, s3⟩
    rw [e, g]; ring
  · push Not at h
    refine .inl ⟨fun z hz => ?_, ?_⟩
    · rw [e, mul_eq_zero] at hz
      rcases hz with hz | hz
      · linarith
      · exact absurd hz (h z)
    · rw [C122_none R (by omega) inv ha hb hc h0 h] at s3
      exact s3

theorem deflate_perturbed (hp : 8 ≤ p) (f : CubicFused) (a b c d x : ℝ) :
    Perturbed p a b c d x ((cubicDeflate R f a b c d x).1 - a * x) ((cubicDeflate R f a b c d x).2 - (cubicDeflate R f a b c d x).1 * x) (-(cubicDeflate R f a b c d x).2 * x) ∧
      IsFp p (cubicDeflate R f a b c d x).1 ∧ IsFp p (cubicDeflate R f a b c d x).2 := by
  by_cases h : R.rnd (R.rnd (|a| * x) * x) > |R.rnd (d / x)|
  · have e : cubicDeflate R f a b c d x = (R.rnd (R.rnd (R.rnd (-d / x) - c) / x), R.rnd (-d / x)) := by
      unfold cubicDeflate; exact if_pos h
    rw [e]
    exact ⟨deflate_backward R hp a b c d x h, R.mem _, R.mem _⟩
  · have e : cubicDeflate R f a b c d x = ((cubicEval R f a b c d x).1, (cubicEval R f a b c d x).2.1) := by
      unfold cubicDeflate; exact if_neg h
    rw [e]
    exact ⟨deflate_forward R hp f a b c d x, R.mem _, R.mem _⟩

theorem newton_fp (f : CubicFused) (a b c d s : ℝ) : ∀ (n : ℕ) {x0 x : ℝ}, IsFp p x0 → cubicNewton R f a b c d s n x0 = some x → IsFp p x ∧ ¬ s * cubicStep R f a b c d x > s * x
  | 0, _, _, _, h => by cases h
  | n + 1, x0, x, h0, h => by
    unfold cubicNewton at h
    dsimp only at h
    split at h
    · refine newton_fp f a b c d s n ?_ h
      unfold cubicStep
      dsimp only
      split
      · exact h0
      · exact R.mem _
    · rename_i k
      rw [← Option.some.inj h]
      exact ⟨h0, k⟩

section
variable (hp : 8 ≤ p) (f0 f : CubicFused) (inv lam : ℝ) (cbrt : ℝ → ℝ) (fuel : ℕ)
include hp

/-- **C150**: the three values are in ascending order and are accurate roots of a cubic whose coefficients differ from the given ones by rounding errors of the terms, and in the constant and the
quadratic coefficient by the value of the cubic at the number `x` at which the iteration stopped. -/
theorem C150_roots {a b c d : ℝ} (ha : IsFp p a) (h0 : a ≠ 0) (d0 : d ≠ 0) {r : ℝ × ℝ × ℝ} (h : solveCubic R f0 f inv lam cbrt fuel a b c d = some r) :
    ∃ x b' c' d', IsFp p x ∧
      ((cubicStart R f0 lam cbrt a b c d).2.1 = (cubicStart R f0 lam cbrt a b c d).1 ∧ x = (cubicStart R f0 lam cbrt a b c d).1 ∨
        cubicNewton R f a b c d (cubicStart R f0 lam cbrt a b c d).2.2 fuel (cubicStart R f0 lam cbrt a b c d).2.1 = some x) ∧
      Perturbed p a b c d x b' c' d' ∧ Approx p inv a b' c' d' x r := by
  unfold solveCubic at h
  rw [if_neg h0, if_neg d0] at h
  dsimp only at h
  split at h
  · rename_i k
    refine ⟨_, _, _, _, R.mem _, .inl ⟨k, rfl⟩, deflate_forward R hp f0 a b c d _, ?_⟩
    rw [← Option.some.inj h]
    exact finish_approx R hp inv _ h0 ha (R.mem _) (R.mem _)
  · cases hn : cubicNewton R f a b c d (cubicStart R f0 lam cbrt a b c d).2.2 fuel (cubicStart R f0 lam cbrt a b c d).2.1 with
    | none => rw [hn] at h; cases h
    | some x =>
      rw [hn] at h
      obtain ⟨g1, g2, g3⟩ := deflate_perturbed R hp f a b c d x
      refine ⟨x, _, _, _, (newton_fp R f a b c d _ fuel (R.mem _) hn).1, .inr rfl, g1, ?_⟩
      have h' := Option.some.inj h
      rw [← h']
      exact finish_approx R hp inv x h0 ha g2 g3

/-- **C150**: without a constant, zero is one of the values, and the others are accurate. -/
theorem C150_zero {a b c : ℝ} (ha : IsFp p a) (hb : IsFp p b) (hc : IsFp p c) (h0 : a ≠ 0) :
    ∃ r, solveCubic R f0 f inv lam cbrt fuel a b c 0 = some r ∧ Approx p inv a b c 0 0 r := by
  refine ⟨cubicFinish R inv a b c 0, by unfold solveCubic; rw [if_neg h0, if_pos rfl], ?_⟩
  have := finish_approx R hp inv 0 h0 ha hb hc
  simpa using this

/-- **C150**: without a leading coefficient, the values are the mark of a missing root and the accurate roots of the quadratic, or three times the mark if it has none. -/
theorem C150_quadratic {b c d : ℝ} (hb : IsFp p b) (hc : IsFp p c) (hd : IsFp p d) (h0 : b ≠ 0) :
    ∃ r, solveCubic R f0 f inv lam cbrt fuel 0 b c d = some r ∧ r.1 ≤ r.2.1 ∧ r.2.1 ≤ r.2.2 ∧
      (((∀ z, b * z ^ 2 + c * z + d ≠ 0) ∧ r = (inv, inv, inv)) ∨
        ∃ z1 z2 y1 y2, (∀ z, b * z ^ 2 + c * z + d = b * (z - z1) * (z - z2)) ∧ |y1 - z1| ≤ 7 / 2 ^ p * |z1| ∧ |y2 - z2| ≤ 7 / 2 ^ p * |z2| ∧
          [r.1, r.2.1, r.2.2].Perm [y1, y2, inv]) := by
  obtain ⟨s1, s2, s3⟩ := finish_sorted R inv b c d inv
  refine ⟨cubicFinish R inv b c d inv, by unfold solveCubic; rw [if_pos rfl], s1, s2, ?_⟩
  by_cases h : ∃ z : ℝ, b * z ^ 2 + c * z + d = 0
  · obtain ⟨z1, z2, -, g, -, k1, k2⟩ := C122_roots R hp inv hb hc hd h0 h
    exact .inr ⟨z1, z2, _, _, g, k1, k2, s3⟩
  · push Not at h
    refine .inl ⟨h, ?_⟩
    rw [C122_none R (by omega) inv hb hc hd h0 h] at s3
    have m : ∀ y ∈ [(cubicFinish R inv b c d inv).1, (cubicFinish R inv b c d inv).2.1, (cubicFinish R inv b c d inv).2.2], y = inv := fun y hy => by
      have := s3.mem_iff.1 hy
      simpa using this
    exact Prod.ext (m _ (by simp)) (Prod.ext (m _ (by simp)) (m _ (by simp)))

/-- **C150**: if the loop stops before it has passed the first root in its direction `s`, on the side of the inflection where it starts, the value of the cubic is a rounding error of its terms.
Missing: it may stop beyond that root, see `C150_residual_fails`. -/
theorem C150_residual_partial {a b c d s x0 x : ℝ} (h0 : a ≠ 0) (hs : s = 1 ∨ s = -1) (hx0 : IsFp p x0) (h : cubicNewton R f a b c d s fuel x0 = some x)
    (hT : 0 ≤ s * ((a * (-b / (3 * a)) ^ 3 + b * (-b / (3 * a)) ^ 2 + c * (-b / (3 * a)) + d) / a)) (hx : s * x ≤ s * (-b / (3 * a)))
    (hg : s * ((a * x ^ 3 + b * x ^ 2 + c * x + d) / a) < 0) :
    |a * x ^ 3 + b * x ^ 2 + c * x + d| ≤ 15 / 2 ^ p * (|a| * |x| ^ 3 + |b| * |x| ^ 2 + |c| * |x| + |d|) := by
  have hstop := (newton_fp R f a b c d s fuel hx0 h).2
  have fin : ∀ k : ℝ, k ≤ 15 → |a * x ^ 3 + b * x ^ 2 + c * x + d| ≤ k / 2 ^ p * mag a b c d x → |a * x ^ 3 + b * x ^ 2 + c * x + d| ≤ 15 / 2 ^ p * mag a b c d x := fun k hk h => by
    refine h.trans (mul_le_mul_of_nonneg_right ((div_le_div_iff_of_pos_right (by positivity)).2 hk) ?_)
    unfold mag; positivity
  have hslope := eval_slope R hp f a b c d x
  have hval := (eval_high R hp f a b c d x).1
  have flat' := flat hp h0 hs hT hx hg
  obtain ⟨n1, -⟩ := before h0 hs hT hx hg
  change _ ≤ 15 / 2 ^ p * mag a b c d x
  rcases step_stops R hp f a b c d x s hs hstop with k | k | k
  · rw [k, zero_sub, abs_neg] at hslope
    exact flat' hslope
  · generalize (cubicEval R f a b c d x).2.2.1 = dq at *
    generalize (cubicEval R f a b c d x).2.2.2 = q at *
    -- the slope has the sign of `a`, the value that of `-s a`
    obtain ⟨S, hS⟩ : ∃ S, S = 3 * a * x ^ 2 + 2 * b * x + c := ⟨_, rfl⟩
    obtain ⟨P, hP⟩ : ∃ P, P = a * x ^ 3 + b * x ^ 2 + c * x + d := ⟨_, rfl⟩
    rw [← hS] at hslope n1 flat'
    rw [← hP] at hval hg flat' fin ⊢
    have Sa : 0 ≤ S / a := by nlinarith [sq_nonneg (x - -b / (3 * a))]
    by_cases c1 : 0 ≤ dq * a ∧ dq ≠ 0
    · -- the slope is right, hence the value is wrong
      refine fin 7 (by norm_num) ?_
      have c2 : 0 < dq * a := lt_of_le_of_ne c1.1 (Ne.symm (mul_ne_zero c1.2 h0))
      have k2 : 0 ≤ s * (q / a) := by
        have : s * (q / a) = s * (q / dq) * (dq * a) / (a * a) := by
          have := c1.2
          field_simp
        rw [this]
        exact div_nonneg (mul_nonneg k c2.le) (mul_self_nonneg a)
      refine le_trans ?_ hval
      rcases hs with rfl | rfl
      · rw [one_mul] at k2 hg
        rcases lt_or_gt_of_ne h0 with an | ap
        · have q0 : q ≤ 0 := by by_contra hq; push Not at hq; have := div_neg_of_pos_of_neg hq an; linarith
          have P0 : 0 < P := by by_contra hq; push Not at hq; have := div_nonneg_of_nonpos hq an.le; linarith
          rw [abs_of_pos P0, abs_of_neg (by linarith)]; linarith
        · have q0 : 0 ≤ q := by by_contra hq; push Not at hq; have := div_neg_of_neg_of_pos hq ap; linarith
          have P0 : P < 0 := by by_contra hq; push Not at hq; have := div_nonneg hq ap.le; linarith
          rw [abs_of_neg P0, abs_of_pos (by linarith)]; linarith
      · rcases lt_or_gt_of_ne h0 with an | ap
        · have q0 : 0 ≤ q := by by_contra hq; push Not at hq; have := div_pos_of_neg_of_neg hq an; linarith
          have P0 : P < 0 := by by_contra hq; push Not at hq; have := div_nonpos_of_nonneg_of_nonpos hq an.le; linarith
          rw [abs_of_neg P0, abs_of_pos (by linarith)]; linarith
        · have q0 : q ≤ 0 := by by_contra hq; push Not at hq; have := div_pos hq ap; linarith
          have P0 : 0 < P := by by_contra hq; push Not at hq; have := div_nonpos_of_nonpos_of_nonneg hq ap.le; linarith
          rw [abs_of_pos P0, abs_of_neg (by linarith)]; linarith
    · refine flat' (le_trans ?_ hslope)
      have c2 : dq * a ≤ 0 := by
        by_contra hc
        push Not at hc
        exact c1 ⟨hc.le, fun h => by rw [h, zero_mul] at hc; exact lt_irrefl _ hc⟩
      rcases lt_or_gt_of_ne h0 with an | ap
      · have S0 : S ≤ 0 := by by_contra hq; push Not at hq; have := div_neg_of_pos_of_neg hq an; linarith
        have d1 : 0 ≤ dq := by by_contra hq; push Not at hq; have := mul_pos_of_neg_of_neg hq an; linarith
        rw [abs_of_nonpos S0, abs_of_nonneg (by linarith)]; linarith
      · have S0 : 0 ≤ S := by by_contra hq; push Not at hq; have := div_neg_of_neg_of_pos hq ap; linarith
        have d1 : dq ≤ 0 := by by_contra hq; push Not at hq; have := mul_pos hq ap; linarith
        rw [abs_of_nonneg S0, abs_of_nonpos (by linarith)]; linarith
  · exact fin 11 (by norm_num) k

/-- **C150**: if the first step does not leave the inflection, the value of the cubic there is a rounding error of its terms, with a cube root that is not too small by more than a fifth. -/
theorem C150_start {a b c d : ℝ} (h0 : a ≠ 0) (hc : ∀ y, 0 ≤ y → 0 ≤ cbrt y ∧ y ≤ 2 * cbrt y ^ 3) (hl : 1 ≤ lam) {x : ℝ} (hx : (cubicStart R f lam cbrt a b c d).1 = x)
    (h : (cubicStart R f lam cbrt a b c d).2.1 = x) :
    |a * x ^ 3 + b * x ^ 2 + c * x + d| ≤ 8 / 2 ^ p * (|a| * |x| ^ 3 + |b| * |x| ^ 2 + |c| * |x| + |d|) := by
  have hp1 : 1 ≤ p := by omega
  have u0 := unit_nonneg (K := ℝ) p
  have u1 := unit_256 hp
  have hval := (eval_high R hp f a b c d x).1
  unfold cubicStart at h hx
  dsimp only at h hx
  rw [hx] at h
  generalize (cubicEval R f a b c d x).2.2.1 = dq at *
  generalize (cubicEval R f a b c d x).2.2.2 = q at *
  obtain ⟨t, ht⟩ : ∃ t, t = R.rnd (q / a) := ⟨_, rfl⟩
  rw [← ht] at h
  obtain ⟨r0, r1⟩ := hc |t| (abs_nonneg t)
  obtain ⟨r, hr⟩ : ∃ r, r = if R.rnd (-dq / a) > 0 then R.rnd (lam * max (cbrt |t|) (fsqrt R (R.rnd (-dq / a)))) else cbrt |t| := ⟨_, rfl⟩
  rw [← hr] at h
  have X0 := abs_nonneg x
  have big : 255 / 256 * cbrt |t| ≤ r := by
    rw [hr]
    split
    · have m := le_max_left (cbrt |t|) (fsqrt R (R.rnd (-dq / a)))
      have m2 : cbrt |t| ≤ lam * max (cbrt |t|) (fsqrt R (R.rnd (-dq / a))) := by nlinarith
      generalize lam * max (cbrt |t|) (fsqrt R (R.rnd (-dq / a))) = w at *
      have e := Fp.rel_u R hp1 w
      rw [abs_of_nonneg (r0.trans m2)] at e
      have := neg_le_abs (R.rnd w - w)
      have := mul_le_mul_of_nonneg_right u1 (r0.trans m2)
      linarith
    · linarith
  have rr : 0 ≤ r := (mul_nonneg (by norm_num) r0).trans big
  have small : r ≤ 258 / 256 * (1 / 2 ^ p * |x|) := by
    have hs : ∀ s : ℝ, |s| = 1 → R.rnd (x - s * r) = x → r ≤ 258 / 256 * (1 / 2 ^ p * |x|) := fun s s1 h => by
      have e := Fp.rel_u R hp1 (x - s * r)
      rw [h, show x - (x - s * r) = s * r by ring] at e
      have e2 := mul_le_mul_of_nonneg_left (abs_sub x (s * r)) u0
      rw [abs_mul, s1, one_mul, abs_of_nonneg rr] at e e2
      have := mul_le_mul_of_nonneg_right u1 rr
      have := mul_nonneg u0 X0
      linarith
    refine hs _ ?_ h
    split <;> simp
  have cb : cbrt |t| ≤ 102 / 100 * (1 / 2 ^ p * |x|) := by
    have := mul_nonneg u0 X0
    linarith
  have t1 : |t| ≤ 1 / 2 ^ p * (|x| ^ 3 / 256) * 3 := by
    have k := pow_le_pow_left₀ r0 cb 3
    have k2 : (1 / 2 ^ p : ℝ) ^ 3 ≤ 1 / 2 ^ p * (1 / 256) := by
      have := mul_le_mul u1 u1 u0 (by norm_num)
      have := mul_le_mul_of_nonneg_left this u0
      nlinarith
    have k3 := mul_le_mul_of_nonneg_right k2 (pow_nonneg X0 3)
    have n := mul_nonneg u0 (pow_nonneg X0 3)
    nlinarith
  have t2 : |q| ≤ 1 / 2 ^ p * (|a| * |x| ^ 3) := by
    have e := Fp.rel_u R hp1 (q / a)
    rw [← ht, abs_sub_comm] at e
    have e2 := size (le_refl _) e
    have := mul_le_mul_of_nonneg_right u1 (abs_nonneg (q / a))
    have n := mul_nonneg u0 (pow_nonneg X0 3)
    have k : |q / a| ≤ 1 / 2 ^ p * |x| ^ 3 := by linarith
    rw [abs_div, div_le_iff₀ (abs_pos.2 h0)] at k
    linarith
  change _ ≤ 8 / 2 ^ p * mag a b c d x
  rw [abs_sub_comm] at hval
  have fin := size t2 hval
  have n2 : 0 ≤ 1 / 2 ^ p * (|b| * |x| ^ 2) := by positivity
  have n3 : 0 ≤ 1 / 2 ^ p * (|c| * |x|) := by positivity
  have n4 : 0 ≤ 1 / 2 ^ p * |d| := by positivity
  have e7 : (7 : ℝ) / 2 ^ p = 7 * (1 / 2 ^ p) := by ring
  have e8 : (8 : ℝ) / 2 ^ p = 8 * (1 / 2 ^ p) := by ring
  rw [e7] at fin
  rw [e8]
  unfold mag at *
  linarith

end

theorem quadratic_fp {inv : ℝ} (hi : IsFp p inv) (a b c : ℝ) : IsFp p (solveQuadratic R inv a b c).1 ∧ IsFp p (solveQuadratic R inv a b c).2 := by
  unfold solveQuadratic
  dsimp only
  split_ifs
  exacts [⟨hi, hi⟩, ⟨R.mem _, hi⟩, ⟨hi, hi⟩, ⟨(R.mem _).neg, R.mem _⟩, ⟨hi, hi⟩, ⟨R.mem _, R.mem _⟩, ⟨R.mem _, R.mem _⟩]

/-- **C150**: the three values are numbers of the format, as the closest point of a quadratic segment (`C145_sound`) needs them to be. -/
theorem C150_fp (f0 f : CubicFused) {inv : ℝ} (hi : IsFp p inv) (lam : ℝ) (cbrt : ℝ → ℝ) (fuel : ℕ) {a b c d : ℝ} {r : ℝ × ℝ × ℝ} (h : solveCubic R f0 f inv lam cbrt fuel a b c d = some r) :
    IsFp p r.1 ∧ IsFp p r.2.1 ∧ IsFp p r.2.2 := by
  have key : ∀ a b1 c2 x, IsFp p x → IsFp p (cubicFinish R inv a b1 c2 x).1 ∧ IsFp p (cubicFinish R inv a b1 c2 x).2.1 ∧ IsFp p (cubicFinish R inv a b1 c2 x).2.2 := fun a b1 c2 x hx => by
    obtain ⟨-, -, s3⟩ := finish_sorted R inv a b1 c2 x
    obtain ⟨q1, q2⟩ := quadratic_fp R hi a b1 c2
    have m : ∀ y ∈ [(cubicFinish R inv a b1 c2 x).1, (cubicFinish R inv a b1 c2 x).2.1, (cubicFinish R inv a b1 c2 x).2.2], IsFp p y := fun y hy => by
      have := s3.mem_iff.1 hy
      simp only [List.mem_cons, List.not_mem_nil, or_false] at this
      rcases this with k | k | k <;> rw [k]
      exacts [q1, q2, hx]
    exact ⟨m _ (by simp), m _ (by simp), m _ (by simp)⟩
  unfold solveCubic at h
  dsimp only at h
  split_ifs at h
  · rw [← Option.some.inj h]; exact key _ _ _ _ hi
  · rw [← Option.some.inj h]; exact key _ _ _ _ isFp_zero
  · rw [← Option.some.inj h]; exact key _ _ _ _ (R.mem _)
  · cases hn : cubicNewton R f a b c d (cubicStart R f0 lam cbrt a b c d).2.2 fuel (cubicStart R f0 lam cbrt a b c d).2.1 with
    | none => rw [hn] at h; cases h
    | some x =>
      rw [hn] at h
      have h' := Option.some.inj h
      rw [← h']
      exact key _ _ _ _ (newton_fp R f a b c d _ fuel (R.mem _) hn).1

/-- **C150**: the loop ends if the points it visits are in a finite set, such as the numbers of a format with a bounded exponent: it visits no point twice. -/
theorem C150_terminates (f : CubicFused) (a b c d s : ℝ) (F : Finset ℝ) : ∀ (n : ℕ) (x0 : ℝ), (∀ k, (cubicStep R f a b c d)^[k] x0 ∈ F) → (F.filter fun y => s * x0 ≤ s * y).card ≤ n →
    ∃ x ∈ F, cubicNewton R f a b c d s n x0 = some x
  | 0, x0, hF, hn => by
    have : x0 ∈ F.filter fun y => s * x0 ≤ s * y := Finset.mem_filter.2 ⟨hF 0, le_rfl⟩
    rw [Nat.le_zero, Finset.card_eq_zero] at hn
    rw [hn] at this
    exact absurd this (Finset.notMem_empty _)
  | n + 1, x0, hF, hn => by
    unfold cubicNewton
    dsimp only
    split
    · rename_i hgt
      refine C150_terminates f a b c d s F n _ (fun k => by simpa using hF (k + 1)) ?_
      have sub : (F.filter fun y => s * cubicStep R f a b c d x0 ≤ s * y) ⊂ F.filter fun y => s * x0 ≤ s * y := by
        refine ⟨fun y hy => ?_, fun hsub => ?_⟩
        · rw [Finset.mem_filter] at hy ⊢
          exact ⟨hy.1, hgt.le.trans hy.2⟩
        · have := hsub (Finset.mem_filter.2 ⟨hF 0, le_rfl⟩)
          rw [Finset.mem_filter] at this
          exact absurd this.2 (not_le.2 hgt)
      have := Finset.card_lt_card sub
      omega
    · exact ⟨x0, hF 0, rfl⟩

/-- A rounding of the reals computed over the rationals. -/
theorem rnd_val {e v : ℝ} (q r : ℚ) (he : e = q) (hv : v = r) (h : (ieee ℚ 53 (by norm_num)).rnd q = r) : (ieee ℝ 53 (by norm_num)).rnd e = v := by
  rw [he, hv, rnd_cast, h]

/-- **C150**, the residual fails: in double precision without fused operations the loop for `x³ + (2 - 3/2⁵¹) x + 27/2⁹⁰` steps over the root to zero, because the errors of the value and of the
quotient exceed the damping factor, and returns zero as the only root. The cube root is exact. The roots of this cubic are negative. -/
theorem C150_residual_fails : ∃ c d : ℝ, IsFp 53 c ∧ IsFp 53 d ∧ d = (3 / 2 ^ 30) ^ 3 ∧ (∀ z : ℝ, z ^ 3 + c * z + d = 0 → z < 0) ∧
    ∀ (cbrt : ℝ → ℝ) (lam inv : ℝ) (fuel : ℕ), cbrt d = 3 / 2 ^ 30 → 0 < inv →
      solveCubic (ieee ℝ 53 (by norm_num)) ⟨false, false, false, false⟩ ⟨false, false, false, false⟩ inv lam cbrt (fuel + 2) 1 0 c d = some (0, inv, inv) := by
  obtain ⟨R, hR⟩ : ∃ R, R = ieee ℝ 53 (by norm_num) := ⟨_, rfl⟩
  have V : ∀ {e v : ℝ} (q r : ℚ), e = q → v = r → (ieee ℚ 53 (by norm_num)).rnd q = r → R.rnd e = v := fun q r he hv h => hR ▸ rnd_val q r he hv h
  refine ⟨2 - 3 / 2 ^ 51, 27 / 2 ^ 90, ⟨2 ^ 52 - 3 * 2 ^ 0, -51, by norm_num, by norm_num⟩, ⟨27, -90, by norm_num, by norm_num⟩, by norm_num, fun z hz => ?_, fun cbrt lam inv fuel hcb hi => ?_⟩
  · by_contra hn
    push Not at hn
    have := mul_nonneg (by norm_num : (0 : ℝ) ≤ 2 - 3 / 2 ^ 51) hn
    have := pow_nonneg hn 3
    norm_num at hz
    linarith
  rw [← hR]
  have fc : R.rnd (2 - 3 / 2 ^ 51) = 2 - 3 / 2 ^ 51 := V (2 - 3 / 2 ^ 51) (2 - 3 / 2 ^ 51) (by norm_num) (by norm_num) (by decide +kernel)
  have fd : R.rnd (27 / 2 ^ 90) = 27 / 2 ^ 90 := V (27 / 2 ^ 90) (27 / 2 ^ 90) (by norm_num) (by norm_num) (by decide +kernel)
  have fn : R.rnd (-(2 - 3 / 2 ^ 51)) = -(2 - 3 / 2 ^ 51) := V (-(2 - 3 / 2 ^ 51)) (-(2 - 3 / 2 ^ 51)) (by norm_num) (by norm_num) (by decide +kernel)
  have ev0 : cubicEval R ⟨false, false, false, false⟩ 1 0 (2 - 3 / 2 ^ 51) (27 / 2 ^ 90) 0 = (0, 2 - 3 / 2 ^ 51, 2 - 3 / 2 ^ 51, 27 / 2 ^ 90) := by
    unfold cubicEval prodIf
    simp only [Bool.false_eq_true, if_false, mul_zero, R.zero, add_zero, zero_add, fc, fd]
  have fx : R.rnd (0 - 1 * (3 / 2 ^ 30)) = -(3 / 2 ^ 30) := V (-(3 / 2 ^ 30)) (-(3 / 2 ^ 30)) (by norm_num) (by norm_num) (by decide +kernel)
  have start : cubicStart R ⟨false, false, false, false⟩ lam cbrt 1 0 (2 - 3 / 2 ^ 51) (27 / 2 ^ 90) = (0, -(3 / 2 ^ 30), 1) := by
    unfold cubicStart
    simp only [zero_div, R.zero, neg_zero, ev0, div_one, fd, fn]
    rw [abs_of_pos (by norm_num : (0 : ℝ) < 27 / 2 ^ 90), hcb, if_neg (by norm_num), if_neg (by norm_num), fx]
  have g1 : R.rnd (1 * -(3 / 2 ^ 30)) = -(3 / 2 ^ 30) := V (1 * -(3 / 2 ^ 30)) (-(3 / 2 ^ 30)) (by norm_num) (by norm_num) (by decide +kernel)
  have g2 : R.rnd (-(3 / 2 ^ 30) + 0) = -(3 / 2 ^ 30) := V (-(3 / 2 ^ 30) + 0) (-(3 / 2 ^ 30)) (by norm_num) (by norm_num) (by decide +kernel)
  have g3 : R.rnd (-(3 / 2 ^ 30) * -(3 / 2 ^ 30)) = 9 / 2 ^ 60 := V (-(3 / 2 ^ 30) * -(3 / 2 ^ 30)) (9 / 2 ^ 60) (by norm_num) (by norm_num) (by decide +kernel)
  have g4 : R.rnd (9 / 2 ^ 60 + (2 - 3 / 2 ^ 51)) = 2 - 3 / 2 ^ 51 := V (9 / 2 ^ 60 + (2 - 3 / 2 ^ 51)) (2 - 3 / 2 ^ 51) (by norm_num) (by norm_num) (by decide +kernel)
  have g5 : R.rnd (-(3 / 2 ^ 30) + -(3 / 2 ^ 30)) = -(6 / 2 ^ 30) := V (-(3 / 2 ^ 30) + -(3 / 2 ^ 30)) (-(6 / 2 ^ 30)) (by norm_num) (by norm_num) (by decide +kernel)
  have g6 : R.rnd (-(6 / 2 ^ 30) * -(3 / 2 ^ 30)) = 18 / 2 ^ 60 := V (-(6 / 2 ^ 30) * -(3 / 2 ^ 30)) (18 / 2 ^ 60) (by norm_num) (by norm_num) (by decide +kernel)
  have g7 : R.rnd (18 / 2 ^ 60 + (2 - 3 / 2 ^ 51)) = 2 - 3 / 2 ^ 51 := V (18 / 2 ^ 60 + (2 - 3 / 2 ^ 51)) (2 - 3 / 2 ^ 51) (by norm_num) (by norm_num) (by decide +kernel)
  have g8 : R.rnd ((2 - 3 / 2 ^ 51) * -(3 / 2 ^ 30)) = -((6 - 16 / 2 ^ 52) / 2 ^ 30) := V ((2 - 3 / 2 ^ 51) * -(3 / 2 ^ 30)) (-((6 - 16 / 2 ^ 52) / 2 ^ 30)) (by norm_num) (by norm_num) (by decide +kernel)
  have g9 : R.rnd (-((6 - 16 / 2 ^ 52) / 2 ^ 30) + 27 / 2 ^ 90) = -((6 - 16 / 2 ^ 52) / 2 ^ 30) := V (-((6 - 16 / 2 ^ 52) / 2 ^ 30) + 27 / 2 ^ 90) (-((6 - 16 / 2 ^ 52) / 2 ^ 30)) (by norm_num) (by norm_num) (by decide +kernel)
  have g10 : R.rnd (-((6 - 16 / 2 ^ 52) / 2 ^ 30) / (2 - 3 / 2 ^ 51)) = -((3 + 2 / 2 ^ 52) / 2 ^ 30) := V (-((6 - 16 / 2 ^ 52) / 2 ^ 30) / (2 - 3 / 2 ^ 51)) (-((3 + 2 / 2 ^ 52) / 2 ^ 30)) (by norm_num) (by norm_num) (by decide +kernel)
  have g11 : R.rnd (-((3 + 2 / 2 ^ 52) / 2 ^ 30) / (1 + 2 / 2 ^ 53)) = -(3 / 2 ^ 30) := V (-((3 + 2 / 2 ^ 52) / 2 ^ 30) / (1 + 2 / 2 ^ 53)) (-(3 / 2 ^ 30)) (by norm_num) (by norm_num) (by decide +kernel)
  have ev1 : cubicEval R ⟨false, false, false, false⟩ 1 0 (2 - 3 / 2 ^ 51) (27 / 2 ^ 90) (-(3 / 2 ^ 30)) = (-(3 / 2 ^ 30), 2 - 3 / 2 ^ 51, 2 - 3 / 2 ^ 51, -((6 - 16 / 2 ^ 52) / 2 ^ 30)) := by
    unfold cubicEval prodIf
    simp only [Bool.false_eq_true, if_false, g1, g2, g3, g4, g5, g6, g7, g8, g9]
  have st1 : cubicStep R ⟨false, false, false, false⟩ 1 0 (2 - 3 / 2 ^ 51) (27 / 2 ^ 90) (-(3 / 2 ^ 30)) = 0 := by
    unfold cubicStep
    simp only [ev1, g10, g11, sub_self, R.zero]
    rw [if_neg (by norm_num)]
  have st0 : cubicStep R ⟨false, false, false, false⟩ 1 0 (2 - 3 / 2 ^ 51) (27 / 2 ^ 90) 0 < 0 := by
    unfold cubicStep
    simp only [ev0]
    rw [if_neg (by norm_num), zero_sub]
    exact R.neg (by norm_num) (neg_lt_zero.2 (R.pos (by norm_num) (div_pos (R.pos (by norm_num) (by norm_num)) (by norm_num))))
  have nw : cubicNewton R ⟨false, false, false, false⟩ 1 0 (2 - 3 / 2 ^ 51) (27 / 2 ^ 90) 1 (fuel + 2) (-(3 / 2 ^ 30)) = some 0 := by
    unfold cubicNewton
    dsimp only
    rw [st1, if_pos (by norm_num)]
    unfold cubicNewton
    dsimp only
    rw [if_neg (by linarith)]
  have df : cubicDeflate R ⟨false, false, false, false⟩ 1 0 (2 - 3 / 2 ^ 51) (27 / 2 ^ 90) 0 = (0, 2 - 3 / 2 ^ 51) := by
    unfold cubicDeflate
    simp only [ev0, mul_zero, div_zero, R.zero, abs_zero, gt_iff_lt, lt_self_iff_false, if_false]
  have sq : solveQuadratic R inv 1 0 (2 - 3 / 2 ^ 51) = (inv, inv) := by
    unfold solveQuadratic
    simp only [div_one, fn]
    rw [if_neg (by norm_num), if_pos trivial, if_pos (by norm_num)]
  unfold solveCubic
  rw [if_neg (by norm_num), if_neg (by norm_num), start]
  dsimp only
  rw [if_neg (by norm_num), nw]
  simp only [Option.bind_eq_bind, Option.bind_some, df]
  unfold cubicFinish
  rw [sq]
  unfold Alg.sort3
  simp [hi]

/-- The cubic `x³ - 8`, whose iteration ends at two in any precision, with an exact cube root. -/
theorem eight (hp : 8 ≤ p) (f : CubicFused) {lam inv : ℝ} {cbrt : ℝ → ℝ} (h8 : cbrt 8 = 2) (fuel : ℕ) :
    cubicStart R f lam cbrt 1 0 0 (-8) = (0, 2, -1) ∧ cubicNewton R f 1 0 0 (-8) (-1) (fuel + 1) 2 = some 2 ∧ cubicStep R f 1 0 0 (-8) 2 = 2 ∧ ∃ r, solveCubic R f f inv lam cbrt (fuel + 1) 1 0 0 (-8) = some r := by
  have N : ∀ n : ℕ, n ≤ 256 → R.rnd n = n := fun n hn => R.id (isFp_nat (by omega) (hn.trans (by calc 256 = 2 ^ 8 := by norm_num
                                                                                                      _ ≤ 2 ^ p := Nat.pow_le_pow_right (by norm_num) hp)))
  have n2 : R.rnd 2 = 2 := by exact_mod_cast N 2 (by norm_num)
  have n4 : R.rnd 4 = 4 := by exact_mod_cast N 4 (by norm_num)
  have n8 : R.rnd 8 = 8 := by exact_mod_cast N 8 (by norm_num)
  have n12 : R.rnd 12 = 12 := by exact_mod_cast N 12 (by norm_num)
  have m8 : R.rnd (-8) = -8 := R.id (by have := (isFp_nat (K := ℝ) (p := p) (n := 8) (by omega) (by calc 8 ≤ 2 ^ 8 := by norm_num
                                                                                                        _ ≤ 2 ^ p := Nat.pow_le_pow_right (by norm_num) hp)).neg; simpa using this)
  have P : ∀ (g : Bool) (v : ℝ), R.rnd v = v → prodIf R g v = v := fun g v h => by unfold prodIf; split <;> simp [h]
  have ev0 : cubicEval R f 1 0 0 (-8) 0 = (0, 0, 0, -8) := by
    unfold cubicEval
    simp only [mul_zero, P _ _ R.zero, add_zero, zero_add, R.zero, m8]
  have ev2 : cubicEval R f 1 0 0 (-8) 2 = (2, 4, 12, 0) := by
    unfold cubicEval
    simp only [one_mul, P _ _ n2, add_zero, n2, show (2 : ℝ) * 2 = 4 by norm_num, P _ _ n4, n4, show (2 : ℝ) + 2 = 4 by norm_num, show (4 : ℝ) * 2 = 8 by norm_num, P _ _ n8, show (8 : ℝ) + 4 = 12 by norm_num, n12,
      show (8 : ℝ) + -8 = 0 by norm_num, R.zero]
  have st : cubicStart R f lam cbrt 1 0 0 (-8) = (0, 2, -1) := by
    unfold cubicStart
    simp only [zero_div, R.zero, neg_zero, ev0, div_one, m8]
    rw [show |(-8 : ℝ)| = 8 by norm_num, h8, if_pos (by norm_num), if_neg (by norm_num), show (0 : ℝ) - -1 * 2 = 2 by norm_num, n2]
  have sp : cubicStep R f 1 0 0 (-8) 2 = 2 := by
    unfold cubicStep
    simp only [ev2, zero_div, R.zero, sub_zero, n2]
    rw [if_neg (by norm_num)]
  have nw : cubicNewton R f 1 0 0 (-8) (-1) (fuel + 1) 2 = some 2 := by
    unfold cubicNewton
    dsimp only
    rw [sp, if_neg (by norm_num)]
  refine ⟨st, nw, sp, ?_⟩
  unfold solveCubic
  rw [if_neg (by norm_num), if_neg (by norm_num), st]
  dsimp only
  rw [if_neg (by norm_num), nw]
  exact ⟨_, rfl⟩

/-- The hypotheses of `C150_roots` and `C150_terminates` are met by that cubic in double precision. -/
example (f : CubicFused) (lam inv : ℝ) (cbrt : ℝ → ℝ) (h8 : cbrt 8 = 2) :
    (∃ r x b' c' d', solveCubic (ieee ℝ 53 (by norm_num)) f f inv lam cbrt 5 1 0 0 (-8) = some r ∧ Perturbed 53 1 0 0 (-8) x b' c' d' ∧ Approx 53 inv 1 b' c' d' x r) ∧
      ∃ x ∈ ({2} : Finset ℝ), cubicNewton (ieee ℝ 53 (by norm_num)) f 1 0 0 (-8) (-1) 1 2 = some x := by
  obtain ⟨-, -, e, r, hr⟩ := eight (ieee ℝ 53 (by norm_num)) (by norm_num) f (lam := lam) (inv := inv) h8 4
  constructor
  · obtain ⟨x, b', c', d', -, -, h1, h2⟩ := C150_roots (ieee ℝ 53 (by norm_num)) (by norm_num) f f inv lam cbrt 5 (by simpa using isFp_pow (K := ℝ) (p := 53) (by norm_num) 0) (by norm_num) (by norm_num) hr
    exact ⟨r, x, b', c', d', hr, h1, h2⟩
  · refine C150_terminates _ f 1 0 0 (-8) (-1) {2} 1 2 (fun k => ?_) (Finset.card_filter_le _ _)
    rw [Function.iterate_fixed e]
    simp

/-- With eight digits the loop for `x³ + x + 18` stops at `-5/2`, before the root, where the cubic has the value `-1/8`. -/
example (f : CubicFused) : cubicNewton (ieee ℝ 8 (by norm_num)) f 1 0 1 18 1 1 (-(5 / 2)) = some (-(5 / 2)) ∧
    |1 * (-(5 / 2)) ^ 3 + 0 * (-(5 / 2)) ^ 2 + 1 * (-(5 / 2)) + 18| ≤ 15 / 2 ^ 8 * (|(1 : ℝ)| * |(-(5 / 2) : ℝ)| ^ 3 + |(0 : ℝ)| * |(-(5 / 2) : ℝ)| ^ 2 + |(1 : ℝ)| * |(-(5 / 2) : ℝ)| + |(18 : ℝ)|) := by
  have V : ∀ {e v : ℝ} (q r : ℚ), e = q → v = r → (ieee ℚ 8 (by norm_num)).rnd q = r → (ieee ℝ 8 (by norm_num)).rnd e = v := fun q r he hv h => by rw [he, hv, rnd_cast, h]
  have P : ∀ (g : Bool) (v : ℝ), (ieee ℝ 8 (by norm_num)).rnd v = v → prodIf (ieee ℝ 8 (by norm_num)) g v = v := fun g v h => by unfold prodIf; split <;> simp [h]
  have g1 : (ieee ℝ 8 (by norm_num)).rnd (-(5 / 2)) = -(5 / 2) := V (-(5 / 2)) (-(5 / 2)) (by norm_num) (by norm_num) (by decide +kernel)
  have g2 : (ieee ℝ 8 (by norm_num)).rnd (25 / 4) = 25 / 4 := V (25 / 4) (25 / 4) (by norm_num) (by norm_num) (by decide +kernel)
  have g3 : (ieee ℝ 8 (by norm_num)).rnd (29 / 4) = 29 / 4 := V (29 / 4) (29 / 4) (by norm_num) (by norm_num) (by decide +kernel)
  have g4 : (ieee ℝ 8 (by norm_num)).rnd (-5) = -5 := V (-5) (-5) (by norm_num) (by norm_num) (by decide +kernel)
  have g5 : (ieee ℝ 8 (by norm_num)).rnd (25 / 2) = 25 / 2 := V (25 / 2) (25 / 2) (by norm_num) (by norm_num) (by decide +kernel)
  have g6 : (ieee ℝ 8 (by norm_num)).rnd (79 / 4) = 79 / 4 := V (79 / 4) (79 / 4) (by norm_num) (by norm_num) (by decide +kernel)
  have g7 : (ieee ℝ 8 (by norm_num)).rnd (-(145 / 8)) = -(145 / 8) := V (-(145 / 8)) (-(145 / 8)) (by norm_num) (by norm_num) (by decide +kernel)
  have g8 : (ieee ℝ 8 (by norm_num)).rnd (-(1 / 8)) = -(1 / 8) := V (-(1 / 8)) (-(1 / 8)) (by norm_num) (by norm_num) (by decide +kernel)
  have ev : cubicEval (ieee ℝ 8 (by norm_num)) f 1 0 1 18 (-(5 / 2)) = (-(5 / 2), 29 / 4, 79 / 4, -(1 / 8)) := by
    unfold cubicEval
    simp only [one_mul, P _ _ g1, add_zero, g1, show (-(5 / 2) : ℝ) * -(5 / 2) = 25 / 4 by norm_num, P _ _ g2, show (25 / 4 : ℝ) + 1 = 29 / 4 by norm_num, g3, show (-(5 / 2) : ℝ) + -(5 / 2) = -5 by norm_num, g4,
      show (-5 : ℝ) * -(5 / 2) = 25 / 2 by norm_num, P _ _ g5, show (25 / 2 : ℝ) + 29 / 4 = 79 / 4 by norm_num, g6, show (29 / 4 : ℝ) * -(5 / 2) = -(145 / 8) by norm_num, P _ _ g7,
      show (-(145 / 8) : ℝ) + 18 = -(1 / 8) by norm_num, g8]
  have st : cubicStep (ieee ℝ 8 (by norm_num)) f 1 0 1 18 (-(5 / 2)) = -(5 / 2) := by
    unfold cubicStep
    simp only [ev]
    rw [if_neg (by norm_num)]
    have h1 : (ieee ℝ 8 (by norm_num)).rnd (-(1 / 8) / (79 / 4)) = ((ieee ℚ 8 (by norm_num)).rnd (-(1 / 8) / (79 / 4)) : ℚ) := V _ _ (by norm_num) rfl rfl
    have h2 : (ieee ℝ 8 (by norm_num)).rnd ((((ieee ℚ 8 (by norm_num)).rnd (-(1 / 8) / (79 / 4)) : ℚ) : ℝ) / (1 + 2 / 2 ^ 8)) =
        ((ieee ℚ 8 (by norm_num)).rnd ((ieee ℚ 8 (by norm_num)).rnd (-(1 / 8) / (79 / 4)) / (1 + 2 / 2 ^ 8)) : ℚ) := V _ _ (by push_cast; rfl) rfl rfl
    rw [h1, h2]
    exact V (-(5 / 2) - (ieee ℚ 8 (by norm_num)).rnd ((ieee ℚ 8 (by norm_num)).rnd (-(1 / 8) / (79 / 4)) / (1 + 2 / 2 ^ 8))) (-(5 / 2)) (by push_cast; rfl) (by norm_num) (by decide +kernel)
  have nw : cubicNewton (ieee ℝ 8 (by norm_num)) f 1 0 1 18 1 1 (-(5 / 2)) = some (-(5 / 2)) := by
    unfold cubicNewton
    dsimp only
    rw [st, if_neg (lt_irrefl _)]
  exact ⟨nw, C150_residual_partial (ieee ℝ 8 (by norm_num)) (by norm_num) f 1 (by norm_num) (.inl rfl) (g1 ▸ (ieee ℝ 8 (by norm_num)).mem _) nw (by norm_num) (by norm_num) (by norm_num)⟩

/-- The cubic `(x + 1)³` starts at its root, with the exact cube root. -/
example (f : CubicFused) (lam : ℝ) : (cubicStart (ieee ℝ 53 (by norm_num)) f lam (fun y => y ^ (1 / 3 : ℝ)) 1 3 3 1).1 = -1 ∧
    (cubicStart (ieee ℝ 53 (by norm_num)) f lam (fun y => y ^ (1 / 3 : ℝ)) 1 3 3 1).2.1 = -1 ∧ ∀ y : ℝ, 0 ≤ y → 0 ≤ y ^ (1 / 3 : ℝ) ∧ y ≤ 2 * (y ^ (1 / 3 : ℝ)) ^ 3 := by
  have V : ∀ {e v : ℝ} (q r : ℚ), e = q → v = r → (ieee ℚ 53 (by norm_num)).rnd q = r → (ieee ℝ 53 (by norm_num)).rnd e = v := fun q r he hv h => rnd_val q r he hv h
  have P : ∀ (g : Bool) (v : ℝ), (ieee ℝ 53 (by norm_num)).rnd v = v → prodIf (ieee ℝ 53 (by norm_num)) g v = v := fun g v h => by unfold prodIf; split <;> simp [h]
  have z := (ieee ℝ 53 (by norm_num)).zero
  have g1 : (ieee ℝ 53 (by norm_num)).rnd (-1) = -1 := V (-1) (-1) (by norm_num) (by norm_num) (by decide +kernel)
  have g2 : (ieee ℝ 53 (by norm_num)).rnd 2 = 2 := V 2 2 (by norm_num) (by norm_num) (by decide +kernel)
  have g3 : (ieee ℝ 53 (by norm_num)).rnd 1 = 1 := V 1 1 (by norm_num) (by norm_num) (by decide +kernel)
  have g4 : (ieee ℝ 53 (by norm_num)).rnd (-2) = -2 := V (-2) (-2) (by norm_num) (by norm_num) (by decide +kernel)
  have g5 : (ieee ℝ 53 (by norm_num)).rnd 3 = 3 := V 3 3 (by norm_num) (by norm_num) (by decide +kernel)
  have ev : cubicEval (ieee ℝ 53 (by norm_num)) f 1 3 3 1 (-1) = (2, 1, 0, 0) := by
    unfold cubicEval
    simp only [one_mul, P _ _ g1, show (-1 : ℝ) + 3 = 2 by norm_num, g2, show (2 : ℝ) * -1 = -2 by norm_num, P _ _ g4, show (-2 : ℝ) + 3 = 1 by norm_num, g3, show (-1 : ℝ) + 2 = 1 by norm_num, show (-1 : ℝ) + 1 = 0 by norm_num, z]
  have st : cubicStart (ieee ℝ 53 (by norm_num)) f lam (fun y => y ^ (1 / 3 : ℝ)) 1 3 3 1 = (-1, -1, 1) := by
    unfold cubicStart
    simp only [div_one, g5, show (-3 : ℝ) / 3 = -1 by norm_num, g1, ev, z, neg_zero, abs_zero, lt_irrefl, if_false]
    rw [Real.zero_rpow (by norm_num), mul_zero, sub_zero, g1]
  rw [st]
  refine ⟨rfl, rfl, fun y hy => ⟨Real.rpow_nonneg hy _, ?_⟩⟩
  rw [← Real.rpow_natCast, ← Real.rpow_mul hy]
  norm_num
  linarith

end Verif.FpCubicP
