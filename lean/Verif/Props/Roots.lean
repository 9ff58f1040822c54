import Verif.Model.Roots
import Verif.Props.Algorithm
import Mathlib.Tactic.Ring
import Mathlib.Tactic.FieldSimp
import Mathlib.Tactic.Linarith
import Mathlib.Tactic.LinearCombination
import Mathlib.Tactic.Positivity
import Mathlib.Analysis.SpecialFunctions.Pow.Real

/-!
# C20, C21: `solveQuadratic` and `solveCubic` in exact real arithmetic
-/

namespace Verif.Roots

theorem disc_eq (a b c : ℝ) : disc a b c = b ^ 2 - 4 * a * c := by unfold disc; ring

/-! ## C20 -/

/-- A proper quadratic with a real root: the two returned values are its roots with multiplicity, in
order. -/
theorem C20_factor (a b c : ℝ) (ha : a ≠ 0) (h : ∃ x, a * x ^ 2 + b * x + c = 0) :
    (solveQuadratic a b c).1 ≤ (solveQuadratic a b c).2 ∧
    ∀ x, a * x ^ 2 + b * x + c =
      a * (x - (solveQuadratic a b c).1) * (x - (solveQuadratic a b c).2) := by
  obtain ⟨y, hy⟩ := h
  unfold solveQuadratic
  rw [if_neg ha]
  by_cases hb : b = 0
  · rw [if_pos hb]
    subst hb
    have hsq : -c / a = y ^ 2 := by field_simp; linear_combination -hy
    have h0 : ¬ (-c / a < 0) := by rw [hsq]; exact not_lt.2 (sq_nonneg y)
    dsimp only
    rw [if_neg h0]
    have hs := Real.sqrt_nonneg (-c / a)
    have hss := Real.mul_self_sqrt (not_lt.1 h0)
    refine ⟨by dsimp only; linarith, fun x => ?_⟩
    dsimp only
    have hc : c = -a * (Real.sqrt (-c / a) * Real.sqrt (-c / a)) := by
      rw [hss]; field_simp
    generalize Real.sqrt (-c / a) = r at hc
    rw [hc]; ring
  · rw [if_neg hb]
    have hd : 0 ≤ disc a b c := by
      have : disc a b c = (2 * a * y + b) ^ 2 := by
        rw [disc_eq]; linear_combination (-4 * a) * hy
      rw [this]; exact sq_nonneg _
    dsimp only
    rw [if_neg (not_lt.2 hd)]
    have hs := Real.sqrt_nonneg (disc a b c)
    have hss := Real.mul_self_sqrt hd
    rw [disc_eq] at hss
    generalize hq : -(b + copysign (Real.sqrt (disc a b c)) b) / 2 = q
    have hq0 : q ≠ 0 := by
      rw [← hq]
      unfold copysign
      rw [abs_of_nonneg hs]
      rcases lt_or_gt_of_ne hb with h | h
      · rw [if_pos h]; intro e; linarith
      · rw [if_neg (not_lt.2 h.le)]; intro e; linarith
    have hqq : q ^ 2 + b * q + a * c = 0 := by
      rw [← hq]
      unfold copysign
      rw [abs_of_nonneg hs]
      rw [disc_eq] at *
      split_ifs <;> linear_combination hss / 4
    have hfac : ∀ x, a * x ^ 2 + b * x + c = a * (x - q / a) * (x - c / q) := by
      intro x
      field_simp
      linear_combination x * hqq
    split_ifs with hlt
    · refine ⟨hlt.le, fun x => ?_⟩
      dsimp only
      rw [hfac x]; ring
    · exact ⟨not_lt.1 hlt, hfac⟩

/-- A proper quadratic without a real root: both values are the sentinel. -/
theorem C20_none (a b c : ℝ) (ha : a ≠ 0) (h : ∀ x, a * x ^ 2 + b * x + c ≠ 0) :
    solveQuadratic a b c = (invalid, invalid) := by
  unfold solveQuadratic
  rw [if_neg ha]
  by_cases hb : b = 0
  · rw [if_pos hb]
    dsimp only
    rw [if_pos]
    by_contra h0
    have hss := Real.mul_self_sqrt (not_lt.1 h0)
    apply h (Real.sqrt (-c / a))
    have : a * (Real.sqrt (-c / a) * Real.sqrt (-c / a)) = -c := by rw [hss]; field_simp
    rw [hb]; linear_combination this
  · rw [if_neg hb]
    dsimp only
    rw [if_pos]
    by_contra h0
    have hss := Real.mul_self_sqrt (not_lt.1 h0)
    rw [disc_eq] at hss
    generalize Real.sqrt (b ^ 2 - 4 * a * c) = r at hss
    apply h ((-b + r) / (2 * a))
    field_simp
    linear_combination hss

/-- Degenerate coefficients: the root of a linear equation, and nothing for a constant. -/
theorem C20_linear (b c : ℝ) :
    solveQuadratic 0 b c = if b = 0 then (invalid, invalid) else (-c / b, invalid) := by
  simp [solveQuadratic]

/-- Together: every returned value other than the sentinel is a real root, every real root of a
polynomial that is not identically zero is returned, and of two returned roots the first is not the
larger one. -/
theorem C20_roots (a b c : ℝ) :
    (∀ r, (r = (solveQuadratic a b c).1 ∨ r = (solveQuadratic a b c).2) → r ≠ invalid →
      a * r ^ 2 + b * r + c = 0) ∧
    ((a ≠ 0 ∨ b ≠ 0 ∨ c ≠ 0) → ∀ x, a * x ^ 2 + b * x + c = 0 →
      x = (solveQuadratic a b c).1 ∨ x = (solveQuadratic a b c).2) ∧
    ((solveQuadratic a b c).2 ≠ invalid →
      (solveQuadratic a b c).1 ≤ (solveQuadratic a b c).2) := by
  by_cases ha : a = 0
  · subst ha
    rw [C20_linear]
    by_cases hb : b = 0
    · rw [if_pos hb]
      refine ⟨?_, ?_, fun h => absurd rfl h⟩
      · rintro r (rfl | rfl) h <;> exact absurd rfl h
      · rintro (h | h | h) x hx
        · exact absurd rfl h
        · exact absurd hb h
        · rw [hb] at hx; exact absurd (by linarith) h
    · rw [if_neg hb]
      refine ⟨?_, ?_, fun h => absurd rfl h⟩
      · rintro r (rfl | rfl) h
        · field_simp; ring
        · exact absurd rfl h
      · intro _ x hx
        left
        dsimp only
        rw [eq_div_iff hb]; linarith
  · by_cases h : ∃ x, a * x ^ 2 + b * x + c = 0
    · obtain ⟨hle, hf⟩ := C20_factor a b c ha h
      refine ⟨?_, ?_, fun _ => hle⟩
      · rintro r (rfl | rfl) _
        · rw [hf]; ring
        · rw [hf]; ring
      · intro _ x hx
        rw [hf x] at hx
        rcases mul_eq_zero.1 hx with hx | hx
        · rcases mul_eq_zero.1 hx with hx | hx
          · exact absurd hx ha
          · left; linarith
        · right; linarith
    · have hn : ∀ x, a * x ^ 2 + b * x + c ≠ 0 := fun x hx => h ⟨x, hx⟩
      rw [C20_none a b c ha hn]
      refine ⟨?_, fun _ x hx => absurd hx (hn x), fun h => absurd rfl h⟩
      rintro r (rfl | rfl) h <;> exact absurd rfl h

/-- Concrete: `x² - 3x + 2` has a real root, `x² + x + 1` has none. -/
example : (1 : ℝ) ≠ 0 ∧ ∃ x : ℝ, 1 * x ^ 2 + -3 * x + 2 = 0 := ⟨one_ne_zero, 2, by norm_num⟩
example : ∀ x : ℝ, 1 * x ^ 2 + 1 * x + 1 ≠ 0 := fun x h => by nlinarith [sq_nonneg (x + 1 / 2)]

/-! ## C21 -/

/-- Both deflation formulas give the quadratic that the cubic leaves after dividing by `X - x`. -/
theorem C21_deflate (a b c d x : ℝ) (hd : d ≠ 0) (hx : a * x ^ 3 + b * x ^ 2 + c * x + d = 0) :
    deflate a b c d x = (a * x + b, (a * x + b) * x + c) ∧
    ∀ y, a * y ^ 3 + b * y ^ 2 + c * y + d =
      (y - x) * (a * y ^ 2 + (deflate a b c d x).1 * y + (deflate a b c d x).2) := by
  have hx0 : x ≠ 0 := by rintro rfl; apply hd; linarith
  have key : deflate a b c d x = (a * x + b, (a * x + b) * x + c) := by
    unfold deflate eval
    dsimp only
    split_ifs
    · have h2 : -d / x = (a * x + b) * x + c := by
        rw [div_eq_iff hx0]; linear_combination -hx
      rw [h2]
      refine Prod.ext ?_ rfl
      dsimp only
      rw [div_eq_iff hx0]; ring
    · rfl
  refine ⟨key, fun y => ?_⟩
  rw [key]
  dsimp only
  linear_combination hx

theorem ltReal_strictWeak : StrictWeak (fun p q : ℝ => decide (p < q)) where
  asymm a b h := by simp only [decide_eq_true_eq, decide_eq_false_iff_not, not_lt] at h ⊢; exact h.le
  negTrans a b c h1 h2 := by
    simp only [decide_eq_false_iff_not, not_lt] at h1 h2 ⊢; linarith

/-- What the last lines of `solveCubic` return: the two quadratic values and `x`, sorted. -/
theorem finish_spec (a b1 c2 x : ℝ) : ∃ r0 r1 r2, finish a b1 c2 x = (r0, r1, r2) ∧
    r0 ≤ r1 ∧ r1 ≤ r2 ∧
    [r0, r1, r2].Perm [(solveQuadratic a b1 c2).1, (solveQuadratic a b1 c2).2, x] := by
  obtain ⟨r0, r1, r2, h1, h2, h3⟩ := Alg.C11_sort3 _ ltReal_strictWeak
    (solveQuadratic a b1 c2).1 (solveQuadratic a b1 c2).2 x
  refine ⟨r0, r1, r2, h1, ?_, ?_, h2⟩
  · simp at h3; exact h3.1.1
  · simp at h3; exact h3.2

/-- The returned triple, as a specification: sorted; its members are real roots of the cubic or the
sentinel; and every real root is among them. -/
structure CubicRoots (a b c d : ℝ) (r : ℝ × ℝ × ℝ) : Prop where
  sorted : r.1 ≤ r.2.1 ∧ r.2.1 ≤ r.2.2
  sound : ∀ x ∈ [r.1, r.2.1, r.2.2], x ≠ invalid → a * x ^ 3 + b * x ^ 2 + c * x + d = 0
  complete : ∀ x, a * x ^ 3 + b * x ^ 2 + c * x + d = 0 → x ∈ [r.1, r.2.1, r.2.2]

theorem finish_roots (a b1 c2 x b c d : ℝ) (ha : a ≠ 0)
    (hf : ∀ y, a * y ^ 3 + b * y ^ 2 + c * y + d = (y - x) * (a * y ^ 2 + b1 * y + c2)) :
    CubicRoots a b c d (finish a b1 c2 x) := by
  obtain ⟨r0, r1, r2, he, h01, h12, hp⟩ := finish_spec a b1 c2 x
  obtain ⟨hs, hc, -⟩ := C20_roots a b1 c2
  rw [he]
  refine ⟨⟨h01, h12⟩, ?_, ?_⟩
  · intro y hy hne
    rw [hp.mem_iff] at hy
    simp only [List.mem_cons, List.not_mem_nil, or_false] at hy
    rw [hf]
    rcases hy with hy | hy | hy
    · rw [hs y (Or.inl hy) hne, mul_zero]
    · rw [hs y (Or.inr hy) hne, mul_zero]
    · rw [hy, sub_self, zero_mul]
  · intro y hy
    rw [hp.mem_iff]
    simp only [List.mem_cons, List.not_mem_nil, or_false]
    rw [hf] at hy
    rcases mul_eq_zero.1 hy with hy | hy
    · right; right; linarith
    · rcases hc (Or.inl ha) y hy with h | h
      · exact Or.inl h
      · exact Or.inr (Or.inl h)

/-- `solveCubic` with leading coefficient non-zero: whenever the Newton loop ends on an exact root
(which it is not asked to do if the constant term vanishes, or if the inflection point is already a
root), the three values are sorted, contain only roots and sentinels, and contain every real root. -/
theorem C21_roots (cbrt : ℝ → ℝ) (hcb : ∀ y, 0 ≤ y → cbrt y ^ 3 = y) (fuel : Nat) (a b c d : ℝ)
    (ha : a ≠ 0) (r : ℝ × ℝ × ℝ) (hr : solveCubic cbrt fuel a b c d = some r)
    (hN : ∀ x, newton a b c d (start cbrt a b c d).2.2 fuel (start cbrt a b c d).2.1 = some x →
      a * x ^ 3 + b * x ^ 2 + c * x + d = 0) :
    CubicRoots a b c d r := by
  unfold solveCubic at hr
  rw [if_neg ha] at hr
  by_cases hd : d = 0
  · rw [if_pos hd] at hr
    cases hr
    exact finish_roots a b c 0 b c d ha (fun y => by rw [hd]; ring)
  · rw [if_neg hd] at hr
    dsimp only at hr
    by_cases h0 : (start cbrt a b c d).2.1 = (start cbrt a b c d).1
    · rw [if_pos h0] at hr
      cases hr
      have hroot : a * (start cbrt a b c d).1 ^ 3 + b * (start cbrt a b c d).1 ^ 2 +
          c * (start cbrt a b c d).1 + d = 0 := by
        unfold start startWith at h0 ⊢
        dsimp only at h0 ⊢
        generalize hx : -(b / a) / 3 = x at h0
        generalize ht : (eval a b c d x).2.2.2 / a = t at h0
        have hs : (if t < 0 then (-1 : ℝ) else 1) ≠ 0 := by split_ifs <;> norm_num
        have hsr : (if -(eval a b c d x).2.2.1 / a > 0 then
            lambda * max (cbrt |t|) (Real.sqrt (-(eval a b c d x).2.2.1 / a))
            else cbrt |t|) = 0 := by
          have := sub_eq_self.1 h0
          exact (mul_eq_zero.1 this).resolve_left hs
        have hc0 : cbrt |t| = 0 := by
          split_ifs at hsr with hp
          · exfalso
            have h1 : 0 < Real.sqrt (-(eval a b c d x).2.2.1 / a) := Real.sqrt_pos.2 hp
            have h2 := lt_of_lt_of_le h1 (le_max_right (cbrt |t|) _)
            have h3 : (0 : ℝ) < lambda := by unfold lambda; norm_num
            have := mul_pos h3 h2
            linarith
          · exact hsr
        have ht0 : t = 0 := by
          have := hcb |t| (abs_nonneg t)
          rw [hc0] at this
          exact abs_eq_zero.1 (by rw [← this]; norm_num)
        rw [ht0, div_eq_zero_iff] at ht
        have hq := ht.resolve_right ha
        unfold eval at hq
        dsimp only at hq
        linear_combination hq
      apply finish_roots _ _ _ _ _ _ _ ha
      intro y
      unfold eval
      dsimp only
      linear_combination hroot
    · rw [if_neg h0] at hr
      cases hn : newton a b c d (start cbrt a b c d).2.2 fuel (start cbrt a b c d).2.1 with
      | none => rw [hn] at hr; cases hr
      | some x =>
        rw [hn] at hr
        cases hr
        exact finish_roots a _ _ x b c d ha (C21_deflate a b c d x hd (hN x hn)).2

/-- With leading coefficient zero, `solveCubic` is `solveQuadratic` plus a sentinel, sorted. -/
theorem C21_degenerate (cbrt : ℝ → ℝ) (fuel : Nat) (b c d : ℝ) :
    ∃ r0 r1 r2, solveCubic cbrt fuel 0 b c d = some (r0, r1, r2) ∧ r0 ≤ r1 ∧ r1 ≤ r2 ∧
      [r0, r1, r2].Perm [(solveQuadratic b c d).1, (solveQuadratic b c d).2, invalid] := by
  obtain ⟨r0, r1, r2, h, h'⟩ := finish_spec b c d invalid
  exact ⟨r0, r1, r2, by simp [solveCubic, h], h'⟩

/-- Concrete: `(x-1)(x-2)(x-3)` with the root 1; both formulas of the deflation are reachable. -/
example : (1 : ℝ) * 1 ^ 3 + -6 * 1 ^ 2 + 11 * 1 + -6 = 0 := by norm_num
example : ¬ (|(1 : ℝ)| * 1 * 1 > |(-6) / 1|) ∧ |(1 : ℝ)| * 3 * 3 > |(-6) / 3| := by
  norm_num
/-- Concrete: `x³ - 1` with the real cube root: the loop starts at 1 and stops there. -/
example : ∃ (cbrt : ℝ → ℝ) (r : ℝ × ℝ × ℝ), (∀ y, 0 ≤ y → cbrt y ^ 3 = y) ∧
    solveCubic cbrt 1 1 0 0 (-1) = some r ∧ CubicRoots 1 0 0 (-1) r := by
  have hcb : ∀ y : ℝ, 0 ≤ y → (y ^ ((3 : ℕ) : ℝ)⁻¹) ^ 3 = y :=
    fun y hy => Real.rpow_inv_natCast_pow hy (by norm_num)
  have hs : start (fun y => y ^ ((3 : ℕ) : ℝ)⁻¹) 1 0 0 (-1) = (0, 1, -1) := by
    unfold start startWith eval; norm_num
  have hn : newton 1 0 0 (-1) (-1) 1 1 = some 1 := by
    unfold newton newtonStep eval onePlusEps; norm_num
  have hsol : solveCubic (fun y => y ^ ((3 : ℕ) : ℝ)⁻¹) 1 1 0 0 (-1) =
      some (finish 1 (deflate 1 0 0 (-1) 1).1 (deflate 1 0 0 (-1) 1).2 1) := by
    unfold solveCubic
    rw [hs]
    norm_num [hn]
  refine ⟨_, _, hcb, hsol, C21_roots _ hcb 1 1 0 0 (-1) one_ne_zero _ hsol ?_⟩
  intro x hx
  rw [hs, hn] at hx
  cases hx
  norm_num

end Verif.Roots
