import Verif.Model.QSeg
import Verif.Props.Newton
import Verif.Props.Quadratic
import Mathlib.Analysis.Calculus.LocalExtr.Basic
import Mathlib.Topology.Order.Compact

/-!
# C75: the closest point of a quadratic segment
-/

namespace Verif.Geom

open Verif.Roots

/-- What is asked of the cubic solver: its three values contain every real root of a polynomial that
is not zero. -/
def FindsRoots (solve : ℝ → ℝ → ℝ → ℝ → Option (ℝ × ℝ × ℝ)) (a b c d : ℝ) : Prop :=
  ∀ r, solve a b c d = some r → (a ≠ 0 ∨ b ≠ 0 ∨ c ≠ 0 ∨ d ≠ 0) →
    ∀ x, a * x ^ 3 + b * x ^ 2 + c * x + d = 0 → x ∈ [r.1, r.2.1, r.2.2]

/-- `solveCubic` does so wherever its Newton loop starts not past the extreme root (C72). -/
theorem solveCubic_finds (cbrt : ℝ → ℝ) (hcb : ∀ y, 0 ≤ y → cbrt y ^ 3 = y) (fuel : Nat) (a b c d : ℝ)
    (hq : a ≠ 0 → (start cbrt a b c d).2.2 * (cubic a b c d (start cbrt a b c d).2.1 / a) ≤ 0) :
    FindsRoots (solveCubic cbrt fuel) a b c d := by
  intro r hr hne x hx
  by_cases ha : a = 0
  · subst ha
    obtain ⟨r0, r1, r2, h, -, -, hp⟩ := C21_degenerate cbrt fuel b c d
    rw [h] at hr
    cases hr
    rw [hp.mem_iff]
    have hne' : b ≠ 0 ∨ c ≠ 0 ∨ d ≠ 0 := by simpa using hne
    rcases (C20_roots b c d).2.1 hne' x (by linarith) with h | h <;> simp [h]
  · exact (C72_roots cbrt hcb fuel a b c d ha r hr (hq ha)).complete x hx

theorem sqDist_comm (a b : Pt 2 ℝ) : sqDist a b = sqDist b a := by
  unfold sqDist; simp only [Fin.sum_univ_two]; ring

/-- The loop keeps the best parameter so far. -/
theorem closest_fold (q : Poly 3 2 ℝ) (p : Pt 2 ℝ) (l : List ℝ) (best : ℝ × ℝ)
    (h : 0 ≤ best.1 ∧ best.1 ≤ 1 ∧ best.2 = sqDist p (qsegAt q best.1)) :
    let res := l.foldl (closestStep q p) best
    (0 ≤ res.1 ∧ res.1 ≤ 1 ∧ res.2 = sqDist p (qsegAt q res.1)) ∧ res.2 ≤ best.2 ∧
    ∀ x ∈ l, 0 ≤ x → x ≤ 1 → res.2 ≤ sqDist p (qsegAt q x) := by
  induction l generalizing best with
  | nil => exact ⟨h, le_rfl, fun x hx => absurd hx (List.not_mem_nil)⟩
  | cons y l ih =>
    have hstep : (0 ≤ (closestStep q p best y).1 ∧ (closestStep q p best y).1 ≤ 1 ∧
        (closestStep q p best y).2 = sqDist p (qsegAt q (closestStep q p best y).1)) ∧
        (closestStep q p best y).2 ≤ best.2 ∧
        (0 ≤ y → y ≤ 1 → (closestStep q p best y).2 ≤ sqDist p (qsegAt q y)) := by
      unfold closestStep
      dsimp only
      split_ifs with h01 hlt
      · exact ⟨⟨h01.1, h01.2, rfl⟩, hlt.le, fun _ _ => le_rfl⟩
      · exact ⟨h, le_rfl, fun _ _ => not_lt.1 hlt⟩
      · exact ⟨h, le_rfl, fun h0 h1 => absurd ⟨h0, h1⟩ h01⟩
    obtain ⟨h1, h2, h3⟩ := ih _ hstep.1
    rw [List.foldl_cons]
    refine ⟨h1, h2.trans hstep.2.1, fun x hx h0 h1' => ?_⟩
    rcases List.mem_cons.1 hx with rfl | hx
    · exact h2.trans (hstep.2.2 h0 h1')
    · exact h3 x hx h0 h1'

/-- The derivative of the squared distance is twice the cubic that is solved. -/
theorem dist_deriv (q : Poly 3 2 ℝ) (p : Pt 2 ℝ) (x : ℝ) :
    HasDerivAt (fun r => sqDist p (qsegAt q r))
      (2 * (2 * sqNorm (polyCoeffs q).2.2 * x ^ 3 + 3 * dot (polyCoeffs q).2.2 (polyCoeffs q).2.1 * x ^ 2 +
        (sqNorm (polyCoeffs q).2.1 + 2 * dot (polyCoeffs q).2.2 ((polyCoeffs q).1 - p)) * x +
        dot (polyCoeffs q).2.1 ((polyCoeffs q).1 - p))) x := by
  have e : (fun r => sqDist p (qsegAt q r)) = fun r =>
      sqNorm (polyCoeffs q).2.2 * r ^ 4 + 2 * dot (polyCoeffs q).2.2 (polyCoeffs q).2.1 * r ^ 3 +
      (sqNorm (polyCoeffs q).2.1 + 2 * dot (polyCoeffs q).2.2 ((polyCoeffs q).1 - p)) * r ^ 2 +
      2 * dot (polyCoeffs q).2.1 ((polyCoeffs q).1 - p) * r + sqNorm ((polyCoeffs q).1 - p) := by
    funext r
    unfold sqDist sqNorm dot
    simp only [Fin.sum_univ_two, qsegAt, polyCoeffs, Pi.sub_apply]; ring
  rw [e]
  have h := (((((hasDerivAt_pow 4 x).const_mul (sqNorm (polyCoeffs q).2.2)).add
    ((hasDerivAt_pow 3 x).const_mul (2 * dot (polyCoeffs q).2.2 (polyCoeffs q).2.1))).add
    ((hasDerivAt_pow 2 x).const_mul
      (sqNorm (polyCoeffs q).2.1 + 2 * dot (polyCoeffs q).2.2 ((polyCoeffs q).1 - p)))).add
    ((hasDerivAt_id x).const_mul (2 * dot (polyCoeffs q).2.1 ((polyCoeffs q).1 - p)))).add_const
    (sqNorm ((polyCoeffs q).1 - p))
  refine h.congr_deriv ?_
  norm_num; ring

/-- For a segment that is not straight: the parameter returned is in `[0, 1]` and no point of the
curve is closer; the squared distance is the one of that point. -/
theorem C75_closest (solve : ℝ → ℝ → ℝ → ℝ → Option (ℝ × ℝ × ℝ)) (eps2 : ℝ) (q : Poly 3 2 ℝ) (p : Pt 2 ℝ)
    (hs : isStraight eps2 q = false)
    (hsol : FindsRoots solve (2 * sqNorm (polyCoeffs q).2.2) (3 * dot (polyCoeffs q).2.2 (polyCoeffs q).2.1)
      (sqNorm (polyCoeffs q).2.1 + 2 * dot (polyCoeffs q).2.2 ((polyCoeffs q).1 - p))
      (dot (polyCoeffs q).2.1 ((polyCoeffs q).1 - p)))
    (r : ℝ) (hr : qsegClosest solve eps2 q p = some r) :
    0 ≤ r ∧ r ≤ 1 ∧ qsegSqDist solve eps2 q p = some (sqDist (qsegAt q r) p) ∧
    ∀ s, 0 ≤ s → s ≤ 1 → sqDist (qsegAt q r) p ≤ sqDist (qsegAt q s) p := by
  have hd : qsegSqDist solve eps2 q p = some (sqDist (qsegAt q r) p) := by
    unfold qsegSqDist; rw [hr]; rfl
  unfold qsegClosest at hr
  rw [hs] at hr
  simp only [Bool.false_eq_true, if_false] at hr
  rw [Option.map_eq_some_iff] at hr
  obtain ⟨roots, hroots, hr⟩ := hr
  have q0 : qsegAt q 0 = q 0 := (C31_interpolate q).1
  have q1 : qsegAt q 1 = q 1 := (C31_interpolate q).2.1
  obtain ⟨best, hbest⟩ : ∃ best : ℝ × ℝ, best =
    if sqDist p (q 1) < sqDist p (q 0) then (1, sqDist p (q 1)) else (0, sqDist p (q 0)) := ⟨_, rfl⟩
  rw [← hbest] at hr
  have hb : (0 ≤ best.1 ∧ best.1 ≤ 1 ∧ best.2 = sqDist p (qsegAt q best.1)) ∧
      best.2 ≤ sqDist p (qsegAt q 0) ∧ best.2 ≤ sqDist p (qsegAt q 1) := by
    rw [hbest, q0, q1]
    split_ifs with h
    · exact ⟨⟨zero_le_one, le_rfl, by dsimp only; rw [q1]⟩, h.le, le_rfl⟩
    · exact ⟨⟨le_rfl, zero_le_one, by dsimp only; rw [q0]⟩, le_rfl, not_lt.1 h⟩
  obtain ⟨h1, h2, h3⟩ := closest_fold q p [roots.1, roots.2.1, roots.2.2] best hb.1
  rw [hr] at h1
  refine ⟨h1.1, h1.2.1, hd, ?_⟩
  have hval : (List.foldl (closestStep q p) best [roots.1, roots.2.1, roots.2.2]).2 =
      sqDist p (qsegAt q r) := h1.2.2
  rw [hval] at h2 h3
  -- a minimiser of the distance
  have hcont : Continuous fun r => sqDist p (qsegAt q r) :=
    continuous_iff_continuousAt.2 fun x => (dist_deriv q p x).continuousAt
  obtain ⟨m, hm, hmin⟩ := isCompact_Icc.exists_isMinOn (Set.nonempty_Icc.2 (zero_le_one (α := ℝ)))
    hcont.continuousOn
  have hle : sqDist p (qsegAt q r) ≤ sqDist p (qsegAt q m) := by
    by_cases hm0 : m = 0
    · rw [hm0]; exact h2.trans hb.2.1
    by_cases hm1 : m = 1
    · rw [hm1]; exact h2.trans hb.2.2
    have hin : Set.Icc (0 : ℝ) 1 ∈ nhds m :=
      Icc_mem_nhds (lt_of_le_of_ne hm.1 (Ne.symm hm0)) (lt_of_le_of_ne hm.2 hm1)
    have hz := (hmin.isLocalMin hin).hasDerivAt_eq_zero (dist_deriv q p m)
    have hz' := (mul_eq_zero.1 hz).resolve_left two_ne_zero
    by_cases hne : (2 * sqNorm (polyCoeffs q).2.2 ≠ 0 ∨ 3 * dot (polyCoeffs q).2.2 (polyCoeffs q).2.1 ≠ 0 ∨
      sqNorm (polyCoeffs q).2.1 + 2 * dot (polyCoeffs q).2.2 ((polyCoeffs q).1 - p) ≠ 0 ∨
      dot (polyCoeffs q).2.1 ((polyCoeffs q).1 - p) ≠ 0)
    · exact h3 m (hsol roots hroots hne m hz') hm.1 hm.2
    · -- the curve is a point
      push Not at hne
      have hA : (polyCoeffs q).2.2 = 0 := (sqNorm_eq_zero _).1 (by linarith [hne.1])
      have hB : (polyCoeffs q).2.1 = 0 := by
        refine (sqNorm_eq_zero _).1 ?_
        have := hne.2.2.1
        rw [hA] at this
        simpa [dot] using this
      have hc : ∀ x, qsegAt q x = q 0 := by
        intro x
        funext i
        rw [(C31_interpolate q).2.2.2 x i, hA, hB]
        simp [polyCoeffs]
      rw [hc, hc]
  intro s hs0 hs1
  rw [sqDist_comm, sqDist_comm _ p]
  exact hle.trans (hmin ⟨hs0, hs1⟩)

/-- A straight segment whose middle vertex is the midpoint of its ends: the same. -/
theorem C75_straight (solve : ℝ → ℝ → ℝ → ℝ → Option (ℝ × ℝ × ℝ)) (eps2 : ℝ) (q : Poly 3 2 ℝ) (p : Pt 2 ℝ)
    (hs : isStraight eps2 q = true) (hm : ∀ i, q 2 i = (q 0 i + q 1 i) / 2) :
    ∃ r, qsegClosest solve eps2 q p = some r ∧ 0 ≤ r ∧ r ≤ 1 ∧
      qsegSqDist solve eps2 q p = some (sqDist (qsegAt q r) p) ∧
      ∀ s, 0 ≤ s → s ≤ 1 → sqDist (qsegAt q r) p ≤ sqDist (qsegAt q s) p := by
  have hat : ∀ r, qsegAt q r = segAt ![q 0, q 1] r := by
    intro r; funext i
    simp only [qsegAt, segAt, hm, Matrix.cons_val_zero, Matrix.cons_val_one]; ring
  have hne : q 0 ≠ q 1 := by
    intro h
    unfold isStraight at hs
    dsimp only at hs
    rw [if_pos] at hs
    · exact Bool.false_ne_true hs
    · rw [h, sub_self]
      have : sqNorm (0 : Pt 2 ℝ) = 0 := (sqNorm_eq_zero _).2 rfl
      rw [this]; exact sqNorm_nonneg _
  rcases C26_closest ![q 0, q 1] p with h | ⟨r, h1, h2, h3, -, h5⟩
  · exact absurd h.1 hne
  · have hr : qsegClosest solve eps2 q p = some r := by
      unfold qsegClosest; rw [if_pos hs]; exact h1
    refine ⟨r, hr, h2, h3, by unfold qsegSqDist; rw [hr]; rfl, fun s hs0 hs1 => ?_⟩
    rw [hat, hat]
    exact h5 s hs0 hs1

/-- A straight segment whose middle vertex is not the midpoint: the parameter found on the chord is
used on the curve, where it is another point. Even the middle vertex has a distance that is not zero. -/
theorem C75_straight_fails (solve : ℝ → ℝ → ℝ → ℝ → Option (ℝ × ℝ × ℝ)) :
    ∃ q : Poly 3 2 ℝ, ∀ eps2 > 0, isStraight eps2 q = true ∧
      qsegAt q (1 / 2) = q 2 ∧ qsegSqDist solve eps2 q (q 2) = some ((12 / 125) ^ 2) := by
  refine ⟨![![0, 0], ![1, 0], ![2 / 5, 0]], fun eps2 he => ?_⟩
  have hs : isStraight eps2 (![![0, 0], ![1, 0], ![2 / 5, 0]] : Poly 3 2 ℝ) = true := by
    unfold isStraight
    dsimp only
    rw [cross_eq]
    unfold sqNorm
    simp only [Fin.sum_univ_two, Pi.sub_apply, Matrix.cons_val_zero, Matrix.cons_val_one, Matrix.cons_val]
    norm_num
    exact he
  refine ⟨hs, (C31_interpolate _).2.2.1, ?_⟩
  have hc : qsegClosest solve eps2 (![![0, 0], ![1, 0], ![2 / 5, 0]] : Poly 3 2 ℝ)
      ((![![0, 0], ![1, 0], ![2 / 5, 0]] : Poly 3 2 ℝ) 2) = some (2 / 5) := by
    unfold qsegClosest
    rw [if_pos hs]
    unfold pointClosestTo sqNorm dot
    simp only [Fin.sum_univ_two, Pi.sub_apply, Matrix.cons_val_zero, Matrix.cons_val_one, Matrix.cons_val]
    norm_num [clamp]
  unfold qsegSqDist
  rw [hc]
  unfold sqDist
  simp only [Option.map_some, Fin.sum_univ_two, qsegAt, Matrix.cons_val_zero, Matrix.cons_val_one,
    Matrix.cons_val]
  norm_num

/-- The hypotheses of `C75_closest` hold of the parabola through `(0,0)`, `(1/2,1/4)`, `(1,0)`. -/
example : isStraight (1 / 10 ^ 10) (![![0, 0], ![1, 0], ![1 / 2, 1 / 4]] : Poly 3 2 ℝ) = false := by
  unfold isStraight
  dsimp only
  rw [cross_eq]
  unfold sqNorm
  simp only [Fin.sum_univ_two, Pi.sub_apply, Matrix.cons_val_zero, Matrix.cons_val_one, Matrix.cons_val]
  norm_num

/-- A solver as in `C75_closest` exists for every cubic whose roots are three values. -/
example : FindsRoots (fun _ _ _ _ => some (1, 2, 3)) 1 (-6) 11 (-6) := by
  intro r hr _ x hx
  cases hr
  have h : (x - 1) * ((x - 2) * (x - 3)) = 0 := by linear_combination hx
  rcases mul_eq_zero.1 h with h | h
  · simp [sub_eq_zero.1 h]
  · rcases mul_eq_zero.1 h with h | h <;> simp [sub_eq_zero.1 h]

end Verif.Geom
