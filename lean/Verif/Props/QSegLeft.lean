import Verif.Model.QSeg
import Verif.Props.Roots
import Verif.Props.Quadratic
import Mathlib.Analysis.Convex.Hull
import Mathlib.Analysis.Convex.Combination

/-!
# C76: the side of a curved segment a point is on
-/

namespace Verif.Geom

open Verif.Roots

/-- `solveQuadratic` for a leading coefficient that is not zero: a factorisation, or no real root. -/
theorem solveQuadratic_factor (a b c : ℝ) (ha : a ≠ 0) :
    (∀ x, a * x ^ 2 + b * x + c =
      a * (x - (solveQuadratic a b c).1) * (x - (solveQuadratic a b c).2)) ∨
    (solveQuadratic a b c = (invalid, invalid) ∧ ∀ x, 0 < a * (a * x ^ 2 + b * x + c)) := by
  unfold solveQuadratic
  rw [if_neg ha]
  by_cases hb : b = 0
  · rw [if_pos hb]
    dsimp only
    split_ifs with h
    · right
      refine ⟨rfl, fun x => ?_⟩
      have h1 : 0 < a * c := by
        have := mul_lt_mul_of_pos_right h (sq_pos_of_ne_zero ha)
        have e : -c / a * a ^ 2 = -(a * c) := by field_simp
        rw [e] at this; linarith
      rw [hb]
      nlinarith [mul_nonneg (sq_nonneg a) (sq_nonneg x)]
    · left
      intro x
      have hs := Real.sq_sqrt (not_lt.1 h)
      have e : a * Real.sqrt (-c / a) ^ 2 = -c := by rw [hs]; field_simp
      dsimp only
      rw [hb]
      linear_combination e
  · rw [if_neg hb]
    dsimp only
    have hdisc : disc a b c = b ^ 2 - 4 * a * c := disc_eq a b c
    rw [hdisc]
    split_ifs with h h2
    · right
      refine ⟨rfl, fun x => ?_⟩
      nlinarith [sq_nonneg (2 * a * x + b)]
    all_goals
      left
      intro x
      obtain ⟨s, hs⟩ : ∃ s, s = Real.sqrt (b ^ 2 - 4 * a * c) := ⟨_, rfl⟩
      have hs0 : 0 ≤ s := hs ▸ Real.sqrt_nonneg _
      have hs2 : s ^ 2 = b ^ 2 - 4 * a * c := by rw [hs]; exact Real.sq_sqrt (not_lt.1 h)
      rw [← hs]
      obtain ⟨q, hq⟩ : ∃ q, q = -(b + copysign s b) / 2 := ⟨_, rfl⟩
      rw [← hq]
      have hq0 : q ≠ 0 := by
        rw [hq]; unfold copysign
        rw [abs_of_nonneg hs0]
        split_ifs with hb'
        · intro h; linarith
        · have : 0 < b := lt_of_le_of_ne (not_lt.1 hb') (Ne.symm hb)
          intro h; linarith
      have hq2 : q ^ 2 + b * q + a * c = 0 := by
        have hc : copysign s b ^ 2 = s ^ 2 := by
          unfold copysign; split_ifs <;> simp
        have e : copysign s b = -2 * q - b := by linarith
        rw [e] at hc
        linarith
      dsimp only
      field_simp
      linear_combination x * hq2

/-- The test after the change of coordinates, in the skew coordinates `(w, η)` of the point. -/
theorem leftAbove_iff (l x2 y2 : ℝ) (p : Pt 2 ℝ) (hl : 0 < l) (hy : 0 < y2) (w η : ℝ) (hη : 0 ≤ η)
    (h0 : p 0 = l * w - (2 * l - 4 * x2) * η) (h1 : p 1 = 4 * y2 * η) (hne : w ^ 2 - w + η ≠ 0) :
    leftAbove l x2 y2 p = true ↔ 0 < w ^ 2 - w + η := by
  have hP : ∀ r, (-(-l + 4 * x2) + l) * r ^ 2 + (-l + 4 * x2) * r + -p 0 =
      (2 * l - 4 * x2) * (r ^ 2 - r + η) + l * (r - w) := by
    intro r; rw [h0]; ring
  have hge : ∀ r, (p 1 ≥ r * (4 * y2 + r * -(4 * y2)) ↔ 0 ≤ r ^ 2 - r + η) := by
    intro r
    rw [h1]
    have e : 4 * y2 * η - r * (4 * y2 + r * -(4 * y2)) = 4 * y2 * (r ^ 2 - r + η) := by ring
    rw [ge_iff_le, ← sub_nonneg, e]
    exact mul_nonneg_iff_of_pos_left (by linarith)
  have hle : ∀ r, (p 1 ≤ r * (4 * y2 + r * -(4 * y2)) ↔ r ^ 2 - r + η ≤ 0) := by
    intro r
    rw [h1]
    have e : r * (4 * y2 + r * -(4 * y2)) - 4 * y2 * η = 4 * y2 * -(r ^ 2 - r + η) := by ring
    rw [← sub_nonneg, e, mul_nonneg_iff_of_pos_left (by linarith)]
    exact neg_nonneg
  unfold leftAbove
  dsimp only
  by_cases ha : -(-l + 4 * x2) + l = 0
  · have hb : -l + 4 * x2 = l := by linarith
    have hax : 2 * l - 4 * x2 = 0 := by linarith
    have hr : solveQuadratic (-(-l + 4 * x2) + l) (-l + 4 * x2) (-p 0) = (w, invalid) := by
      unfold solveQuadratic
      rw [if_pos ha, hb, if_neg hl.ne', h0, hax]
      congr 1
      field_simp
      ring
    rw [hr, if_pos (by unfold invalid; norm_num), decide_eq_true_iff, hge]
    exact ⟨fun h => lt_of_le_of_ne h (Ne.symm hne), le_of_lt⟩
  · rcases solveQuadratic_factor _ (-l + 4 * x2) (-p 0) ha with hf | ⟨hr, hpos⟩
    · generalize solveQuadratic (-(-l + 4 * x2) + l) (-l + 4 * x2) (-p 0) = rr at hf ⊢
      obtain ⟨r0, r1⟩ := rr
      dsimp only at hf ⊢
      obtain ⟨a, hax⟩ : ∃ a, a = -(-l + 4 * x2) + l := ⟨_, rfl⟩
      have hax' : 2 * l - 4 * x2 = a := by linarith
      rw [hax'] at hP
      rw [← hax] at ha hf hP
      -- the resultant
      have e0 : a * (r0 ^ 2 - r0 + η) = -(l * (r0 - w)) := by
        have h1 := hP r0; have h2 := hf r0
        rw [sub_self, mul_zero, zero_mul] at h2; linarith
      have e1 : a * (r1 ^ 2 - r1 + η) = -(l * (r1 - w)) := by
        have h1 := hP r1; have h2 := hf r1
        rw [sub_self, mul_zero] at h2; linarith
      have ew : a * (w - r0) * (w - r1) = a * (w ^ 2 - w + η) := by
        rw [← hf, hP]; ring
      have ew' : (w - r0) * (w - r1) = w ^ 2 - w + η := mul_left_cancel₀ ha (by linarith)
      have key : a ^ 2 * ((r0 ^ 2 - r0 + η) * (r1 ^ 2 - r1 + η)) = l ^ 2 * (w ^ 2 - w + η) := by
        rw [← ew']
        linear_combination (a * (r1 ^ 2 - r1 + η)) * e0 - l * (r0 - w) * e1
      have ha2 : 0 < a ^ 2 := by positivity
      have hl2 : 0 < l ^ 2 := by positivity
      obtain ⟨f0, hf0⟩ : ∃ f, f = r0 ^ 2 - r0 + η := ⟨_, rfl⟩
      obtain ⟨f1, hf1⟩ : ∃ f, f = r1 ^ 2 - r1 + η := ⟨_, rfl⟩
      obtain ⟨f, hfw⟩ : ∃ f, f = w ^ 2 - w + η := ⟨_, rfl⟩
      rw [← hfw] at hne key ⊢
      split_ifs with hbig
      · rw [decide_eq_true_iff, hge, ← hf0]
        rw [← hf0, ← hf1] at key
        have hf1p : 0 < f1 := by rw [hf1]; nlinarith
        constructor
        · intro h
          have : 0 ≤ l ^ 2 * f := by rw [← key]; positivity
          exact lt_of_le_of_ne (nonneg_of_mul_nonneg_right this hl2) (Ne.symm hne)
        · intro h
          by_contra hn
          have : a ^ 2 * (f0 * f1) < 0 := mul_neg_of_pos_of_neg ha2 (mul_neg_of_neg_of_pos (not_le.1 hn) hf1p)
          rw [key] at this
          nlinarith
      · rw [← hf0, ← hf1] at key
        have hmin : (Box.cmin (r0 * (4 * y2 + r0 * -(4 * y2))) (r1 * (4 * y2 + r1 * -(4 * y2))) ≤ p 1 ↔
            0 ≤ f0 ∨ 0 ≤ f1) := by
          have i0 := hge r0
          have i1 := hge r1
          rw [← hf0] at i0
          rw [← hf1] at i1
          rw [← i0, ← i1]
          unfold Box.cmin
          split_ifs with h
          · exact ⟨Or.inr, fun h' => h'.elim (fun h' => h.le.trans h') id⟩
          · exact ⟨Or.inl, fun h' => h'.elim id (fun h' => (not_lt.1 h).trans h')⟩
        have hmax : (p 1 ≤ Box.cmax (r0 * (4 * y2 + r0 * -(4 * y2))) (r1 * (4 * y2 + r1 * -(4 * y2))) ↔
            f0 ≤ 0 ∨ f1 ≤ 0) := by
          have i0 := hle r0
          have i1 := hle r1
          rw [← hf0] at i0
          rw [← hf1] at i1
          rw [← i0, ← i1]
          unfold Box.cmax
          split_ifs with h
          · exact ⟨Or.inr, fun h' => h'.elim (fun h' => h'.trans h.le) id⟩
          · exact ⟨Or.inl, fun h' => h'.elim id (fun h' => h'.trans (not_lt.1 h))⟩
        rw [Bool.not_eq_true', Bool.and_eq_false_iff, decide_eq_false_iff_not, decide_eq_false_iff_not,
          hmin, hmax]
        have h01 : f0 * f1 ≠ 0 := by
          intro h; rw [h, mul_zero] at key
          exact (mul_ne_zero hl2.ne' hne) key.symm
        have hpos : 0 < f ↔ 0 < f0 * f1 := by
          constructor
          · intro h
            have : 0 < a ^ 2 * (f0 * f1) := by rw [key]; positivity
            exact (mul_pos_iff_of_pos_left ha2).1 this
          · intro h
            have : 0 < l ^ 2 * f := by rw [← key]; positivity
            exact (mul_pos_iff_of_pos_left hl2).1 this
        rw [hpos]
        push Not
        constructor
        · rintro (h | h)
          · exact mul_pos_of_neg_of_neg h.1 h.2
          · exact mul_pos h.1 h.2
        · intro h
          rcases pos_and_pos_or_neg_and_neg_of_mul_pos h with h | h
          · exact Or.inr h
          · exact Or.inl h
    · rw [hr, if_pos (by unfold invalid; norm_num), decide_eq_true_iff, hge]
      refine ⟨fun _ => ?_, fun _ => ?_⟩
      · have := hpos w
        rw [hP] at this
        have e : -(-l + 4 * x2) + l = 2 * l - 4 * x2 := by ring
        rw [e, sub_self, mul_zero, add_zero, ← mul_assoc] at this
        by_contra hn
        have := mul_nonpos_of_nonneg_of_nonpos (mul_self_nonneg (2 * l - 4 * x2)) (not_lt.1 hn)
        linarith
      · unfold invalid; norm_num; linarith

/-! ## The region between the curve and its chord -/

/-- The convex hull of the curve, in skew coordinates: `w` along the chord, `η` against the second
derivative. -/
theorem hull_iff (q : Poly 3 2 ℝ) (p : Pt 2 ℝ) :
    p ∈ convexHull ℝ (qsegAt q '' Set.Icc 0 1) ↔
    ∃ w η : ℝ, 0 ≤ η ∧ η ≤ w - w ^ 2 ∧
      ∀ i, p i = q 0 i + w * (q 1 i - q 0 i) - η * (polyCoeffs q).2.2 i := by
  have hat : ∀ r i, qsegAt q r i = q 0 i + r * (q 1 i - q 0 i) - (r - r ^ 2) * (polyCoeffs q).2.2 i := by
    intro r i; simp only [qsegAt, polyCoeffs]; ring
  constructor
  · intro h
    have hsub : convexHull ℝ (qsegAt q '' Set.Icc 0 1) ⊆ {p | ∃ w η : ℝ, 0 ≤ η ∧ η ≤ w - w ^ 2 ∧
        ∀ i, p i = q 0 i + w * (q 1 i - q 0 i) - η * (polyCoeffs q).2.2 i} := by
      refine convexHull_min ?_ ?_
      · rintro _ ⟨r, hr, rfl⟩
        exact ⟨r, r - r ^ 2, by nlinarith [hr.1, hr.2], le_rfl, hat r⟩
      · rintro x ⟨w, η, h0, h1, hx⟩ y ⟨w', η', h0', h1', hy⟩ a b ha hb hab
        refine ⟨a * w + b * w', a * η + b * η', by positivity, ?_, fun i => ?_⟩
        · have hb' : b = 1 - a := by linarith
          subst hb'
          nlinarith [mul_nonneg (mul_nonneg ha hb) (sq_nonneg (w - w')), mul_le_mul_of_nonneg_left h1 ha,
            mul_le_mul_of_nonneg_left h1' hb]
        · simp only [Pi.add_apply, Pi.smul_apply, smul_eq_mul, hx, hy]
          have hb' : b = 1 - a := by linarith
          subst hb'; ring
    exact hsub h
  · rintro ⟨w, η, h0, h1, hp⟩
    have hw0 : 0 ≤ w := by nlinarith [sq_nonneg w]
    have hw1 : w ≤ 1 := by nlinarith [sq_nonneg (w - 1)]
    have hmem : ∀ r : ℝ, 0 ≤ r → r ≤ 1 → qsegAt q r ∈ convexHull ℝ (qsegAt q '' Set.Icc 0 1) := fun r a b =>
      subset_convexHull ℝ _ ⟨r, ⟨a, b⟩, rfl⟩
    by_cases hz : w - w ^ 2 = 0
    · have : p = qsegAt q w := by
        funext i; rw [hp, hat, hz, show η = 0 by linarith]
      rw [this]; exact hmem w hw0 hw1
    · have hpos : 0 < w - w ^ 2 := lt_of_le_of_ne (h0.trans h1) (Ne.symm hz)
      have hch : (1 - w) • qsegAt q 0 + w • qsegAt q 1 ∈ convexHull ℝ (qsegAt q '' Set.Icc 0 1) :=
        convex_convexHull ℝ _ (hmem 0 le_rfl zero_le_one) (hmem 1 zero_le_one le_rfl) (by linarith) hw0
          (by ring)
      have ht1 : η / (w - w ^ 2) ≤ 1 := (div_le_one hpos).2 h1
      have := convex_convexHull ℝ _ hch (hmem w hw0 hw1) (sub_nonneg.2 ht1) (div_nonneg h0 hpos.le)
        (sub_add_cancel 1 (η / (w - w ^ 2)))
      convert this using 1
      funext i
      simp only [Pi.add_apply, Pi.smul_apply, smul_eq_mul, hat, hp]
      have ht : η / (w - w ^ 2) * (w - w ^ 2) = η := div_mul_cancel₀ _ hz
      linear_combination (-(polyCoeffs q).2.2 i) * ht.symm

/-- The bounding box and what follows, in the rotated frame. -/
theorem frame_iff (q1 q2 pr : Pt 2 ℝ) (w η : ℝ) (right : Bool) (hl : 0 < q1 0) (h10 : q1 1 = 0)
    (hy : 0 < q2 1) (hη : 0 ≤ η) (h0 : pr 0 = q1 0 * w - (2 * q1 0 - 4 * q2 0) * η)
    (h1 : pr 1 = 4 * q2 1 * η) (hne : w ^ 2 - w + η ≠ 0) :
    (if (!Box.contains (qsegBox ![fun _ => 0, q1, q2]) pr) = true then some right
      else some (if right = true then leftAbove (q1 0) (q2 0) (q2 1) pr
        else !leftAbove (q1 0) (q2 0) (q2 1) pr)) =
    some (if right = true then decide (0 < w ^ 2 - w + η) else decide (w ^ 2 - w + η < 0)) := by
  have hbox : Box.contains (qsegBox ![fun _ => 0, q1, q2]) pr = false → 0 < w ^ 2 - w + η := by
    intro hb
    by_contra hn
    have hin : pr ∈ convexHull ℝ (qsegAt ![fun _ => 0, q1, q2] '' Set.Icc 0 1) := by
      rw [hull_iff]
      refine ⟨w, η, hη, by linarith, ?_⟩
      refine Fin.forall_fin_two.2 ⟨?_, ?_⟩
      · rw [h0]
        simp only [polyCoeffs, Matrix.cons_val_zero, Matrix.cons_val_one, Matrix.cons_val]; ring
      · rw [h1]
        simp only [polyCoeffs, Matrix.cons_val_zero, Matrix.cons_val_one, Matrix.cons_val, h10]; ring
    have hsub : convexHull ℝ (qsegAt ![fun _ => 0, q1, q2] '' Set.Icc 0 1) ⊆
        {x | Box.Inside x (qsegBox ![fun _ => 0, q1, q2])} := by
      refine convexHull_min ?_ ?_
      · rintro _ ⟨r, hr, rfl⟩
        exact (C31_boundingBox _).1 r hr.1 hr.2
      · intro x hx y hy a b ha hb hab i
        have hx := hx i
        have hy := hy i
        have hb' : b = 1 - a := by linarith
        subst hb'
        simp only [Pi.add_apply, Pi.smul_apply, smul_eq_mul]
        constructor <;> nlinarith [hx.1, hx.2, hy.1, hy.2]
    have := (Box.C24_contains _ _).2 (hsub hin)
    rw [hb] at this
    exact Bool.false_ne_true this
  have hla := leftAbove_iff (q1 0) (q2 0) (q2 1) pr hl hy w η hη h0 h1 hne
  cases hb : Box.contains (qsegBox ![fun _ => 0, q1, q2]) pr with
  | false =>
    have := hbox hb
    cases right <;> simp [this, this.le]
  | true =>
    have e : leftAbove (q1 0) (q2 0) (q2 1) pr = decide (0 < w ^ 2 - w + η) := by
      rw [Bool.eq_iff_iff, hla, decide_eq_true_iff]
    rw [e]
    cases right
    · simp only [Bool.not_true, Bool.false_eq_true, if_false, Option.some.injEq]
      rw [Bool.eq_iff_iff]
      simp only [Bool.not_eq_true', decide_eq_false_iff_not, decide_eq_true_iff, not_lt]
      exact ⟨fun h => lt_of_le_of_ne h hne, le_of_lt⟩
    · simp

/-- The triangle of the control points, oriented. -/
theorem tri_iff (q : Poly 3 2 ℝ) (p : Pt 2 ℝ) (hc : cross (q 1 - q 0) (q 2 - q 0) ≠ 0) :
    triContains (if triIsCCW ![q 0, q 1, bezierControl q] then ![q 0, q 1, bezierControl q]
      else triFlip ![q 0, q 1, bezierControl q]) p = true ↔
    ∃ α β γ : ℝ, 0 ≤ α ∧ 0 ≤ β ∧ 0 ≤ γ ∧ α + β + γ = 1 ∧
      ∀ i, p i = α * q 0 i + β * q 1 i + γ * bezierControl q i := by
  have har := C28_area (![q 0, q 1, bezierControl q] : Poly 3 2 ℝ)
  have ha2 : area2 (q 0) (q 1) (bezierControl q) = 2 * cross (q 1 - q 0) (q 2 - q 0) := by
    rw [cross_eq]; unfold area2 bezierControl; simp only [Pi.sub_apply]; ring
  have hA : triArea (![q 0, q 1, bezierControl q] : Poly 3 2 ℝ) = cross (q 1 - q 0) (q 2 - q 0) := by
    rw [har.1]
    show area2 (q 0) (q 1) (bezierControl q) / 2 = _
    rw [ha2]; ring
  by_cases hpos : 0 < cross (q 1 - q 0) (q 2 - q 0)
  · rw [if_pos (har.2.1.2 (by rw [hA]; exact hpos.le)), C28_contains _ _ (by rw [hA]; exact hpos)]
    constructor
    · rintro ⟨w, h0, h1, h2⟩
      rw [Fin.sum_univ_three] at h1
      refine ⟨w 0, w 1, w 2, h0 0, h0 1, h0 2, h1, fun i => ?_⟩
      rw [h2, Fin.sum_univ_three]; rfl
    · rintro ⟨α, β, γ, hα, hβ, hγ, h1, h2⟩
      refine ⟨![α, β, γ], fun k => by fin_cases k <;> assumption, ?_, fun i => ?_⟩
      · rw [Fin.sum_univ_three]; exact h1
      · rw [h2, Fin.sum_univ_three]; rfl
  · have hneg : cross (q 1 - q 0) (q 2 - q 0) < 0 := lt_of_le_of_ne (not_lt.1 hpos) hc
    rw [if_neg (fun h => absurd (har.2.1.1 h) (by rw [hA]; exact not_le.2 hneg)),
      C28_contains _ _ (by rw [har.2.2.1, hA]; linarith)]
    constructor
    · rintro ⟨w, h0, h1, h2⟩
      rw [Fin.sum_univ_three] at h1
      refine ⟨w 0, w 2, w 1, h0 0, h0 2, h0 1, by linarith, fun i => ?_⟩
      rw [h2, Fin.sum_univ_three]
      show w 0 * q 0 i + w 1 * bezierControl q i + w 2 * q 1 i = _
      ring
    · rintro ⟨α, β, γ, hα, hβ, hγ, h1, h2⟩
      refine ⟨![α, γ, β], fun k => by fin_cases k <;> assumption, ?_, fun i => ?_⟩
      · rw [Fin.sum_univ_three]; show α + γ + β = 1; linarith
      · rw [h2, Fin.sum_univ_three]
        show _ = α * q 0 i + γ * bezierControl q i + β * q 1 i
        ring

theorem rotate_zero (u v : Pt 2 ℝ) : rotate u v 0 = u 0 * v 0 + u 1 * v 1 := rfl
theorem rotate_one (u v : Pt 2 ℝ) : rotate u v 1 = -u 1 * v 0 + u 0 * v 1 := rfl

/-- `isLeft` of a curved segment. With the middle vertex left of the chord, a point is left of the curve
if it is left of the chord and not in the region between curve and chord (the convex hull of the curve);
with the middle vertex on the right, if it is left of the chord or in that region. -/
theorem C76_isLeft (eps2 : ℝ) (q : Poly 3 2 ℝ) (p : Pt 2 ℝ) (hs : isStraight eps2 q = false)
    (hc : area2 (q 0) (q 1) (q 2) ≠ 0) (hp : ∀ r, 0 ≤ r → r ≤ 1 → qsegAt q r ≠ p) :
    ∃ b, qsegIsLeft eps2 q p = some b ∧ (b = true ↔
      if 0 < area2 (q 0) (q 1) (q 2)
      then 0 ≤ area2 (q 0) (q 1) p ∧ p ∉ convexHull ℝ (qsegAt q '' Set.Icc 0 1)
      else 0 ≤ area2 (q 0) (q 1) p ∨ p ∈ convexHull ℝ (qsegAt q '' Set.Icc 0 1)) := by
  obtain ⟨c, hcd⟩ : ∃ c, c = area2 (q 0) (q 1) (q 2) := ⟨_, rfl⟩
  have hcr : cross (q 1 - q 0) (q 2 - q 0) = c := by
    rw [hcd, cross_eq]; unfold area2; simp only [Pi.sub_apply]
  rw [← hcd] at hc ⊢
  -- skew coordinates
  obtain ⟨η, hη⟩ : ∃ η, η = area2 (q 0) (q 1) p / (4 * c) := ⟨_, rfl⟩
  obtain ⟨w, hw⟩ : ∃ w, w = cross (polyCoeffs q).2.2 (p - q 0) / (4 * c) := ⟨_, rfl⟩
  have hcoord : ∀ i, p i = q 0 i + w * (q 1 i - q 0 i) - η * (polyCoeffs q).2.2 i := by
    have e0 : 4 * c * (p 0 - q 0 0 - w * (q 1 0 - q 0 0) + η * (polyCoeffs q).2.2 0) = 0 := by
      have hw' : w * (4 * c) = cross (polyCoeffs q).2.2 (p - q 0) := by rw [hw]; field_simp
      have hη' : η * (4 * c) = area2 (q 0) (q 1) p := by rw [hη]; field_simp
      rw [cross_eq] at hw'
      unfold area2 at hη'
      simp only [polyCoeffs, Pi.sub_apply] at hw' ⊢
      have hcv := hcd
      unfold area2 at hcv
      linear_combination (-(q 1 0 - q 0 0)) * hw' + (-2 * ((q 2 0 - q 0 0) + (q 2 0 - q 1 0))) * hη' +
        4 * (p 0 - q 0 0) * hcv
    have e1 : 4 * c * (p 1 - q 0 1 - w * (q 1 1 - q 0 1) + η * (polyCoeffs q).2.2 1) = 0 := by
      have hw' : w * (4 * c) = cross (polyCoeffs q).2.2 (p - q 0) := by rw [hw]; field_simp
      have hη' : η * (4 * c) = area2 (q 0) (q 1) p := by rw [hη]; field_simp
      rw [cross_eq] at hw'
      unfold area2 at hη'
      simp only [polyCoeffs, Pi.sub_apply] at hw' ⊢
      have hcv := hcd
      unfold area2 at hcv
      linear_combination (-(q 1 1 - q 0 1)) * hw' + (-2 * ((q 2 1 - q 0 1) + (q 2 1 - q 1 1))) * hη' +
        4 * (p 1 - q 0 1) * hcv
    have f0 := (mul_eq_zero.1 e0).resolve_left (mul_ne_zero four_ne_zero hc)
    have f1 := (mul_eq_zero.1 e1).resolve_left (mul_ne_zero four_ne_zero hc)
    refine Fin.forall_fin_two.2 ⟨by linarith, by linarith⟩
  have hchord : area2 (q 0) (q 1) p = 4 * c * η := by rw [hη]; field_simp
  -- they are unique
  have huniq : ∀ w' η' : ℝ, (∀ i, p i = q 0 i + w' * (q 1 i - q 0 i) - η' * (polyCoeffs q).2.2 i) →
      w' = w ∧ η' = η := by
    intro w' η' h
    have h0 := h 0; have h1 := h 1; have g0 := hcoord 0; have g1 := hcoord 1
    have hcv := hcd
    unfold area2 at hcv
    simp only [polyCoeffs] at h0 h1 g0 g1
    constructor
    · have : 4 * c * (w' - w) = 0 := by
        rw [hcv]
        linear_combination (-2 * ((q 2 1 - q 0 1) + (q 2 1 - q 1 1))) * (h0 - g0) -
          (-2 * ((q 2 0 - q 0 0) + (q 2 0 - q 1 0))) * (h1 - g1)
      linarith [(mul_eq_zero.1 this).resolve_left (mul_ne_zero four_ne_zero hc)]
    · have : 4 * c * (η' - η) = 0 := by
        rw [hcv]
        linear_combination (q 1 1 - q 0 1) * (h0 - g0) - (q 1 0 - q 0 0) * (h1 - g1)
      linarith [(mul_eq_zero.1 this).resolve_left (mul_ne_zero four_ne_zero hc)]
  have hhull : p ∈ convexHull ℝ (qsegAt q '' Set.Icc 0 1) ↔ 0 ≤ η ∧ η ≤ w - w ^ 2 := by
    rw [hull_iff]
    constructor
    · rintro ⟨w', η', a, b, h⟩
      obtain ⟨rfl, rfl⟩ := huniq w' η' h
      exact ⟨a, b⟩
    · rintro ⟨a, b⟩
      exact ⟨w, η, a, b, hcoord⟩
  have hoff : 0 ≤ η → w ^ 2 - w + η ≠ 0 := by
    intro h0 h
    have hw0 : 0 ≤ w := by nlinarith [sq_nonneg w]
    have hw1 : w ≤ 1 := by nlinarith [sq_nonneg (w - 1)]
    refine hp w hw0 hw1 ?_
    funext i
    rw [hcoord i, show η = w - w ^ 2 by linarith]
    simp only [qsegAt, polyCoeffs]; ring
  have htri := tri_iff q p (by rw [hcr]; exact hc)
  unfold qsegIsLeft
  rw [hs]
  simp only [Bool.false_eq_true, if_false]
  by_cases ht : triContains (if triIsCCW ![q 0, q 1, bezierControl q] then ![q 0, q 1, bezierControl q]
      else triFlip ![q 0, q 1, bezierControl q]) p = true
  swap
  · -- outside of the triangle
    rw [Bool.not_eq_true] at ht
    rw [ht]
    simp only [Bool.not_false, if_true]
    have hn : p ∉ convexHull ℝ (qsegAt q '' Set.Icc 0 1) := by
      intro h
      rw [hhull] at h
      have : triContains (if triIsCCW ![q 0, q 1, bezierControl q] then ![q 0, q 1, bezierControl q]
          else triFlip ![q 0, q 1, bezierControl q]) p = true := by
        rw [htri]
        have hw0 : 0 ≤ w := by nlinarith [sq_nonneg w]
        have hw1 : w ≤ 1 := by nlinarith [sq_nonneg (w - 1)]
        refine ⟨1 - w - η, w - η, 2 * η, by nlinarith [sq_nonneg (1 - w)], by nlinarith [sq_nonneg w], by linarith [h.1], by ring,
          fun i => ?_⟩
        rw [hcoord i]
        simp only [bezierControl, polyCoeffs]; ring
      rw [ht] at this
      exact Bool.false_ne_true this
    refine ⟨_, rfl, ?_⟩
    rw [areCCW_iff]
    split_ifs <;> simp [hn]
  · rw [ht]
    simp only [Bool.not_true, Bool.false_eq_true, if_false]
    obtain ⟨α, β, γ, hα, hβ, hγ, hsum, hbary⟩ := htri.1 ht
    have hbw : β + γ / 2 = w ∧ γ / 2 = η := by
      refine huniq _ _ fun i => ?_
      rw [hbary i, show α = 1 - β - γ by linarith]
      simp only [bezierControl, polyCoeffs]; ring
    have hη0 : 0 ≤ η := by rw [← hbw.2]; linarith
    have hφ := hoff hη0
    have hzero : η = 0 → w ^ 2 - w + η < 0 := by
      intro h
      refine lt_of_le_of_ne ?_ hφ
      have hγ0 : γ = 0 := by linarith [hbw.2]
      have hw : w = β := by rw [← hbw.1, hγ0]; ring
      rw [h, hw]
      nlinarith
    have hn2 : sqNorm (q 1 - q 0) ≠ 0 := by
      intro h
      have := (sqNorm_eq_zero _).1 h
      rw [this] at hcr
      apply hc
      rw [← hcr, cross_eq]
      simp
    have hn0 : Real.sqrt (sqNorm (q 1 - q 0)) ≠ 0 := fun h => hn2 ((Real.sqrt_eq_zero (sqNorm_nonneg _)).1 h)
    rw [if_neg hn0]
    obtain ⟨n, hn⟩ : ∃ n, n = Real.sqrt (sqNorm (q 1 - q 0)) := ⟨_, rfl⟩
    have hnp : 0 < n := by rw [hn]; exact lt_of_le_of_ne (Real.sqrt_nonneg _) (Ne.symm hn0)
    have hnn : n ^ 2 = (q 1 0 - q 0 0) ^ 2 + (q 1 1 - q 0 1) ^ 2 := by
      rw [hn, Real.sq_sqrt (sqNorm_nonneg _)]
      unfold sqNorm
      rw [Fin.sum_univ_two]
      simp only [Pi.sub_apply]; ring
    rw [← hn]
    obtain ⟨u, hu⟩ : ∃ u : Pt 2 ℝ, u = fun i => (q 1 - q 0) i / n := ⟨_, rfl⟩
    have hu0 : u 0 * n = q 1 0 - q 0 0 := by rw [hu]; simp only [Pi.sub_apply]; field_simp
    have hu1 : u 1 * n = q 1 1 - q 0 1 := by rw [hu]; simp only [Pi.sub_apply]; field_simp
    have huu : u 0 ^ 2 + u 1 ^ 2 = 1 := by
      have : n ^ 2 * (u 0 ^ 2 + u 1 ^ 2 - 1) = 0 := by
        linear_combination (u 0 * n + (q 1 0 - q 0 0)) * hu0 + (u 1 * n + (q 1 1 - q 0 1)) * hu1 - hnn
      linarith [(mul_eq_zero.1 this).resolve_left (by positivity)]
    rw [← hu]
    have r10 : rotate u (q 1 - q 0) 0 = n := by
      simp only [rotate_zero, Pi.sub_apply]
      rw [← hu0, ← hu1]; linear_combination n * huu
    have r11 : rotate u (q 1 - q 0) 1 = 0 := by
      simp only [rotate_one, Pi.sub_apply]
      rw [← hu0, ← hu1]; ring
    have r21 : rotate u (q 2 - q 0) 1 * n = c := by
      rw [hcd]
      simp only [rotate_one, Pi.sub_apply, area2]
      rw [← hu0, ← hu1]; ring
    have hpr : ∀ i, rotate u (p - q 0) i = rotate u (q 1 - q 0) i * w -
        (2 * rotate u (q 1 - q 0) i - 4 * rotate u (q 2 - q 0) i) * η := by
      have c0 := hcoord 0
      have c1 := hcoord 1
      simp only [polyCoeffs] at c0 c1
      refine Fin.forall_fin_two.2 ⟨?_, ?_⟩
      · simp only [rotate_zero, Pi.sub_apply]
        linear_combination u 0 * c0 + u 1 * c1
      · simp only [rotate_one, Pi.sub_apply]
        linear_combination u 0 * c1 - u 1 * c0
    by_cases hpos : 0 < c
    · have hy : 0 < rotate u (q 2 - q 0) 1 := by
        rw [← r21] at hpos; exact (mul_pos_iff_of_pos_right hnp).1 hpos
      have hd : decide (rotate u (q 2 - q 0) 1 ≥ 0) = true := decide_eq_true hy.le
      rw [hd]
      simp only [if_true]
      have hfr := frame_iff (rotate u (q 1 - q 0)) (rotate u (q 2 - q 0)) (rotate u (p - q 0)) w η true
        (by rw [r10]; exact hnp) r11 hy hη0 (hpr 0) (by rw [hpr 1, r11]; ring) hφ
      simp only [if_true] at hfr
      rw [hfr]
      refine ⟨_, rfl, ?_⟩
      rw [if_pos hpos, decide_eq_true_iff, hhull, hchord]
      constructor
      · exact fun h => ⟨by positivity, fun h' => by linarith [h'.2]⟩
      · rintro ⟨-, h⟩
        by_contra hn'
        exact h ⟨hη0, by linarith⟩
    · have hneg : c < 0 := lt_of_le_of_ne (not_lt.1 hpos) hc
      have hy : rotate u (q 2 - q 0) 1 < 0 := by
        by_contra h
        have := mul_nonneg (not_lt.1 h) hnp.le
        linarith
      have hd : decide (rotate u (q 2 - q 0) 1 ≥ 0) = false := decide_eq_false (not_le.2 hy)
      rw [hd]
      simp only [Bool.false_eq_true, if_false]
      have hfr := frame_iff (rotate u (q 1 - q 0))
        ![rotate u (q 2 - q 0) 0, -rotate u (q 2 - q 0) 1] ![rotate u (p - q 0) 0, -rotate u (p - q 0) 1]
        w η false (by rw [r10]; exact hnp) r11 (by simp only [Matrix.cons_val_one, Matrix.cons_val]; linarith) hη0
        (by simp only [Matrix.cons_val_zero]; exact hpr 0)
        (by simp only [Matrix.cons_val_one, Matrix.cons_val]; rw [hpr 1, r11]; ring) hφ
      simp only [Bool.false_eq_true, if_false] at hfr
      rw [hfr]
      refine ⟨_, rfl, ?_⟩
      rw [if_neg hpos, decide_eq_true_iff, hhull, hchord]
      constructor
      · exact fun h => Or.inr ⟨hη0, by linarith⟩
      · rintro (h | h)
        · refine hzero (le_antisymm ?_ hη0)
          by_contra hn'
          nlinarith [not_le.1 hn']
        · exact lt_of_le_of_ne (by linarith [h.2]) hφ

/-- A segment taken for straight: the side of the chord is returned, and every point of the curve is
closer to the line of the chord than the tolerance. -/
theorem C76_straight (eps2 : ℝ) (q : Poly 3 2 ℝ) (p : Pt 2 ℝ) (hs : isStraight eps2 q = true) :
    (∃ b, qsegIsLeft eps2 q p = some b ∧ (b = true ↔ 0 ≤ area2 (q 0) (q 1) p)) ∧
    ∀ r, 0 ≤ r → r ≤ 1 → area2 (q 0) (q 1) (qsegAt q r) ^ 2 < eps2 * sqNorm (q 1 - q 0) := by
  refine ⟨⟨_, by unfold qsegIsLeft; rw [if_pos hs], areCCW_iff _ _ _⟩, fun r h0 h1 => ?_⟩
  unfold isStraight at hs
  dsimp only at hs
  split_ifs at hs with hlt
  rw [decide_eq_true_iff] at hs
  have hpos : 0 < sqNorm (q 1 - q 0) := lt_of_le_of_lt (sqNorm_nonneg _) (not_le.1 hlt)
  rw [div_lt_iff₀ hpos] at hs
  have e : area2 (q 0) (q 1) (qsegAt q r) = 4 * (r * (1 - r)) * cross (q 1 - q 0) (q 2 - q 0) := by
    rw [cross_eq]; unfold area2; simp only [qsegAt, Pi.sub_apply]; ring
  refine lt_of_le_of_lt ?_ hs
  rw [e]
  have hk : (4 * (r * (1 - r))) ^ 2 ≤ 1 := by
    have k0 : 0 ≤ r * (1 - r) := mul_nonneg h0 (by linarith)
    have k1 : 4 * (r * (1 - r)) ≤ 1 := by nlinarith [sq_nonneg (2 * r - 1)]
    exact pow_le_one₀ (by linarith) k1
  nlinarith [mul_nonneg (sub_nonneg.2 hk) (sq_nonneg (cross (q 1 - q 0) (q 2 - q 0)))]

/-- The last branch. -/
theorem last_branch (eps2 : ℝ) (q : Poly 3 2 ℝ) (p u : Pt 2 ℝ) (hs : isStraight eps2 q = false)
    (htri : triContains (if triIsCCW ![q 0, q 1, bezierControl q] then ![q 0, q 1, bezierControl q]
      else triFlip ![q 0, q 1, bezierControl q]) p = true)
    (hn : Real.sqrt (sqNorm (q 1 - q 0)) ≠ 0)
    (hu : u = fun i => (q 1 - q 0) i / Real.sqrt (sqNorm (q 1 - q 0)))
    (hge : 0 ≤ rotate u (q 2 - q 0) 1)
    (hbox : Box.contains (qsegBox ![fun _ => 0, rotate u (q 1 - q 0), rotate u (q 2 - q 0)])
      (rotate u (p - q 0)) = true) :
    qsegIsLeft eps2 q p = some (leftAbove (rotate u (q 1 - q 0) 0) (rotate u (q 2 - q 0) 0)
      (rotate u (q 2 - q 0) 1) (rotate u (p - q 0))) := by
  unfold qsegIsLeft
  rw [hs]
  simp only [Bool.false_eq_true, if_false]
  rw [htri]
  simp only [Bool.not_true, Bool.false_eq_true, if_false]
  rw [if_neg hn, ← hu]
  have hd : decide (rotate u (q 2 - q 0) 1 ≥ 0) = true := decide_eq_true hge
  rw [hd]
  simp only [if_true]
  rw [hbox]
  rfl

/-- On the curve itself the answer depends on the shape: for a middle vertex above the middle of the
chord the point counts as left, otherwise not. -/
theorem C76_on_curve (eps2 : ℝ) (he' : eps2 < 1 / 100) :
    qsegIsLeft eps2 ![![0, 0], ![1, 0], ![1 / 2, 1 / 4]] ![1 / 2, 1 / 4] = some true ∧
    qsegIsLeft eps2 ![![0, 0], ![1, 0], ![1 / 4, 1 / 4]] ![1 / 4, 1 / 4] = some false := by
  have hmain : ∀ x y : ℝ, x ^ 2 + y ^ 2 < 1 → 1 / 16 ≤ y ^ 2 → 0 < y →
      qsegIsLeft eps2 ![![0, 0], ![1, 0], ![x, y]] ![x, y] = some (leftAbove 1 x y ![x, y]) := by
    intro x y h1 h2 hy
    obtain ⟨q, hq⟩ : ∃ q : Poly 3 2 ℝ, q = ![![0, 0], ![1, 0], ![x, y]] := ⟨_, rfl⟩
    have q0 : ∀ i, q 0 i = 0 := by rw [hq]; exact Fin.forall_fin_two.2 ⟨rfl, rfl⟩
    have q10 : q 1 0 = 1 := by rw [hq]; rfl
    have q11 : q 1 1 = 0 := by rw [hq]; rfl
    have q2 : q 2 = ![x, y] := by rw [hq]; rfl
    have q20 : q 2 0 = x := by rw [hq]; rfl
    have q21 : q 2 1 = y := by rw [hq]; rfl
    have hn : sqNorm (q 1 - q 0) = 1 := by
      unfold sqNorm
      simp only [Fin.sum_univ_two, Pi.sub_apply, q0, q10, q11]; norm_num
    have hn2 : sqNorm (q 2 - q 0) = x ^ 2 + y ^ 2 := by
      unfold sqNorm
      simp only [Fin.sum_univ_two, Pi.sub_apply, q0, q20, q21]; ring
    have hc : cross (q 1 - q 0) (q 2 - q 0) = y := by
      rw [cross_eq]; simp only [Pi.sub_apply, q0, q10, q11, q20, q21]; ring
    have hstr : isStraight eps2 q = false := by
      unfold isStraight
      dsimp only
      rw [hc, if_neg (by rw [hn, hn2]; linarith), decide_eq_false_iff_not, hn]
      nlinarith
    have hu : (![1, 0] : Pt 2 ℝ) = fun i => (q 1 - q 0) i / Real.sqrt (sqNorm (q 1 - q 0)) := by
      rw [hn, Real.sqrt_one]
      funext i
      revert i
      refine Fin.forall_fin_two.2 ⟨?_, ?_⟩
      · simp only [Pi.sub_apply, q0, q10]; norm_num
      · simp only [Pi.sub_apply, q0, q11]; norm_num
    have hrot : ∀ v : Pt 2 ℝ, rotate ![1, 0] (v - q 0) = v := by
      intro v; funext i
      revert i
      refine Fin.forall_fin_two.2 ⟨?_, ?_⟩
      · rw [rotate_zero]; simp [q0]
      · rw [rotate_one]; simp [q0]
    rw [← hq, ← q2]
    have h := last_branch eps2 q (q 2) _ hstr ?_ (by rw [hn, Real.sqrt_one]; exact one_ne_zero) hu
      (by rw [hrot, q21]; exact hy.le) ?_
    · rw [h, hrot, hrot, q10, q20, q21]
    · refine (tri_iff q (q 2) (by rw [hc]; exact hy.ne')).2
        ⟨1 / 4, 1 / 4, 1 / 2, by norm_num, by norm_num, by norm_num, by norm_num, fun i => ?_⟩
      simp only [bezierControl]; ring
    · rw [hrot, hrot, Box.C24_contains]
      have h := (C31_boundingBox (![fun _ => 0, q 1, q 2] : Poly 3 2 ℝ)).1 (1 / 2) (by norm_num)
        (by norm_num)
      rw [(C31_interpolate _).2.2.1] at h
      exact h
  rw [hmain _ _ (by norm_num) (by norm_num) (by norm_num),
    hmain _ _ (by norm_num) (by norm_num) (by norm_num)]
  constructor
  · unfold leftAbove solveQuadratic invalid
    norm_num
  · have hs4 : Real.sqrt (1 / 4) = 1 / 2 := by
      rw [show (1 / 4 : ℝ) = (1 / 2) ^ 2 by norm_num]; exact Real.sqrt_sq (by norm_num)
    have hr : solveQuadratic (-(-1 + 4 * (1 / 4)) + 1) (-1 + 4 * (1 / 4)) (-(![1 / 4, 1 / 4] : Pt 2 ℝ) 0) =
        (-(1 / 2), 1 / 2) := by
      unfold solveQuadratic
      rw [if_neg (by norm_num), if_pos (by norm_num)]
      have e : - -(![1 / 4, 1 / 4] : Pt 2 ℝ) 0 / (-(-1 + 4 * (1 / 4)) + 1) = 1 / 4 := by
        show - -(1 / 4 : ℝ) / _ = _
        norm_num
      dsimp only
      rw [e, if_neg (by norm_num), hs4]
    unfold leftAbove
    dsimp only
    rw [hr]
    unfold Box.cmin Box.cmax
    norm_num

/-- The hypotheses of `C76_isLeft` hold of a parabola and a point below it. -/
example : isStraight (1 / 100) (![![0, 0], ![1, 0], ![1 / 2, 1 / 4]] : Poly 3 2 ℝ) = false ∧
    area2 ((![![0, 0], ![1, 0], ![1 / 2, 1 / 4]] : Poly 3 2 ℝ) 0) ((![![0, 0], ![1, 0], ![1 / 2, 1 / 4]] : Poly 3 2 ℝ) 1)
      ((![![0, 0], ![1, 0], ![1 / 2, 1 / 4]] : Poly 3 2 ℝ) 2) ≠ 0 ∧
    ∀ r, 0 ≤ r → r ≤ 1 → qsegAt (![![0, 0], ![1, 0], ![1 / 2, 1 / 4]] : Poly 3 2 ℝ) r ≠ ![1 / 2, 1 / 8] := by
  refine ⟨?_, ?_, ?_⟩
  · unfold isStraight
    dsimp only
    rw [cross_eq]
    unfold sqNorm
    simp only [Fin.sum_univ_two, Pi.sub_apply, Matrix.cons_val_zero, Matrix.cons_val_one, Matrix.cons_val]
    norm_num
  · unfold area2
    simp only [Matrix.cons_val_zero, Matrix.cons_val_one, Matrix.cons_val]
    norm_num
  · intro r _ _ h
    have h0 := congrFun h 0
    have h1 := congrFun h 1
    simp only [qsegAt, Matrix.cons_val_zero, Matrix.cons_val_one, Matrix.cons_val] at h0 h1
    have : r = 1 / 2 := by linarith
    subst this
    norm_num at h1

end Verif.Geom
