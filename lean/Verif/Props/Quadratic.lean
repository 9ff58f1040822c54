import Verif.Model.Quadratic
import Verif.Props.Geom
import Verif.Props.Box
import Mathlib.Analysis.Calculus.Deriv.Pow
import Mathlib.Analysis.Calculus.Deriv.Mul
import Mathlib.Analysis.Calculus.Deriv.Add
import Mathlib.Analysis.SpecialFunctions.Integrals.Basic
import Mathlib.Logic.Equiv.Fin.Basic

/-!
# C31-C33: quadratic segments, triangles and quadrilaterals
-/

namespace Verif.Geom

set_option linter.unusedSectionVars false

variable {D : Nat} {K : Type} [Field K] [LinearOrder K] [IsStrictOrderedRing K]

/-! ## C31: quadratic segments -/

/-- The curve passes through its three vertices at `0`, `1` and `1/2`, and is the polynomial with the
coefficients of `getPolyCoeffs`. -/
theorem C31_interpolate (q : Poly 3 D K) :
    qsegAt q 0 = q 0 ∧ qsegAt q 1 = q 1 ∧ qsegAt q (1 / 2) = q 2 ∧
    ∀ r i, qsegAt q r i =
      (polyCoeffs q).1 i + r * (polyCoeffs q).2.1 i + r ^ 2 * (polyCoeffs q).2.2 i := by
  refine ⟨?_, ?_, ?_, fun r i => ?_⟩
  · funext i; simp [qsegAt]
  · funext i; simp [qsegAt]; ring
  · funext i; simp only [qsegAt]; field_simp; ring
  · simp only [qsegAt, polyCoeffs]; ring

/-- A function that is quadratic around `r` has the linear coefficient as its derivative. -/
theorem hasDerivAt_of_taylor (f : ℝ → ℝ) (r J A : ℝ) (h : ∀ x, f (r + x) = f r + x * J + x ^ 2 * A) :
    HasDerivAt f J r := by
  have e : f = fun y => f r + (y - r) * J + (y - r) ^ 2 * A := by
    funext y
    have := h (y - r)
    rwa [add_sub_cancel] at this
  rw [e]
  have h1 : HasDerivAt (fun y : ℝ => y - r) 1 r := (hasDerivAt_id r).sub_const r
  have h2 : HasDerivAt (fun y : ℝ => (y - r) * J) (1 * J) r := h1.mul_const J
  have h3 : HasDerivAt (fun y : ℝ => (y - r) ^ 2 * A) (((2 : ℕ) : ℝ) * (r - r) ^ (2 - 1) * 1 * A) r :=
    (h1.pow 2).mul_const A
  have h4 : HasDerivAt (fun y : ℝ => f r + (y - r) * J + (y - r) ^ 2 * A)
      (1 * J + ((2 : ℕ) : ℝ) * (r - r) ^ (2 - 1) * 1 * A) r := (h2.const_add (f r)).add h3
  convert h4 using 1
  simp

/-- `jacobian` is the derivative of the curve. -/
theorem C31_jacobian (q : Poly 3 D ℝ) (r : ℝ) (i : Fin D) :
    HasDerivAt (fun x => qsegAt q x i) (qsegJac q r i) r := by
  refine hasDerivAt_of_taylor _ r _ ((polyCoeffs q).2.2 i) fun x => ?_
  simp only [qsegAt, qsegJac, polyCoeffs]; ring

/-- One coordinate: the values of `c + r b + r² a` on `[0, 1]` lie in the computed range, and both of
its ends are values. -/
theorem qsegRange_spec (c b a : K) :
    (∀ r, 0 ≤ r → r ≤ 1 → (qsegRange c (c + b + a) b a).1 ≤ c + r * b + r ^ 2 * a ∧
      c + r * b + r ^ 2 * a ≤ (qsegRange c (c + b + a) b a).2) ∧
    (∃ r, 0 ≤ r ∧ r ≤ 1 ∧ c + r * b + r ^ 2 * a = (qsegRange c (c + b + a) b a).1) ∧
    (∃ r, 0 ≤ r ∧ r ≤ 1 ∧ c + r * b + r ^ 2 * a = (qsegRange c (c + b + a) b a).2) := by
  have ends : ∀ y, y = c ∨ y = c + b + a → ∃ r, 0 ≤ r ∧ r ≤ 1 ∧ c + r * b + r ^ 2 * a = y := by
    rintro y (rfl | rfl)
    · exact ⟨0, le_refl _, zero_le_one, by ring⟩
    · exact ⟨1, zero_le_one, le_refl _, by ring⟩
  have hmn : min c (c + b + a) = c ∨ min c (c + b + a) = c + b + a := by
    rcases le_total c (c + b + a) with h | h
    · exact Or.inl (min_eq_left h)
    · exact Or.inr (min_eq_right h)
  have hmx : max c (c + b + a) = c ∨ max c (c + b + a) = c + b + a := by
    rcases le_total c (c + b + a) with h | h
    · exact Or.inr (max_eq_right h)
    · exact Or.inl (max_eq_left h)
  -- between the chord and the curve
  have chord : ∀ r, 0 ≤ r → r ≤ 1 → min c (c + b + a) ≤ c + r * (b + a) ∧ c + r * (b + a) ≤ max c (c + b + a) := by
    intro r h0 h1
    rcases le_total 0 (b + a) with h | h
    · constructor
      · exact le_trans (min_le_left _ _) (by nlinarith)
      · exact le_trans (by nlinarith) (le_max_right _ _)
    · constructor
      · exact le_trans (min_le_right _ _) (by nlinarith)
      · exact le_trans (by nlinarith) (le_max_left _ _)
  have up : 0 ≤ a → ∀ r, 0 ≤ r → r ≤ 1 → c + r * b + r ^ 2 * a ≤ max c (c + b + a) := by
    intro ha r h0 h1
    refine le_trans ?_ (chord r h0 h1).2
    nlinarith [mul_nonneg ha (mul_nonneg h0 (sub_nonneg.2 h1))]
  have dn : a ≤ 0 → ∀ r, 0 ≤ r → r ≤ 1 → min c (c + b + a) ≤ c + r * b + r ^ 2 * a := by
    intro ha r h0 h1
    refine le_trans (chord r h0 h1).1 ?_
    nlinarith [mul_nonneg (neg_nonneg.2 ha) (mul_nonneg h0 (sub_nonneg.2 h1))]
  unfold qsegRange
  dsimp only
  rw [Box.cmin_eq, Box.cmax_eq]
  by_cases ha : a = 0
  · rw [if_pos ha]
    exact ⟨fun r h0 h1 => ⟨dn ha.le r h0 h1, up ha.ge r h0 h1⟩, ends _ hmn, ends _ hmx⟩
  · rw [if_neg ha]
    set rs := -(b / 2) / a with hrs
    have hb : b = -2 * rs * a := by rw [hrs]; field_simp
    have hx : c + rs * (b / 2) = c + rs * b + rs ^ 2 * a := by rw [hb]; ring
    have hsq : ∀ r, c + r * b + r ^ 2 * a = c + rs * (b / 2) + a * (r - rs) ^ 2 := by
      intro r; rw [hb]; ring
    by_cases hin : 0 < rs ∧ rs < 1
    · rw [if_pos hin, Box.cmin_eq, Box.cmax_eq]
      have ex : ∃ r, 0 ≤ r ∧ r ≤ 1 ∧ c + r * b + r ^ 2 * a = c + rs * (b / 2) :=
        ⟨rs, hin.1.le, hin.2.le, hx.symm⟩
      refine ⟨fun r h0 h1 => ⟨?_, ?_⟩, ?_, ?_⟩
      · rcases le_total 0 a with h | h
        · refine le_trans (min_le_right _ _) ?_
          rw [hsq r]; nlinarith [mul_nonneg h (sq_nonneg (r - rs))]
        · exact le_trans (min_le_left _ _) (dn h r h0 h1)
      · rcases le_total 0 a with h | h
        · exact le_trans (up h r h0 h1) (le_max_left _ _)
        · refine le_trans ?_ (le_max_right _ _)
          rw [hsq r]; nlinarith [mul_nonneg (neg_nonneg.2 h) (sq_nonneg (r - rs))]
      · rcases min_choice (min c (c + b + a)) (c + rs * (b / 2)) with h | h
        · dsimp only; rw [h]; exact ends _ hmn
        · dsimp only; rw [h]; exact ex
      · rcases max_choice (max c (c + b + a)) (c + rs * (b / 2)) with h | h
        · dsimp only; rw [h]; exact ends _ hmx
        · dsimp only; rw [h]; exact ex
    · rw [if_neg hin]
      refine ⟨fun r h0 h1 => ?_, ends _ hmn, ends _ hmx⟩
      have hout : rs ≤ 0 ∨ 1 ≤ rs := by
        rcases lt_or_ge 0 rs with h | h
        · exact Or.inr (not_lt.1 fun h' => hin ⟨h, h'⟩)
        · exact Or.inl h
      -- monotone on [0, 1]
      have between : (c ≤ c + r * b + r ^ 2 * a ∧ c + r * b + r ^ 2 * a ≤ c + b + a) ∨
          (c + b + a ≤ c + r * b + r ^ 2 * a ∧ c + r * b + r ^ 2 * a ≤ c) := by
        have d0 : c + r * b + r ^ 2 * a - c = a * (r * (r - 2 * rs)) := by rw [hb]; ring
        have d1 : c + b + a - (c + r * b + r ^ 2 * a) = a * ((1 - r) * (1 + r - 2 * rs)) := by
          rw [hb]; ring
        rcases le_total 0 a with h | h <;> rcases hout with h2 | h2
        · left
          have p0 := mul_nonneg h (mul_nonneg h0 (by linarith : (0:K) ≤ r - 2 * rs))
          have p1 := mul_nonneg h (mul_nonneg (sub_nonneg.2 h1) (by linarith : (0:K) ≤ 1 + r - 2 * rs))
          constructor <;> linarith
        · right
          have p0 := mul_nonneg h (mul_nonneg h0 (by linarith : (0:K) ≤ 2 * rs - r))
          have p1 := mul_nonneg h (mul_nonneg (sub_nonneg.2 h1) (by linarith : (0:K) ≤ 2 * rs - 1 - r))
          constructor <;> nlinarith
        · right
          have p0 := mul_nonneg (neg_nonneg.2 h) (mul_nonneg h0 (by linarith : (0:K) ≤ r - 2 * rs))
          have p1 := mul_nonneg (neg_nonneg.2 h) (mul_nonneg (sub_nonneg.2 h1) (by linarith : (0:K) ≤ 1 + r - 2 * rs))
          constructor <;> nlinarith
        · left
          have p0 := mul_nonneg (neg_nonneg.2 h) (mul_nonneg h0 (by linarith : (0:K) ≤ 2 * rs - r))
          have p1 := mul_nonneg (neg_nonneg.2 h) (mul_nonneg (sub_nonneg.2 h1) (by linarith : (0:K) ≤ 2 * rs - 1 - r))
          constructor <;> nlinarith
      rcases between with h | h
      · exact ⟨le_trans (min_le_left _ _) h.1, le_trans h.2 (le_max_right _ _)⟩
      · exact ⟨le_trans (min_le_right _ _) h.1, le_trans h.2 (le_max_left _ _)⟩

/-- `boundingBox` contains every point of the curve, and the curve touches each of its faces: it is
the least such box. -/
theorem C31_boundingBox (q : Poly 3 D K) :
    (∀ r, 0 ≤ r → r ≤ 1 → Box.Inside (qsegAt q r) (qsegBox q)) ∧
    (∀ i, ∃ r, 0 ≤ r ∧ r ≤ 1 ∧ qsegAt q r i = (qsegBox q).min i) ∧
    (∀ i, ∃ r, 0 ≤ r ∧ r ≤ 1 ∧ qsegAt q r i = (qsegBox q).max i) := by
  have e : ∀ r i, qsegAt q r i = q 0 i + r * (polyCoeffs q).2.1 i + r ^ 2 * (polyCoeffs q).2.2 i :=
    fun r i => (C31_interpolate q).2.2.2 r i
  have e1 : ∀ i, q 1 i = q 0 i + (polyCoeffs q).2.1 i + (polyCoeffs q).2.2 i := by
    intro i; simp only [polyCoeffs]; ring
  have key := fun i => qsegRange_spec (q 0 i) ((polyCoeffs q).2.1 i) ((polyCoeffs q).2.2 i)
  refine ⟨fun r h0 h1 i => ?_, fun i => ?_, fun i => ?_⟩
  · rw [e]
    have := (key i).1 r h0 h1
    rw [← e1] at this
    exact this
  · obtain ⟨r, h0, h1, h⟩ := (key i).2.1
    rw [← e1] at h
    exact ⟨r, h0, h1, by rw [e]; exact h⟩
  · obtain ⟨r, h0, h1, h⟩ := (key i).2.2
    rw [← e1] at h
    exact ⟨r, h0, h1, by rw [e]; exact h⟩

/-- The integral of a polynomial of degree five over `[0, 1]`. -/
theorem integral_poly5 (c0 c1 c2 c3 c4 c5 : ℝ) :
    ∫ r in (0 : ℝ)..1, (c0 + c1 * r + c2 * r ^ 2 + c3 * r ^ 3 + c4 * r ^ 4 + c5 * r ^ 5) =
      c0 + c1 / 2 + c2 / 3 + c3 / 4 + c4 / 5 + c5 / 6 := by
  rw [intervalIntegral.integral_add, intervalIntegral.integral_add, intervalIntegral.integral_add,
    intervalIntegral.integral_add, intervalIntegral.integral_add]
  · have e1 : ∫ r in (0 : ℝ)..1, c1 * r = c1 / 2 := by
      rw [intervalIntegral.integral_const_mul, integral_id]; ring
    rw [e1]
    simp only [intervalIntegral.integral_const_mul, integral_pow, intervalIntegral.integral_const]
    norm_num
    ring
  all_goals exact Continuous.intervalIntegrable (by fun_prop) _ _

/-- Green's formula: the area swept by the curve from the origin, `½ ∫ Q × Q' dr`. The area enclosed
by a closed chain of curves is the sum of these. -/
noncomputable def sweep (q : Poly 3 2 ℝ) : ℝ :=
  1 / 2 * ∫ r in (0 : ℝ)..1, (qsegAt q r 0 * qsegJac q r 1 - qsegAt q r 1 * qsegJac q r 0)

/-- Green's formula for the straight chord from `a` to `b`. -/
noncomputable def sweepLine (a b : Pt 2 ℝ) : ℝ := (a 0 * b 1 - a 1 * b 0) / 2

theorem sweep_eq (q : Poly 3 2 ℝ) :
    sweep q = 2 / 3 * cross (q 2 - q 0) (q 1 - q 0) + sweepLine (q 0) (q 1) := by
  unfold sweep sweepLine
  have : (fun r : ℝ => qsegAt q r 0 * qsegJac q r 1 - qsegAt q r 1 * qsegJac q r 0) = fun r =>
      (q 0 0 * (polyCoeffs q).2.1 1 - q 0 1 * (polyCoeffs q).2.1 0) +
      (2 * (q 0 0 * (polyCoeffs q).2.2 1 - q 0 1 * (polyCoeffs q).2.2 0)) * r +
      ((polyCoeffs q).2.1 0 * (polyCoeffs q).2.2 1 - (polyCoeffs q).2.1 1 * (polyCoeffs q).2.2 0) * r ^ 2 +
      0 * r ^ 3 + 0 * r ^ 4 + 0 * r ^ 5 := by
    funext r; simp only [qsegAt, qsegJac, polyCoeffs]; ring
  rw [this, integral_poly5, cross_eq]
  simp only [polyCoeffs, Pi.sub_apply]
  ring

/-- `enclosedArea` is the signed area between the curve and its chord. -/
theorem C31_enclosedArea (q : Poly 3 2 ℝ) :
    enclosedArea q = sweep q - sweepLine (q 0) (q 1) := by
  rw [sweep_eq]; unfold enclosedArea; ring

/-- `curvesLeft` is the sign of the enclosed area. -/
theorem C31_curvesLeft (q : Poly 3 2 K) : curvesLeft q = true ↔ 0 ≤ enclosedArea q := by
  unfold curvesLeft enclosedArea areCCW
  rw [decide_eq_true_iff]
  constructor
  · intro h; positivity
  · intro h; nlinarith

/-- The Bezier control point: the curve is the quadratic Bezier curve with these control points, so it
stays in their hull. -/
theorem C31_bezier (q : Poly 3 D K) (r : K) (i : Fin D) :
    qsegAt q r i = (1 - r) ^ 2 * q 0 i + 2 * r * (1 - r) * bezierControl q i + r ^ 2 * q 1 i := by
  simp only [qsegAt, bezierControl]; ring

/-- The two halves used for bisection are the two halves of the curve. -/
theorem C31_bisection (q : Poly 3 D K) (r : K) :
    qsegAt (qsegLeft q) r = qsegAt q (r / 2) ∧ qsegAt (qsegRight q) r = qsegAt q ((1 + r) / 2) := by
  constructor
  · funext i
    simp only [qsegAt, qsegLeft, Matrix.cons_val_zero, Matrix.cons_val_one, Matrix.cons_val]
    field_simp; ring
  · funext i
    simp only [qsegAt, qsegRight, Matrix.cons_val_zero, Matrix.cons_val_one, Matrix.cons_val]
    field_simp; ring

example : qsegBox (K := ℚ) (D := 2) ![![0, 0], ![2, 0], ![1, 1]] = ⟨![0, 0], ![2, 1]⟩ := by
  ext i <;> fin_cases i <;> decide +kernel
example : enclosedArea (K := ℚ) ![![2, 0], ![0, 0], ![1, 1]] = 4 / 3 := by decide +kernel

/-! ## C32: quadratic triangles and quadrilaterals -/

/-- The reference coordinates of the nodes. -/
def tri6Nodes : Fin 6 → K × K := ![(0, 0), (1, 0), (0, 1), (1/2, 0), (1/2, 1/2), (0, 1/2)]
def quad8Nodes : Fin 8 → K × K :=
  ![(0, 0), (1, 0), (1, 1), (0, 1), (1/2, 0), (1, 1/2), (1/2, 1), (0, 1/2)]

/-- The weights sum to one and each node is reproduced. -/
theorem C32_tri6_nodes (v : Poly 6 D K) :
    (∀ r s : K, ∑ k, tri6W r s k = 1) ∧
    ∀ k, tri6At v (tri6Nodes k).1 (tri6Nodes k).2 = v k := by
  constructor
  · intro r s
    simp only [Fin.sum_univ_six, tri6W, Matrix.cons_val_zero, Matrix.cons_val_one, Matrix.cons_val]
    ring
  · intro k
    funext i
    fin_cases k <;>
    · simp only [tri6At, tri6W, tri6Nodes, Matrix.cons_val_zero, Matrix.cons_val_one, Matrix.cons_val,
        Fin.zero_eta, Fin.mk_one, Fin.reduceFinMk]
      field_simp
      ring

theorem C32_quad8_nodes (v : Poly 8 D K) :
    (∀ r s : K, ∑ k, quad8W r s k = 1) ∧
    ∀ k, quad8At v (quad8Nodes k).1 (quad8Nodes k).2 = v k := by
  constructor
  · intro r s
    simp only [Fin.sum_univ_eight, quad8W, Matrix.cons_val_zero, Matrix.cons_val_one, Matrix.cons_val]
    field_simp
    ring
  · intro k
    funext i
    fin_cases k <;>
    · simp only [quad8At, quad8W, quad8Nodes, Matrix.cons_val_zero, Matrix.cons_val_one, Matrix.cons_val,
        Fin.zero_eta, Fin.mk_one, Fin.reduceFinMk]
      field_simp
      ring

/-- On each side of the reference triangle the map is the curve `getEdge` returns. -/
theorem C32_tri6_edges (v : Poly 6 D K) (r : K) :
    tri6At v r 0 = qsegAt (getEdge2 (m := 3) v 0) r ∧
    tri6At v (1 - r) r = qsegAt (getEdge2 (m := 3) v 1) r ∧
    tri6At v 0 (1 - r) = qsegAt (getEdge2 (m := 3) v 2) r := by
  refine ⟨?_, ?_, ?_⟩ <;>
  · funext i
    simp [tri6At, tri6W, qsegAt, getEdge2]
    ring

theorem C32_quad8_edges (v : Poly 8 D K) (r : K) :
    quad8At v r 0 = qsegAt (getEdge2 (m := 4) v 0) r ∧
    quad8At v 1 r = qsegAt (getEdge2 (m := 4) v 1) r ∧
    quad8At v (1 - r) 1 = qsegAt (getEdge2 (m := 4) v 2) r ∧
    quad8At v 0 (1 - r) = qsegAt (getEdge2 (m := 4) v 3) r := by
  refine ⟨?_, ?_, ?_, ?_⟩ <;>
  · funext i
    simp [quad8At, quad8W, qsegAt, getEdge2]
    field_simp
    ring

/-- `jacobian` is the derivative of the map. -/
theorem C32_tri6_jacobian (v : Poly 6 D ℝ) (r s : ℝ) (i : Fin D) :
    HasDerivAt (fun x => tri6At v x s i) ((tri6Jac v r s).1 i) r ∧
    HasDerivAt (fun x => tri6At v r x i) ((tri6Jac v r s).2 i) s := by
  constructor
  · refine hasDerivAt_of_taylor _ r _ (2 * v 0 i + 2 * v 1 i - 4 * v 3 i) fun x => ?_
    simp only [tri6At, tri6W, tri6Jac, Matrix.cons_val_zero, Matrix.cons_val_one, Matrix.cons_val]
    ring
  · refine hasDerivAt_of_taylor _ s _ (2 * v 0 i + 2 * v 2 i - 4 * v 5 i) fun x => ?_
    simp only [tri6At, tri6W, tri6Jac, Matrix.cons_val_zero, Matrix.cons_val_one, Matrix.cons_val]
    ring

theorem C32_quad8_jacobian (v : Poly 8 D ℝ) (r s : ℝ) (i : Fin D) :
    HasDerivAt (fun x => quad8At v x s i) ((quad8Jac v r s).1 i) r ∧
    HasDerivAt (fun x => quad8At v r x i) ((quad8Jac v r s).2 i) s := by
  constructor
  · refine hasDerivAt_of_taylor _ r _
      (2 * (1 - s) * (v 0 i + v 1 i - 2 * v 4 i) + 2 * s * (v 2 i + v 3 i - 2 * v 6 i)) fun x => ?_
    simp only [quad8At, quad8W, quad8Jac, Matrix.cons_val_zero, Matrix.cons_val_one, Matrix.cons_val]
    ring
  · refine hasDerivAt_of_taylor _ s _
      (2 * (1 - r) * (v 0 i + v 3 i - 2 * v 7 i) + 2 * r * (v 1 i + v 2 i - 2 * v 5 i)) fun x => ?_
    simp only [quad8At, quad8W, quad8Jac, Matrix.cons_val_zero, Matrix.cons_val_one, Matrix.cons_val]
    ring

/-! ## C33: flip -/

/-- An edge traversed backwards. -/
def rev2 {α : Type} (e : Fin 2 → α) : Fin 2 → α := ![e 1, e 0]
def rev3 {α : Type} (e : Fin 3 → α) : Fin 3 → α := ![e 1, e 0, e 2]

/-- `flip` of a triangle (its points, or the vertex ids of a mesh face): the same edges, each
reversed; flipping twice changes nothing. -/
theorem C33_tri {α : Type} (t : Fin 3 → α) :
    (∃ σ : Equiv.Perm (Fin 3), ∀ i, getEdge (triFlip t) i = rev2 (getEdge t (σ i))) ∧
    triFlip (triFlip t) = t := by
  constructor
  · refine ⟨Equiv.swap 0 2, fun i => ?_⟩
    funext k
    fin_cases i <;> fin_cases k <;> rfl
  · funext k; fin_cases k <;> rfl

theorem C33_quad {α : Type} (q : Fin 4 → α) :
    (∃ σ : Equiv.Perm (Fin 4), ∀ i, getEdge (quadFlip q) i = rev2 (getEdge q (σ i))) ∧
    quadFlip (quadFlip q) = q := by
  constructor
  · refine ⟨Equiv.swap 0 3 * Equiv.swap 1 2, fun i => ?_⟩
    funext k
    fin_cases i <;> fin_cases k <;> rfl
  · funext k; fin_cases k <;> rfl

theorem C33_tri6 {α : Type} (t : Fin 6 → α) :
    (∃ σ : Equiv.Perm (Fin 3), ∀ i,
      getEdge2 (m := 3) (tri6Flip t) i = rev3 (getEdge2 (m := 3) t (σ i))) ∧
    tri6Flip (tri6Flip t) = t := by
  constructor
  · refine ⟨Equiv.swap 0 2, fun i => ?_⟩
    funext k
    fin_cases i <;> fin_cases k <;> rfl
  · funext k; fin_cases k <;> rfl

/-- Of a quadratic quadrilateral only this remains: flipping twice changes nothing, the four corner
vertices are reversed, and two of the four edges keep their middle vertex. -/
theorem C33_quad8_partial {α : Type} (q : Fin 8 → α) :
    quad8Flip (quad8Flip q) = q ∧
    linearPolygon (m := 4) (quad8Flip q) = quadFlip (linearPolygon (m := 4) q) ∧
    getEdge2 (m := 4) (quad8Flip q) 0 = rev3 (getEdge2 (m := 4) q 3) ∧
    getEdge2 (m := 4) (quad8Flip q) 3 = rev3 (getEdge2 (m := 4) q 0) := by
  refine ⟨?_, ?_, ?_, ?_⟩
  · funext k; fin_cases k <;> rfl
  · funext k; fin_cases k <;> rfl
  · funext k; fin_cases k <;> rfl
  · funext k; fin_cases k <;> rfl

/-- `flip` of a quadratic quadrilateral does not keep the edges: for any face with eight different
vertices the flipped face has an edge that is no edge of the face (mid-points 5 and 6 are not
exchanged). -/
theorem C33_quad8_fails {α : Type} (q : Fin 8 → α) (h : Function.Injective q) :
    ∀ j, getEdge2 (m := 4) (quad8Flip q) 1 ≠ rev3 (getEdge2 (m := 4) q j) ∧
      getEdge2 (m := 4) (quad8Flip q) 1 ≠ getEdge2 (m := 4) q j := by
  intro j
  have e : getEdge2 (m := 4) (quad8Flip q) 1 = ![q 3, q 2, q 5] := by
    funext k; fin_cases k <;> rfl
  rw [e]
  have d : ∀ a b : Fin 8, a ≠ b → q a ≠ q b := fun a b hab he => hab (h he)
  constructor
  · intro he
    have h0 := congrFun he 0
    have h2 := congrFun he 2
    fin_cases j
    · exact d 3 1 (by decide) h0
    · exact d 3 2 (by decide) h0
    · exact d 5 6 (by decide) h2
    · exact d 3 0 (by decide) h0
  · intro he
    have h0 := congrFun he 0
    have h1 := congrFun he 1
    fin_cases j
    · exact d 3 0 (by decide) h0
    · exact d 3 1 (by decide) h0
    · exact d 3 2 (by decide) h0
    · exact d 2 0 (by decide) h1

example : Function.Injective (id : Fin 8 → Fin 8) := Function.injective_id

end Verif.Geom
