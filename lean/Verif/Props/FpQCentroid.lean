import Verif.Lemmas.FpQCentroidSum
import Verif.Props.FpArea
import Verif.Props.FpQuad
import Verif.Props.FpQLength
import Verif.Props.QuadMeasure
import Mathlib.Analysis.Real.Pi.Bounds

/-!
# C149: centroids and mean chords of quadratic cells in floating-point arithmetic

Specification: a cell is the polygon of its corners and one cap between each edge and its chord. A cap has the area `2/3 (q0, q2, q1)`, the triangle counted
twice and with its sign, and the centroid `(3 q0 + 3 q1 + 4 q2) / 10`. `C149_moments_triangle` and `C149_moments_quad` say that the sums are the integrals of
Green's formulas along the curved boundary.
-/

set_option linter.unusedSectionVars false

namespace Verif.PropsFpQCentroid

open Verif.Fp Verif.Fp.QLen Verif.Fp.QCen
open Verif.FpQuadP (turn Exact area6 size6 area8 size8 dist2)

variable {p : ℕ} (R : Rounding ℝ p)

/-- A coordinate of the centroid of a cap; `x` is `Prod.fst` or `Prod.snd`. -/
noncomputable def capMean (x : P2 ℝ → ℝ) (q0 q1 q2 : P2 ℝ) : ℝ := (3 * x q0 + 3 * x q1 + 4 * x q2) / 10

/-- The first moment of a quadratic triangle. -/
noncomputable def moment6 (x : P2 ℝ → ℝ) (v0 v1 v2 v3 v4 v5 : P2 ℝ) : ℝ :=
  turn v0 v1 v2 / 2 * ((x v0 + x v1 + x v2) / 3) +
    (2 / 3 * turn v0 v3 v1 * capMean x v0 v1 v3 + (2 / 3 * turn v1 v4 v2 * capMean x v1 v2 v4 + 2 / 3 * turn v2 v5 v0 * capMean x v2 v0 v5))

/-- The first moment of a quadratic quadrilateral. -/
noncomputable def moment8 (x : P2 ℝ → ℝ) (v0 v1 v2 v3 v4 v5 v6 v7 : P2 ℝ) : ℝ :=
  (turn v0 v1 v2 / 2 * ((x v0 + x v1 + x v2) / 3) + turn v0 v2 v3 / 2 * ((x v0 + x v2 + x v3) / 3)) +
    (2 / 3 * turn v0 v4 v1 * capMean x v0 v1 v4 + (2 / 3 * turn v1 v5 v2 * capMean x v1 v2 v5 +
      (2 / 3 * turn v2 v6 v3 * capMean x v2 v3 v6 + 2 / 3 * turn v3 v7 v0 * capMean x v3 v0 v7)))

/-- A point of the model of the plane as a function of the axis. -/
def pt (v : P2 ℝ) : Geom.Pt 2 ℝ := ![v.1, v.2]

/-- The coordinates of a point are at most `M`. -/
def Within (M : ℝ) (v : P2 ℝ) : Prop := |v.1| ≤ M ∧ |v.2| ≤ M

/-- What the theorems ask of an edge: its ends differ, its nodes have representable differences from the first and coordinates of at most `M`, and neither its
chord nor the vector to the middle node is longer than `L`. -/
structure Edge (p : ℕ) (M L : ℝ) (q0 q1 q2 : P2 ℝ) : Prop where
  differ : q0 ≠ q1
  chord : Exact p q0 q1
  node : Exact p q0 q2
  size : Within M q0 ∧ Within M q1 ∧ Within M q2
  length : dist2 q0 q1 ≤ L ^ 2 ∧ dist2 q0 q2 ≤ L ^ 2

/-! ### The specification -/

/-- **C149**: the sums are Green's integrals for the moments along the boundary of a quadratic triangle. -/
theorem C149_moments_triangle (v0 v1 v2 v3 v4 v5 : P2 ℝ) :
    ∑ i, Geom.moment (Geom.getEdge2 (m := 3) ![pt v0, pt v1, pt v2, pt v3, pt v4, pt v5] i) 0 = moment6 Prod.fst v0 v1 v2 v3 v4 v5 ∧
    ∑ i, Geom.moment (Geom.getEdge2 (m := 3) ![pt v0, pt v1, pt v2, pt v3, pt v4, pt v5] i) 1 = moment6 Prod.snd v0 v1 v2 v3 v4 v5 ∧
    ∑ i, Geom.sweep (Geom.getEdge2 (m := 3) ![pt v0, pt v1, pt v2, pt v3, pt v4, pt v5] i) = area6 v0 v1 v2 v3 v4 v5 := by
  have e : ∀ i, Geom.getEdge2 (m := 3) ![pt v0, pt v1, pt v2, pt v3, pt v4, pt v5] i =
      ![![pt v0, pt v1, pt v3], ![pt v1, pt v2, pt v4], ![pt v2, pt v0, pt v5]] i := by
    intro i; fin_cases i <;> rfl
  simp only [e, Fin.sum_univ_three]
  refine ⟨?_, ?_, ?_⟩
  · simp only [Geom.moment, Matrix.cons_val_zero, Geom.moment_int]
    simp [Geom.polyCoeffs, pt, moment6, capMean, turn]
    ring
  · simp only [Geom.moment, Matrix.cons_val_one, Matrix.cons_val_fin_one, Geom.moment_int]
    simp [Geom.polyCoeffs, pt, moment6, capMean, turn]
    ring
  · simp only [Geom.sweep_eq, Geom.cross_eq, Geom.sweepLine]
    simp [pt, area6, turn]
    ring

/-- **C149**: the same for a quadratic quadrilateral. -/
theorem C149_moments_quad (v0 v1 v2 v3 v4 v5 v6 v7 : P2 ℝ) :
    ∑ i, Geom.moment (Geom.getEdge2 (m := 4) ![pt v0, pt v1, pt v2, pt v3, pt v4, pt v5, pt v6, pt v7] i) 0 = moment8 Prod.fst v0 v1 v2 v3 v4 v5 v6 v7 ∧
    ∑ i, Geom.moment (Geom.getEdge2 (m := 4) ![pt v0, pt v1, pt v2, pt v3, pt v4, pt v5, pt v6, pt v7] i) 1 = moment8 Prod.snd v0 v1 v2 v3 v4 v5 v6 v7 ∧
    ∑ i, Geom.sweep (Geom.getEdge2 (m := 4) ![pt v0, pt v1, pt v2, pt v3, pt v4, pt v5, pt v6, pt v7] i) = area8 v0 v1 v2 v3 v4 v5 v6 v7 := by
  have e : ∀ i, Geom.getEdge2 (m := 4) ![pt v0, pt v1, pt v2, pt v3, pt v4, pt v5, pt v6, pt v7] i =
      ![![pt v0, pt v1, pt v4], ![pt v1, pt v2, pt v5], ![pt v2, pt v3, pt v6], ![pt v3, pt v0, pt v7]] i := by
    intro i; fin_cases i <;> rfl
  simp only [e, Fin.sum_univ_four]
  refine ⟨?_, ?_, ?_⟩
  · simp only [Geom.moment, Matrix.cons_val_zero, Geom.moment_int]
    simp [Geom.polyCoeffs, pt, moment8, capMean, turn]
    ring
  · simp only [Geom.moment, Matrix.cons_val_one, Matrix.cons_val_fin_one, Geom.moment_int]
    simp [Geom.polyCoeffs, pt, moment8, capMean, turn]
    ring
  · simp only [Geom.sweep_eq, Geom.cross_eq, Geom.sweepLine]
    simp [pt, area8, turn]
    ring

/-! ### Caps -/

theorem u12 (hp : 12 ≤ p) : (1 : ℝ) / 2 ^ p ≤ 1 / 4096 := by
  refine one_div_le_one_div_of_le (by norm_num) ?_
  calc (4096 : ℝ) = 2 ^ 12 := by norm_num
    _ ≤ 2 ^ p := pow_le_pow_right₀ (by norm_num) hp

/-- **C149**: the centroid of a cap is computed up to roundings of the lengths of the edge and one of the coordinate of its first node. -/
theorem C149_cap (hp : 12 ≤ p) (m : QCenFuse) {q0 q1 q2 : P2 ℝ} {M L : ℝ} (L0 : 0 ≤ L) (h : Edge p M L q0 q1 q2) :
    ∃ c, qEnclosedCentroid R Real.sqrt m q0 q1 q2 = some c ∧
      |c.1 - capMean Prod.fst q0 q1 q2| ≤ 1 / 2 ^ p * (28 * L + |q0.1|) ∧ |c.2 - capMean Prod.snd q0 q1 q2| ≤ 1 / 2 ^ p * (28 * L + |q0.2|) :=
  enclosed_centroid_err R hp m h.chord h.node h.differ L0 h.length.1 h.length.2

/-- **C149**: an edge with coinciding ends has no cap centroid (the code divides zero by zero), whatever its middle node. -/
theorem C149_cap_none {K : Type} [Field K] [LinearOrder K] [IsStrictOrderedRing K] [FloorRing K] {p : ℕ} (R : Rounding K p) {sqrt : K → K} (hs : sqrt 0 = 0) (m : QCenFuse) (q0 q2 : P2 K) :
    qEnclosedCentroid R sqrt m q0 q0 q2 = none := by
  unfold qEnclosedCentroid
  dsimp only
  rw [if_pos]
  have z : sub R q0 q0 = (0, 0) := by unfold sub; rw [sub_self, sub_self, R.zero]
  rw [z]
  unfold Fp.norm
  have : squaredNorm R m.n [(0 : K), 0] = 0 := by
    simp [squaredNorm, Fp.dot, dotLoop, mulAdd, R.zero]
  rw [this, hs, R.zero]

/-! ### Cells -/

/-- The weighted mean of numbers of at most `M`. -/
theorem cap_size {x : P2 ℝ → ℝ} {M : ℝ} {q0 q1 q2 : P2 ℝ} (h0 : |x q0| ≤ M) (h1 : |x q1| ≤ M) (h2 : |x q2| ≤ M) : |capMean x q0 q1 q2| ≤ M := by
  unfold capMean
  rw [abs_le] at *
  constructor <;> linarith [h0.1, h0.2, h1.1, h1.2, h2.1, h2.2]

/-- A cell, given its polygon. -/
theorem cell_err (hp : 12 ≤ p) (m : QCenFuse) {A0 A0' M L h : ℝ} {g g' : P2 ℝ} {es : List (P2 ℝ × P2 ℝ × P2 ℝ)} (L0 : 0 ≤ L) (hA : Rel (1 / 2 ^ p) 5 A0 A0')
    (hg : Within M g) (hg' : |g'.1 - g.1| ≤ h ∧ |g'.2 - g.2| ≤ h) (hes : ∀ e ∈ es, Edge p M L e.1 e.2.1 e.2.2) (hh : 1 / 2 ^ p * (28 * L + M) ≤ h) (hl : es.length ≤ 4)
    (pos : 0 < A0 + (es.map fun e => 2 / 3 * turn e.1 e.2.2 e.2.1).sum)
    (thick : 64 * (1 / 2 ^ p) * (|A0| + (es.map fun e => |2 / 3 * turn e.1 e.2.2 e.2.1|).sum) ≤ A0 + (es.map fun e => 2 / 3 * turn e.1 e.2.2 e.2.1).sum) :
    ∃ c, qCentroid R Real.sqrt m A0' g' es = some c ∧
      |c.1 - (A0 * g.1 + (es.map fun e => 2 / 3 * turn e.1 e.2.2 e.2.1 * capMean Prod.fst e.1 e.2.1 e.2.2).sum) / (A0 + (es.map fun e => 2 / 3 * turn e.1 e.2.2 e.2.1).sum)| ≤
        (|A0| + (es.map fun e => |2 / 3 * turn e.1 e.2.2 e.2.1|).sum) / (A0 + (es.map fun e => 2 / 3 * turn e.1 e.2.2 e.2.1).sum) *
          (1 / 2 ^ p * (16 * M + 17 * |(A0 * g.1 + (es.map fun e => 2 / 3 * turn e.1 e.2.2 e.2.1 * capMean Prod.fst e.1 e.2.1 e.2.2).sum) /
            (A0 + (es.map fun e => 2 / 3 * turn e.1 e.2.2 e.2.1).sum)|) + 2 * h) ∧
      |c.2 - (A0 * g.2 + (es.map fun e => 2 / 3 * turn e.1 e.2.2 e.2.1 * capMean Prod.snd e.1 e.2.1 e.2.2).sum) / (A0 + (es.map fun e => 2 / 3 * turn e.1 e.2.2 e.2.1).sum)| ≤
        (|A0| + (es.map fun e => |2 / 3 * turn e.1 e.2.2 e.2.1|).sum) / (A0 + (es.map fun e => 2 / 3 * turn e.1 e.2.2 e.2.1).sum) *
          (1 / 2 ^ p * (16 * M + 17 * |(A0 * g.2 + (es.map fun e => 2 / 3 * turn e.1 e.2.2 e.2.1 * capMean Prod.snd e.1 e.2.1 e.2.2).sum) /
            (A0 + (es.map fun e => 2 / 3 * turn e.1 e.2.2 e.2.1).sum)|) + 2 * h) := by
  have hp1 : 1 ≤ p := by omega
  have u0 := unit_nonneg (K := ℝ) p
  have hu := u12 hp
  have M0 : 0 ≤ M := (abs_nonneg _).trans hg.1
  have h0 : 0 ≤ h := (abs_nonneg _).trans hg'.1
  have start : ∀ {y y' : ℝ}, |y' - y| ≤ h → |y| ≤ M → |R.rnd (A0' * y') - A0 * y| ≤ ((1 + 1 / 2 ^ p) ^ 7 * (M + h) - M) * |A0| := by
    intro y y' hy hM
    have := moment_err R hp1 false hA hy hM
    refine le_trans this (mul_le_mul_of_nonneg_right (sub_le_sub_right (mul_le_mul_of_nonneg_right ?_ (by linarith)) _) (abs_nonneg _))
    exact pow_le_pow_right₀ (by linarith) (by omega)
  have sz : ∀ {y : ℝ}, |y| ≤ M → |A0 * y| ≤ M * |A0| := by
    intro y hy
    rw [abs_mul, mul_comm M]
    exact mul_le_mul_of_nonneg_left hy (abs_nonneg _)
  obtain ⟨t, ht, b1, b2, b3⟩ := loop_err R hp1 m (fun e => 2 / 3 * turn e.1 e.2.2 e.2.1) (fun e => (capMean Prod.fst e.1 e.2.1 e.2.2, capMean Prod.snd e.1 e.2.1 e.2.2)) M0 h0 es 7
    A0 A0' |A0| (A0 * g.1, A0 * g.2) (R.rnd (A0' * g'.1), R.rnd (A0' * g'.2)) le_rfl (by
      intro e he
      have ed := hes e he
      refine ⟨Verif.FpQuadP.enclosed_rel R hp1 m.a ed.chord ed.node, cap_size ed.size.1.1 ed.size.2.1.1 ed.size.2.2.1, cap_size ed.size.1.2 ed.size.2.1.2 ed.size.2.2.2, ?_⟩
      obtain ⟨c, hc, c1, c2⟩ := C149_cap R hp m L0 ed
      refine ⟨c, hc, c1.trans (le_trans (mul_le_mul_of_nonneg_left ?_ u0) hh), c2.trans (le_trans (mul_le_mul_of_nonneg_left ?_ u0) hh)⟩
      · linarith [ed.size.1.1]
      · linarith [ed.size.1.2])
    (hA.mono u0 (by norm_num)) le_rfl (start hg'.1 hg.1) (sz hg.1) (start hg'.2 hg.2) (sz hg.2)
  have AS : A0 + (es.map fun e => 2 / 3 * turn e.1 e.2.2 e.2.1).sum ≤ |A0| + (es.map fun e => |2 / 3 * turn e.1 e.2.2 e.2.1|).sum :=
    add_le_add (le_abs_self _) (List.sum_le_sum fun e _ => le_abs_self _)
  dsimp only at b1 b2 b3
  have q1 := quot_err R hp1 hu (show 7 + es.length ≤ 11 by omega) pos AS M0 h0 thick b1 b2
  have q2 := quot_err R hp1 hu (show 7 + es.length ≤ 11 by omega) pos AS M0 h0 thick b1 b3
  unfold qCentroid
  rw [ht]
  refine ⟨(R.rnd (t.2.1 / t.1), R.rnd (t.2.2 / t.1)), ?_, q1.2, q2.2⟩
  show (if t.1 = 0 then none else _) = _
  rw [if_neg q1.1]

/-- The centroid of the triangle of the corners. -/
theorem tri_mean (hp : 12 ≤ p) {a b c M : ℝ} (ha : |a| ≤ M) (hb : |b| ≤ M) (hc : |c| ≤ M) :
    |triCentroid R a b c - (a + b + c) / 3| ≤ 1 / 2 ^ p * (4 * M) ∧ |(a + b + c) / 3| ≤ M := by
  have u0 := unit_nonneg (K := ℝ) p
  have hu := u12 hp
  have M0 : 0 ≤ M := (abs_nonneg _).trans ha
  refine ⟨?_, ?_⟩
  · refine (Verif.FpAreaP.C130_triangle_centroid R (by omega) a b c).trans ?_
    generalize (1 : ℝ) / 2 ^ p = u at *
    have g : (1 + u) ^ 3 - 1 ≤ 4 * u := by
      have : (1 + u) ^ 3 - 1 = 3 * u + u * (3 * u + u * u) := by ring
      rw [this]
      have : u * (3 * u + u * u) ≤ u * 1 := mul_le_mul_of_nonneg_left (by nlinarith) u0
      linarith
    have q := mul_le_mul g (show (|a| + |b| + |c|) / 3 ≤ M by linarith) (by positivity) (by linarith : 0 ≤ 4 * u)
    linarith
  · rw [abs_le] at *
    constructor <;> linarith [ha.1, ha.2, hb.1, hb.2, hc.1, hc.2]

/-- **C149**: the centroid of a quadratic triangle is defined and has an error of roundings of the lengths of its edges and of its coordinates, times the ratio of
the sum of the magnitudes of the areas of its parts to its area. -/
theorem C149_triangle (hp : 12 ≤ p) (m : QCenFuse) {v0 v1 v2 v3 v4 v5 : P2 ℝ} {M L : ℝ} (L0 : 0 ≤ L) (h02 : Exact p v0 v2) (e0 : Edge p M L v0 v1 v3) (e1 : Edge p M L v1 v2 v4)
    (e2 : Edge p M L v2 v0 v5) (pos : 0 < area6 v0 v1 v2 v3 v4 v5) (thick : 64 * (1 / 2 ^ p) * size6 v0 v1 v2 v3 v4 v5 ≤ area6 v0 v1 v2 v3 v4 v5) :
    ∃ c, tri6Centroid R Real.sqrt m v0 v1 v2 v3 v4 v5 = some c ∧
      (let x := moment6 Prod.fst v0 v1 v2 v3 v4 v5 / area6 v0 v1 v2 v3 v4 v5
       |c.1 - x| ≤ size6 v0 v1 v2 v3 v4 v5 / area6 v0 v1 v2 v3 v4 v5 * (1 / 2 ^ p * (56 * L + 24 * M + 17 * |x|))) ∧
      (let y := moment6 Prod.snd v0 v1 v2 v3 v4 v5 / area6 v0 v1 v2 v3 v4 v5
       |c.2 - y| ≤ size6 v0 v1 v2 v3 v4 v5 / area6 v0 v1 v2 v3 v4 v5 * (1 / 2 ^ p * (56 * L + 24 * M + 17 * |y|))) := by
  have u0 := unit_nonneg (K := ℝ) p
  have M0 : 0 ≤ M := (abs_nonneg _).trans e0.size.1.1
  have t1 := tri_mean R hp e0.size.1.1 e0.size.2.1.1 e1.size.2.1.1
  have t2 := tri_mean R hp e0.size.1.2 e0.size.2.1.2 e1.size.2.1.2
  have uL := mul_nonneg u0 L0
  have uM := mul_nonneg u0 M0
  have := cell_err R hp m (h := 1 / 2 ^ p * (28 * L + 4 * M)) (g := ((v0.1 + v1.1 + v2.1) / 3, (v0.2 + v1.2 + v2.2) / 3))
    (g' := (triCentroid R v0.1 v1.1 v2.1, triCentroid R v0.2 v1.2 v2.2)) (es := [(v0, v1, v3), (v1, v2, v4), (v2, v0, v5)]) L0
    (Verif.FpQuadP.tri_rel R (by omega) e0.chord h02) ⟨t1.2, t2.2⟩ ⟨t1.1.trans (by linarith), t2.1.trans (by linarith)⟩ (by
      intro e he
      simp only [List.mem_cons, List.not_mem_nil, or_false] at he
      rcases he with rfl | rfl | rfl
      · exact e0
      · exact e1
      · exact e2) (by linarith) (by simp) (by simpa [area6] using pos) (by simpa [area6, size6] using thick)
  obtain ⟨c, hc, c1, c2⟩ := this
  refine ⟨c, hc, ?_, ?_⟩
  · simp only [List.map_cons, List.map_nil, List.sum_cons, List.sum_nil, add_zero] at c1
    refine le_trans c1 (le_of_eq ?_)
    unfold moment6 area6 size6
    ring
  · simp only [List.map_cons, List.map_nil, List.sum_cons, List.sum_nil, add_zero] at c2
    refine le_trans c2 (le_of_eq ?_)
    unfold moment6 area6 size6
    ring

theorem term_size {a g M : ℝ} (h : |g| ≤ M) : |a * g| ≤ M * |a| := by
  rw [abs_mul, mul_comm M]
  exact mul_le_mul_of_nonneg_left h (abs_nonneg _)

theorem four (a b c d : ℝ) : |a + (b + (c + d))| ≤ |a| + (|b| + (|c| + |d|)) :=
  (abs_add_le _ _).trans (add_le_add le_rfl ((abs_add_le _ _).trans (add_le_add le_rfl (abs_add_le _ _))))

/-- **C149**: with corners counterclockwise and no edge that curves inwards, the error is that of roundings of lengths and coordinates only. -/
theorem C149_triangle_convex (hp : 12 ≤ p) (m : QCenFuse) {v0 v1 v2 v3 v4 v5 : P2 ℝ} {M L : ℝ} (L0 : 0 ≤ L) (h02 : Exact p v0 v2) (e0 : Edge p M L v0 v1 v3) (e1 : Edge p M L v1 v2 v4)
    (e2 : Edge p M L v2 v0 v5) (t : 0 ≤ turn v0 v1 v2) (t0 : 0 ≤ turn v0 v3 v1) (t1 : 0 ≤ turn v1 v4 v2) (t2 : 0 ≤ turn v2 v5 v0) (pos : 0 < area6 v0 v1 v2 v3 v4 v5) :
    ∃ c, tri6Centroid R Real.sqrt m v0 v1 v2 v3 v4 v5 = some c ∧
      |c.1 - moment6 Prod.fst v0 v1 v2 v3 v4 v5 / area6 v0 v1 v2 v3 v4 v5| ≤ 1 / 2 ^ p * (56 * L + 41 * M) ∧
      |c.2 - moment6 Prod.snd v0 v1 v2 v3 v4 v5 / area6 v0 v1 v2 v3 v4 v5| ≤ 1 / 2 ^ p * (56 * L + 41 * M) := by
  have u0 := unit_nonneg (K := ℝ) p
  have hu := u12 hp
  have e : size6 v0 v1 v2 v3 v4 v5 = area6 v0 v1 v2 v3 v4 v5 := by
    unfold size6 area6
    rw [abs_of_nonneg (by linarith), abs_of_nonneg (by linarith), abs_of_nonneg (by linarith), abs_of_nonneg (by linarith)]
  have sz : ∀ x : P2 ℝ → ℝ, (∀ v, Within M v → |x v| ≤ M) → |moment6 x v0 v1 v2 v3 v4 v5 / area6 v0 v1 v2 v3 v4 v5| ≤ M := by
    intro x hx
    rw [abs_div, abs_of_pos pos, div_le_iff₀ pos, ← e]
    have a0 := hx v0 e0.size.1
    have a1 := hx v1 e0.size.2.1
    have a2 := hx v2 e1.size.2.1
    have k := (tri_mean R hp a0 a1 a2).2
    unfold moment6 size6
    refine (four _ _ _ _).trans ?_
    have := term_size (a := turn v0 v1 v2 / 2) k
    have := term_size (a := 2 / 3 * turn v0 v3 v1) (cap_size a0 a1 (hx v3 e0.size.2.2))
    have := term_size (a := 2 / 3 * turn v1 v4 v2) (cap_size a1 a2 (hx v4 e1.size.2.2))
    have := term_size (a := 2 / 3 * turn v2 v5 v0) (cap_size a2 a0 (hx v5 e2.size.2.2))
    linarith
  obtain ⟨c, hc, c1, c2⟩ := C149_triangle R hp m L0 h02 e0 e1 e2 pos (by rw [e]; nlinarith)
  refine ⟨c, hc, ?_, ?_⟩
  · have := sz Prod.fst fun v h => h.1
    dsimp only at c1
    rw [e, div_self pos.ne', one_mul] at c1
    exact c1.trans (mul_le_mul_of_nonneg_left (by linarith) u0)
  · have := sz Prod.snd fun v h => h.2
    dsimp only at c2
    rw [e, div_self pos.ne', one_mul] at c2
    exact c2.trans (mul_le_mul_of_nonneg_left (by linarith) u0)

/-- Twenty-one roundings. -/
theorem off21 {u x y M : ℝ} (u0 : 0 ≤ u) (hu : u ≤ 1 / 4096) (x0 : 0 ≤ x) (hx : x ≤ M) (h : x * (1 - u) ^ 21 ≤ y ∧ y ≤ x * (1 + u) ^ 21) : |y - x| ≤ u * (22 * M) := by
  have b := one_add_mul_le_pow (show (-2 : ℝ) ≤ -u by linarith) 21
  have e : (1 : ℝ) + -u = 1 - u := by ring
  rw [e] at b
  have g1 := grow11 u0 hu (le_refl 11)
  have g2 : (1 + u) ^ 10 ≤ 1 + 12 * u := grow11 u0 hu (by norm_num)
  have g : (1 + u) ^ 21 ≤ 1 + 22 * u := by
    have c := one_add_mul_le_pow (show (-2 : ℝ) ≤ -u by linarith) 21
    have d : (1 - u) ^ 21 * (1 + u) ^ 21 ≤ 1 := by
      rw [← mul_pow]
      exact pow_le_one₀ (by nlinarith) (by nlinarith)
    rw [e] at c
    norm_num at c
    have P0 : 0 ≤ (1 + u) ^ 21 := by positivity
    have k : (1 - 21 * u) * (1 + u) ^ 21 ≤ 1 := le_trans (mul_le_mul_of_nonneg_right (by linarith) P0) d
    by_contra hn
    have hn := not_le.1 hn
    have : (1 - 21 * u) * (1 + 22 * u) < (1 - 21 * u) * (1 + u) ^ 21 := mul_lt_mul_of_pos_left hn (by linarith)
    nlinarith
  norm_num at b
  have m1 := mul_le_mul_of_nonneg_left g x0
  have m2 := mul_le_mul_of_nonneg_left b x0
  have q := mul_le_mul_of_nonneg_left hx u0
  have ux := mul_nonneg u0 x0
  rw [abs_le]
  constructor <;> nlinarith [h.1, h.2]

/-- The exact centroid of the quadrilateral of the corners. -/
theorem quad_mean {A1 A2 a b c d M : ℝ} (h1 : 0 ≤ A1) (h2 : 0 ≤ A2) (h0 : 0 < A1 + A2) (a0 : 0 ≤ a) (b0 : 0 ≤ b) (c0 : 0 ≤ c) (d0 : 0 ≤ d) (ha : |a| ≤ M) (hb : |b| ≤ M) (hc : |c| ≤ M)
    (hd : |d| ≤ M) : 0 ≤ Verif.FpAreaP.centroid A1 A2 a b c d ∧ Verif.FpAreaP.centroid A1 A2 a b c d ≤ M ∧
      (A1 + A2) / 2 * Verif.FpAreaP.centroid A1 A2 a b c d = A1 / 2 * ((a + b + c) / 3) + A2 / 2 * ((a + c + d) / 3) := by
  unfold Verif.FpAreaP.centroid
  refine ⟨by positivity, ?_, ?_⟩
  · rw [div_le_iff₀ h0]
    have := mul_le_mul_of_nonneg_left (show (a + b + c) / 3 ≤ M by linarith [le_abs_self a, le_abs_self b, le_abs_self c]) h1
    have := mul_le_mul_of_nonneg_left (show (a + c + d) / 3 ≤ M by linarith [le_abs_self a, le_abs_self d, le_abs_self c]) h2
    linarith
  · have := h0.ne'
    field_simp

/-- **C149**: the centroid of a quadratic quadrilateral whose corners are a convex quadrilateral in the positive quadrant. -/
theorem C149_quad (hp : 12 ≤ p) (m : QCenFuse) (f : Bool) {v0 v1 v2 v3 v4 v5 v6 v7 : P2 ℝ} {M L : ℝ} (L0 : 0 ≤ L) (h02 : Exact p v0 v2) (h03 : Exact p v0 v3) (h13 : Exact p v1 v3)
    (e0 : Edge p M L v0 v1 v4) (e1 : Edge p M L v1 v2 v5) (e2 : Edge p M L v2 v3 v6) (e3 : Edge p M L v3 v0 v7) (t1 : 0 ≤ turn v0 v1 v2) (t2 : 0 ≤ turn v0 v2 v3)
    (t0 : 0 < turn v0 v1 v2 + turn v0 v2 v3) (g0 : 0 ≤ v0.1 ∧ 0 ≤ v0.2) (g1 : 0 ≤ v1.1 ∧ 0 ≤ v1.2) (g2 : 0 ≤ v2.1 ∧ 0 ≤ v2.2) (g3 : 0 ≤ v3.1 ∧ 0 ≤ v3.2)
    (pos : 0 < area8 v0 v1 v2 v3 v4 v5 v6 v7) (thick : 64 * (1 / 2 ^ p) * size8 v0 v1 v2 v3 v4 v5 v6 v7 ≤ area8 v0 v1 v2 v3 v4 v5 v6 v7) :
    ∃ c, quad8Centroid R Real.sqrt m f v0 v1 v2 v3 v4 v5 v6 v7 = some c ∧
      (let x := moment8 Prod.fst v0 v1 v2 v3 v4 v5 v6 v7 / area8 v0 v1 v2 v3 v4 v5 v6 v7
       |c.1 - x| ≤ size8 v0 v1 v2 v3 v4 v5 v6 v7 / area8 v0 v1 v2 v3 v4 v5 v6 v7 * (1 / 2 ^ p * (56 * L + 60 * M + 17 * |x|))) ∧
      (let y := moment8 Prod.snd v0 v1 v2 v3 v4 v5 v6 v7 / area8 v0 v1 v2 v3 v4 v5 v6 v7
       |c.2 - y| ≤ size8 v0 v1 v2 v3 v4 v5 v6 v7 / area8 v0 v1 v2 v3 v4 v5 v6 v7 * (1 / 2 ^ p * (56 * L + 60 * M + 17 * |y|))) := by
  have u0 := unit_nonneg (K := ℝ) p
  have hu := u12 hp
  have M0 : 0 ≤ M := (abs_nonneg _).trans e0.size.1.1
  have uL := mul_nonneg u0 L0
  have uM := mul_nonneg u0 M0
  obtain ⟨q, hq, q1, q2⟩ := Verif.FpAreaP.C130_quad_centroid R (by omega) f e0.chord h02 h03 t1 t2 t0 g0 g1 g2 g3
  have k1 := quad_mean t1 t2 t0 g0.1 g1.1 g2.1 g3.1 e0.size.1.1 e0.size.2.1.1 e1.size.2.1.1 e2.size.2.1.1
  have k2 := quad_mean t1 t2 t0 g0.2 g1.2 g2.2 g3.2 e0.size.1.2 e0.size.2.1.2 e1.size.2.1.2 e2.size.2.1.2
  have d1 := off21 u0 hu k1.1 k1.2.1 q1
  have d2 := off21 u0 hu k2.1 k2.2.1 q2
  have := cell_err R hp m (M := M) (h := 1 / 2 ^ p * (28 * L + 22 * M)) (g := (Verif.FpAreaP.centroid (turn v0 v1 v2) (turn v0 v2 v3) v0.1 v1.1 v2.1 v3.1,
      Verif.FpAreaP.centroid (turn v0 v1 v2) (turn v0 v2 v3) v0.2 v1.2 v2.2 v3.2)) (g' := q) (es := [(v0, v1, v4), (v1, v2, v5), (v2, v3, v6), (v3, v0, v7)]) L0
    (Verif.FpQuadP.quad_rel R (by omega) h02 h13) ⟨by rw [abs_of_nonneg k1.1]; exact k1.2.1, by rw [abs_of_nonneg k2.1]; exact k2.2.1⟩
    ⟨d1.trans (by linarith), d2.trans (by linarith)⟩ (by
      intro e he
      simp only [List.mem_cons, List.not_mem_nil, or_false] at he
      rcases he with rfl | rfl | rfl | rfl
      · exact e0
      · exact e1
      · exact e2
      · exact e3) (by linarith) (by simp) (by simpa [area8] using pos) (by simpa [area8, size8] using thick)
  obtain ⟨c, hc, c1, c2⟩ := this
  refine ⟨c, ?_, ?_, ?_⟩
  · unfold quad8Centroid
    rw [hq]
    exact hc
  · simp only [List.map_cons, List.map_nil, List.sum_cons, List.sum_nil, add_zero, k1.2.2] at c1
    refine le_trans c1 (le_of_eq ?_)
    unfold moment8 area8 size8
    ring
  · simp only [List.map_cons, List.map_nil, List.sum_cons, List.sum_nil, add_zero, k2.2.2] at c2
    refine le_trans c2 (le_of_eq ?_)
    unfold moment8 area8 size8
    ring

theorem five (a b c d e : ℝ) : |a + (b + (c + (d + e)))| ≤ |a| + (|b| + (|c| + (|d| + |e|))) :=
  (abs_add_le _ _).trans (add_le_add le_rfl (four _ _ _ _))

/-- **C149**: with no edge that curves inwards, the error is that of roundings of lengths and coordinates only. -/
theorem C149_quad_convex (hp : 12 ≤ p) (m : QCenFuse) (f : Bool) {v0 v1 v2 v3 v4 v5 v6 v7 : P2 ℝ} {M L : ℝ} (L0 : 0 ≤ L) (h02 : Exact p v0 v2) (h03 : Exact p v0 v3) (h13 : Exact p v1 v3)
    (e0 : Edge p M L v0 v1 v4) (e1 : Edge p M L v1 v2 v5) (e2 : Edge p M L v2 v3 v6) (e3 : Edge p M L v3 v0 v7) (t1 : 0 ≤ turn v0 v1 v2) (t2 : 0 ≤ turn v0 v2 v3)
    (t0 : 0 < turn v0 v1 v2 + turn v0 v2 v3) (g0 : 0 ≤ v0.1 ∧ 0 ≤ v0.2) (g1 : 0 ≤ v1.1 ∧ 0 ≤ v1.2) (g2 : 0 ≤ v2.1 ∧ 0 ≤ v2.2) (g3 : 0 ≤ v3.1 ∧ 0 ≤ v3.2)
    (s0 : 0 ≤ turn v0 v4 v1) (s1 : 0 ≤ turn v1 v5 v2) (s2 : 0 ≤ turn v2 v6 v3) (s3 : 0 ≤ turn v3 v7 v0) :
    ∃ c, quad8Centroid R Real.sqrt m f v0 v1 v2 v3 v4 v5 v6 v7 = some c ∧
      |c.1 - moment8 Prod.fst v0 v1 v2 v3 v4 v5 v6 v7 / area8 v0 v1 v2 v3 v4 v5 v6 v7| ≤ 1 / 2 ^ p * (56 * L + 77 * M) ∧
      |c.2 - moment8 Prod.snd v0 v1 v2 v3 v4 v5 v6 v7 / area8 v0 v1 v2 v3 v4 v5 v6 v7| ≤ 1 / 2 ^ p * (56 * L + 77 * M) := by
  have u0 := unit_nonneg (K := ℝ) p
  have hu := u12 hp
  have pos : 0 < area8 v0 v1 v2 v3 v4 v5 v6 v7 := by unfold area8; linarith
  have e : size8 v0 v1 v2 v3 v4 v5 v6 v7 = area8 v0 v1 v2 v3 v4 v5 v6 v7 := by
    unfold size8 area8
    rw [abs_of_nonneg (by linarith), abs_of_nonneg (by linarith), abs_of_nonneg (by linarith), abs_of_nonneg (by linarith), abs_of_nonneg (by linarith)]
  have sz : ∀ x : P2 ℝ → ℝ, (∀ v, Within M v → |x v| ≤ M) → |moment8 x v0 v1 v2 v3 v4 v5 v6 v7 / area8 v0 v1 v2 v3 v4 v5 v6 v7| ≤ M := by
    intro x hx
    rw [abs_div, abs_of_pos pos, div_le_iff₀ pos]
    have a0 := hx v0 e0.size.1
    have a1 := hx v1 e0.size.2.1
    have a2 := hx v2 e1.size.2.1
    have a3 := hx v3 e2.size.2.1
    unfold moment8 area8
    refine (five _ _ _ _ _).trans ?_
    have l := abs_add_le (turn v0 v1 v2 / 2 * ((x v0 + x v1 + x v2) / 3)) (turn v0 v2 v3 / 2 * ((x v0 + x v2 + x v3) / 3))
    have w1 := term_size (a := turn v0 v1 v2 / 2) (tri_mean R hp a0 a1 a2).2
    have w2 := term_size (a := turn v0 v2 v3 / 2) (tri_mean R hp a0 a2 a3).2
    have w3 := term_size (a := 2 / 3 * turn v0 v4 v1) (cap_size a0 a1 (hx v4 e0.size.2.2))
    have w4 := term_size (a := 2 / 3 * turn v1 v5 v2) (cap_size a1 a2 (hx v5 e1.size.2.2))
    have w5 := term_size (a := 2 / 3 * turn v2 v6 v3) (cap_size a2 a3 (hx v6 e2.size.2.2))
    have w6 := term_size (a := 2 / 3 * turn v3 v7 v0) (cap_size a3 a0 (hx v7 e3.size.2.2))
    rw [abs_of_nonneg (show 0 ≤ turn v0 v1 v2 / 2 by linarith)] at w1
    rw [abs_of_nonneg (show 0 ≤ turn v0 v2 v3 / 2 by linarith)] at w2
    rw [abs_of_nonneg (show 0 ≤ 2 / 3 * turn v0 v4 v1 by linarith)] at w3
    rw [abs_of_nonneg (show 0 ≤ 2 / 3 * turn v1 v5 v2 by linarith)] at w4
    rw [abs_of_nonneg (show 0 ≤ 2 / 3 * turn v2 v6 v3 by linarith)] at w5
    rw [abs_of_nonneg (show 0 ≤ 2 / 3 * turn v3 v7 v0 by linarith)] at w6
    linarith
  obtain ⟨c, hc, c1, c2⟩ := C149_quad R hp m f L0 h02 h03 h13 e0 e1 e2 e3 t1 t2 t0 g0 g1 g2 g3 pos (by rw [e]; nlinarith)
  refine ⟨c, hc, ?_, ?_⟩
  · have := sz Prod.fst fun v h => h.1
    dsimp only at c1
    rw [e, div_self pos.ne', one_mul] at c1
    exact c1.trans (mul_le_mul_of_nonneg_left (by linarith) u0)
  · have := sz Prod.snd fun v h => h.2
    dsimp only at c2
    rw [e, div_self pos.ne', one_mul] at c2
    exact c2.trans (mul_le_mul_of_nonneg_left (by linarith) u0)

theorem loop_none {K : Type} [Field K] [LinearOrder K] {p : ℕ} (R : Rounding K p) (sqrt : K → K) (m : QCenFuse) : ∀ (es : List (P2 K × P2 K × P2 K)) (s : K) (c : P2 K),
    (∃ e ∈ es, qEnclosedCentroid R sqrt m e.1 e.2.1 e.2.2 = none) → qCentroidLoop R sqrt m s c es = none
  | [], _, _, h => by obtain ⟨e, h, -⟩ := h; simp at h
  | (q0, q1, q2) :: es, s, c, h => by
    rw [qCentroidLoop]
    cases hl : qEnclosedCentroid R sqrt m q0 q1 q2 with
    | none => rfl
    | some l =>
      refine loop_none R sqrt m es _ _ ?_
      obtain ⟨e, he, hn⟩ := h
      rcases List.mem_cons.1 he with rfl | he
      · rw [hl] at hn; cases hn
      · exact ⟨e, he, hn⟩

/-- **C149**: a quadratic triangle with two coinciding corners has no centroid, even if its area is positive. -/
theorem C149_triangle_none {K : Type} [Field K] [LinearOrder K] [IsStrictOrderedRing K] [FloorRing K] {p : ℕ} (R : Rounding K p) {sqrt : K → K} (hs : sqrt 0 = 0) (m : QCenFuse)
    {v0 v1 v2 : P2 K} (v3 v4 v5 : P2 K) (h : v0 = v1 ∨ v1 = v2 ∨ v2 = v0) : tri6Centroid R sqrt m v0 v1 v2 v3 v4 v5 = none := by
  unfold tri6Centroid qCentroid
  rw [loop_none R sqrt m]
  · rfl
  · rcases h with h | h | h
    · exact ⟨(v0, v1, v3), by simp, h ▸ C149_cap_none R hs m v0 v3⟩
    · exact ⟨(v1, v2, v4), by simp, h ▸ C149_cap_none R hs m v1 v4⟩
    · exact ⟨(v2, v0, v5), by simp, h ▸ C149_cap_none R hs m v2 v5⟩

/-- **C149**: the same for the four edges of a quadratic quadrilateral. -/
theorem C149_quad_none {K : Type} [Field K] [LinearOrder K] [IsStrictOrderedRing K] [FloorRing K] {p : ℕ} (R : Rounding K p) {sqrt : K → K} (hs : sqrt 0 = 0) (m : QCenFuse) (f : Bool)
    {v0 v1 v2 v3 : P2 K} (v4 v5 v6 v7 : P2 K) (h : v0 = v1 ∨ v1 = v2 ∨ v2 = v3 ∨ v3 = v0) : quad8Centroid R sqrt m f v0 v1 v2 v3 v4 v5 v6 v7 = none := by
  unfold quad8Centroid
  cases quadCentroid R f v0 v1 v2 v3 with
  | none => rfl
  | some g =>
    show qCentroid R sqrt m _ g _ = none
    unfold qCentroid
    rw [loop_none R sqrt m]
    · rfl
    · rcases h with h | h | h | h
      · exact ⟨(v0, v1, v4), by simp, h ▸ C149_cap_none R hs m v0 v4⟩
      · exact ⟨(v1, v2, v5), by simp, h ▸ C149_cap_none R hs m v1 v5⟩
      · exact ⟨(v2, v3, v6), by simp, h ▸ C149_cap_none R hs m v2 v6⟩
      · exact ⟨(v3, v0, v7), by simp, h ▸ C149_cap_none R hs m v3 v7⟩

/-! ### Mean chords -/

/-- A quotient of a number with `k` relative errors and one with the relative error `ε`. -/
theorem chord_err (hp : 1 ≤ p) {k : ℕ} {n N l P ε : ℝ} (N0 : 0 ≤ N) (P0 : 0 < P) (h1 : ε < 1) (hn : |n - N| ≤ ((1 + 1 / 2 ^ p) ^ k - 1) * N) (hl : |l - P| ≤ ε * P) :
    l ≠ 0 ∧ |R.rnd (n / l) - N / P| ≤ ((1 + 1 / 2 ^ p) ^ (k + 1) / (1 - ε) - 1) * (N / P) := by
  have u0 := unit_nonneg (K := ℝ) p
  have a1 := one_le_grow u0 k
  have lo : (1 - ε) * P ≤ l := by linarith [(abs_le.1 hl).1]
  have e1 : 0 < 1 - ε := by linarith
  have l0 : 0 < l := lt_of_lt_of_le (mul_pos e1 P0) lo
  refine ⟨l0.ne', ?_⟩
  have ε0 : 0 ≤ ε := by
    by_contra hc
    have := mul_neg_of_neg_of_pos (not_le.1 hc) P0
    linarith [abs_nonneg (l - P)]
  have q : |n / l - N / P| ≤ ((1 + 1 / 2 ^ p) ^ k / (1 - ε) - 1) * (N / P) := by
    have e : n / l - N / P = ((n - N) * P - N * (l - P)) / (l * P) := by field_simp; ring
    rw [e, abs_div, abs_of_pos (mul_pos l0 P0), div_le_iff₀ (mul_pos l0 P0)]
    have t : |(n - N) * P - N * (l - P)| ≤ ((1 + 1 / 2 ^ p) ^ k - 1 + ε) * (N * P) := by
      refine (abs_sub _ _).trans ?_
      rw [abs_mul, abs_mul, abs_of_pos P0, abs_of_nonneg N0]
      have := mul_le_mul_of_nonneg_right hn P0.le
      have := mul_le_mul_of_nonneg_left hl N0
      linarith
    refine t.trans ?_
    have w : 0 ≤ ((1 + 1 / 2 ^ p) ^ k - 1 + ε) / (1 - ε) * N := by positivity
    have := mul_le_mul_of_nonneg_left lo w
    have r1 : ((1 + 1 / 2 ^ p) ^ k - 1 + ε) / (1 - ε) * N * ((1 - ε) * P) = ((1 + 1 / 2 ^ p) ^ k - 1 + ε) * (N * P) := by field_simp
    have r2 : ((1 + 1 / 2 ^ p) ^ k / (1 - ε) - 1) * (N / P) * (l * P) = ((1 + 1 / 2 ^ p) ^ k - 1 + ε) / (1 - ε) * N * l := by field_simp; ring
    rw [r2, ← r1]
    exact this
  have s := size (le_of_eq (abs_of_nonneg (show 0 ≤ N / P by positivity))) q
  refine (tri (rnd_le R hp s) q).trans (le_of_eq ?_)
  rw [pow_succ]
  ring

/-- **C149**: the mean chord of a quadratic triangle with counterclockwise corners and no edge that curves inwards, given the relative error of its perimeter. -/
theorem C149_chord_triangle (hp : 1 ≤ p) (m : QLenMath ℝ) (eps2 : ℝ) {pi : ℝ} (hpi : |pi - Real.pi| ≤ 1 / 2 ^ p * Real.pi) (f : Bool) {v0 v1 v2 v3 v4 v5 : P2 ℝ}
    (h01 : Exact p v0 v1) (h02 : Exact p v0 v2) (h03 : Exact p v0 v3) (h12 : Exact p v1 v2) (h14 : Exact p v1 v4) (h20 : Exact p v2 v0) (h25 : Exact p v2 v5)
    (t : 0 ≤ turn v0 v1 v2) (t0 : 0 ≤ turn v0 v3 v1) (t1 : 0 ≤ turn v1 v4 v2) (t2 : 0 ≤ turn v2 v5 v0) {l P ε : ℝ} (P0 : 0 < P) (h1 : ε < 1)
    (hl : qPerimeter R m eps2 (v0, v1, v3) [(v1, v2, v4), (v2, v0, v5)] = some l) (hP : |l - P| ≤ ε * P) :
    ∃ c, tri6MeanChord R m eps2 pi f v0 v1 v2 v3 v4 v5 = some c ∧
      |c - Real.pi * area6 v0 v1 v2 v3 v4 v5 / P| ≤ ((1 + 1 / 2 ^ p) ^ 11 / (1 - ε) - 1) * (Real.pi * area6 v0 v1 v2 v3 v4 v5 / P) := by
  have u0 := unit_nonneg (K := ℝ) p
  have A0 : 0 ≤ area6 v0 v1 v2 v3 v4 v5 := by unfold area6; linarith
  have ha := Verif.FpQuadP.C143_triangle_convex R hp f h01 h02 h03 h12 h14 h20 h25 t t0 t1 t2
  have hp' : Rel (1 / 2 ^ p) 1 Real.pi pi := by
    unfold Fp.Rel; rw [abs_of_pos Real.pi_pos, pow_one, add_sub_cancel_left]; exact hpi
  have ha' : Rel (1 / 2 ^ p) 8 (area6 v0 v1 v2 v3 v4 v5) (tri6Area R f v0 v1 v2 v3 v4 v5) := by
    unfold Fp.Rel; rwa [abs_of_nonneg A0]
  have N0 : 0 ≤ Real.pi * area6 v0 v1 v2 v3 v4 v5 := mul_nonneg Real.pi_pos.le A0
  have hn := (hp'.mul u0 ha').rnd R hp
  unfold Fp.Rel at hn
  rw [abs_of_nonneg N0] at hn
  obtain ⟨l0, q⟩ := chord_err R hp N0 P0 h1 hn hP
  refine ⟨_, ?_, q⟩
  unfold tri6MeanChord
  rw [hl]
  show (if l = 0 then none else _) = _
  rw [if_neg l0]

/-- **C149**: the mean chord of a quadratic quadrilateral, by the same hypotheses. -/
theorem C149_chord_quad (hp : 1 ≤ p) (m : QLenMath ℝ) (eps2 : ℝ) {pi : ℝ} (hpi : |pi - Real.pi| ≤ 1 / 2 ^ p * Real.pi) (f : Bool) {v0 v1 v2 v3 v4 v5 v6 v7 : P2 ℝ}
    (h02 : Exact p v0 v2) (h13 : Exact p v1 v3) (h01 : Exact p v0 v1) (h04 : Exact p v0 v4) (h12 : Exact p v1 v2) (h15 : Exact p v1 v5) (h23 : Exact p v2 v3) (h26 : Exact p v2 v6)
    (h30 : Exact p v3 v0) (h37 : Exact p v3 v7) (t1 : 0 ≤ turn v0 v1 v2 + turn v0 v2 v3)
    (s0 : 0 ≤ turn v0 v4 v1) (s1 : 0 ≤ turn v1 v5 v2) (s2 : 0 ≤ turn v2 v6 v3) (s3 : 0 ≤ turn v3 v7 v0) {l P ε : ℝ} (P0 : 0 < P) (h1 : ε < 1)
    (hl : qPerimeter R m eps2 (v0, v1, v4) [(v1, v2, v5), (v2, v3, v6), (v3, v0, v7)] = some l) (hP : |l - P| ≤ ε * P) :
    ∃ c, quad8MeanChord R m eps2 pi f v0 v1 v2 v3 v4 v5 v6 v7 = some c ∧
      |c - Real.pi * area8 v0 v1 v2 v3 v4 v5 v6 v7 / P| ≤ ((1 + 1 / 2 ^ p) ^ 12 / (1 - ε) - 1) * (Real.pi * area8 v0 v1 v2 v3 v4 v5 v6 v7 / P) := by
  have u0 := unit_nonneg (K := ℝ) p
  have A0 : 0 ≤ area8 v0 v1 v2 v3 v4 v5 v6 v7 := by unfold area8; linarith
  have ha := Verif.FpQuadP.C143_quadrilateral R hp f h02 h13 h01 h04 h12 h15 h23 h26 h30 h37
  have e : size8 v0 v1 v2 v3 v4 v5 v6 v7 = area8 v0 v1 v2 v3 v4 v5 v6 v7 := by
    unfold size8 area8
    rw [abs_of_nonneg (by linarith), abs_of_nonneg (by linarith), abs_of_nonneg (by linarith), abs_of_nonneg (by linarith), abs_of_nonneg (by linarith)]
  have hp' : Rel (1 / 2 ^ p) 1 Real.pi pi := by
    unfold Fp.Rel; rw [abs_of_pos Real.pi_pos, pow_one, add_sub_cancel_left]; exact hpi
  have ha' : Rel (1 / 2 ^ p) 9 (area8 v0 v1 v2 v3 v4 v5 v6 v7) (quad8Area R f v0 v1 v2 v3 v4 v5 v6 v7) := by
    unfold Fp.Rel; rw [abs_of_nonneg A0]; rwa [e] at ha
  have N0 : 0 ≤ Real.pi * area8 v0 v1 v2 v3 v4 v5 v6 v7 := mul_nonneg Real.pi_pos.le A0
  have hn := (hp'.mul u0 ha').rnd R hp
  unfold Fp.Rel at hn
  rw [abs_of_nonneg N0] at hn
  obtain ⟨l0, q⟩ := chord_err R hp N0 P0 h1 hn hP
  refine ⟨_, ?_, q⟩
  unfold quad8MeanChord
  rw [hl]
  show (if l = 0 then none else _) = _
  rw [if_neg l0]

/-- **C149**: no perimeter, or one of zero, no chord; otherwise there is one. -/
theorem C149_chord_none {K : Type} [Field K] [LinearOrder K] {p : ℕ} (R : Rounding K p) (m : QLenMath K) (eps2 pi : K) (f : Bool) (v0 v1 v2 v3 v4 v5 v6 v7 : P2 K) :
    (tri6MeanChord R m eps2 pi f v0 v1 v2 v3 v4 v5 = none ↔ ∀ l, qPerimeter R m eps2 (v0, v1, v3) [(v1, v2, v4), (v2, v0, v5)] = some l → l = 0) ∧
    (quad8MeanChord R m eps2 pi f v0 v1 v2 v3 v4 v5 v6 v7 = none ↔
      ∀ l, qPerimeter R m eps2 (v0, v1, v4) [(v1, v2, v5), (v2, v3, v6), (v3, v0, v7)] = some l → l = 0) := by
  constructor
  · unfold tri6MeanChord
    cases qPerimeter R m eps2 (v0, v1, v3) [(v1, v2, v4), (v2, v0, v5)] with
    | none => simp
    | some l => by_cases h : l = 0 <;> simp [h]
  · unfold quad8MeanChord
    cases qPerimeter R m eps2 (v0, v1, v4) [(v1, v2, v5), (v2, v3, v6), (v3, v0, v7)] with
    | none => simp
    | some l => by_cases h : l = 0 <;> simp [h]

/-! ### Cases -/

theorem exact_z {a b : P2 ℝ} (m n : ℤ) (hm : |m| < 2 ^ 53) (hn : |n| < 2 ^ 53) (h1 : b.1 - a.1 = m) (h2 : b.2 - a.2 = n) : Exact 53 a b :=
  ⟨⟨m, 0, hm, by rw [h1]; simp⟩, ⟨n, 0, hn, by rw [h2]; simp⟩⟩

/-- The hypotheses for the sector of a pin: two straight edges and one that curves outwards. -/
example (m : QCenFuse) : ∃ c, tri6Centroid (ieee ℝ 53 (by norm_num)) Real.sqrt m (2, 2) (6, 2) (2, 6) (4, 2) (5, 5) (2, 4) = some c ∧
    |c.1 - moment6 Prod.fst (2, 2) (6, 2) (2, 6) (4, 2) (5, 5) (2, 4) / area6 (2, 2) (6, 2) (2, 6) (4, 2) (5, 5) (2, 4)| ≤ 1 / 2 ^ 53 * (56 * 6 + 41 * 6) ∧
    |c.2 - moment6 Prod.snd (2, 2) (6, 2) (2, 6) (4, 2) (5, 5) (2, 4) / area6 (2, 2) (6, 2) (2, 6) (4, 2) (5, 5) (2, 4)| ≤ 1 / 2 ^ 53 * (56 * 6 + 41 * 6) := by
  refine C149_triangle_convex _ (by norm_num) m (by norm_num) (exact_z 0 4 (by norm_num) (by norm_num) (by norm_num) (by norm_num))
    ⟨by norm_num, exact_z 4 0 (by norm_num) (by norm_num) (by norm_num) (by norm_num), exact_z 2 0 (by norm_num) (by norm_num) (by norm_num) (by norm_num), ?_, ?_⟩
    ⟨by norm_num, exact_z (-4) 4 (by norm_num) (by norm_num) (by norm_num) (by norm_num), exact_z (-1) 3 (by norm_num) (by norm_num) (by norm_num) (by norm_num), ?_, ?_⟩
    ⟨by norm_num, exact_z 0 (-4) (by norm_num) (by norm_num) (by norm_num) (by norm_num), exact_z 0 (-2) (by norm_num) (by norm_num) (by norm_num) (by norm_num), ?_, ?_⟩ ?_ ?_ ?_ ?_ ?_ <;>
    norm_num [Within, dist2, turn, area6]

/-- Its exact centroid and area. -/
example : moment6 Prod.fst (2, 2) (6, 2) (2, 6) (4, 2) (5, 5) (2, 4) / area6 (2, 2) (6, 2) (2, 6) (4, 2) (5, 5) (2, 4) = 94 / 25 ∧
    area6 ((2, 2) : P2 ℝ) (6, 2) (2, 6) (4, 2) (5, 5) (2, 4) = 40 / 3 := by
  constructor <;> norm_num [moment6, area6, turn, capMean]

/-- An edge that curves inwards: the hypothesis on the areas is met. -/
example (m : QCenFuse) : ∃ c, tri6Centroid (ieee ℝ 53 (by norm_num)) Real.sqrt m (2, 2) (6, 2) (2, 6) (4, 3) (5, 5) (2, 4) = some c := by
  obtain ⟨c, hc, -⟩ := C149_triangle (ieee ℝ 53 (by norm_num)) (by norm_num) m (M := 6) (L := 6) (by norm_num) (exact_z (a := (2, 2)) (b := (2, 6)) 0 4 (by norm_num) (by norm_num) (by norm_num) (by norm_num))
    (v1 := (6, 2)) (v3 := (4, 3)) (v4 := (5, 5)) (v5 := (2, 4))
    ⟨by norm_num, exact_z 4 0 (by norm_num) (by norm_num) (by norm_num) (by norm_num), exact_z 2 1 (by norm_num) (by norm_num) (by norm_num) (by norm_num), by norm_num [Within], by norm_num [dist2]⟩
    ⟨by norm_num, exact_z (-4) 4 (by norm_num) (by norm_num) (by norm_num) (by norm_num), exact_z (-1) 3 (by norm_num) (by norm_num) (by norm_num) (by norm_num), by norm_num [Within], by norm_num [dist2]⟩
    ⟨by norm_num, exact_z 0 (-4) (by norm_num) (by norm_num) (by norm_num) (by norm_num), exact_z 0 (-2) (by norm_num) (by norm_num) (by norm_num) (by norm_num), by norm_num [Within], by norm_num [dist2]⟩
    (by norm_num [area6, turn]) (by norm_num [area6, size6, turn, abs_of_neg, abs_of_pos])
  exact ⟨c, hc⟩

/-- A lens: two corners coincide, the area is positive, and there is no centroid. -/
example (m : QCenFuse) : area6 ((0, 0) : P2 ℝ) (4, 0) (0, 0) (2, -1) (2, 1) (0, 0) = 16 / 3 ∧
    tri6Centroid (ieee ℝ 53 (by norm_num)) Real.sqrt m (0, 0) (4, 0) (0, 0) (2, -1) (2, 1) (0, 0) = none :=
  ⟨by norm_num [area6, turn], C149_triangle_none _ Real.sqrt_zero m _ _ _ (Or.inr (Or.inr rfl))⟩

/-- A barrel. -/
example (m : QCenFuse) (f : Bool) : ∃ c, quad8Centroid (ieee ℝ 53 (by norm_num)) Real.sqrt m f (2, 2) (6, 2) (6, 6) (2, 6) (4, 1) (7, 4) (4, 7) (1, 4) = some c ∧
    |c.1 - 4| ≤ 1 / 2 ^ 53 * (56 * 6 + 77 * 7) := by
  obtain ⟨c, hc, h, -⟩ := C149_quad_convex (ieee ℝ 53 (by norm_num)) (by norm_num) m f (M := 7) (L := 6) (by norm_num)
    (v0 := (2, 2)) (v1 := (6, 2)) (v2 := (6, 6)) (v3 := (2, 6)) (v4 := (4, 1)) (v5 := (7, 4)) (v6 := (4, 7)) (v7 := (1, 4))
    (exact_z 4 4 (by norm_num) (by norm_num) (by norm_num) (by norm_num)) (exact_z 0 4 (by norm_num) (by norm_num) (by norm_num) (by norm_num))
    (exact_z (-4) 4 (by norm_num) (by norm_num) (by norm_num) (by norm_num))
    ⟨by norm_num, exact_z 4 0 (by norm_num) (by norm_num) (by norm_num) (by norm_num), exact_z 2 (-1) (by norm_num) (by norm_num) (by norm_num) (by norm_num), by norm_num [Within], by norm_num [dist2]⟩
    ⟨by norm_num, exact_z 0 4 (by norm_num) (by norm_num) (by norm_num) (by norm_num), exact_z 1 2 (by norm_num) (by norm_num) (by norm_num) (by norm_num), by norm_num [Within], by norm_num [dist2]⟩
    ⟨by norm_num, exact_z (-4) 0 (by norm_num) (by norm_num) (by norm_num) (by norm_num), exact_z (-2) 1 (by norm_num) (by norm_num) (by norm_num) (by norm_num), by norm_num [Within], by norm_num [dist2]⟩
    ⟨by norm_num, exact_z 0 (-4) (by norm_num) (by norm_num) (by norm_num) (by norm_num), exact_z (-1) (-2) (by norm_num) (by norm_num) (by norm_num) (by norm_num), by norm_num [Within], by norm_num [dist2]⟩
    (by norm_num [turn]) (by norm_num [turn]) (by norm_num [turn]) (by norm_num) (by norm_num) (by norm_num) (by norm_num) (by norm_num [turn]) (by norm_num [turn]) (by norm_num [turn]) (by norm_num [turn])
  refine ⟨c, hc, ?_⟩
  have e : moment8 Prod.fst (2, 2) (6, 2) (6, 6) (2, 6) (4, 1) (7, 4) (4, 7) (1, 4) / area8 (2, 2) (6, 2) (6, 6) (2, 6) (4, 1) (7, 4) (4, 7) (1, 4) = 4 := by
    norm_num [moment8, area8, turn, capMean]
  rwa [e] at h

/-- A right triangle with straight edges has a mean chord near `π`, whatever the mathematical functions within their bounds. -/
example {m : QLenMath ℝ} (hm : Verif.PropsFpQLength.Libm 53 m) {pi : ℝ} (hpi : |pi - Real.pi| ≤ 1 / 2 ^ 53 * Real.pi) (f : Bool) :
    ∃ c, tri6MeanChord (ieee ℝ 53 (by norm_num)) m (1 / 10 ^ 14) pi f (0, 0) (8, 0) (0, 6) (4, 0) (4, 3) (0, 3) = some c ∧ |c - Real.pi| ≤ 1 / 1000 := by
  have x1 : Exact 53 ((0, 0) : P2 ℝ) (8, 0) := exact_z 8 0 (by norm_num) (by norm_num) (by norm_num) (by norm_num)
  have x2 : Exact 53 ((8, 0) : P2 ℝ) (0, 6) := exact_z (-8) 6 (by norm_num) (by norm_num) (by norm_num) (by norm_num)
  have x3 : Exact 53 ((0, 6) : P2 ℝ) (0, 0) := exact_z 0 (-6) (by norm_num) (by norm_num) (by norm_num) (by norm_num)
  have s1 := Verif.FpQuadP.C143_straight_midpoint (ieee ℝ 53 (by norm_num)) (by norm_num) m.vec (1 / 10 ^ 14) (by norm_num) x1 (by norm_num) (q2 := (4, 0)) (by norm_num)
  have s2 := Verif.FpQuadP.C143_straight_midpoint (ieee ℝ 53 (by norm_num)) (by norm_num) m.vec (1 / 10 ^ 14) (by norm_num) x2 (by norm_num) (q2 := (4, 3)) (by norm_num)
  have s3 := Verif.FpQuadP.C143_straight_midpoint (ieee ℝ 53 (by norm_num)) (by norm_num) m.vec (1 / 10 ^ 14) (by norm_num) x3 (by norm_num) (q2 := (0, 3)) (by norm_num)
  obtain ⟨l1, h1, d1⟩ := Verif.PropsFpQLength.C147_straight (ieee ℝ 53 (by norm_num)) (by norm_num) hm s1
  obtain ⟨l2, h2, d2⟩ := Verif.PropsFpQLength.C147_straight (ieee ℝ 53 (by norm_num)) (by norm_num) hm s2
  obtain ⟨l3, h3, d3⟩ := Verif.PropsFpQLength.C147_straight (ieee ℝ 53 (by norm_num)) (by norm_num) hm s3
  have n1 : Verif.PropsFpQLength.norm2 (((8, 0) : P2 ℝ).1 - ((0, 0) : P2 ℝ).1, ((8, 0) : P2 ℝ).2 - ((0, 0) : P2 ℝ).2) = 8 := by
    unfold Verif.PropsFpQLength.norm2
    rw [show ((((8, 0) : P2 ℝ).1 - ((0, 0) : P2 ℝ).1, ((8, 0) : P2 ℝ).2 - ((0, 0) : P2 ℝ).2) : P2 ℝ).1 ^ 2 +
      ((((8, 0) : P2 ℝ).1 - ((0, 0) : P2 ℝ).1, ((8, 0) : P2 ℝ).2 - ((0, 0) : P2 ℝ).2) : P2 ℝ).2 ^ 2 = 8 ^ 2 by norm_num, Real.sqrt_sq (by norm_num)]
  have n2 : Verif.PropsFpQLength.norm2 (((0, 6) : P2 ℝ).1 - ((8, 0) : P2 ℝ).1, ((0, 6) : P2 ℝ).2 - ((8, 0) : P2 ℝ).2) = 10 := by
    unfold Verif.PropsFpQLength.norm2
    rw [show ((((0, 6) : P2 ℝ).1 - ((8, 0) : P2 ℝ).1, ((0, 6) : P2 ℝ).2 - ((8, 0) : P2 ℝ).2) : P2 ℝ).1 ^ 2 +
      ((((0, 6) : P2 ℝ).1 - ((8, 0) : P2 ℝ).1, ((0, 6) : P2 ℝ).2 - ((8, 0) : P2 ℝ).2) : P2 ℝ).2 ^ 2 = 10 ^ 2 by norm_num, Real.sqrt_sq (by norm_num)]
  have n3 : Verif.PropsFpQLength.norm2 (((0, 0) : P2 ℝ).1 - ((0, 6) : P2 ℝ).1, ((0, 0) : P2 ℝ).2 - ((0, 6) : P2 ℝ).2) = 6 := by
    unfold Verif.PropsFpQLength.norm2
    rw [show ((((0, 0) : P2 ℝ).1 - ((0, 6) : P2 ℝ).1, ((0, 0) : P2 ℝ).2 - ((0, 6) : P2 ℝ).2) : P2 ℝ).1 ^ 2 +
      ((((0, 0) : P2 ℝ).1 - ((0, 6) : P2 ℝ).1, ((0, 0) : P2 ℝ).2 - ((0, 6) : P2 ℝ).2) : P2 ℝ).2 ^ 2 = 6 ^ 2 by norm_num, Real.sqrt_sq (by norm_num)]
  rw [n1] at d1
  rw [n2] at d2
  rw [n3] at d3
  obtain ⟨s, hs, ds⟩ := Verif.PropsFpQLength.C147_perimeter (ieee ℝ 53 (by norm_num)) (by norm_num) m (1 / 10 ^ 14) ((0, 0), (8, 0), (4, 0)) [((8, 0), (0, 6), (4, 3)), ((0, 6), (0, 0), (0, 3))]
    (.cons h1 (.cons h2 (.cons h3 .nil)))
  have d1 := abs_le.1 d1
  have d2 := abs_le.1 d2
  have d3 := abs_le.1 d3
  norm_num at d1 d2 d3 ds
  rw [abs_of_pos (a := l1) (by linarith [d1.1]), abs_of_pos (a := l2) (by linarith [d2.1]), abs_of_pos (a := l3) (by linarith [d3.1])] at ds
  have ds := abs_le.1 ds
  obtain ⟨c, hc, hd⟩ := C149_chord_triangle (ieee ℝ 53 (by norm_num)) (by norm_num) m (1 / 10 ^ 14) hpi f (v0 := (0, 0)) (v1 := (8, 0)) (v2 := (0, 6)) (v3 := (4, 0)) (v4 := (4, 3)) (v5 := (0, 3))
    x1 (exact_z 0 6 (by norm_num) (by norm_num) (by norm_num) (by norm_num)) (exact_z 4 0 (by norm_num) (by norm_num) (by norm_num) (by norm_num)) x2
    (exact_z (-4) 3 (by norm_num) (by norm_num) (by norm_num) (by norm_num)) x3 (exact_z 0 (-3) (by norm_num) (by norm_num) (by norm_num) (by norm_num))
    (by norm_num [turn]) (by norm_num [turn]) (by norm_num [turn]) (by norm_num [turn]) (P := 24) (ε := 1 / 10000) (by norm_num) (by norm_num) hs
    (by rw [abs_le]; constructor <;> linarith [d1.1, d1.2, d2.1, d2.2, d3.1, d3.2, ds.1, ds.2])
  refine ⟨c, hc, ?_⟩
  have e : area6 ((0, 0) : P2 ℝ) (8, 0) (0, 6) (4, 0) (4, 3) (0, 3) = 24 := by norm_num [area6, turn]
  rw [e, mul_div_assoc, div_self (by norm_num), mul_one] at hd
  refine hd.trans ?_
  have := Real.pi_le_four
  have g : ((1 + 1 / 2 ^ 53 : ℝ) ^ 11 / (1 - 1 / 10000) - 1) ≤ 1 / 4000 := by norm_num
  have := mul_le_mul_of_nonneg_right g Real.pi_pos.le
  linarith

end Verif.PropsFpQCentroid
