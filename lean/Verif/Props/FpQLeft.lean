import Verif.Lemmas.FpQLeft
import Verif.Props.FpGeom
import Verif.Lemmas.FpCast
import Verif.Lemmas.FpQCentroid
import Mathlib.Algebra.Order.Archimedean.Real.Basic

/-! C151: on which side of a quadratic segment a point is, in floating-point arithmetic. -/

set_option linter.unusedSectionVars false

namespace Verif.FpQLeftP

open Verif.Fp Verif.Fp.QLeft
open Verif.FpGeomP (OnGrid)
open Verif.FpSpec

variable {p : ℕ} (R : Rounding ℝ p)

/-- The point that one reaches from `o` by going `x` in the direction `u` and `y` to the left of it. -/
def place (o u : P2 ℝ) (x y : ℝ) : P2 ℝ := (o.1 + (x * u.1 - y * u.2), o.2 + (x * u.2 + y * u.1))

/-- The height over the chord, at the distance `x` from its begin, of the parabola over a chord of length `l` that is `h` high in the middle. -/
noncomputable def arc (l h x : ℝ) : ℝ := 4 * h * (x / l * (1 - x / l))

theorem C151_arc {l : ℝ} (l0 : l ≠ 0) (h : ℝ) : arc l h 0 = 0 ∧ arc l h (l / 2) = h ∧ arc l h l = 0 := by
  unfold arc
  refine ⟨by simp, ?_, by rw [div_self l0]; ring⟩
  field_simp
  ring

/-- The triangle of the Bezier curve. -/
def Inside (l h x y : ℝ) : Prop := 0 ≤ h * y ∧ l * (h * y) ≤ 4 * h ^ 2 * x ∧ l * (h * y) ≤ 4 * h ^ 2 * (l - x)

theorem axis_one {u : P2 ℝ} (hu : Axis u) : u.1 * u.1 + u.2 * u.2 = 1 := by
  rcases hu with rfl | rfl | rfl | rfl <;> norm_num

theorem turn_place {u : P2 ℝ} (hu : Axis u) (o : P2 ℝ) (a b c d e g : ℝ) :
    turn (place o u a b) (place o u c d) (place o u e g) = (c - a) * (g - b) - (d - b) * (e - a) := by
  unfold turn place
  dsimp only
  linear_combination ((c - a) * (g - b) - (d - b) * (e - a)) * axis_one hu

theorem place_zero (o u : P2 ℝ) : place o u 0 0 = o := by unfold place; simp

theorem grid_sub (hp : 1 ≤ p) {k : ℤ} {a b : P2 ℝ} (ha : OnGrid ℝ p k a) (hb : OnGrid ℝ p k b) : IsFp p (b.1 - a.1) ∧ IsFp p (b.2 - a.2) := by
  obtain ⟨a1, a2, ha1, ha2, rfl⟩ := ha
  obtain ⟨b1, b2, hb1, hb2, rfl⟩ := hb
  exact ⟨grid_diff hp hb1 ha1, grid_diff hp hb2 ha2⟩

theorem place_fp (hp : 1 ≤ p) {k : ℤ} {o u : P2 ℝ} (hu : Axis u) {x y : ℝ} (ho : OnGrid ℝ p k o) (h : OnGrid ℝ p k (place o u x y)) :
    IsFp p x ∧ IsFp p y ∧ sub R (place o u x y) o = (x * u.1 - y * u.2, x * u.2 + y * u.1) := by
  obtain ⟨h1, h2⟩ := grid_sub hp ho h
  have e1 : (place o u x y).1 - o.1 = x * u.1 - y * u.2 := by unfold place; ring
  have e2 : (place o u x y).2 - o.2 = x * u.2 + y * u.1 := by unfold place; ring
  have s : sub R (place o u x y) o = (x * u.1 - y * u.2, x * u.2 + y * u.1) := by
    unfold sub
    rw [R.id h1, R.id h2, e1, e2]
  rw [e1] at h1
  rw [e2] at h2
  rcases hu with rfl | rfl | rfl | rfl
  · simp only [mul_one, mul_zero, sub_zero, zero_add] at h1 h2; exact ⟨h1, h2, s⟩
  · simp only [mul_neg, mul_one, mul_zero, sub_zero, zero_add] at h1 h2; exact ⟨by simpa using h1.neg, by simpa using h2.neg, s⟩
  · simp only [mul_one, mul_zero, zero_sub, add_zero] at h1 h2; exact ⟨h2, by simpa using h1.neg, s⟩
  · simp only [mul_neg, mul_one, mul_zero, zero_sub, add_zero, neg_neg] at h1 h2; exact ⟨by simpa using h2.neg, h1, s⟩

theorem grid_fp (hp : 1 ≤ p) {k : ℤ} {a : P2 ℝ} (ha : OnGrid ℝ p k a) : IsFp p a.1 ∧ IsFp p a.2 := by
  have z : OnGrid ℝ p k ((0 : ℝ), (0 : ℝ)) := ⟨0, 0, by simp, by simp, by simp⟩
  have := grid_sub hp z ha
  simpa using this

theorem grid_add (hp : 1 ≤ p) {k : ℤ} {a b : P2 ℝ} (ha : OnGrid ℝ p k a) (hb : OnGrid ℝ p k b) : IsFp p (a.1 + b.1) ∧ IsFp p (a.2 + b.2) := by
  have n : OnGrid ℝ p k (-a.1, -a.2) := by
    obtain ⟨a1, a2, ha1, ha2, rfl⟩ := ha
    exact ⟨-a1, -a2, by rwa [abs_neg], by rwa [abs_neg], by push_cast; simp⟩
  have := grid_sub hp n hb
  simp only [sub_neg_eq_add] at this
  exact ⟨by rw [add_comm]; exact this.1, by rw [add_comm]; exact this.2⟩

/-- The control point is exact if it is on the grid. -/
theorem control {a b c d : ℝ} (h1 : IsFp p (a + b)) (h2 : IsFp p c) (e : 2 * c - (a + b) / 2 = d) (h3 : IsFp p d) : qControl R a b c = d := by
  unfold qControl
  rw [R.id h2.double, R.id h1, R.id h1.half, e, R.id h3]

section
variable {k : ℤ} {o u : P2 ℝ} {l h x y : ℝ} (hp : 8 ≤ p) (hu : Axis u) (l0 : 0 < l) (h0 : h ≠ 0) (g0 : OnGrid ℝ p k o) (g1 : OnGrid ℝ p k (place o u l 0))
  (g2 : OnGrid ℝ p k (place o u (l / 2) h)) (g3 : OnGrid ℝ p k (place o u (l / 2) (2 * h))) (g4 : OnGrid ℝ p k (place o u x y))
include hp hu l0 h0 g0 g1 g2 g3 g4

theorem frame (f : QLeftFuse) {eps2 invalid limit : ℝ} (he : 2 * eps2 ≤ h ^ 2) :
    (Inside l h x y → qIsLeft R f eps2 invalid limit o (place o u l 0) (place o u (l / 2) h) (place o u x y) =
      some (qLeftTurned R f invalid limit (l, 0) (l / 2, h) (x, y))) ∧
    (¬ Inside l h x y → qIsLeft R f eps2 invalid limit o (place o u l 0) (place o u (l / 2) h) (place o u x y) = some (decide (0 ≤ y))) := by
  have hp1 : 1 ≤ p := by omega
  have hp2 : 2 ≤ p := by omega
  obtain ⟨fl, -, s1⟩ := place_fp R hp1 hu g0 g1
  obtain ⟨-, fh, s2⟩ := place_fp R hp1 hu g0 g2
  obtain ⟨fx, fy, s4⟩ := place_fp R hp1 hu g0 g4
  simp only [zero_mul, sub_zero, add_zero] at s1
  have ns := not_straight R hp f.s hu fl l0 fh he s1 s2
  have ad := grid_add hp1 g0 g1
  have c1 : qControl R o.1 (place o u l 0).1 (place o u (l / 2) h).1 = (place o u (l / 2) (2 * h)).1 :=
    control R ad.1 (grid_fp hp1 g2).1 (by unfold place; ring) (grid_fp hp1 g3).1
  have c2 : qControl R o.2 (place o u l 0).2 (place o u (l / 2) h).2 = (place o u (l / 2) (2 * h)).2 :=
    control R ad.2 (grid_fp hp1 g2).2 (by unfold place; ring) (grid_fp hp1 g3).2
  have side : areCCW R o (place o u l 0) (place o u x y) = decide (0 ≤ y) := by
    have d1 := grid_sub hp1 g0 g1
    have d2 := grid_sub hp1 g0 g4
    have := FpGeomP.C121_orientation_partial R hp2 d1.1 d1.2 d2.1 d2.2
    have t := turn_place hu o 0 0 l 0 x y
    rw [place_zero] at t
    rw [t] at this
    rw [Bool.eq_iff_iff, this, decide_eq_true_iff]
    constructor
    · intro z; by_contra c; push Not at c; nlinarith
    · intro z; have := mul_nonneg l0.le z; linarith
  have ccw : triIsCCW R o (place o u l 0) (place o u (l / 2) (2 * h)) = decide (0 < h) := by
    unfold triIsCCW
    have d1 := grid_sub hp1 g0 g1
    have d2 := grid_sub hp1 g0 g3
    have := FpGeomP.C121_orientation_partial R hp2 d1.1 d1.2 d2.1 d2.2
    have t := turn_place hu o 0 0 l 0 (l / 2) (2 * h)
    rw [place_zero] at t
    rw [t] at this
    rw [Bool.eq_iff_iff, this, decide_eq_true_iff]
    constructor
    · intro z
      by_contra c
      have : h < 0 := lt_of_le_of_ne (not_lt.1 c) h0
      nlinarith
    · intro z; have := mul_pos l0 z; linarith
  have ins : (if triIsCCW R o (place o u l 0) (place o u (l / 2) (2 * h)) = true then triContains R o (place o u l 0) (place o u (l / 2) (2 * h)) (place o u x y)
      else triContains R o (place o u (l / 2) (2 * h)) (place o u l 0) (place o u x y)) = true ↔ Inside l h x y := by
    have t1 := turn_place hu o 0 0 l 0 x y
    have t2 := turn_place hu o l 0 (l / 2) (2 * h) x y
    have t3 := turn_place hu o (l / 2) (2 * h) 0 0 x y
    have t4 := turn_place hu o 0 0 (l / 2) (2 * h) x y
    have t5 := turn_place hu o (l / 2) (2 * h) l 0 x y
    have t6 := turn_place hu o l 0 0 0 x y
    rw [place_zero] at t1 t3 t4 t6
    rw [ccw]
    unfold Inside
    rcases lt_or_gt_of_ne h0 with c | c
    · rw [if_neg (by simpa using c.le), FpGeomP.C121_triangle_partial R hp2 g0 g3 g1 g4]
      unfold InTriangle
      rw [t4, t5, t6]
      constructor
      · rintro ⟨z1, z2, z3⟩
        have y1 : y ≤ 0 := by by_contra cc; push Not at cc; nlinarith
        exact ⟨by nlinarith, by nlinarith, by nlinarith⟩
      · rintro ⟨z1, z2, z3⟩
        have y1 : y ≤ 0 := by by_contra cc; push Not at cc; nlinarith
        have z2' : 4 * h * x ≤ l * y := by by_contra cc; push Not at cc; nlinarith
        have z3' : 4 * h * (l - x) ≤ l * y := by by_contra cc; push Not at cc; nlinarith
        exact ⟨by linarith, by linarith, by nlinarith⟩
    · rw [if_pos (by simpa using c), FpGeomP.C121_triangle_partial R hp2 g0 g1 g3 g4]
      unfold InTriangle
      rw [t1, t2, t3]
      constructor
      · rintro ⟨z1, z2, z3⟩
        have y1 : 0 ≤ y := by by_contra cc; push Not at cc; nlinarith
        exact ⟨by nlinarith, by nlinarith, by nlinarith⟩
      · rintro ⟨z1, z2, z3⟩
        have y1 : 0 ≤ y := by by_contra cc; push Not at cc; nlinarith
        have z2' : l * y ≤ 4 * h * x := by by_contra cc; push Not at cc; nlinarith
        have z3' : l * y ≤ 4 * h * (l - x) := by by_contra cc; push Not at cc; nlinarith
        exact ⟨by nlinarith, by linarith, by linarith⟩
  have na := norm_axis R hp1 f.n hu fl l0
  have ua := unit_axis R hp1 hu l0
  have r1 := rotate_axis R f hu fl (isFp_zero (p := p) (K := ℝ))
  have r2 := rotate_axis R f hu fl.half fh
  have r4 := rotate_axis R f hu fx fy
  simp only [zero_mul, sub_zero, add_zero] at r1
  constructor
  · intro z
    have z' := ins.2 z
    unfold qIsLeft
    dsimp only
    rw [c1, c2, s1, s2, s4, ns]
    dsimp only
    rw [na, ua.1, ua.2, if_neg (by simp), z', if_neg (by simp), if_neg l0.ne']
    change some (qLeftTurned R f invalid limit (qRotate R f u _) (qRotate R f u _) (qRotate R f u _)) = _
    rw [r1, r2, r4]
  · intro z
    have z' := Bool.eq_false_iff.2 fun c => z (ins.1 c)
    unfold qIsLeft
    dsimp only
    rw [c1, c2, ns, if_neg (by simp), z', side]
    simp

/-- **C151**: over a chord along an axis, points of a grid that are not within sixteen roundings of the height from the curve are on the side on which they
are found, and beside the chord the line through its ends decides. -/
theorem C151_side_partial (f : QLeftFuse) {eps2 invalid limit : ℝ} (hi : limit < invalid) (he : 2 * eps2 ≤ h ^ 2) :
    (0 ≤ x → x ≤ l → arc l h x + 16 / 2 ^ p * |h| < y →
      qIsLeft R f eps2 invalid limit o (place o u l 0) (place o u (l / 2) h) (place o u x y) = some true) ∧
    (0 ≤ x → x ≤ l → y < arc l h x - 16 / 2 ^ p * |h| →
      qIsLeft R f eps2 invalid limit o (place o u l 0) (place o u (l / 2) h) (place o u x y) = some false) ∧
    (x < 0 ∨ l < x → qIsLeft R f eps2 invalid limit o (place o u l 0) (place o u (l / 2) h) (place o u x y) = some (decide (0 ≤ y))) := by
  have hp1 : 1 ≤ p := by omega
  obtain ⟨fl, -, -⟩ := place_fp R hp1 hu g0 g1
  obtain ⟨-, fh, -⟩ := place_fp R hp1 hu g0 g2
  obtain ⟨a, b⟩ := frame R hp hu l0 h0 g0 g1 g2 g3 g4 f (invalid := invalid) (limit := limit) he
  have u0 := unit_nonneg (K := ℝ) p
  have hh2 : 0 < h ^ 2 := by positivity
  have e16 : (16 : ℝ) / 2 ^ p = 16 * (1 / 2 ^ p) := by ring
  rw [e16]
  have uh : 0 ≤ 16 * (1 / 2 ^ p) * |h| := by positivity
  have bnd : 0 ≤ x → x ≤ l → 0 ≤ x / l ∧ x / l ≤ 1 ∧ x / l * l = x := fun x0 x1 => ⟨div_nonneg x0 l0.le, (div_le_one l0).2 x1, div_mul_cancel₀ x l0.ne'⟩
  -- under the curve is in the triangle
  have under : 0 ≤ x → x ≤ l → 0 ≤ h * y → h * y ≤ h * arc l h x → Inside l h x y := by
    intro x0 x1 y0 y1
    obtain ⟨r0, r1, re⟩ := bnd x0 x1
    unfold arc at y1
    generalize x / l = r at *
    rw [← re]
    have rr : 0 ≤ r * (1 - r) := mul_nonneg r0 (by linarith)
    have k1 := mul_le_mul_of_nonneg_left y1 l0.le
    have k2 : 0 ≤ l * (4 * h ^ 2) := by positivity
    refine ⟨y0, k1.trans ?_, k1.trans ?_⟩
    · nlinarith [mul_nonneg k2 (mul_nonneg r0 r0)]
    · nlinarith [mul_nonneg k2 (mul_nonneg (sub_nonneg.2 r1) (sub_nonneg.2 r1))]
  have rr : 0 ≤ x → x ≤ l → 0 ≤ x / l * (1 - x / l) := fun x0 x1 => by
    obtain ⟨r0, r1, -⟩ := bnd x0 x1
    exact mul_nonneg r0 (by linarith)
  refine ⟨fun x0 x1 k => ?_, fun x0 x1 k => ?_, fun c => ?_⟩
  · have r0 := rr x0 x1
    by_cases z : Inside l h x y
    · rw [a z]
      congr 1
      rcases lt_or_gt_of_ne h0 with c | c
      · rw [abs_of_neg c] at k
        have t := (turned_down R hp f hi fl l0 fh.neg (by linarith : 0 < -h) x0 x1 (y := -y)).2 (by have := z.1; by_contra cc; push Not at cc; nlinarith)
          (by unfold arc at k; linarith)
        simpa using t
      · rw [abs_of_pos c] at k
        exact (turned_up R hp f hi fl l0 fh c x0 x1).1 k
    · rw [b z]
      congr 1
      refine decide_eq_true ?_
      rcases lt_or_gt_of_ne h0 with c | c
      · by_contra cc
        push Not at cc
        exact z (under x0 x1 (by nlinarith) (mul_le_mul_of_nonpos_left (by linarith) c.le))
      · have : 0 ≤ arc l h x := by unfold arc; positivity
        linarith
  · have r0 := rr x0 x1
    by_cases z : Inside l h x y
    · rw [a z]
      congr 1
      rcases lt_or_gt_of_ne h0 with c | c
      · rw [abs_of_neg c] at k
        have t := (turned_down R hp f hi fl l0 fh.neg (by linarith : 0 < -h) x0 x1 (y := -y)).1 (by unfold arc at k; linarith)
        simpa using t
      · rw [abs_of_pos c] at k
        exact (turned_up R hp f hi fl l0 fh c x0 x1).2 (by have := z.1; by_contra cc; push Not at cc; nlinarith) k
    · rw [b z]
      congr 1
      refine decide_eq_false ?_
      rcases lt_or_gt_of_ne h0 with c | c
      · have : arc l h x ≤ 0 := by unfold arc; nlinarith
        linarith
      · intro cc
        exact z (under x0 x1 (mul_nonneg c.le cc) (mul_le_mul_of_nonneg_left (by linarith) c.le))
  · refine b fun z => ?_
    have z1 := mul_nonneg l0.le z.1
    rcases c with c | c
    · nlinarith [z.2.1]
    · nlinarith [z.2.2]

end

/-! ### Any direction -/

/-- **C151**: the change of coordinates, for a chord in any direction: every vector keeps its components along and across the chord up to eight roundings of its
length. -/
theorem C151_rotation (hp : 12 ≤ p) (f : QLeftFuse) {v : P2 ℝ} (h1 : IsFp p v.1) (h2 : IsFp p v.2) (h0 : v ≠ (0, 0)) (w : P2 ℝ) :
    ∃ n, norm R Real.sqrt f.n [v.1, v.2] = n ∧ 0 < n ∧
      |(qRotate R f (R.rnd (v.1 / n), R.rnd (v.2 / n)) w).1 - (v.1 * w.1 + v.2 * w.2) / Real.sqrt (v.1 ^ 2 + v.2 ^ 2)| ≤ 8 / 2 ^ p * Real.sqrt (w.1 ^ 2 + w.2 ^ 2) ∧
      |(qRotate R f (R.rnd (v.1 / n), R.rnd (v.2 / n)) w).2 - (v.1 * w.2 - v.2 * w.1) / Real.sqrt (v.1 ^ 2 + v.2 ^ 2)| ≤ 8 / 2 ^ p * Real.sqrt (w.1 ^ 2 + w.2 ^ 2) := by
  have hp1 : 1 ≤ p := by omega
  have hu : (1 : ℝ) / 2 ^ p ≤ 1 / 4096 := by
    refine one_div_le_one_div_of_le (by norm_num) ?_
    calc (4096 : ℝ) = 2 ^ 12 := by norm_num
      _ ≤ 2 ^ p := pow_le_pow_right₀ (by norm_num) hp
  have pos : 0 < v.1 ^ 2 + v.2 ^ 2 := by
    by_contra c
    push Not at c
    have a1 : v.1 = 0 := by nlinarith [sq_nonneg v.1, sq_nonneg v.2]
    have a2 : v.2 = 0 := by nlinarith [sq_nonneg v.1, sq_nonneg v.2]
    exact h0 (Prod.ext a1 a2)
  have o := norm_off R hp1 (sqrt := Real.sqrt) (fun x h => ⟨Real.sqrt_nonneg x, Real.mul_self_sqrt h⟩) f.n (v := [v.1, v.2]) (by simp [h1, h2])
  have e : sumSq [v.1, v.2] = v.1 ^ 2 + v.2 ^ 2 := by simp [sumSq]; ring
  rw [e, show ([v.1, v.2].length + 3) / 2 + 1 = 3 by simp] at o
  have N0 := Real.sqrt_pos.2 pos
  have NN := Real.sq_sqrt pos.le
  have W0 := Real.sqrt_nonneg (w.1 ^ 2 + w.2 ^ 2)
  have WW := Real.sq_sqrt (by positivity : 0 ≤ w.1 ^ 2 + w.2 ^ 2)
  generalize Real.sqrt (v.1 ^ 2 + v.2 ^ 2) = N at *
  generalize Real.sqrt (w.1 ^ 2 + w.2 ^ 2) = W at *
  generalize norm R Real.sqrt f.n [v.1, v.2] = n at *
  obtain ⟨n0, e1⟩ := Verif.Fp.QCen.unit_err R hp1 hu (x := v.1) N0 o
  obtain ⟨-, e2⟩ := Verif.Fp.QCen.unit_err R hp1 hu (x := v.2) N0 o
  have un : (v.1 / N) ^ 2 + (v.2 / N) ^ 2 = 1 := by rw [div_pow, div_pow, ← add_div, NN, div_self pos.ne']
  refine ⟨n, rfl, n0, ?_, ?_⟩
  · have := Verif.Fp.QCen.sum2_err R hp1 hu f.rx e1 e2 (Verif.Fp.QCen.cauchy un W0 (x := w.1) (y := w.2) (by rw [WW]))
    unfold qRotate
    dsimp only
    rw [show (8 : ℝ) / 2 ^ p = 8 * (1 / 2 ^ p) by ring, show (v.1 * w.1 + v.2 * w.2) / N = v.1 / N * w.1 + v.2 / N * w.2 by ring]
    exact this
  · have e2' : |-R.rnd (v.2 / n) - -(v.2 / N)| ≤ 5 * (1 / 2 ^ p) * |-(v.2 / N)| := by
      rw [abs_neg, neg_sub_neg, abs_sub_comm]; exact e2
    have := Verif.Fp.QCen.sum2_err R hp1 hu f.ry e2' e1 (Verif.Fp.QCen.cauchy (a := -(v.2 / N)) (b := v.1 / N) (by rw [neg_sq]; linarith) W0 (x := w.1) (y := w.2) (by rw [WW]))
    unfold qRotate
    dsimp only
    rw [show (8 : ℝ) / 2 ^ p = 8 * (1 / 2 ^ p) by ring, show (v.1 * w.2 - v.2 * w.1) / N = -(v.2 / N) * w.1 + v.1 / N * w.2 by ring]
    exact this

/-- **C151**: the rotation of the chord itself: the end comes to lie on the axis at its distance, up to eight roundings of it. Along an axis nothing is rounded. -/
theorem C151_chord (hp : 12 ≤ p) (f : QLeftFuse) {v : P2 ℝ} (h1 : IsFp p v.1) (h2 : IsFp p v.2) (h0 : v ≠ (0, 0)) :
    ∃ n, norm R Real.sqrt f.n [v.1, v.2] = n ∧ 0 < n ∧
      |(qRotate R f (R.rnd (v.1 / n), R.rnd (v.2 / n)) v).1 - Real.sqrt (v.1 ^ 2 + v.2 ^ 2)| ≤ 8 / 2 ^ p * Real.sqrt (v.1 ^ 2 + v.2 ^ 2) ∧
      |(qRotate R f (R.rnd (v.1 / n), R.rnd (v.2 / n)) v).2| ≤ 8 / 2 ^ p * Real.sqrt (v.1 ^ 2 + v.2 ^ 2) ∧
      (∀ l u, 0 < l → Axis u → v = (l * u.1, l * u.2) → n = l ∧ qRotate R f (R.rnd (v.1 / n), R.rnd (v.2 / n)) v = (l, 0)) := by
  have hp1 : 1 ≤ p := by omega
  obtain ⟨n, hn, n0, a, b⟩ := C151_rotation R hp f h1 h2 h0 v
  refine ⟨n, hn, n0, ?_, ?_, ?_⟩
  · have : (v.1 * v.1 + v.2 * v.2) / Real.sqrt (v.1 ^ 2 + v.2 ^ 2) = Real.sqrt (v.1 ^ 2 + v.2 ^ 2) := by
      rw [show v.1 * v.1 + v.2 * v.2 = v.1 ^ 2 + v.2 ^ 2 by ring, Real.div_sqrt]
    rwa [this] at a
  · rwa [show v.1 * v.2 - v.2 * v.1 = 0 by ring, zero_div, sub_zero] at b
  · rintro l u l0 hu rfl
    dsimp only at *
    have fl : IsFp p l := by
      rcases hu with rfl | rfl | rfl | rfl <;> simp only [mul_one, mul_neg, mul_zero] at h1 h2
      · exact h1
      · simpa using h1.neg
      · exact h2
      · simpa using h2.neg
    have e := norm_axis R hp1 f.n hu fl l0
    have : n = l := by rw [← hn, e]
    subst this
    refine ⟨rfl, ?_⟩
    have ua := unit_axis R hp1 hu l0
    rw [ua.1, ua.2]
    have := rotate_axis R f hu fl (isFp_zero (p := p) (K := ℝ))
    simpa using this

/-- Roots that are not marked as missing are numbers of the format. -/
theorem roots_fp {invalid a b c r0 r1 : ℝ} (hi : 1 < invalid) (hr : solveQuadratic R invalid a b c = (r0, r1)) (b0 : r0 ≤ 1) (b1 : r1 ≤ 1) : IsFp p r0 ∧ IsFp p r1 := by
  unfold solveQuadratic at hr
  dsimp only at hr
  split_ifs at hr <;> simp only [Prod.mk.injEq] at hr <;> obtain ⟨rfl, rfl⟩ := hr
  · linarith
  · linarith
  · linarith
  · exact ⟨(R.mem _).neg, R.mem _⟩
  · linarith
  · exact ⟨R.mem _, R.mem _⟩
  · exact ⟨R.mem _, R.mem _⟩

/-- **C151**, a middle node that is not over the middle of the chord: when the equation has two roots in the segment, the point is to the left exactly when its height is not between
the heights of the curve at the two roots, outside sixteen rounding errors of the height; a point at one of the computed heights is not to the left. -/
theorem C151_two (hp : 1 ≤ p) (f : QLeftFuse) {invalid limit l x2 y2 x y : ℝ} (hy : IsFp p y2) (y0 : 0 ≤ y2) {r0 r1 : ℝ}
    (hr : solveQuadratic R invalid (R.rnd (-(R.rnd (-l + R.rnd (4 * x2))) + l)) (R.rnd (-l + R.rnd (4 * x2))) (-x) = (r0, r1))
    (a0 : 0 ≤ r0) (b0 : r0 ≤ 1) (a1 : 0 ≤ r1) (b1 : r1 ≤ 1) (hi : 1 < invalid) (hl : 1 ≤ limit) :
    (min (4 * y2 * (r0 * (1 - r0))) (4 * y2 * (r1 * (1 - r1))) + 16 / 2 ^ p * y2 ≤ y →
      y ≤ max (4 * y2 * (r0 * (1 - r0))) (4 * y2 * (r1 * (1 - r1))) - 16 / 2 ^ p * y2 → qLeftAbove R f invalid limit l x2 y2 x y = false) ∧
    (y < min (4 * y2 * (r0 * (1 - r0))) (4 * y2 * (r1 * (1 - r1))) - 16 / 2 ^ p * y2 ∨
      max (4 * y2 * (r0 * (1 - r0))) (4 * y2 * (r1 * (1 - r1))) + 16 / 2 ^ p * y2 < y → qLeftAbove R f invalid limit l x2 y2 x y = true) ∧
    (y = qHeight R f (4 * y2) r0 ∨ y = qHeight R f (4 * y2) r1 → qLeftAbove R f invalid limit l x2 y2 x y = false) := by
  have h4 : IsFp p (4 * y2) := by
    obtain ⟨m, e, hm, rfl⟩ := hy
    exact ⟨m, e + 2, hm, by rw [zpow_add₀ (by norm_num)]; norm_num; ring⟩
  obtain ⟨h0, h1⟩ := roots_fp R hi hr b0 b1
  have e0 := height_err R hp f h4 (by linarith) a0 b0
  have e1 := height_err R hp f h4 (by linarith) a1 b1
  rw [R.id h0] at e0
  rw [R.id h1] at e1
  rw [show 4 * ((1 : ℝ) / 2 ^ p) * (4 * y2) = 16 / 2 ^ p * y2 by ring, abs_le] at e0 e1
  have key : qLeftAbove R f invalid limit l x2 y2 x y =
      !(decide (min (qHeight R f (4 * y2) r0) (qHeight R f (4 * y2) r1) ≤ y) && decide (y ≤ max (qHeight R f (4 * y2) r0) (qHeight R f (4 * y2) r1))) := by
    unfold qLeftAbove
    dsimp only
    rw [hr, R.id h4, if_neg (by dsimp only; linarith)]
  rw [key]
  generalize qHeight R f (4 * y2) r0 = s0 at *
  generalize qHeight R f (4 * y2) r1 = s1 at *
  generalize 4 * y2 * (r0 * (1 - r0)) = t0 at *
  generalize 4 * y2 * (r1 * (1 - r1)) = t1 at *
  generalize 16 / 2 ^ p * y2 = E at *
  refine ⟨fun u v => ?_, fun u => ?_, fun u => ?_⟩
  · have c1 : min s0 s1 ≤ y := by
      rcases le_total t0 t1 with c | c
      · rw [min_eq_left c] at u; exact (min_le_left _ _).trans (by linarith)
      · rw [min_eq_right c] at u; exact (min_le_right _ _).trans (by linarith)
    have c2 : y ≤ max s0 s1 := by
      rcases le_total t0 t1 with c | c
      · rw [max_eq_right c] at v; exact le_trans (by linarith) (le_max_right s0 s1)
      · rw [max_eq_left c] at v; exact le_trans (by linarith) (le_max_left s0 s1)
    simp [c1, c2]
  · rcases u with u | u
    · have c : ¬min s0 s1 ≤ y := by
        rw [not_le]
        have := min_le_left t0 t1
        have := min_le_right t0 t1
        exact lt_min (by linarith) (by linarith)
      rw [decide_eq_false c]
      rfl
    · have c : ¬y ≤ max s0 s1 := by
        rw [not_le]
        have := le_max_left t0 t1
        have := le_max_right t0 t1
        exact max_lt (by linarith) (by linarith)
      rw [decide_eq_false c]
      simp
  · rcases u with rfl | rfl <;> simp

/-! ### Gaps and overlaps -/

theorem rnd_val {e v : ℝ} (q r : ℚ) (he : e = q) (hv : v = r) (h : (ieee ℚ 53 (by norm_num)).rnd q = r) : (ieee ℝ 53 (by norm_num)).rnd e = v := by
  rw [he, hv, rnd_cast, h]

/-- **C151**, a gap: in double precision, without contraction of the product in the height of the curve, a point of the grid is on the left of a segment neither in one direction nor in the
other, so that it is in none of two cells that have this edge in common. -/
theorem C151_leak_fails (f : QLeftFuse) (hf : f.y = false) {eps2 invalid limit : ℝ} (hi : limit < invalid) (he : eps2 ≤ 1 / 100) :
    ∃ q0 q1 q2 pt : P2 ℝ, (∀ q ∈ [q0, q1, q2, pt], OnGrid ℝ 53 (-52) q) ∧
      qIsLeft (ieee ℝ 53 (by norm_num)) f eps2 invalid limit q0 q1 q2 pt = some false ∧
      qIsLeft (ieee ℝ 53 (by norm_num)) f eps2 invalid limit q1 q0 q2 pt = some false := by
  obtain ⟨R, hR⟩ : ∃ R, R = ieee ℝ 53 (by norm_num) := ⟨_, rfl⟩
  have V : ∀ {e : ℝ} (q r : ℚ), e = q → ∀ {v : ℝ}, v = r → (ieee ℚ 53 (by norm_num)).rnd q = r → R.rnd e = v := fun q r he v hv h => hR ▸ rnd_val q r he hv h
  have a : qHeight R f (698512004681605 / 562949953421312) (966791 / 1048576) = (3214846775505611 / 36028797018963968) := by
    unfold qHeight prodIf
    rw [hf, if_neg (by simp), show R.rnd ((966791 / 1048576) * -(698512004681605 / 562949953421312)) = (-(644030684965261 / 562949953421312)) from V ((966791 / 1048576) * -(698512004681605 / 562949953421312)) (-(644030684965261 / 562949953421312)) (by push_cast; norm_num) (by push_cast; norm_num) (by decide +kernel),
      show R.rnd ((698512004681605 / 562949953421312) + (-(644030684965261 / 562949953421312))) = (6810164964543 / 70368744177664) from V ((698512004681605 / 562949953421312) + (-(644030684965261 / 562949953421312))) (6810164964543 / 70368744177664) (by push_cast; norm_num) (by push_cast; norm_num) (by decide +kernel),
      show R.rnd ((966791 / 1048576) * (6810164964543 / 70368744177664)) = (3214846775505611 / 36028797018963968) from V ((966791 / 1048576) * (6810164964543 / 70368744177664)) (3214846775505611 / 36028797018963968) (by push_cast; norm_num) (by push_cast; norm_num) (by decide +kernel)]
  have b : qHeight R f (698512004681605 / 562949953421312) (81785 / 1048576) = (6429693551011215 / 72057594037927936) := by
    unfold qHeight prodIf
    rw [hf, if_neg (by simp), show R.rnd ((81785 / 1048576) * -(698512004681605 / 562949953421312)) = (-(6973608923692025 / 72057594037927936)) from V ((81785 / 1048576) * -(698512004681605 / 562949953421312)) (-(6973608923692025 / 72057594037927936)) (by push_cast; norm_num) (by push_cast; norm_num) (by decide +kernel),
      show R.rnd ((698512004681605 / 562949953421312) + (-(6973608923692025 / 72057594037927936))) = (644030684965261 / 562949953421312) from V ((698512004681605 / 562949953421312) + (-(6973608923692025 / 72057594037927936))) (644030684965261 / 562949953421312) (by push_cast; norm_num) (by push_cast; norm_num) (by decide +kernel),
      show R.rnd ((81785 / 1048576) * (644030684965261 / 562949953421312)) = (6429693551011215 / 72057594037927936) from V ((81785 / 1048576) * (644030684965261 / 562949953421312)) (6429693551011215 / 72057594037927936) (by push_cast; norm_num) (by push_cast; norm_num) (by decide +kernel)]
  have x1 : R.rnd ((966791 / 1048576) / 1) = (966791 / 1048576) := V (966791 / 1048576) (966791 / 1048576) (by push_cast; norm_num) (by push_cast; norm_num) (by decide +kernel)
  have x2 : R.rnd ((81785 / 1048576) / 1) = (81785 / 1048576) := V (81785 / 1048576) (81785 / 1048576) (by push_cast; norm_num) (by push_cast; norm_num) (by decide +kernel)
  have b4 : (4 : ℝ) * (698512004681605 / 2251799813685248) = (698512004681605 / 562949953421312) := by norm_num
  have g0 : OnGrid ℝ 53 (-52) ((0 : ℝ), (0 : ℝ)) := ⟨0, 0, by norm_num, by norm_num, by norm_num⟩
  have g1 : OnGrid ℝ 53 (-52) (place (0, 0) (1, 0) 1 0) := ⟨4503599627370496, 0, by norm_num, by norm_num, by unfold place; norm_num⟩
  have g2 : OnGrid ℝ 53 (-52) (place (0, 0) (1, 0) (1 / 2) (698512004681605 / 2251799813685248)) := ⟨2251799813685248, 1397024009363210, by norm_num, by norm_num, by unfold place; norm_num⟩
  have g3 : OnGrid ℝ 53 (-52) (place (0, 0) (1, 0) (1 / 2) (2 * (698512004681605 / 2251799813685248))) := ⟨2251799813685248, 2794048018726420, by norm_num, by norm_num, by unfold place; norm_num⟩
  have g4 : OnGrid ℝ 53 (-52) (place (0, 0) (1, 0) (966791 / 1048576) (401855846938201 / 4503599627370496)) := ⟨4152335727067136, 401855846938201, by norm_num, by norm_num, by unfold place; norm_num⟩
  have k1 : place (place (0, 0) (1, 0) 1 0) (-1, 0) 1 0 = (0, 0) := by unfold place; norm_num
  have k2 : place (place (0, 0) (1, 0) 1 0) (-1, 0) (1 / 2) (-(698512004681605 / 2251799813685248)) = place (0, 0) (1, 0) (1 / 2) (698512004681605 / 2251799813685248) := by unfold place; norm_num
  have k3 : place (place (0, 0) (1, 0) 1 0) (-1, 0) (1 / 2) (2 * -(698512004681605 / 2251799813685248)) = place (0, 0) (1, 0) (1 / 2) (2 * (698512004681605 / 2251799813685248)) := by unfold place; norm_num
  have k4 : place (place (0, 0) (1, 0) 1 0) (-1, 0) (81785 / 1048576) (-(401855846938201 / 4503599627370496)) = place (0, 0) (1, 0) (966791 / 1048576) (401855846938201 / 4503599627370496) := by unfold place; norm_num
  have fh := (place_fp R (by norm_num) (Or.inl rfl) g0 g2).2.1
  have fl := (place_fp R (by norm_num) (Or.inl rfl) g0 g1).1
  have s1 := (frame R (l := 1) (h := (698512004681605 / 2251799813685248)) (x := (966791 / 1048576)) (y := (401855846938201 / 4503599627370496)) (by norm_num) (Or.inl rfl) (by norm_num) (by norm_num) g0 g1 g2 g3 g4 f (eps2 := eps2)
    (invalid := invalid) (limit := limit) (by linarith)).1 (by unfold Inside; norm_num)
  have s2 := (frame R (o := place (0, 0) (1, 0) 1 0) (u := (-1, 0)) (l := 1) (h := -(698512004681605 / 2251799813685248)) (x := (81785 / 1048576)) (y := -(401855846938201 / 4503599627370496)) (by norm_num) (Or.inr (Or.inl rfl)) (by norm_num)
    (by norm_num) g1 (by rw [k1]; exact g0) (by rw [k2]; exact g2) (by rw [k3]; exact g3) (by rw [k4]; exact g4) f (eps2 := eps2) (invalid := invalid) (limit := limit)
    (by linarith)).1 (by unfold Inside; norm_num)
  rw [k1, k2, k4] at s2
  have t1 := (turned_eq R (l := 1) (h := (698512004681605 / 2251799813685248)) (x := (966791 / 1048576)) (y := (401855846938201 / 4503599627370496)) (by norm_num) f hi fl (by norm_num) fh (by norm_num) (by norm_num) (by norm_num) (by norm_num)
    (by norm_num)).1
  have t2 := (turned_eq R (l := 1) (h := (698512004681605 / 2251799813685248)) (x := (81785 / 1048576)) (y := (401855846938201 / 4503599627370496)) (by norm_num) f hi fl (by norm_num) fh (by norm_num) (by norm_num) (by norm_num) (by norm_num)
    (by norm_num)).2
  rw [b4, x1, a] at t1
  rw [b4, x2, b] at t2
  refine ⟨(0, 0), place (0, 0) (1, 0) 1 0, place (0, 0) (1, 0) (1 / 2) (698512004681605 / 2251799813685248), place (0, 0) (1, 0) (966791 / 1048576) (401855846938201 / 4503599627370496), by
    simp only [List.mem_cons, List.not_mem_nil, or_false]
    rintro q (rfl | rfl | rfl | rfl)
    exacts [g0, g1, g2, g4], ?_, ?_⟩
  · rw [← hR, s1, t1]
    exact congrArg some (decide_eq_false (by norm_num))
  · rw [← hR, s2, t2]
    exact congrArg (fun z => some (!z)) (decide_eq_true (by norm_num))

/-- **C151**, an overlap: another point is on the left of a segment in both directions. -/
theorem C151_overlap_fails (f : QLeftFuse) (hf : f.y = false) {eps2 invalid limit : ℝ} (hi : limit < invalid) (he : eps2 ≤ 1 / 100) :
    ∃ q0 q1 q2 pt : P2 ℝ, (∀ q ∈ [q0, q1, q2, pt], OnGrid ℝ 53 (-52) q) ∧
      qIsLeft (ieee ℝ 53 (by norm_num)) f eps2 invalid limit q0 q1 q2 pt = some true ∧
      qIsLeft (ieee ℝ 53 (by norm_num)) f eps2 invalid limit q1 q0 q2 pt = some true := by
  obtain ⟨R, hR⟩ : ∃ R, R = ieee ℝ 53 (by norm_num) := ⟨_, rfl⟩
  have V : ∀ {e : ℝ} (q r : ℚ), e = q → ∀ {v : ℝ}, v = r → (ieee ℚ 53 (by norm_num)).rnd q = r → R.rnd e = v := fun q r he v hv h => hR ▸ rnd_val q r he hv h
  have a : qHeight R f (934285787197835 / 1125899906842624) (2895105 / 134217728) = (5047819414698495 / 288230376151711744) := by
    unfold qHeight prodIf
    rw [hf, if_neg (by simp), show R.rnd ((2895105 / 134217728) * -(934285787197835 / 1125899906842624)) = (-(2579551176019085 / 144115188075855872)) from V ((2895105 / 134217728) * -(934285787197835 / 1125899906842624)) (-(2579551176019085 / 144115188075855872)) (by push_cast; norm_num) (by push_cast; norm_num) (by decide +kernel),
      show R.rnd ((934285787197835 / 1125899906842624) + (-(2579551176019085 / 144115188075855872))) = (7313064349081487 / 9007199254740992) from V ((934285787197835 / 1125899906842624) + (-(2579551176019085 / 144115188075855872))) (7313064349081487 / 9007199254740992) (by push_cast; norm_num) (by push_cast; norm_num) (by decide +kernel),
      show R.rnd ((2895105 / 134217728) * (7313064349081487 / 9007199254740992)) = (5047819414698495 / 288230376151711744) from V ((2895105 / 134217728) * (7313064349081487 / 9007199254740992)) (5047819414698495 / 288230376151711744) (by push_cast; norm_num) (by push_cast; norm_num) (by decide +kernel)]
  have b : qHeight R f (934285787197835 / 1125899906842624) (131322623 / 134217728) = (5047819414698501 / 288230376151711744) := by
    unfold qHeight prodIf
    rw [hf, if_neg (by simp), show R.rnd ((131322623 / 134217728) * -(934285787197835 / 1125899906842624)) = (-(7313064349081487 / 9007199254740992)) from V ((131322623 / 134217728) * -(934285787197835 / 1125899906842624)) (-(7313064349081487 / 9007199254740992)) (by push_cast; norm_num) (by push_cast; norm_num) (by decide +kernel),
      show R.rnd ((934285787197835 / 1125899906842624) + (-(7313064349081487 / 9007199254740992))) = (161221948501193 / 9007199254740992) from V ((934285787197835 / 1125899906842624) + (-(7313064349081487 / 9007199254740992))) (161221948501193 / 9007199254740992) (by push_cast; norm_num) (by push_cast; norm_num) (by decide +kernel),
      show R.rnd ((131322623 / 134217728) * (161221948501193 / 9007199254740992)) = (5047819414698501 / 288230376151711744) from V ((131322623 / 134217728) * (161221948501193 / 9007199254740992)) (5047819414698501 / 288230376151711744) (by push_cast; norm_num) (by push_cast; norm_num) (by decide +kernel)]
  have x1 : R.rnd ((2895105 / 134217728) / 1) = (2895105 / 134217728) := V (2895105 / 134217728) (2895105 / 134217728) (by push_cast; norm_num) (by push_cast; norm_num) (by decide +kernel)
  have x2 : R.rnd ((131322623 / 134217728) / 1) = (131322623 / 134217728) := V (131322623 / 134217728) (131322623 / 134217728) (by push_cast; norm_num) (by push_cast; norm_num) (by decide +kernel)
  have b4 : (4 : ℝ) * (934285787197835 / 4503599627370496) = (934285787197835 / 1125899906842624) := by norm_num
  have g0 : OnGrid ℝ 53 (-52) ((0 : ℝ), (0 : ℝ)) := ⟨0, 0, by norm_num, by norm_num, by norm_num⟩
  have g1 : OnGrid ℝ 53 (-52) (place (0, 0) (1, 0) 1 0) := ⟨4503599627370496, 0, by norm_num, by norm_num, by unfold place; norm_num⟩
  have g2 : OnGrid ℝ 53 (-52) (place (0, 0) (1, 0) (1 / 2) (934285787197835 / 4503599627370496)) := ⟨2251799813685248, 934285787197835, by norm_num, by norm_num, by unfold place; norm_num⟩
  have g3 : OnGrid ℝ 53 (-52) (place (0, 0) (1, 0) (1 / 2) (2 * (934285787197835 / 4503599627370496))) := ⟨2251799813685248, 1868571574395670, by norm_num, by norm_num, by unfold place; norm_num⟩
  have g4 : OnGrid ℝ 53 (-52) (place (0, 0) (1, 0) (2895105 / 134217728) (9859022294333 / 562949953421312)) := ⟨97143603855360, 78872178354664, by norm_num, by norm_num, by unfold place; norm_num⟩
  have k1 : place (place (0, 0) (1, 0) 1 0) (-1, 0) 1 0 = (0, 0) := by unfold place; norm_num
  have k2 : place (place (0, 0) (1, 0) 1 0) (-1, 0) (1 / 2) (-(934285787197835 / 4503599627370496)) = place (0, 0) (1, 0) (1 / 2) (934285787197835 / 4503599627370496) := by unfold place; norm_num
  have k3 : place (place (0, 0) (1, 0) 1 0) (-1, 0) (1 / 2) (2 * -(934285787197835 / 4503599627370496)) = place (0, 0) (1, 0) (1 / 2) (2 * (934285787197835 / 4503599627370496)) := by unfold place; norm_num
  have k4 : place (place (0, 0) (1, 0) 1 0) (-1, 0) (131322623 / 134217728) (-(9859022294333 / 562949953421312)) = place (0, 0) (1, 0) (2895105 / 134217728) (9859022294333 / 562949953421312) := by unfold place; norm_num
  have fh := (place_fp R (by norm_num) (Or.inl rfl) g0 g2).2.1
  have fl := (place_fp R (by norm_num) (Or.inl rfl) g0 g1).1
  have s1 := (frame R (l := 1) (h := (934285787197835 / 4503599627370496)) (x := (2895105 / 134217728)) (y := (9859022294333 / 562949953421312)) (by norm_num) (Or.inl rfl) (by norm_num) (by norm_num) g0 g1 g2 g3 g4 f (eps2 := eps2)
    (invalid := invalid) (limit := limit) (by linarith)).1 (by unfold Inside; norm_num)
  have s2 := (frame R (o := place (0, 0) (1, 0) 1 0) (u := (-1, 0)) (l := 1) (h := -(934285787197835 / 4503599627370496)) (x := (131322623 / 134217728)) (y := -(9859022294333 / 562949953421312)) (by norm_num) (Or.inr (Or.inl rfl)) (by norm_num)
    (by norm_num) g1 (by rw [k1]; exact g0) (by rw [k2]; exact g2) (by rw [k3]; exact g3) (by rw [k4]; exact g4) f (eps2 := eps2) (invalid := invalid) (limit := limit)
    (by linarith)).1 (by unfold Inside; norm_num)
  rw [k1, k2, k4] at s2
  have t1 := (turned_eq R (l := 1) (h := (934285787197835 / 4503599627370496)) (x := (2895105 / 134217728)) (y := (9859022294333 / 562949953421312)) (by norm_num) f hi fl (by norm_num) fh (by norm_num) (by norm_num) (by norm_num) (by norm_num)
    (by norm_num)).1
  have t2 := (turned_eq R (l := 1) (h := (934285787197835 / 4503599627370496)) (x := (131322623 / 134217728)) (y := (9859022294333 / 562949953421312)) (by norm_num) f hi fl (by norm_num) fh (by norm_num) (by norm_num) (by norm_num) (by norm_num)
    (by norm_num)).2
  rw [b4, x1, a] at t1
  rw [b4, x2, b] at t2
  refine ⟨(0, 0), place (0, 0) (1, 0) 1 0, place (0, 0) (1, 0) (1 / 2) (934285787197835 / 4503599627370496), place (0, 0) (1, 0) (2895105 / 134217728) (9859022294333 / 562949953421312), by
    simp only [List.mem_cons, List.not_mem_nil, or_false]
    rintro q (rfl | rfl | rfl | rfl)
    exacts [g0, g1, g2, g4], ?_, ?_⟩
  · rw [← hR, s1, t1]
    exact congrArg some (decide_eq_true (by norm_num))
  · rw [← hR, s2, t2]
    exact congrArg (fun z => some (!z)) (decide_eq_false (by norm_num))

/-! ### The hypotheses are met -/

/-- An arc over the chord from (3, 1) to (3, 5) that bulges by one to the left, in double precision; the point (1, 2) is to the left of it and the point (2.75, 3) is not. -/
example (f : QLeftFuse) :
    qIsLeft (ieee ℝ 53 (by norm_num)) f (1 / 10 ^ 14) 1 0 (3, 1) (3, 5) (2, 3) (1, 2) = some true ∧
    qIsLeft (ieee ℝ 53 (by norm_num)) f (1 / 10 ^ 14) 1 0 (3, 1) (3, 5) (2, 3) (11 / 4, 3) = some false := by
  have e : ∀ a b : ℝ, place (3, 1) (0, 1) a b = (3 - b, 1 + a) := fun a b => by unfold place; simp only [Prod.mk.injEq]; constructor <;> ring
  have g : ∀ a b c d : ℝ, ∀ m n : ℤ, c = m / 4 → d = n / 4 → |m| ≤ 100 → |n| ≤ 100 → place (3, 1) (0, 1) a b = (c, d) → OnGrid ℝ 53 (-2) (place (3, 1) (0, 1) a b) := by
    intro a b c d m n h1 h2 h3 h4 h5
    refine ⟨m, n, h3.trans (by norm_num), h4.trans (by norm_num), ?_⟩
    rw [h5, h1, h2]
    norm_num
    constructor <;> ring
  have g0 : OnGrid ℝ 53 (-2) ((3 : ℝ), (1 : ℝ)) := ⟨12, 4, by norm_num, by norm_num, by norm_num⟩
  have g1 := g 4 0 3 5 12 20 (by norm_num) (by norm_num) (by norm_num) (by norm_num) (by rw [e]; norm_num)
  have g2 := g (4 / 2) 1 2 3 8 12 (by norm_num) (by norm_num) (by norm_num) (by norm_num) (by rw [e]; norm_num)
  have g3 := g (4 / 2) (2 * 1) 1 3 4 12 (by norm_num) (by norm_num) (by norm_num) (by norm_num) (by rw [e]; norm_num)
  have g4 := g 1 2 1 2 4 8 (by norm_num) (by norm_num) (by norm_num) (by norm_num) (by rw [e]; norm_num)
  have g5 := g 2 (1 / 4) (11 / 4) 3 11 12 (by norm_num) (by norm_num) (by norm_num) (by norm_num) (by rw [e]; norm_num)
  have s1 := (C151_side_partial (ieee ℝ 53 (by norm_num)) (by norm_num) (Or.inr (Or.inr (Or.inl rfl))) (by norm_num) (by norm_num) g0 g1 g2 g3 g4 f
    (eps2 := 1 / 10 ^ 14) (invalid := 1) (limit := 0) (by norm_num) (by norm_num)).1 (by norm_num) (by norm_num) (by unfold arc; norm_num)
  have s2 := (C151_side_partial (ieee ℝ 53 (by norm_num)) (by norm_num) (Or.inr (Or.inr (Or.inl rfl))) (by norm_num) (by norm_num) g0 g1 g2 g3 g5 f
    (eps2 := 1 / 10 ^ 14) (invalid := 1) (limit := 0) (by norm_num) (by norm_num)).2.1 (by norm_num) (by norm_num) (by unfold arc; norm_num)
  simp only [e] at s1 s2
  norm_num at s1 s2 ⊢
  exact ⟨s1, s2⟩

/-- The chord from the origin to (3, 4) is five long. -/
example (f : QLeftFuse) : ∃ n, norm (ieee ℝ 53 (by norm_num)) Real.sqrt f.n [(3 : ℝ), 4] = n ∧ 0 < n := by
  have h3 : IsFp (K := ℝ) 53 3 := ⟨3, 0, by norm_num, by norm_num⟩
  have h4 : IsFp (K := ℝ) 53 4 := ⟨4, 0, by norm_num, by norm_num⟩
  obtain ⟨n, a, b, -⟩ := C151_rotation (ieee ℝ 53 (by norm_num)) (by norm_num) f (v := (3, 4)) h3 h4 (by norm_num) (1, 0)
  exact ⟨n, a, b⟩

/-- The chord from 0 to 4, the middle node over 0 at height 1: left of the chord there are two roots, and between the heights 7/16 and 15/16 a point is under the curve. -/
example (f : QLeftFuse) : qLeftAbove (ieee ℝ 53 (by norm_num)) f (10 ^ 16) (10 ^ 15) 4 0 1 (-3 / 8) (5 / 8) = false ∧
    qLeftAbove (ieee ℝ 53 (by norm_num)) f (10 ^ 16) (10 ^ 15) 4 0 1 (-3 / 8) (1 / 8) = true := by
  obtain ⟨R, hR⟩ : ∃ R, R = ieee ℝ 53 (by norm_num) := ⟨_, rfl⟩
  rw [← hR]
  have I : ∀ (m : ℤ) (e : ℤ) {v : ℝ}, |m| ≤ 100 → v = m * 2 ^ e → R.rnd v = v := fun m e v hm hv => R.id ⟨m, e, by omega, hv⟩
  have hr : solveQuadratic R (10 ^ 16) (R.rnd (-(R.rnd (-4 + R.rnd (4 * 0))) + 4)) (R.rnd (-4 + R.rnd (4 * 0))) (-(-3 / 8)) = (1 / 8, 3 / 8) := by
    rw [mul_zero, R.zero, add_zero, I (v := -4) (-4) 0 (by norm_num) (by norm_num), show -(-4 : ℝ) + 4 = 8 by norm_num, I (v := 8) 8 0 (by norm_num) (by norm_num), show -(-3 / 8 : ℝ) = 3 / 8 by norm_num]
    have d : disc R 8 (-4) (3 / 8) = 4 := by
      unfold disc fma
      dsimp only
      rw [show (4 * 8 : ℝ) = 32 by norm_num, I (v := 32) 32 0 (by norm_num) (by norm_num), show (32 * (3 / 8) : ℝ) = 12 by norm_num, I (v := 12) 12 0 (by norm_num) (by norm_num),
        show (-4 * -4 + -12 : ℝ) = 4 by norm_num, I (v := 4) 4 0 (by norm_num) (by norm_num), show (-(3 / 8) * 32 + 12 : ℝ) = 0 by norm_num, R.zero, add_zero, I (v := 4) 4 0 (by norm_num) (by norm_num)]
    have s : fsqrt R 4 = 2 := by
      unfold fsqrt
      rw [show (4 : ℝ) = 2 ^ 2 by norm_num, Real.sqrt_sq (by norm_num), I (v := 2) 2 0 (by norm_num) (by norm_num)]
    have q : quadQ R (-4) 4 = 3 := by
      unfold quadQ
      rw [s, show copysign (2 : ℝ) (-4) = -2 by unfold copysign; norm_num, show (-4 + -2 : ℝ) = -6 by norm_num, I (v := -6) (-6) 0 (by norm_num) (by norm_num),
        show (- -6 / 2 : ℝ) = 3 by norm_num, I (v := 3) 3 0 (by norm_num) (by norm_num)]
    unfold solveQuadratic
    dsimp only
    rw [d, q, if_neg (by norm_num), if_neg (by norm_num), if_neg (by norm_num), I (v := 3 / 8) 3 (-3) (by norm_num) (by norm_num), show (3 / 8 / 3 : ℝ) = 1 / 8 by norm_num,
      I (v := 1 / 8) 1 (-3) (by norm_num) (by norm_num), if_pos (by norm_num)]
  have h1 : IsFp (K := ℝ) 53 1 := ⟨1, 0, by norm_num, by norm_num⟩
  constructor
  · refine (C151_two R (by norm_num) f h1 (by norm_num) hr (by norm_num) (by norm_num) (by norm_num) (by norm_num) (by norm_num) (by norm_num)).1 ?_ ?_
    · rw [min_eq_left (by norm_num)]; norm_num
    · rw [max_eq_right (by norm_num)]; norm_num
  · refine (C151_two R (by norm_num) f h1 (by norm_num) hr (by norm_num) (by norm_num) (by norm_num) (by norm_num) (by norm_num) (by norm_num)).2.1 (Or.inl ?_)
    rw [min_eq_left (by norm_num)]; norm_num

end Verif.FpQLeftP
