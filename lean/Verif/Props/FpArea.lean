import Verif.Lemmas.FpArea
import Mathlib.Data.Rat.Floor

/-! C130: areas and centroids in floating-point arithmetic. -/

set_option linter.unusedSectionVars false

namespace Verif.FpAreaP

open Verif.Fp

variable {K : Type} [Field K] [LinearOrder K] [IsStrictOrderedRing K] [FloorRing K] {p : ℕ} (R : Rounding K p)

/-- Twice the exact signed area of a triangle. -/
def turn (a b c : P2 K) : K := (b.1 - a.1) * (c.2 - a.2) - (b.2 - a.2) * (c.1 - a.1)

/-- The vector from `a` to `b` is representable. -/
def Exact (p : ℕ) (a b : P2 K) : Prop := IsFp p (b.1 - a.1) ∧ IsFp p (b.2 - a.2)

/-- Points of a common grid of the multiples of `2 ^ k`, no further than `2 ^ (p - 1)` steps from the axes, have representable differences. -/
theorem C130_grid (hp : 1 ≤ p) {k : ℤ} {m n m' n' : ℤ} (h1 : |m| ≤ 2 ^ (p - 1)) (h2 : |n| ≤ 2 ^ (p - 1)) (h3 : |m'| ≤ 2 ^ (p - 1)) (h4 : |n'| ≤ 2 ^ (p - 1)) :
    Exact p ((m : K) * 2 ^ k, (n : K) * 2 ^ k) ((m' : K) * 2 ^ k, (n' : K) * 2 ^ k) :=
  ⟨grid_diff hp h3 h1, grid_diff hp h4 h2⟩

theorem sub_exact {a b : P2 K} (h : Exact p a b) : sub R b a = (b.1 - a.1, b.2 - a.2) := by
  unfold sub
  rw [R.id h.1, R.id h.2]

theorem half_error {x y e : K} (h : |x - y| ≤ e * |y|) : |x / 2 - y / 2| ≤ e * |y / 2| := by
  rw [← sub_div, abs_div, abs_div, ← mul_div_assoc]
  exact div_le_div_of_nonneg_right h (abs_nonneg _)

/-- The area of a triangle is not negative exactly if `isCCW` says so, whatever the points. -/
theorem C130_triangle_ccw (a b c : P2 K) : triIsCCW R a b c = true ↔ 0 ≤ triArea R a b c := by
  unfold triIsCCW triArea areCCW
  rw [decide_eq_true_iff, rnd_half R (cross_mem R _ _)]
  constructor <;> intro h <;> linarith

/-- The area of a triangle with representable edges from its first point has the exact sign and a relative error of `3 u + 2 u²`. -/
theorem C130_triangle (hp : 2 ≤ p) {a b c : P2 K} (h1 : Exact p a b) (h2 : Exact p a c) :
    (0 < triArea R a b c ↔ 0 < turn a b c) ∧ (triArea R a b c = 0 ↔ turn a b c = 0) ∧
    |triArea R a b c - turn a b c / 2| ≤ (3 / 2 ^ p + 2 / 2 ^ (2 * p)) * |turn a b c / 2| := by
  unfold triArea
  rw [rnd_half R (cross_mem R _ _), sub_exact R h1, sub_exact R h2]
  have e := det_error R (by omega) h1.1 h1.2 h2.1 h2.2
  have s := det_sign R hp h1.1 h1.2 h2.1 h2.2
  unfold cross turn
  refine ⟨?_, ?_, half_error e⟩
  · rw [div_pos_iff_of_pos_right (by norm_num), s.1, sub_pos]
  · rw [div_eq_zero_iff, or_iff_left (by norm_num), s.2.1, sub_eq_zero]

/-- The area of a triangle does not change when the triangle is moved, to the last digit. -/
theorem C130_translate (a b c v : P2 K) :
    triArea R (a.1 + v.1, a.2 + v.2) (b.1 + v.1, b.2 + v.2) (c.1 + v.1, c.2 + v.2) = triArea R a b c := by
  unfold triArea sub
  simp only [add_sub_add_right_eq_sub]

/-- The area of a quadrilateral with representable diagonals has the sign and, up to a relative error of `3 u + 2 u²`, the value of the sum of the exact areas of its two triangles. -/
theorem C130_quad (hp : 2 ≤ p) {a b c d : P2 K} (h1 : Exact p a c) (h2 : Exact p b d) :
    (0 < quadArea R a b c d ↔ 0 < turn a b c + turn a c d) ∧ (quadArea R a b c d = 0 ↔ turn a b c + turn a c d = 0) ∧
    |quadArea R a b c d - (turn a b c + turn a c d) / 2| ≤ (3 / 2 ^ p + 2 / 2 ^ (2 * p)) * |(turn a b c + turn a c d) / 2| := by
  have k : turn a b c + turn a c d = (c.1 - a.1) * (d.2 - b.2) - (c.2 - a.2) * (d.1 - b.1) := by unfold turn; ring
  unfold quadArea
  rw [rnd_half R (cross_mem R _ _), sub_exact R h1, sub_exact R h2, k]
  have e := det_error R (by omega) h1.1 h1.2 h2.1 h2.2
  have s := det_sign R hp h1.1 h1.2 h2.1 h2.2
  unfold cross
  refine ⟨?_, ?_, half_error e⟩
  · rw [div_pos_iff_of_pos_right (by norm_num), s.1, sub_pos]
  · rw [div_eq_zero_iff, or_iff_left (by norm_num), s.2.1, sub_eq_zero]

/-- `isConvex` is exact for representable edges and diagonals, and the area of a convex quadrilateral is not negative. -/
theorem C130_convex (hp : 2 ≤ p) {a b c d : P2 K} (hab : Exact p a b) (hac : Exact p a c) (hbc : Exact p b c) (hbd : Exact p b d) (hcd : Exact p c d) (hda : Exact p d a) :
    (quadIsConvex R a b c d = true ↔ 0 ≤ turn a b c ∧ 0 ≤ turn b c d ∧ 0 ≤ turn c d a ∧ 0 ≤ turn d a b) ∧ (quadIsConvex R a b c d = true → 0 ≤ quadArea R a b c d) := by
  have neg : ∀ {x y : P2 K}, Exact p x y → Exact p y x := fun {x y} h => ⟨by rw [← neg_sub]; exact h.1.neg, by rw [← neg_sub]; exact h.2.neg⟩
  have q : ∀ {x y z : P2 K}, Exact p x y → Exact p x z → (areCCW R x y z = true ↔ 0 ≤ turn x y z) := fun h1 h2 => areCCW_exact R hp h1.1 h1.2 h2.1 h2.2
  have e : quadIsConvex R a b c d = true ↔ 0 ≤ turn a b c ∧ 0 ≤ turn b c d ∧ 0 ≤ turn c d a ∧ 0 ≤ turn d a b := by
    unfold quadIsConvex
    rw [Bool.and_eq_true, Bool.and_eq_true, Bool.and_eq_true, q hab hac, q hbc hbd, q hcd (neg hac), q hda (neg hbd), and_assoc, and_assoc]
  refine ⟨e, fun h => ?_⟩
  obtain ⟨h1, _, h3, _⟩ := e.1 h
  have k := C130_quad R hp hac hbd
  have : turn c d a = turn a c d := by unfold turn; ring
  rw [this] at h3
  rcases (add_nonneg h1 h3).lt_or_eq with g | g
  · exact (k.1.2 g).le
  · exact (k.2.1.2 g.symm).ge

/-- The centroid of a triangle, coordinate by coordinate: an error of three roundings of the mean magnitude. -/
theorem C130_triangle_centroid (hp : 1 ≤ p) (a b c : K) :
    |triCentroid R a b c - (a + b + c) / 3| ≤ ((1 + 1 / 2 ^ p) ^ 3 - 1) * ((|a| + |b| + |c|) / 3) := by
  have s1 := term_step R hp (e := 0) (t := 0) le_rfl (acc := a) (acc' := a) (A := |a|) (x := b) (x' := b) (by simp) le_rfl (by simp)
  have s2 := term_step R hp (e := (1 + 1 / 2 ^ p) * (1 + 0) - 1) (t := 0) (by have := unit_nonneg (K := K) p; linarith) s1 (abs_add_le a b) (x := c) (x' := c) (by simp)
  unfold triCentroid
  generalize R.rnd (R.rnd (a + b) + c) = S at *
  have r := rel_u R hp (S / 3)
  have u0 := unit_nonneg (K := K) p
  generalize (1 : K) / 2 ^ p = u at *
  have A0 : |a + b + c| ≤ |a| + |b| + |c| := abs_add_three a b c
  generalize |a| + |b| + |c| = A at *
  have g : |S / 3 - (a + b + c) / 3| ≤ ((1 + u) ^ 2 - 1) * (A / 3) := by
    rw [← sub_div, abs_div, abs_of_pos (by norm_num : (0 : K) < 3), ← mul_div_assoc]
    refine div_le_div_of_nonneg_right ?_ (by norm_num)
    have : (1 + u) * (1 + ((1 + u) * (1 + 0) - 1)) - 1 = (1 + u) ^ 2 - 1 := by ring
    rwa [this] at s2
  have m : |S / 3| ≤ (1 + u) ^ 2 * (A / 3) := by
    have k := abs_sub_abs_le_abs_sub (S / 3) ((a + b + c) / 3)
    have k2 : |(a + b + c) / 3| ≤ A / 3 := by
      rw [abs_div, abs_of_pos (by norm_num : (0 : K) < 3)]
      exact div_le_div_of_nonneg_right A0 (by norm_num)
    linarith
  have t := abs_sub_le (R.rnd (S / 3)) (S / 3) ((a + b + c) / 3)
  have := mul_le_mul_of_nonneg_left m u0
  have e : ((1 + u) ^ 3 - 1) * (A / 3) = u * ((1 + u) ^ 2 * (A / 3)) + ((1 + u) ^ 2 - 1) * (A / 3) := by ring
  linarith

/-- The centroid of a triangle is between the least and the greatest coordinate, up to three roundings. -/
theorem C130_triangle_box (hp : 1 ≤ p) {a b c lo hi : K} (h0 : 0 ≤ lo) (ha : lo ≤ a ∧ a ≤ hi) (hb : lo ≤ b ∧ b ≤ hi) (hc : lo ≤ c ∧ c ≤ hi) :
    lo * (1 - 1 / 2 ^ p) ^ 3 ≤ triCentroid R a b c ∧ triCentroid R a b c ≤ hi * (1 + 1 / 2 ^ p) ^ 3 := by
  have u0 := unit_nonneg (K := K) p
  have u1 := unit_le (K := K) p
  have a0 : 0 ≤ a := h0.trans ha.1
  have b0 : 0 ≤ b := h0.trans hb.1
  have c0 : 0 ≤ c := h0.trans hc.1
  have o1 := Off.rnd R hp (add_nonneg a0 b0) (Off.refl (1 / 2 ^ p) (a + b))
  have o2 := Off.rnd R hp (add_nonneg (add_nonneg a0 b0) c0) (o1.add u0 u1 ((Off.refl (1 / 2 ^ p) c).weaken u0 u1 c0 (by omega)))
  have o3 : Off (1 / 2 ^ p) 2 ((a + b + c) / 3) (R.rnd (R.rnd (a + b) + c) / 3) :=
    ⟨by rw [div_mul_eq_mul_div]; exact div_le_div_of_nonneg_right o2.1 (by norm_num), by rw [div_mul_eq_mul_div]; exact div_le_div_of_nonneg_right o2.2 (by norm_num)⟩
  have o4 := Off.rnd R hp (by positivity) o3
  unfold triCentroid
  have q1 : 0 ≤ (1 - 1 / 2 ^ p : K) ^ 3 := pow_nonneg (sub_nonneg.2 u1) 3
  have q2 : 0 ≤ (1 + 1 / 2 ^ p : K) ^ 3 := pow_nonneg (by linarith) 3
  exact ⟨(mul_le_mul_of_nonneg_right (by linarith) q1).trans o4.1, o4.2.trans (mul_le_mul_of_nonneg_right (by linarith) q2)⟩

/-- One coordinate of the exact centroid of a quadrilateral: that of its two triangles, by their areas. -/
def centroid (A1 A2 q0 q1 q2 q3 : K) : K := (A1 * ((q0 + q1 + q2) / 3) + A2 * ((q0 + q2 + q3) / 3)) / (A1 + A2)

theorem quad_coord (hp : 5 ≤ p) (fused : Bool) {A1 A2 a1 a2 q0 q1 q2 q3 : K} (h1 : Off (1 / 2 ^ p) 4 A1 a1) (h2 : Off (1 / 2 ^ p) 4 A2 a2) (A10 : 0 ≤ A1) (A20 : 0 ≤ A2) (A0 : 0 < A1 + A2)
    (g0 : 0 ≤ q0) (g1 : 0 ≤ q1) (g2 : 0 ≤ q2) (g3 : 0 ≤ q3) :
    Off (1 / 2 ^ p) 21 (centroid A1 A2 q0 q1 q2 q3)
      (R.rnd (mulAdd R fused (mulAdd R fused (R.rnd (a1 * q1)) a2 q3) (R.rnd (a1 + a2)) (R.rnd (q0 + q2)) / R.rnd (3 * R.rnd (a1 + a2)))) := by
  have hp1 : 1 ≤ p := by omega
  have u0 := unit_nonneg (K := K) p
  have u1 := unit_le (K := K) p
  have uh : (1 : K) / 2 ^ p ≤ 1 / 2 := by
    refine one_div_le_one_div_of_le (by norm_num) ?_
    calc (2 : K) = 2 ^ 1 := by norm_num
      _ ≤ 2 ^ p := pow_le_pow_right₀ (by norm_num) hp1
  have r (x : K) := Off.refl (1 / 2 ^ p : K) x
  have s12 := Off.rnd R hp1 (add_nonneg A10 A20) (h1.add u0 u1 h2)
  have sq := Off.rnd R hp1 (add_nonneg g0 g2) (r (q0 + q2))
  have t1 := Off.rnd R hp1 (mul_nonneg A10 g1) (h1.mul u0 u1 A10 g1 (r q1))
  have t2 := Off.mulAdd' R hp1 fused (mul_nonneg A10 g1) (mul_nonneg A20 g3) t1 (h2.mul u0 u1 A20 g3 (r q3))
  have n1 : 0 ≤ A1 * q1 + A2 * q3 := by positivity
  have n2 : 0 ≤ (A1 + A2) * (q0 + q2) := by positivity
  have t3 := Off.mulAdd' R hp1 fused (k := 6) n1 n2 (t2.weaken u0 u1 n1 (by omega)) (s12.mul u0 u1 A0.le (add_nonneg g0 g2) sq)
  have e3 := Off.rnd R hp1 (by positivity) ((r 3).mul u0 u1 (by norm_num) A0.le s12)
  have dv := Off.div u0 uh (add_nonneg n1 n2) (by positivity) t3 e3
  have e : (A1 * q1 + A2 * q3 + (A1 + A2) * (q0 + q2)) / (3 * (A1 + A2)) = centroid A1 A2 q0 q1 q2 q3 := by
    unfold centroid
    have := A0.ne'
    field_simp
    ring
  rw [e] at dv
  refine Off.rnd R hp1 ?_ dv
  unfold centroid
  positivity

/-- The centroid of a convex quadrilateral with an area, in the positive quadrant and with representable edges and diagonal from its first point: defined, with a relative error
of twenty-one roundings, contracted or not. -/
theorem C130_quad_centroid (hp : 5 ≤ p) (fused : Bool) {a b c d : P2 K} (h1 : Exact p a b) (h2 : Exact p a c) (h3 : Exact p a d) (t1 : 0 ≤ turn a b c) (t2 : 0 ≤ turn a c d)
    (t0 : 0 < turn a b c + turn a c d) (ha : 0 ≤ a.1 ∧ 0 ≤ a.2) (hb : 0 ≤ b.1 ∧ 0 ≤ b.2) (hc : 0 ≤ c.1 ∧ 0 ≤ c.2) (hd : 0 ≤ d.1 ∧ 0 ≤ d.2) :
    ∃ q, quadCentroid R fused a b c d = some q ∧
      (let x := centroid (turn a b c) (turn a c d) a.1 b.1 c.1 d.1
       x * (1 - 1 / 2 ^ p) ^ 21 ≤ q.1 ∧ q.1 ≤ x * (1 + 1 / 2 ^ p) ^ 21) ∧
      (let y := centroid (turn a b c) (turn a c d) a.2 b.2 c.2 d.2
       y * (1 - 1 / 2 ^ p) ^ 21 ≤ q.2 ∧ q.2 ≤ y * (1 + 1 / 2 ^ p) ^ 21) := by
  have hp1 : 1 ≤ p := by omega
  have u0 := unit_nonneg (K := K) p
  have u1 := unit_le (K := K) p
  have o1 := cross_off R hp (u := (b.1 - a.1, b.2 - a.2)) (v := (c.1 - a.1, c.2 - a.2)) h1 h2 t1
  have o2 := cross_off R hp (u := (c.1 - a.1, c.2 - a.2)) (v := (d.1 - a.1, d.2 - a.2)) h2 h3 t2
  have us : (1 : K) / 2 ^ p < 1 := by
    rw [div_lt_one (by positivity)]
    exact one_lt_pow₀ (by norm_num) (by omega)
  have s12 := Off.rnd R hp1 (add_nonneg t1 t2) (o1.add u0 u1 o2)
  have nz : R.rnd (3 * R.rnd (cross R (b.1 - a.1, b.2 - a.2) (c.1 - a.1, c.2 - a.2) + cross R (c.1 - a.1, c.2 - a.2) (d.1 - a.1, d.2 - a.2))) ≠ 0 := by
    refine (R.pos hp1 (mul_pos (by norm_num) (lt_of_lt_of_le (mul_pos t0 (pow_pos (sub_pos.2 us) _)) s12.1))).ne'
  unfold quadCentroid
  dsimp only
  rw [sub_exact R h1, sub_exact R h2, sub_exact R h3, if_neg nz]
  exact ⟨_, rfl, quad_coord R hp fused o1 o2 t1 t2 t0 ha.1 hb.1 hc.1 hd.1, quad_coord R hp fused o1 o2 t1 t2 t0 ha.2 hb.2 hc.2 hd.2⟩

/-- The exact terms of the shoelace formula along a path. -/
def terms : List (P2 K) → List K
  | v :: w :: vs => exactCross v w :: terms (w :: vs)
  | _ => []

theorem loop_error (hp : 1 ≤ p) (t : K) (ht : t = 3 / 2 ^ p + 2 / 2 ^ (2 * p)) : ∀ (vs : List (P2 K)), (∀ v ∈ vs, IsFp p v.1 ∧ IsFp p v.2) → ∀ (n : ℕ) (acc acc' A : K),
    |acc' - acc| ≤ ((1 + 1 / 2 ^ p) ^ n * (1 + t) - 1) * A → |acc| ≤ A →
    |shoelaceLoop R acc' vs - (acc + (terms vs).sum)| ≤ ((1 + 1 / 2 ^ p) ^ (n + (vs.length - 1)) * (1 + t) - 1) * (A + ((terms vs).map fun x => |x|).sum)
  | [], _, n, acc, acc', A, h, hA => by simpa [shoelaceLoop, terms] using h
  | [v], _, n, acc, acc', A, h, hA => by simpa [shoelaceLoop, terms] using h
  | v :: w :: vs, hf, n, acc, acc', A, h, hA => by
    have u0 := unit_nonneg (K := K) p
    have t0 : 0 ≤ t := by rw [ht]; positivity
    have hv := hf v (by simp)
    have hw := hf w (by simp)
    have x := det_error R hp hv.1 hv.2 hw.1 hw.2
    rw [← ht] at x
    have one : 1 ≤ (1 + 1 / 2 ^ p : K) ^ n := one_le_pow₀ (by linarith)
    have st := term_step R hp (e := (1 + 1 / 2 ^ p) ^ n * (1 + t) - 1) (t := t) (by nlinarith) h hA (x := exactCross v w) (x' := cross R v w) x
    have e1 : (1 + 1 / 2 ^ p : K) * (1 + ((1 + 1 / 2 ^ p) ^ n * (1 + t) - 1)) - 1 = (1 + 1 / 2 ^ p) ^ (n + 1) * (1 + t) - 1 := by ring
    rw [e1] at st
    have ih := loop_error hp t ht (w :: vs) (fun v hv => hf v (by simp [hv])) (n + 1) _ _ _ st ((abs_add_le _ _).trans (add_le_add hA le_rfl))
    have e2 : n + ((v :: w :: vs).length - 1) = n + 1 + ((w :: vs).length - 1) := by simp only [List.length_cons]; omega
    rw [e2]
    simpa [shoelaceLoop, terms, add_assoc] using ih

/-- The shoelace formula: its error is relative to the sum of the magnitudes of its terms, not to the area. -/
theorem C130_polygon (hp : 1 ≤ p) {v : P2 K} {vs : List (P2 K)} (hf : ∀ w ∈ v :: vs, IsFp p w.1 ∧ IsFp p w.2) :
    let last := exactCross ((v :: vs).getLast (by simp)) v
    |polyArea R v vs - (last + (terms (v :: vs)).sum) / 2| ≤
      ((1 + 1 / 2 ^ p) ^ vs.length * (1 + (3 / 2 ^ p + 2 / 2 ^ (2 * p))) - 1) * ((|last| + ((terms (v :: vs)).map fun x => |x|).sum) / 2) := by
  intro last
  have hl := hf _ (List.getLast_mem (by simp : v :: vs ≠ []))
  have hv := hf v (by simp)
  have x := det_error R hp hl.1 hl.2 hv.1 hv.2
  have k := loop_error R hp _ rfl (v :: vs) hf 0 last (cross R ((v :: vs).getLast (by simp)) v) |last| (by rw [pow_zero, one_mul, add_sub_cancel_left]; exact x) le_rfl
  have mem : IsFp p (shoelaceLoop R (cross R ((v :: vs).getLast (by simp)) v) (v :: vs)) := by
    have : ∀ (ws : List (P2 K)) (s : K), IsFp p s → IsFp p (shoelaceLoop R s ws) := by
      intro ws
      induction ws with
      | nil => intro s h; simpa [shoelaceLoop] using h
      | cons a ws ih =>
        intro s h
        cases ws with
        | nil => simpa [shoelaceLoop] using h
        | cons b ws =>
          rw [shoelaceLoop]
          exact ih _ (R.mem _)
    exact this _ _ (cross_mem R _ _)
  unfold polyArea
  rw [rnd_half R mem, ← sub_div, abs_div, abs_of_pos (by norm_num : (0 : K) < 2), ← mul_div_assoc]
  refine div_le_div_of_nonneg_right ?_ (by norm_num)
  simpa using k

/-- A convex pentagon, counterclockwise and with exact coordinates, of which the shoelace formula says that it has no area: the terms are large far from the origin, and
cancel.  As a quadrilateral and a triangle its area is right. -/
theorem C130_polygon_fails : ∃ a b c d e : P2 ℚ, (∀ w ∈ [a, b, c, d, e], ∃ m n : ℤ, |m| < 2 ^ 53 ∧ |n| < 2 ^ 53 ∧ w = ((m : ℚ), (n : ℚ))) ∧
    0 < turn a b c ∧ 0 < turn b c d ∧ 0 < turn c d e ∧ 0 < turn d e a ∧ 0 < turn e a b ∧ polyArea (ieee ℚ 53 (by norm_num)) a [b, c, d, e] = 0 ∧
    quadArea (ieee ℚ 53 (by norm_num)) a b c d + triArea (ieee ℚ 53 (by norm_num)) a d e = 5 / 2 := by
  refine ⟨(8107624229577921, -4925815509952851), (8107624229577922, -4925815509952851), (8107624229577923, -4925815509952850), (8107624229577922, -4925815509952849),
    (8107624229577921, -4925815509952850), ?_, ?_⟩
  · intro w hw
    simp only [List.mem_cons, List.not_mem_nil, or_false] at hw
    rcases hw with rfl | rfl | rfl | rfl | rfl
    · exact ⟨8107624229577921, -4925815509952851, by norm_num, by norm_num, by norm_num⟩
    · exact ⟨8107624229577922, -4925815509952851, by norm_num, by norm_num, by norm_num⟩
    · exact ⟨8107624229577923, -4925815509952850, by norm_num, by norm_num, by norm_num⟩
    · exact ⟨8107624229577922, -4925815509952849, by norm_num, by norm_num, by norm_num⟩
    · exact ⟨8107624229577921, -4925815509952850, by norm_num, by norm_num, by norm_num⟩
  · decide +kernel

/-- A triangle and a quadrilateral with an inexact centroid. -/
example : triArea (ieee ℚ 53 (by norm_num)) (0, 0) (3, 0) (0, 5) = 15 / 2 ∧ triCentroid (ieee ℚ 53 (by norm_num)) 0 1 0 = rne 53 (1 / 3) ∧
    quadIsConvex (ieee ℚ 53 (by norm_num)) (0, 0) (3, 0) (3, 1) (0, 2) = true ∧ 0 < turn ((0 : ℚ), (0 : ℚ)) (3, 0) (3, 1) ∧
    quadCentroid (ieee ℚ 53 (by norm_num)) false (0, 0) (3, 0) (3, 1) (0, 2) = some (rne 53 (4 / 3), rne 53 (7 / 9)) := by
  decide +kernel

end Verif.FpAreaP
