import Verif.Lemmas.FpQRay
import Verif.Lemmas.FpCast
import Verif.Props.FpRoots
import Verif.Props.FpQuad
import Mathlib.Topology.Order.IntermediateValue
import Mathlib.Topology.Algebra.Polynomial

/-! C144: rays and quadratic segments in floating-point arithmetic. -/

namespace Verif.FpQRayP

open Verif.Fp Verif.FpQuadP Verif.FpRootsP

variable {p : ℕ} (R : Rounding ℝ p)

/-- The signed distance of the point `s` of the curve from the line of the ray, times the length of the direction. -/
noncomputable def side (q0 q1 q2 o d : P2 ℝ) (s : ℝ) : ℝ := (curve q0.1 q1.1 q2.1 s - o.1) * d.2 - (curve q0.2 q1.2 q2.2 s - o.2) * d.1

/-- The coordinate of the point `s` of the curve along the ray, times the length of the direction. -/
noncomputable def along (q0 q1 q2 o d : P2 ℝ) (s : ℝ) : ℝ := (curve q0.1 q1.1 q2.1 s - o.1) * d.1 + (curve q0.2 q1.2 q2.2 s - o.2) * d.2

/-- The sizes that the errors are measured by: `S` for the distances of the nodes, `W` for the distance of the first node from the origin of the ray, `D` for the direction. -/
structure Sizes (p : ℕ) (q0 q1 q2 o d : P2 ℝ) (S W D : ℝ) : Prop where
  fp : IsFp2 p d
  sx : |q2.1 - q0.1| + |q2.1 - q1.1| ≤ S
  sy : |q2.2 - q0.2| + |q2.2 - q1.2| ≤ S
  wx : |q0.1 - o.1| ≤ W
  wy : |q0.2 - o.2| ≤ W
  dx : |d.1| ≤ D
  dy : |d.2| ≤ D

section
variable {q0 q1 q2 o d : P2 ℝ} {S W D : ℝ}

theorem coeff_near (hp : 8 ≤ p) (f : Bool) {v0 v1 v2 : ℝ} (h : |v2 - v0| + |v2 - v1| ≤ S) :
    |(qCoeffs R f v0 v1 v2).1| ≤ 4 * S ∧ |(qCoeffs R f v0 v1 v2).2| ≤ 3 * S ∧ |(qCoeffs R f v0 v1 v2).1 - (3 * (v2 - v0) + (v2 - v1))| ≤ 10 * (1 / 2 ^ p) * S ∧
      |(qCoeffs R f v0 v1 v2).2 - -2 * ((v2 - v0) + (v2 - v1))| ≤ 5 * (1 / 2 ^ p) * S := by
  have u0 := unit_nonneg (K := ℝ) p
  obtain ⟨a, b⟩ := coeff_size R (by omega) f v0 v1 v2
  obtain ⟨c, e⟩ := qCoeffs_error R (by omega) f v0 v1 v2
  exact ⟨a.trans (by linarith), b.trans (by linarith), c.trans (mul_le_mul_of_nonneg_left h (by linarith)), e.trans (mul_le_mul_of_nonneg_left h (by linarith))⟩

theorem curve_poly (v0 v1 v2 o s : ℝ) : curve v0 v1 v2 s - o = (v0 - o) + s * (3 * (v2 - v0) + (v2 - v1)) + s ^ 2 * (-2 * ((v2 - v0) + (v2 - v1))) := by
  unfold curve; ring

variable (hp : 8 ≤ p) (f : QRayFused) (h : Sizes p q0 q1 q2 o d S W D)
include hp h

/-- The computed equation. -/
theorem eq_near : (∀ s, 0 ≤ s → s ≤ 1 → |(qRayEq R f q0 q1 q2 o d).1 * s ^ 2 + (qRayEq R f q0 q1 q2 o d).2.1 * s + (qRayEq R f q0 q1 q2 o d).2.2 - side q0 q1 q2 o d s| ≤
      1 / 2 ^ p * D * (73 * S + 9 * W)) ∧ |(qRayEq R f q0 q1 q2 o d).1| ≤ 63 / 10 * (S * D) ∧ |(qRayEq R f q0 q1 q2 o d).2.1| ≤ 84 / 10 * (S * D) ∧
      IsFp p (qRayEq R f q0 q1 q2 o d).1 ∧ IsFp p (qRayEq R f q0 q1 q2 o d).2.1 ∧ IsFp p (qRayEq R f q0 q1 q2 o d).2.2 := by
  have u0 := unit_nonneg (K := ℝ) p
  have u1 := u_le hp
  have hp1 : 1 ≤ p := by omega
  obtain ⟨bx, ax, ebx, eax⟩ := coeff_near R hp f.bx h.sx
  obtain ⟨by', ay, eby, eay⟩ := coeff_near R hp f.by' h.sy
  have W0 : 0 ≤ W := (abs_nonneg _).trans h.wx
  have D0 : 0 ≤ D := (abs_nonneg _).trans h.dx
  have S0 : 0 ≤ S := by linarith [abs_nonneg (qCoeffs R f.bx q0.1 q1.1 q2.1).2]
  have ca := cross_near R hp (u := ((qCoeffs R f.bx q0.1 q1.1 q2.1).2, (qCoeffs R f.by' q0.2 q1.2 q2.2).2))
    (v := (-2 * ((q2.1 - q0.1) + (q2.1 - q1.1)), -2 * ((q2.2 - q0.2) + (q2.2 - q1.2)))) ⟨R.mem _, R.mem _⟩ h.fp ax ay eax eay h.dx h.dy
  have cb := cross_near R hp (u := ((qCoeffs R f.bx q0.1 q1.1 q2.1).1, (qCoeffs R f.by' q0.2 q1.2 q2.2).1))
    (v := (3 * (q2.1 - q0.1) + (q2.1 - q1.1), 3 * (q2.2 - q0.2) + (q2.2 - q1.2))) ⟨R.mem _, R.mem _⟩ h.fp bx by' ebx eby h.dx h.dy
  have rx := (rel_u R hp1 (q0.1 - o.1)).trans (mul_le_mul_of_nonneg_left h.wx u0)
  have ry := (rel_u R hp1 (q0.2 - o.2)).trans (mul_le_mul_of_nonneg_left h.wy u0)
  have cc := cross_near R hp (u := sub R q0 o) (v := (q0.1 - o.1, q0.2 - o.2)) (M := W + 1 / 2 ^ p * W) ⟨R.mem _, R.mem _⟩ h.fp
    (by have := abs_sub_abs_le_abs_sub (R.rnd (q0.1 - o.1)) (q0.1 - o.1); show |R.rnd (q0.1 - o.1)| ≤ _; linarith [h.wx])
    (by have := abs_sub_abs_le_abs_sub (R.rnd (q0.2 - o.2)) (q0.2 - o.2); show |R.rnd (q0.2 - o.2)| ≤ _; linarith [h.wy]) rx ry h.dx h.dy
  refine ⟨fun s s0 s1 => ?_, ca.2.trans (by linarith), cb.2.trans (by linarith), R.mem _, R.mem _, R.mem _⟩
  have a := ca.1
  have b := cb.1
  have c := cc.1
  change |(qRayEq R f q0 q1 q2 o d).1 - _| ≤ _ at a
  change |(qRayEq R f q0 q1 q2 o d).2.1 - _| ≤ _ at b
  change |(qRayEq R f q0 q1 q2 o d).2.2 - _| ≤ _ at c
  generalize (qRayEq R f q0 q1 q2 o d).1 = A at *
  generalize (qRayEq R f q0 q1 q2 o d).2.1 = B at *
  generalize (qRayEq R f q0 q1 q2 o d).2.2 = C at *
  generalize (1 : ℝ) / 2 ^ p = w at *
  unfold side
  rw [curve_poly, curve_poly]
  dsimp only at a b c
  generalize -2 * ((q2.1 - q0.1) + (q2.1 - q1.1)) = a1 at *
  generalize -2 * ((q2.2 - q0.2) + (q2.2 - q1.2)) = a2 at *
  generalize 3 * (q2.1 - q0.1) + (q2.1 - q1.1) = b1 at *
  generalize 3 * (q2.2 - q0.2) + (q2.2 - q1.2) = b2 at *
  generalize q0.1 - o.1 = c1 at *
  generalize q0.2 - o.2 = c2 at *
  have e : A * s ^ 2 + B * s + C - ((c1 + s * b1 + s ^ 2 * a1) * d.2 - (c2 + s * b2 + s ^ 2 * a2) * d.1) =
      s ^ 2 * (A - (a1 * d.2 - a2 * d.1)) + (s * (B - (b1 * d.2 - b2 * d.1)) + (C - (c1 * d.2 - c2 * d.1))) := by ring
  rw [e]
  have t1 := abs_add_le (s ^ 2 * (A - (a1 * d.2 - a2 * d.1))) (s * (B - (b1 * d.2 - b2 * d.1)) + (C - (c1 * d.2 - c2 * d.1)))
  have t2 := abs_add_le (s * (B - (b1 * d.2 - b2 * d.1))) (C - (c1 * d.2 - c2 * d.1))
  rw [abs_mul, abs_of_nonneg (sq_nonneg s)] at t1
  rw [abs_mul, abs_of_nonneg s0] at t2
  have m1 : s ^ 2 * |A - (a1 * d.2 - a2 * d.1)| ≤ |A - (a1 * d.2 - a2 * d.1)| := mul_le_of_le_one_left (abs_nonneg _) (pow_le_one₀ s0 s1)
  have m2 : s * |B - (b1 * d.2 - b2 * d.1)| ≤ |B - (b1 * d.2 - b2 * d.1)| := mul_le_of_le_one_left (abs_nonneg _) s1
  have wSD := mul_nonneg u0 (mul_nonneg S0 D0)
  have wWD := mul_nonneg u0 (mul_nonneg W0 D0)
  have wwWD : w * (w * (W * D)) ≤ 1 / 256 * (w * (W * D)) := mul_le_mul_of_nonneg_right u1 wWD
  have ea : 61 / 10 * w * (3 * S * D) + 2 * (5 * w * S * D) = 283 / 10 * (w * (S * D)) := by ring
  have eb : 61 / 10 * w * (4 * S * D) + 2 * (10 * w * S * D) = 444 / 10 * (w * (S * D)) := by ring
  have ec : 61 / 10 * w * ((W + w * W) * D) + 2 * (w * W * D) = 81 / 10 * (w * (W * D)) + 61 / 10 * (w * (w * (W * D))) := by ring
  have eg : w * D * (73 * S + 9 * W) = 73 * (w * (S * D)) + 9 * (w * (W * D)) := by ring
  rw [ea] at a
  rw [eb] at b
  rw [ec] at c
  rw [eg]
  linarith

/-- The computed distance. -/
theorem dist_near {s : ℝ} (s0 : 0 ≤ s) (s1 : s ≤ 1) : |qRayDist R f q0 q1 q2 o d s - along q0 q1 q2 o d s| ≤ 1 / 2 ^ p * D * (111 * S + 9 * W) := by
  have u0 := unit_nonneg (K := ℝ) p
  have hp1 : 1 ≤ p := by omega
  obtain ⟨bx, ax, ebx, eax⟩ := coeff_near R hp f.bx h.sx
  obtain ⟨by', ay, eby, eay⟩ := coeff_near R hp f.by' h.sy
  have W0 : 0 ≤ W := (abs_nonneg _).trans h.wx
  have D0 : 0 ≤ D := (abs_nonneg _).trans h.dx
  have S0 : 0 ≤ S := by linarith [abs_nonneg (qCoeffs R f.bx q0.1 q1.1 q2.1).2]
  have rx := (rel_u R hp1 (q0.1 - o.1)).trans (mul_le_mul_of_nonneg_left h.wx u0)
  have ry := (rel_u R hp1 (q0.2 - o.2)).trans (mul_le_mul_of_nonneg_left h.wy u0)
  have px := qRayPoint_near R hp f.ix f.ox s0 s1 bx ax ebx eax h.wx rx
  have py := qRayPoint_near R hp f.iy f.oy s0 s1 by' ay eby eay h.wy ry
  rw [← curve_poly] at px py
  have := dot2_near R hp f.dot px.2 py.2 px.1 py.1 h.dx h.dy
  refine this.trans ?_
  have wSD := mul_nonneg u0 (mul_nonneg S0 D0)
  have wWD := mul_nonneg u0 (mul_nonneg W0 D0)
  generalize (1 : ℝ) / 2 ^ p = w at *
  have e1 : 41 / 10 * w * ((15 / 2 * S + 51 / 50 * W) * D) + 2 * (w * (40 * S + 21 / 10 * W) * D) = (41 / 10 * (15 / 2) + 80) * (w * (S * D)) + (41 / 10 * (51 / 50) + 42 / 10) * (w * (W * D)) := by ring
  have e2 : w * D * (111 * S + 9 * W) = 111 * (w * (S * D)) + 9 * (w * (W * D)) := by ring
  rw [e1, e2]
  linarith

end

/-! ### The roots -/

theorem root_res (hp : 8 ≤ p) {inv a b c s A B : ℝ} (hi : 1 < inv) (ha : IsFp p a) (hb : IsFp p b) (hc : IsFp p c) (hs : s = (solveQuadratic R inv a b c).1 ∨ s = (solveQuadratic R inv a b c).2)
    (s0 : 0 ≤ s) (s1 : s ≤ 1) (hA : |a| ≤ A) (hB : |b| ≤ B) : |a * s ^ 2 + b * s + c| ≤ 1 / 2 ^ p * (8 * B + 16 * A) := by
  have u0 := unit_nonneg (K := ℝ) p
  have u1 := u_le hp
  have A0 := (abs_nonneg _).trans hA
  have B0 := (abs_nonneg _).trans hB
  by_cases a0 : a = 0
  · subst a0
    by_cases b0 : b = 0
    · subst b0
      have : solveQuadratic R inv 0 0 c = (inv, inv) := by unfold solveQuadratic; rw [if_pos rfl, if_pos rfl]
      rw [this] at hs
      rcases hs with rfl | rfl <;> exact absurd s1 (not_le.2 hi)
    · obtain ⟨e2, x, hx, e1⟩ := C122_linear R (by omega) inv (b := b) (c := c) b0
      rcases hs with rfl | rfl
      · generalize (solveQuadratic R inv 0 b c).1 = s at *
        have e : 0 * s ^ 2 + b * s + c = b * (s - x) := by linear_combination hx
        rw [e, abs_mul]
        have xb : |x| ≤ 2 := by
          have t := abs_sub_abs_le_abs_sub x s
          rw [abs_sub_comm x s, abs_of_nonneg s0] at t
          have := mul_le_mul_of_nonneg_right u1 (abs_nonneg x)
          linarith
        generalize (1 : ℝ) / 2 ^ p = w at *
        have := mul_le_mul hB (e1.trans (mul_le_mul_of_nonneg_left xb u0)) (abs_nonneg _) B0
        nlinarith [mul_nonneg u0 A0, mul_nonneg u0 B0]
      · rw [e2] at s1; exact absurd s1 (not_le.2 hi)
  · by_cases hx : ∃ x : ℝ, a * x ^ 2 + b * x + c = 0
    · obtain ⟨x1, x2, -, hf, -, e1, e2⟩ := C122_roots R hp inv ha hb hc a0 hx
      rw [show (7 : ℝ) / 2 ^ p = 7 * (1 / 2 ^ p) by ring] at e1 e2
      rcases hs with rfl | rfl
      · exact residual u0 u1 hf e1 s0 s1 hA hB
      · exact residual u0 u1 (x1 := x2) (x2 := x1) (fun x => by rw [hf]; ring) e2 s0 s1 hA hB
    · have hx' : ∀ x : ℝ, a * x ^ 2 + b * x + c ≠ 0 := fun x hx0 => hx ⟨x, hx0⟩
      rw [C122_none R (by omega) inv ha hb hc a0 hx'] at hs
      rcases hs with rfl | rfl <;> exact absurd s1 (not_le.2 hi)

theorem root_found (hp : 8 ≤ p) (inv : ℝ) {a b c x : ℝ} (ha : IsFp p a) (hb : IsFp p b) (hc : IsFp p c) (hx : a * x ^ 2 + b * x + c = 0) (hab : a ≠ 0 ∨ b ≠ 0) :
    ∃ s, (s = (solveQuadratic R inv a b c).1 ∨ s = (solveQuadratic R inv a b c).2) ∧ |s - x| ≤ 7 / 2 ^ p * |x| := by
  have u0 := unit_nonneg (K := ℝ) p
  by_cases a0 : a = 0
  · subst a0
    have b0 : b ≠ 0 := hab.resolve_left fun h => h rfl
    obtain ⟨-, y, hy, e1⟩ := C122_linear R (by omega) inv (b := b) (c := c) b0
    have : y = x := by
      have : b * (y - x) = 0 := by linear_combination hy - hx
      rcases mul_eq_zero.1 this with h | h
      · exact absurd h b0
      · linarith
    subst this
    refine ⟨_, Or.inl rfl, e1.trans (mul_le_mul_of_nonneg_right ?_ (abs_nonneg _))⟩
    rw [show (7 : ℝ) / 2 ^ p = 7 * (1 / 2 ^ p) by ring]
    linarith
  · obtain ⟨x1, x2, -, hf, -, e1, e2⟩ := C122_roots R hp inv ha hb hc a0 ⟨x, hx⟩
    have := hf x
    rw [hx, eq_comm, mul_eq_zero, mul_eq_zero] at this
    rcases this with (h | h) | h
    · exact absurd h a0
    · have : x = x1 := by linarith
      subst this
      exact ⟨_, Or.inl rfl, e1⟩
    · have : x = x2 := by linarith
      subst this
      exact ⟨_, Or.inr rfl, e2⟩

theorem mem_qRay (inv : ℝ) (f : QRayFused) (q0 q1 q2 o d : P2 ℝ) (r : ℝ) : r ∈ qRay R inv f q0 q1 q2 o d ↔
    ∃ s, (s = (solveQuadratic R inv (qRayEq R f q0 q1 q2 o d).1 (qRayEq R f q0 q1 q2 o d).2.1 (qRayEq R f q0 q1 q2 o d).2.2).1 ∨
      s = (solveQuadratic R inv (qRayEq R f q0 q1 q2 o d).1 (qRayEq R f q0 q1 q2 o d).2.1 (qRayEq R f q0 q1 q2 o d).2.2).2) ∧ 0 ≤ s ∧ s ≤ 1 ∧ 0 ≤ r ∧ r = qRayDist R f q0 q1 q2 o d s := by
  unfold qRay
  dsimp only
  rw [List.mem_filterMap]
  refine exists_congr fun s => ?_
  rw [List.mem_cons, List.mem_singleton]
  refine and_congr_right fun _ => ?_
  by_cases hs : 0 ≤ s ∧ s ≤ 1
  · rw [if_pos hs]
    by_cases hr : 0 ≤ qRayDist R f q0 q1 q2 o d s
    · rw [if_pos hr]
      constructor
      · intro e; have e := Option.some.inj e; subst e; exact ⟨hs.1, hs.2, hr, rfl⟩
      · rintro ⟨-, -, -, rfl⟩; rfl
    · rw [if_neg hr]
      constructor
      · intro e; cases e
      · rintro ⟨-, -, h, rfl⟩; exact absurd h hr
  · rw [if_neg hs]
    constructor
    · intro e; cases e
    · rintro ⟨h1, h2, -⟩; exact absurd ⟨h1, h2⟩ hs

/-! ### The claims -/

section
variable {q0 q1 q2 o d : P2 ℝ} {S W D inv : ℝ} (hp : 8 ≤ p) (hi : 1 < inv) (f : QRayFused) (h : Sizes p q0 q1 q2 o d S W D)
include hp hi h

/-- **C144**: every distance that is reported is not negative and belongs to a point of the curve which is on the line of the ray, at that distance, both up to rounding errors of the
sizes. -/
theorem C144_sound {r : ℝ} (hr : r ∈ qRay R inv f q0 q1 q2 o d) :
    0 ≤ r ∧ ∃ s, 0 ≤ s ∧ s ≤ 1 ∧ |side q0 q1 q2 o d s| ≤ 1 / 2 ^ p * D * (241 * S + 9 * W) ∧ |r - along q0 q1 q2 o d s| ≤ 1 / 2 ^ p * D * (111 * S + 9 * W) := by
  obtain ⟨s, hs, s0, s1, r0, rfl⟩ := (mem_qRay R inv f q0 q1 q2 o d r).1 hr
  refine ⟨r0, s, s0, s1, ?_, dist_near R hp f h s0 s1⟩
  obtain ⟨en, hA, hB, fa, fb, fc⟩ := eq_near R hp f h
  have g := root_res R hp hi fa fb fc hs s0 s1 hA hB
  have e := en s s0 s1
  have t := abs_sub_abs_le_abs_sub (side q0 q1 q2 o d s) ((qRayEq R f q0 q1 q2 o d).1 * s ^ 2 + (qRayEq R f q0 q1 q2 o d).2.1 * s + (qRayEq R f q0 q1 q2 o d).2.2)
  rw [abs_sub_comm] at t
  have e2 : 1 / 2 ^ p * D * (241 * S + 9 * W) = 1 / 2 ^ p * D * (73 * S + 9 * W) + 1 / 2 ^ p * (8 * (84 / 10 * (S * D)) + 16 * (63 / 10 * (S * D))) := by ring
  rw [e2]
  linarith

/-- **C144**: a ray whose line stays clear of the curve has no intersections. -/
theorem C144_clear (hc : ∀ s, 0 ≤ s → s ≤ 1 → 1 / 2 ^ p * D * (241 * S + 9 * W) < |side q0 q1 q2 o d s|) : qRay R inv f q0 q1 q2 o d = [] := by
  refine List.eq_nil_iff_forall_not_mem.2 fun r hr => ?_
  obtain ⟨-, s, s0, s1, e, -⟩ := C144_sound R hp hi f h hr
  exact absurd e (not_le.2 (hc s s0 s1))

/-- **C144**: a curve that is behind the origin of the ray has no intersections. -/
theorem C144_behind (hc : ∀ s, 0 ≤ s → s ≤ 1 → along q0 q1 q2 o d s < -(1 / 2 ^ p * D * (111 * S + 9 * W))) : qRay R inv f q0 q1 q2 o d = [] := by
  refine List.eq_nil_iff_forall_not_mem.2 fun r hr => ?_
  obtain ⟨r0, s, s0, s1, -, e⟩ := C144_sound R hp hi f h hr
  have := hc s s0 s1
  have := (abs_le.1 e).2
  linarith

omit hi in
/-- A root between two points of the curve that are clearly on different sides. -/
theorem root_between {s1 s2 : ℝ} (h0 : 0 ≤ s1) (h12 : s1 < s2) (h1 : s2 * (1 + 7 / 2 ^ p) ≤ 1)
    (hs : (side q0 q1 q2 o d s1 < -(1 / 2 ^ p * D * (73 * S + 9 * W)) ∧ 1 / 2 ^ p * D * (73 * S + 9 * W) < side q0 q1 q2 o d s2) ∨
      (side q0 q1 q2 o d s2 < -(1 / 2 ^ p * D * (73 * S + 9 * W)) ∧ 1 / 2 ^ p * D * (73 * S + 9 * W) < side q0 q1 q2 o d s1)) :
    ∃ s, (s = (solveQuadratic R inv (qRayEq R f q0 q1 q2 o d).1 (qRayEq R f q0 q1 q2 o d).2.1 (qRayEq R f q0 q1 q2 o d).2.2).1 ∨
      s = (solveQuadratic R inv (qRayEq R f q0 q1 q2 o d).1 (qRayEq R f q0 q1 q2 o d).2.1 (qRayEq R f q0 q1 q2 o d).2.2).2) ∧
      s1 * (1 - 7 / 2 ^ p) ≤ s ∧ s ≤ s2 * (1 + 7 / 2 ^ p) ∧ 0 ≤ s ∧ s ≤ 1 := by
  have u0 := unit_nonneg (K := ℝ) p
  have u1 := u_le hp
  obtain ⟨en, -, -, fa, fb, fc⟩ := eq_near R hp f h
  rw [show (7 : ℝ) / 2 ^ p = 7 * (1 / 2 ^ p) by ring] at *
  have w7 : 0 ≤ s2 * (7 * (1 / 2 ^ p)) := mul_nonneg (by linarith) (by linarith)
  have s2l : s2 ≤ 1 := by linarith
  have e1 := abs_le.1 (en s1 h0 (by linarith))
  have e2 := abs_le.1 (en s2 (by linarith) s2l)
  have fnd := fun x => root_found R hp inv (x := x) fa fb fc
  generalize (qRayEq R f q0 q1 q2 o d).1 = a at *
  generalize (qRayEq R f q0 q1 q2 o d).2.1 = b at *
  generalize (qRayEq R f q0 q1 q2 o d).2.2 = c at *
  have cont : ContinuousOn (fun x : ℝ => a * x ^ 2 + b * x + c) (Set.Icc s1 s2) := by fun_prop
  obtain ⟨x, ⟨x1, x2⟩, hx⟩ : ∃ x ∈ Set.Icc s1 s2, a * x ^ 2 + b * x + c = 0 := by
    rcases hs with ⟨g1, g2⟩ | ⟨g2, g1⟩
    · exact intermediate_value_Icc h12.le cont ⟨by linarith [e1.2], by linarith [e2.1]⟩
    · exact intermediate_value_Icc' h12.le cont ⟨by linarith [e2.2], by linarith [e1.1]⟩
  have hab : a ≠ 0 ∨ b ≠ 0 := by
    by_contra hn
    rw [not_or, not_not, not_not] at hn
    obtain ⟨rfl, rfl⟩ := hn
    rcases hs with ⟨g1, g2⟩ | ⟨g2, g1⟩ <;> linarith [e1.1, e1.2, e2.1, e2.2]
  obtain ⟨s, hs', es⟩ := fnd x hx hab
  rw [abs_of_nonneg (show 0 ≤ x by linarith)] at es
  have es := abs_le.1 es
  have k1 : s1 * (1 - 7 * (1 / 2 ^ p)) ≤ x * (1 - 7 * (1 / 2 ^ p)) := mul_le_mul_of_nonneg_right x1 (by linarith)
  have k2 : x * (1 + 7 * (1 / 2 ^ p)) ≤ s2 * (1 + 7 * (1 / 2 ^ p)) := mul_le_mul_of_nonneg_right x2 (by linarith)
  have k3 : 0 ≤ s1 * (1 - 7 * (1 / 2 ^ p)) := mul_nonneg h0 (by linarith)
  rw [show (7 : ℝ) / 2 ^ p = 7 * (1 / 2 ^ p) by ring] at es
  exact ⟨s, hs', by linarith [es.1], by linarith [es.2], by linarith [es.1], by linarith [es.2]⟩

omit hi in
/-- **C144**: if two points of the curve are on different sides of the ray, by more than the errors, and the curve between them is clearly in front of the origin, an intersection between
them is reported, with its distance. -/
theorem C144_found {s1 s2 : ℝ} (h0 : 0 ≤ s1) (h12 : s1 < s2) (h1 : s2 * (1 + 7 / 2 ^ p) ≤ 1)
    (hs : (side q0 q1 q2 o d s1 < -(1 / 2 ^ p * D * (73 * S + 9 * W)) ∧ 1 / 2 ^ p * D * (73 * S + 9 * W) < side q0 q1 q2 o d s2) ∨
      (side q0 q1 q2 o d s2 < -(1 / 2 ^ p * D * (73 * S + 9 * W)) ∧ 1 / 2 ^ p * D * (73 * S + 9 * W) < side q0 q1 q2 o d s1))
    (ha : ∀ s, s1 * (1 - 7 / 2 ^ p) ≤ s → s ≤ s2 * (1 + 7 / 2 ^ p) → 1 / 2 ^ p * D * (111 * S + 9 * W) ≤ along q0 q1 q2 o d s) :
    ∃ r ∈ qRay R inv f q0 q1 q2 o d, ∃ s, s1 * (1 - 7 / 2 ^ p) ≤ s ∧ s ≤ s2 * (1 + 7 / 2 ^ p) ∧ |r - along q0 q1 q2 o d s| ≤ 1 / 2 ^ p * D * (111 * S + 9 * W) := by
  obtain ⟨s, hs', l, g, k0, k1⟩ := root_between R hp f h h0 h12 h1 hs
  have e := dist_near R hp f h k0 k1
  refine ⟨_, (mem_qRay R inv f q0 q1 q2 o d _).2 ⟨s, hs', k0, k1, ?_, rfl⟩, s, l, g, e⟩
  have := (abs_le.1 e).1
  linarith [ha s l g]

omit hi in
/-- **C144**: if the curve changes the side twice, both intersections are reported, and nothing else. -/
theorem C144_both {s1 s2 s3 s4 : ℝ} (h0 : 0 ≤ s1) (h12 : s1 < s2) (h23 : s2 * (1 + 7 / 2 ^ p) < s3 * (1 - 7 / 2 ^ p)) (h34 : s3 < s4) (h1 : s4 * (1 + 7 / 2 ^ p) ≤ 1)
    (hs : (side q0 q1 q2 o d s1 < -(1 / 2 ^ p * D * (73 * S + 9 * W)) ∧ 1 / 2 ^ p * D * (73 * S + 9 * W) < side q0 q1 q2 o d s2) ∨
      (side q0 q1 q2 o d s2 < -(1 / 2 ^ p * D * (73 * S + 9 * W)) ∧ 1 / 2 ^ p * D * (73 * S + 9 * W) < side q0 q1 q2 o d s1))
    (ht : (side q0 q1 q2 o d s3 < -(1 / 2 ^ p * D * (73 * S + 9 * W)) ∧ 1 / 2 ^ p * D * (73 * S + 9 * W) < side q0 q1 q2 o d s4) ∨
      (side q0 q1 q2 o d s4 < -(1 / 2 ^ p * D * (73 * S + 9 * W)) ∧ 1 / 2 ^ p * D * (73 * S + 9 * W) < side q0 q1 q2 o d s3))
    (ha : ∀ s, s1 * (1 - 7 / 2 ^ p) ≤ s → s ≤ s4 * (1 + 7 / 2 ^ p) → 1 / 2 ^ p * D * (111 * S + 9 * W) ≤ along q0 q1 q2 o d s) :
    ∃ r r' s s', (qRay R inv f q0 q1 q2 o d = [r, r'] ∨ qRay R inv f q0 q1 q2 o d = [r', r]) ∧ s1 * (1 - 7 / 2 ^ p) ≤ s ∧ s ≤ s2 * (1 + 7 / 2 ^ p) ∧ s3 * (1 - 7 / 2 ^ p) ≤ s' ∧ s' ≤ s4 * (1 + 7 / 2 ^ p) ∧
      |r - along q0 q1 q2 o d s| ≤ 1 / 2 ^ p * D * (111 * S + 9 * W) ∧ |r' - along q0 q1 q2 o d s'| ≤ 1 / 2 ^ p * D * (111 * S + 9 * W) := by
  have u0 := unit_nonneg (K := ℝ) p
  have u1 := u_le hp
  have w7 : (7 : ℝ) / 2 ^ p = 7 * (1 / 2 ^ p) := by ring
  have w70 : 0 ≤ (7 : ℝ) / 2 ^ p := by rw [w7]; linarith
  have w71 : (7 : ℝ) / 2 ^ p ≤ 7 / 256 := by rw [w7]; linarith
  have h3 : 0 ≤ s3 := by
    by_contra hc
    have : s3 * (1 - 7 / 2 ^ p) ≤ 0 := mul_nonpos_of_nonpos_of_nonneg (by linarith) (by linarith)
    have : 0 ≤ s2 * (1 + 7 / 2 ^ p) := mul_nonneg (by linarith) (by linarith)
    linarith
  have m3 := mul_nonneg h3 w70
  have m4 : 0 ≤ s4 * (7 / 2 ^ p) := mul_nonneg (by linarith) w70
  have m1 := mul_nonneg h0 w70
  have m2 : 0 ≤ s2 * (7 / 2 ^ p) := mul_nonneg (by linarith) w70
  obtain ⟨s, hs', l, g, k0, k1⟩ := root_between R hp f h h0 h12 (by linarith) hs (inv := inv)
  obtain ⟨t, ht', l', g', k0', k1'⟩ := root_between R hp f h h3 h34 h1 ht (inv := inv)
  have e := dist_near R hp f h k0 k1
  have e' := dist_near R hp f h k0' k1'
  have r0 : 0 ≤ qRayDist R f q0 q1 q2 o d s := by
    have := (abs_le.1 e).1
    linarith [ha s l (by linarith)]
  have r0' : 0 ≤ qRayDist R f q0 q1 q2 o d t := by
    have := (abs_le.1 e').1
    linarith [ha t (by linarith) g']
  have ne : s ≠ t := fun hst => by linarith
  refine ⟨_, _, s, t, ?_, l, g, l', g', e, e'⟩
  unfold qRay
  dsimp only
  rcases hs' with a | a <;> rcases ht' with b | b
  · exact absurd (a.trans b.symm) ne
  · left
    rw [← a, ← b, List.filterMap_cons, if_pos ⟨k0, k1⟩, if_pos r0]
    dsimp only
    rw [List.filterMap_cons, if_pos ⟨k0', k1'⟩, if_pos r0']
    rfl
  · right
    rw [← a, ← b, List.filterMap_cons, if_pos ⟨k0', k1'⟩, if_pos r0']
    dsimp only
    rw [List.filterMap_cons, if_pos ⟨k0, k1⟩, if_pos r0]
    rfl
  · exact absurd (a.trans b.symm) ne

end

/-- **C144**: there are never more than two intersections with an edge: the buffer of a cell with `n` edges needs `2 n` places. -/
theorem C144_size (inv : ℝ) (f : QRayFused) (o d : P2 ℝ) : (∀ q0 q1 q2, (qRay R inv f q0 q1 q2 o d).length ≤ 2) ∧
    ∀ es, (qRayCell R inv f es o d).length ≤ 2 * es.length := by
  have h1 : ∀ q0 q1 q2, (qRay R inv f q0 q1 q2 o d).length ≤ 2 := fun q0 q1 q2 => by
    unfold qRay
    exact (List.length_filterMap_le _ _).trans le_rfl
  refine ⟨h1, fun es => ?_⟩
  have : ∀ (es : List (P2 ℝ × P2 ℝ × P2 ℝ)) (buf : List ℝ), (es.foldl (fun buf e => buf ++ qRay R inv f e.1 e.2.1 e.2.2 o d) buf).length ≤ buf.length + 2 * es.length := by
    intro es
    induction es with
    | nil => intro buf; simp
    | cons e es ih =>
      intro buf
      have := ih (buf ++ qRay R inv f e.1 e.2.1 e.2.2 o d)
      have g := h1 e.1 e.2.1 e.2.2
      simp only [List.foldl_cons, List.length_cons]
      rw [List.length_append] at this
      omega
  simpa [qRayCell] using this es []

/-- **C144**: the intersections with a cell are those with its edges. -/
theorem C144_cell (inv : ℝ) (f : QRayFused) (o d : P2 ℝ) (es : List (P2 ℝ × P2 ℝ × P2 ℝ)) (r : ℝ) :
    r ∈ qRayCell R inv f es o d ↔ ∃ e ∈ es, r ∈ qRay R inv f e.1 e.2.1 e.2.2 o d := by
  simp [qRayCell]

/-- A parabola over the interval from 0 to 2 of height one, and a horizontal ray at three quarters of the height: it meets both sides, in double precision. -/
theorem arch (f : QRayFused) : ∃ r r', (qRay (ieee ℝ 53 (by norm_num)) (10 ^ 16) f (0, 0) (2, 0) (1, 1) (-1, 3 / 4) (1, 0) = [r, r'] ∨
      qRay (ieee ℝ 53 (by norm_num)) (10 ^ 16) f (0, 0) (2, 0) (1, 1) (-1, 3 / 4) (1, 0) = [r', r]) ∧ 1 < r ∧ r < 2 ∧ 2 < r' ∧ r' < 3 := by
  have hz : Sizes 53 ((0, 0) : P2 ℝ) (2, 0) (1, 1) (-1, 3 / 4) (1, 0) 2 1 1 := by
    refine ⟨⟨?_, isFp_zero⟩, ?_, ?_, ?_, ?_, ?_, ?_⟩
    · exact FpQuadP.fp_one (by norm_num)
    all_goals norm_num
  have al : ∀ s : ℝ, along ((0, 0) : P2 ℝ) (2, 0) (1, 1) (-1, 3 / 4) (1, 0) s = 2 * s + 1 := fun s => by unfold along curve; ring
  have sd : ∀ s : ℝ, side ((0, 0) : P2 ℝ) (2, 0) (1, 1) (-1, 3 / 4) (1, 0) s = 4 * s ^ 2 - 4 * s + 3 / 4 := fun s => by unfold side curve; ring
  obtain ⟨r, r', s, s', e, l, g, l', g', a, a'⟩ := C144_both (ieee ℝ 53 (by norm_num)) (by norm_num) f hz (inv := 10 ^ 16) (s1 := 1 / 8) (s2 := 3 / 8) (s3 := 5 / 8) (s4 := 7 / 8) (by norm_num)
    (by norm_num) (by norm_num) (by norm_num) (by norm_num) (Or.inr ⟨by rw [sd]; norm_num, by rw [sd]; norm_num⟩) (Or.inl ⟨by rw [sd]; norm_num, by rw [sd]; norm_num⟩)
    (fun s l _ => by rw [al]; norm_num at l ⊢; linarith)
  rw [al] at a a'
  have a := abs_le.1 a
  have a' := abs_le.1 a'
  norm_num at l g l' g' a a'
  exact ⟨r, r', e, by linarith, by linarith, by linarith, by linarith⟩

/-- A ray that is missed, by calculation with rational numbers. -/
theorem qRay_missed (f : QRayFused) (q0 q1 q2 o d : P2 ℚ)
    (h : cross (ieee ℚ 53 (by norm_num)) ((qCoeffs (ieee ℚ 53 (by norm_num)) f.bx q0.1 q1.1 q2.1).2, (qCoeffs (ieee ℚ 53 (by norm_num)) f.by' q0.2 q1.2 q2.2).2) d = 0 ∧
      cross (ieee ℚ 53 (by norm_num)) ((qCoeffs (ieee ℚ 53 (by norm_num)) f.bx q0.1 q1.1 q2.1).1, (qCoeffs (ieee ℚ 53 (by norm_num)) f.by' q0.2 q1.2 q2.2).1) d ≠ 0 ∧
      (rne 53 (-cross (ieee ℚ 53 (by norm_num)) (sub (ieee ℚ 53 (by norm_num)) q0 o) d /
        cross (ieee ℚ 53 (by norm_num)) ((qCoeffs (ieee ℚ 53 (by norm_num)) f.bx q0.1 q1.1 q2.1).1, (qCoeffs (ieee ℚ 53 (by norm_num)) f.by' q0.2 q1.2 q2.2).1) d) < 0 ∨
      1 < rne 53 (-cross (ieee ℚ 53 (by norm_num)) (sub (ieee ℚ 53 (by norm_num)) q0 o) d /
        cross (ieee ℚ 53 (by norm_num)) ((qCoeffs (ieee ℚ 53 (by norm_num)) f.bx q0.1 q1.1 q2.1).1, (qCoeffs (ieee ℚ 53 (by norm_num)) f.by' q0.2 q1.2 q2.2).1) d))) :
    qRay (ieee ℝ 53 (by norm_num)) (10 ^ 16) f (q0.1, q0.2) (q1.1, q1.2) (q2.1, q2.2) (o.1, o.2) (d.1, d.2) = [] := by
  obtain ⟨h1, h2, h3⟩ := h
  have hp : 1 ≤ 53 := by norm_num
  have he : qRayEq (ieee ℝ 53 hp) f (q0.1, q0.2) (q1.1, q1.2) (q2.1, q2.2) (o.1, o.2) (d.1, d.2) = (((0 : ℚ) : ℝ),
      ((cross (ieee ℚ 53 hp) ((qCoeffs (ieee ℚ 53 hp) f.bx q0.1 q1.1 q2.1).1, (qCoeffs (ieee ℚ 53 hp) f.by' q0.2 q1.2 q2.2).1) d : ℚ) : ℝ),
      ((cross (ieee ℚ 53 hp) (sub (ieee ℚ 53 hp) q0 o) d : ℚ) : ℝ)) := by
    unfold qRayEq
    dsimp only
    rw [qCoeffs_cast hp, qCoeffs_cast hp, sub_cast hp q0 o, ← h1]
    refine Prod.ext ?_ (Prod.ext ?_ ?_)
    · exact cross_cast hp ((qCoeffs (ieee ℚ 53 hp) f.bx q0.1 q1.1 q2.1).2, (qCoeffs (ieee ℚ 53 hp) f.by' q0.2 q1.2 q2.2).2) d
    · exact cross_cast hp ((qCoeffs (ieee ℚ 53 hp) f.bx q0.1 q1.1 q2.1).1, (qCoeffs (ieee ℚ 53 hp) f.by' q0.2 q1.2 q2.2).1) d
    · exact cross_cast hp (sub (ieee ℚ 53 hp) q0 o) d
  unfold qRay
  rw [he]
  dsimp only
  generalize cross (ieee ℚ 53 hp) ((qCoeffs (ieee ℚ 53 hp) f.bx q0.1 q1.1 q2.1).1, (qCoeffs (ieee ℚ 53 hp) f.by' q0.2 q1.2 q2.2).1) d = b at *
  generalize cross (ieee ℚ 53 hp) (sub (ieee ℚ 53 hp) q0 o) d = c at *
  have hs : solveQuadratic (ieee ℝ 53 hp) (10 ^ 16) ((0 : ℚ) : ℝ) b c = (((rne 53 (-c / b) : ℚ) : ℝ), 10 ^ 16) := by
    unfold solveQuadratic
    rw [if_pos Rat.cast_zero, if_neg (by exact_mod_cast h2)]
    congr 1
    rw [show (-(c : ℝ) / b) = ((-c / b : ℚ) : ℝ) by push_cast; rfl]
    exact rne_cast _
  rw [hs]
  have hn : ¬ (0 ≤ ((rne 53 (-c / b) : ℚ) : ℝ) ∧ ((rne 53 (-c / b) : ℚ) : ℝ) ≤ 1) := by
    rintro ⟨g1, g2⟩
    rcases h3 with h3 | h3
    · have : ((rne 53 (-c / b) : ℚ) : ℝ) < 0 := by exact_mod_cast h3
      linarith
    · have : (1 : ℝ) < ((rne 53 (-c / b) : ℚ) : ℝ) := by exact_mod_cast h3
      linarith
  rw [List.filterMap_cons, if_neg hn]
  dsimp only
  rw [List.filterMap_cons, if_neg (by norm_num)]
  rfl

theorem leak_1 (x y : Bool) :
    let R := ieee ℚ 53 (by norm_num)
    let b := cross R ((qCoeffs R x (1 / 2) 1 (3 / 4)).1, (qCoeffs R y (5 / 4) 3 (17 / 8)).1) (1, 3)
    let c := cross R (sub R (1 / 2, 5 / 4) (-(7 / 2 ^ 56), -(21 / 2 ^ 56))) (1, 3)
    cross R ((qCoeffs R x (1 / 2) 1 (3 / 4)).2, (qCoeffs R y (5 / 4) 3 (17 / 8)).2) (1, 3) = 0 ∧ b ≠ 0 ∧ (rne 53 (-c / b) < 0 ∨ 1 < rne 53 (-c / b)) := by
  cases x <;> cases y <;> decide +kernel

theorem leak_2 (x y : Bool) :
    let R := ieee ℚ 53 (by norm_num)
    let b := cross R ((qCoeffs R x 1 1 1).1, (qCoeffs R y 3 4 (7 / 2)).1) (1, 3)
    let c := cross R (sub R (1, 3) (-(7 / 2 ^ 56), -(21 / 2 ^ 56))) (1, 3)
    cross R ((qCoeffs R x 1 1 1).2, (qCoeffs R y 3 4 (7 / 2)).2) (1, 3) = 0 ∧ b ≠ 0 ∧ (rne 53 (-c / b) < 0 ∨ 1 < rne 53 (-c / b)) := by
  cases x <;> cases y <;> decide +kernel

/-- **C144** is false near the ends: a ray, in double precision, that passes exactly through the common node of two edges, from one side of the two to the other, and is reported by neither.
(The edges are straight, with the middle nodes in the middle; the direction is not normalized.) -/
theorem C144_leak_fails (f : QRayFused) : ∃ a m b n c o d : P2 ℝ, (∀ x ∈ [a, m, b, n, c, o, d], IsFp2 53 x) ∧ (∃ t : ℝ, 1 < t ∧ b = (o.1 + t * d.1, o.2 + t * d.2)) ∧
    0 < side a b m o d 0 ∧ side b c n o d 1 < 0 ∧ side a b m o d 1 = 0 ∧ side b c n o d 0 = 0 ∧
    qRay (ieee ℝ 53 (by norm_num)) (10 ^ 16) f a b m o d = [] ∧ qRay (ieee ℝ 53 (by norm_num)) (10 ^ 16) f b c n o d = [] := by
  refine ⟨(1 / 2, 5 / 4), (3 / 4, 17 / 8), (1, 3), (1, 7 / 2), (1, 4), (-(7 / 2 ^ 56), -(21 / 2 ^ 56)), (1, 3), ?_, ⟨1 + 7 / 2 ^ 56, by norm_num, by norm_num⟩, ?_, ?_, ?_, ?_, ?_, ?_⟩
  · have fp : ∀ (k : ℤ) (n : ℕ), |k| < 2 ^ 53 → IsFp 53 ((k : ℝ) / 2 ^ n) := fun k n hk => ⟨k, -(n : ℤ), hk, by rw [zpow_neg, zpow_natCast]; rfl⟩
    intro x hx
    simp only [List.mem_cons, List.not_mem_nil, or_false] at hx
    rcases hx with rfl | rfl | rfl | rfl | rfl | rfl | rfl
    · exact ⟨by simpa using fp 1 1 (by norm_num), by have := fp 5 2 (by norm_num); norm_num at this; exact this⟩
    · exact ⟨by have := fp 3 2 (by norm_num); norm_num at this; exact this, by have := fp 17 3 (by norm_num); norm_num at this; exact this⟩
    · exact ⟨by simpa using fp 1 0 (by norm_num), by simpa using fp 3 0 (by norm_num)⟩
    · exact ⟨by simpa using fp 1 0 (by norm_num), by have := fp 7 1 (by norm_num); norm_num at this; exact this⟩
    · exact ⟨by simpa using fp 1 0 (by norm_num), by simpa using fp 4 0 (by norm_num)⟩
    · exact ⟨(by have := fp 7 56 (by norm_num); push_cast at this; exact this.neg), (by have := fp 21 56 (by norm_num); push_cast at this; exact this.neg)⟩
    · exact ⟨by simpa using fp 1 0 (by norm_num), by simpa using fp 3 0 (by norm_num)⟩
  · unfold side curve; norm_num
  · unfold side curve; norm_num
  · unfold side curve; norm_num
  · unfold side curve; norm_num
  · have m := qRay_missed f (1 / 2, 5 / 4) (1, 3) (3 / 4, 17 / 8) (-(7 / 2 ^ 56), -(21 / 2 ^ 56)) (1, 3) (leak_1 f.bx f.by')
    push_cast at m
    exact m
  · have m := qRay_missed f (1, 3) (1, 4) (1, 7 / 2) (-(7 / 2 ^ 56), -(21 / 2 ^ 56)) (1, 3) (leak_2 f.bx f.by')
    push_cast at m
    exact m

end Verif.FpQRayP
