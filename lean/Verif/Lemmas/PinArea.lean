import Verif.Lemmas.PinTopo
import Verif.Props.PinTopo
import Verif.Model.Quadratic
import Mathlib.Analysis.SpecialFunctions.Trigonometric.Basic
import Mathlib.Analysis.Real.Sqrt
import Mathlib.Algebra.BigOperators.Intervals
import Mathlib.Tactic.FieldSimp
import Mathlib.Tactic.LinearCombination
import Mathlib.Tactic.Positivity

/-! Helper lemmas for C61. -/

namespace Verif.PinArea

open Verif Verif.Pin Verif.PinTopo

/-! ## Powers of two -/

theorem even_of_and {n : Nat} (h2 : 2 ≤ n) (h : n &&& (n - 1) = 0) : n % 2 = 0 := by
  by_contra hc
  have h1 : (n &&& (n - 1)) = n - 1 := by
    apply Nat.eq_of_testBit_eq
    intro i
    rw [Nat.testBit_and]
    cases i with
    | zero =>
      rw [Nat.testBit_zero, Nat.testBit_zero]
      have : (n - 1) % 2 = 0 := by omega
      simp [this]
    | succ i =>
      rw [Nat.testBit_succ, Nat.testBit_succ]
      have : (n - 1) / 2 = n / 2 := by omega
      rw [this, Bool.and_self]
  omega

theorem half_and {n : Nat} (he : n % 2 = 0) (h : n &&& (n - 1) = 0) : (n / 2) &&& (n / 2 - 1) = 0 := by
  apply Nat.eq_of_testBit_eq
  intro i
  have := congrArg (fun m => m.testBit (i + 1)) h
  rw [Nat.testBit_and, Nat.zero_testBit, Nat.testBit_succ, Nat.testBit_succ] at this
  rw [Nat.testBit_and, Nat.zero_testBit]
  by_cases h0 : n = 0
  · subst h0; simp
  · rwa [show (n - 1) / 2 = n / 2 - 1 by omega] at this

theorem eight_dvd {n : Nat} (h8 : 8 ≤ n) (h : n &&& (n - 1) = 0) : n % 8 = 0 := by
  have e1 := even_of_and (by omega) h
  have h1 := half_and e1 h
  have e2 := even_of_and (by omega) h1
  have h2 := half_and e2 h1
  have e3 := even_of_and (by omega) h2
  omega

/-! ## The square -/

open Real in
/-- Distance from the centre to the boundary of the square, in the direction of angle `x`. -/
noncomputable def rbd (p x : ℝ) : ℝ := p / 2 / max |cos x| |sin x|

theorem max_pos (x : ℝ) : 0 < max |Real.cos x| |Real.sin x| := by
  by_contra h
  rw [not_lt, max_le_iff] at h
  have h1 := abs_nonpos_iff.1 h.1
  have h2 := abs_nonpos_iff.1 h.2
  have := Real.sin_sq_add_cos_sq x
  rw [h1, h2] at this
  norm_num at this

theorem boundaryRadius_eq {p : ℝ} (hp : 0 < p) (x : ℝ) : boundaryRadius p (Real.cos x, Real.sin x) = rbd p x := by
  have hm := max_pos x
  have e : ∀ y : ℝ, y ≠ 0 → |p / (2 * y)| = p / 2 / |y| := by
    intro y hy
    rw [abs_div, abs_mul, abs_of_pos hp, abs_of_pos (by norm_num : (0 : ℝ) < 2)]
    field_simp
  unfold boundaryRadius rbd
  dsimp only
  by_cases hc : Real.cos x = 0
  · have hs : Real.sin x ≠ 0 := by
      intro hs; rw [hc, hs] at hm; simp at hm
    rw [if_pos hc, e _ hs, hc, abs_zero, max_eq_right (abs_nonneg _)]
  · rw [if_neg hc]
    by_cases hs : Real.sin x = 0
    · rw [if_pos hs, e _ hc, hs, abs_zero, max_eq_left (abs_nonneg _)]
    · rw [if_neg hs, e _ hc, e _ hs]
      have c1 : 0 < |Real.cos x| := abs_pos.2 hc
      have c2 : 0 < |Real.sin x| := abs_pos.2 hs
      have iff1 : p / 2 / |Real.sin x| < p / 2 / |Real.cos x| ↔ |Real.cos x| < |Real.sin x| := by
        rw [div_lt_div_iff_of_pos_left (by positivity) c2 c1]
      by_cases hlt : |Real.cos x| < |Real.sin x|
      · rw [if_pos (iff1.2 hlt), max_eq_right hlt.le]
      · rw [if_neg (fun h => hlt (iff1.1 h)), max_eq_left (not_lt.1 hlt)]

theorem rbd_quarter (p x : ℝ) : rbd p (x + Real.pi / 2) = rbd p x := by
  unfold rbd
  rw [Real.cos_add_pi_div_two, Real.sin_add_pi_div_two, abs_neg, max_comm]

theorem rbd_period (p x : ℝ) : rbd p (x + 2 * Real.pi) = rbd p x := by
  unfold rbd
  rw [Real.cos_add_two_pi, Real.sin_add_two_pi]

theorem rbd_first (p x : ℝ) (h0 : 0 ≤ x) (h1 : x ≤ Real.pi / 4) : 0 < Real.cos x ∧ rbd p x = p / 2 / Real.cos x := by
  have hpi := Real.pi_pos
  have hc : 0 < Real.cos x := Real.cos_pos_of_mem_Ioo ⟨by linarith, by linarith⟩
  have hs : 0 ≤ Real.sin x := Real.sin_nonneg_of_nonneg_of_le_pi h0 (by linarith)
  have hle : Real.sin x ≤ Real.cos x := by
    calc Real.sin x ≤ Real.sin (Real.pi / 4) := Real.sin_le_sin_of_le_of_le_pi_div_two (by linarith) (by linarith) h1
      _ = Real.cos (Real.pi / 4) := by rw [Real.sin_pi_div_four, Real.cos_pi_div_four]
      _ ≤ Real.cos x := Real.cos_le_cos_of_nonneg_of_le_pi h0 (by linarith) h1
  refine ⟨hc, ?_⟩
  unfold rbd
  rw [abs_of_pos hc, abs_of_nonneg hs, max_eq_left hle]

theorem rbd_second (p x : ℝ) (h0 : Real.pi / 4 ≤ x) (h1 : x ≤ Real.pi / 2) : 0 < Real.sin x ∧ rbd p x = p / 2 / Real.sin x := by
  have hpi := Real.pi_pos
  have h := rbd_first p (Real.pi / 2 - x) (by linarith) (by linarith)
  rw [Real.cos_pi_div_two_sub] at h
  refine ⟨h.1, ?_⟩
  rw [← h.2]
  unfold rbd
  rw [Real.cos_pi_div_two_sub, Real.sin_pi_div_two_sub, max_comm]

/-- Twice the area between two neighbouring points of the boundary, seen from the centre. -/
noncomputable def wedge (p t : ℝ) (a : ℕ) : ℝ := rbd p (t * a) * rbd p (t * (a + 1 : ℕ)) * Real.sin t

theorem wedge_first (p t : ℝ) (ht : 0 ≤ t) (a q : ℕ) (ha : a < q) (hq : t * q = Real.pi / 4) :
    wedge p t a = (p / 2) ^ 2 * (Real.sin (t * (a + 1 : ℕ)) / Real.cos (t * (a + 1 : ℕ)) - Real.sin (t * a) / Real.cos (t * a)) := by
  have b1 : (a : ℝ) ≤ q := by exact_mod_cast ha.le
  have b2 : ((a + 1 : ℕ) : ℝ) ≤ q := by exact_mod_cast ha
  obtain ⟨c1, e1⟩ := rbd_first p (t * a) (by positivity) (by rw [← hq]; exact mul_le_mul_of_nonneg_left b1 ht)
  obtain ⟨c2, e2⟩ := rbd_first p (t * (a + 1 : ℕ)) (by positivity) (by rw [← hq]; exact mul_le_mul_of_nonneg_left b2 ht)
  have hs : Real.sin t = Real.sin (t * (a + 1 : ℕ)) * Real.cos (t * a) - Real.cos (t * (a + 1 : ℕ)) * Real.sin (t * a) := by
    rw [← Real.sin_sub]; congr 1; push_cast; ring
  unfold wedge
  rw [e1, e2, hs]
  field_simp

theorem wedge_second (p t : ℝ) (ht : 0 ≤ t) (a q : ℕ) (ha : a < q) (hq : t * q = Real.pi / 4) :
    wedge p t (q + a) = (p / 2) ^ 2 * (Real.cos (t * (q + a : ℕ)) / Real.sin (t * (q + a : ℕ)) - Real.cos (t * (q + (a + 1) : ℕ)) / Real.sin (t * (q + (a + 1) : ℕ))) := by
  have b1 : (a : ℝ) ≤ q := by exact_mod_cast ha.le
  have b2 : ((a : ℝ) + 1) ≤ q := by exact_mod_cast ha
  have l1 := mul_le_mul_of_nonneg_left b1 ht
  have l2 := mul_le_mul_of_nonneg_left b2 ht
  have l0 : 0 ≤ t * a := by positivity
  obtain ⟨c1, e1⟩ := rbd_second p (t * (q + a : ℕ)) (by push_cast; linarith) (by push_cast; linarith)
  obtain ⟨c2, e2⟩ := rbd_second p (t * (q + (a + 1) : ℕ)) (by push_cast; linarith) (by push_cast; linarith)
  have hs : Real.sin t = Real.sin (t * (q + (a + 1) : ℕ)) * Real.cos (t * (q + a : ℕ)) - Real.cos (t * (q + (a + 1) : ℕ)) * Real.sin (t * (q + a : ℕ)) := by
    rw [← Real.sin_sub]; congr 1; push_cast; ring
  unfold wedge
  rw [show q + a + 1 = q + (a + 1) by omega, e1, e2, hs]
  field_simp

theorem sum_quarter {f : ℕ → ℝ} {n : ℕ} (h : ∀ a, f (a + n) = f a) : ∑ a ∈ Finset.range (4 * n), f a = 4 * ∑ a ∈ Finset.range n, f a := by
  rw [show 4 * n = n + (n + (n + n)) by omega, Finset.sum_range_add, Finset.sum_range_add, Finset.sum_range_add]
  have h1 : ∀ a, f (n + a) = f a := fun a => by rw [Nat.add_comm, h]
  simp only [h1]
  ring

/-- The points of the boundary at the angles `t a` enclose the square: twice its area. -/
theorem wedge_sum (p t : ℝ) (q : ℕ) (hq0 : 0 < q) (hq : t * q = Real.pi / 4) : ∑ a ∈ Finset.range (8 * q), wedge p t a = 2 * p ^ 2 := by
  have hq1 : (0 : ℝ) < q := by exact_mod_cast hq0
  have ht : 0 ≤ t := by
    have : 0 < t * q := by rw [hq]; positivity
    exact (pos_of_mul_pos_left this hq1.le).le
  have hper : ∀ a, wedge p t (a + 2 * q) = wedge p t a := by
    intro a
    have key : ∀ b : ℕ, rbd p (t * (b + 2 * q : ℕ)) = rbd p (t * b) := by
      intro b
      rw [← rbd_quarter p (t * b)]
      congr 1
      push_cast
      linear_combination 2 * hq
    unfold wedge
    rw [key, show a + 2 * q + 1 = (a + 1) + 2 * q by omega, key]
  rw [show 8 * q = 4 * (2 * q) by omega, sum_quarter hper, Nat.two_mul, Finset.sum_range_add]
  have s1 : ∑ a ∈ Finset.range q, wedge p t a = (p / 2) ^ 2 := by
    rw [Finset.sum_congr rfl fun a ha => wedge_first p t ht a q (Finset.mem_range.1 ha) hq, ← Finset.mul_sum,
      Finset.sum_range_sub (fun a : ℕ => Real.sin (t * a) / Real.cos (t * a))]
    rw [hq]
    simp only [Nat.cast_zero, mul_zero, Real.sin_zero, zero_div, sub_zero, Real.sin_pi_div_four, Real.cos_pi_div_four]
    rw [div_self (by positivity), mul_one]
  have s2 : ∑ a ∈ Finset.range q, wedge p t (q + a) = (p / 2) ^ 2 := by
    rw [Finset.sum_congr rfl fun a ha => wedge_second p t ht a q (Finset.mem_range.1 ha) hq, ← Finset.mul_sum,
      Finset.sum_range_sub' (fun a : ℕ => Real.cos (t * (q + a : ℕ)) / Real.sin (t * (q + a : ℕ)))]
    have : t * ((q + q : ℕ) : ℝ) = Real.pi / 2 := by push_cast; linear_combination 2 * hq
    rw [this, Nat.add_zero, hq, Real.cos_pi_div_two, Real.sin_pi_div_four, Real.cos_pi_div_four, zero_div, sub_zero, div_self (by positivity), mul_one]
  rw [s1, s2]
  ring

/-! ## Areas of faces -/

/-- A point as a vector. -/
def pt {K : Type} (p : K × K) : Geom.Pt 2 K := ![p.1, p.2]

/-- Twice the shoelace area. -/
def shoe {K : Type} [Field K] (a b c d : K × K) : K :=
  (a.1 * b.2 - b.1 * a.2 + (b.1 * c.2 - c.1 * b.2) + (c.1 * d.2 - d.1 * c.2) + (d.1 * a.2 - a.1 * d.2)) / 2

/-- The area of a quadratic quadrilateral. -/
def area8 {K : Type} [Field K] [LinearOrder K] (a b c d ab bc cd da : K × K) : K :=
  Geom.quad8Area ![pt a, pt b, pt c, pt d, pt ab, pt bc, pt cd, pt da]

section
variable {K : Type} [Field K] [LinearOrder K] [IsStrictOrderedRing K]

/-- Translation by `(h, h)`. -/
def tr (h : K) (p : K × K) : K × K := (p.1 + h, p.2 + h)

theorem shoe_ring (h x0 x1 x2 x3 c0 s0 c1 s1 : K) :
    shoe (tr h (polar x0 (c0, s0))) (tr h (polar x1 (c0, s0))) (tr h (polar x2 (c1, s1))) (tr h (polar x3 (c1, s1))) = (x1 * x2 - x0 * x3) * (s1 * c0 - c1 * s0) / 2 := by
  simp only [shoe, tr, polar]; ring

theorem shoe_odd (h x1 x2 x3 c0 s0 c1 s1 : K) :
    shoe (tr h (0, 0)) (tr h (polar x1 (c0, s0))) (tr h (polar x2 (c0, s0))) (tr h (polar x3 (c1, s1))) = (x2 * x3) * (s1 * c0 - c1 * s0) / 2 := by
  simp only [shoe, tr, polar]; ring

theorem area8_eq (a b c d ab bc cd da : K × K) : area8 a b c d ab bc cd da =
    shoe a b c d + 2 / 3 * (((ab.1 - a.1) * (b.2 - a.2) - (ab.2 - a.2) * (b.1 - a.1)) + ((bc.1 - b.1) * (c.2 - b.2) - (bc.2 - b.2) * (c.1 - b.1)) +
      ((cd.1 - c.1) * (d.2 - c.2) - (cd.2 - c.2) * (d.1 - c.1)) + ((da.1 - d.1) * (a.2 - d.2) - (da.2 - d.2) * (a.1 - d.1))) := by
  unfold area8 Geom.quad8Area
  simp [List.finRange_succ, Geom.enclosedArea, Geom.getEdge2, Geom.quadArea, Geom.linearPolygon, Geom.cross, Mx.det2x2, pt, shoe]
  ring

/-- The area of a quadratic face between two rings; the midpoints of the arcs have direction `(cm, sm)`. -/
theorem area8_ring (h x0 x1 x2 x3 y0 y1 y2 y3 c0 s0 c1 s1 cm sm : K) :
    area8 (tr h (polar x0 (c0, s0))) (tr h (polar x1 (c0, s0))) (tr h (polar x2 (c1, s1))) (tr h (polar x3 (c1, s1)))
      (tr h (polar y0 (c0, s0))) (tr h (polar y1 (cm, sm))) (tr h (polar y2 (c1, s1))) (tr h (polar y3 (cm, sm))) =
    ((x1 * x2 * (s1 * c0 - c1 * s0)) / 2 + 2 / 3 * (y1 * x2 * (s1 * cm - c1 * sm) + y1 * x1 * (sm * c0 - cm * s0) - x1 * x2 * (s1 * c0 - c1 * s0))) -
    ((x0 * x3 * (s1 * c0 - c1 * s0)) / 2 + 2 / 3 * (y3 * x3 * (s1 * cm - c1 * sm) + y3 * x0 * (sm * c0 - cm * s0) - x0 * x3 * (s1 * c0 - c1 * s0))) := by
  rw [area8_eq]
  simp only [shoe, tr, polar]; ring

theorem area8_even (h x1 x2 x3 y0 y1 y2 y3 c0 s0 c1 s1 cm sm : K) :
    area8 (tr h (0, 0)) (tr h (polar x1 (c0, s0))) (tr h (polar x2 (c1, s1))) (tr h (polar x3 (c1, s1)))
      (tr h (polar y0 (c0, s0))) (tr h (polar y1 (cm, sm))) (tr h (polar y2 (c1, s1))) (tr h (polar y3 (c1, s1))) =
    (x1 * x2 * (s1 * c0 - c1 * s0)) / 2 + 2 / 3 * (y1 * x2 * (s1 * cm - c1 * sm) + y1 * x1 * (sm * c0 - cm * s0) - x1 * x2 * (s1 * c0 - c1 * s0)) := by
  rw [area8_eq]
  simp only [shoe, tr, polar]; ring

theorem area8_odd (h x1 x2 x3 y0 y1 y2 y3 c0 s0 c1 s1 cm sm : K) :
    area8 (tr h (0, 0)) (tr h (polar x1 (c0, s0))) (tr h (polar x2 (c0, s0))) (tr h (polar x3 (c1, s1)))
      (tr h (polar y0 (c0, s0))) (tr h (polar y1 (c0, s0))) (tr h (polar y2 (cm, sm))) (tr h (polar y3 (c1, s1))) =
    (x2 * x3 * (s1 * c0 - c1 * s0)) / 2 + 2 / 3 * (y2 * x3 * (s1 * cm - c1 * sm) + y2 * x2 * (sm * c0 - cm * s0) - x2 * x3 * (s1 * c0 - c1 * s0)) := by
  rw [area8_eq]
  simp only [shoe, tr, polar]; ring

end

/-! ## Radii -/

section
open Real

/-- The functions of real arithmetic, with a tolerance. -/
noncomputable def realLibm (eps : ℝ) : Libm ℝ := ⟨Real.sqrt, Real.sin, Real.cos, Real.pi, eps⟩

theorem eqLoop1_spec {eps : ℝ} {na : Nat} {p : ℝ} {as : List ℝ} (ha : ∀ a ∈ as, 0 ≤ a) (hs : 0 < Real.sin (theta (realLibm eps) na)) (hn : 0 < na) (k : Nat) (e1 : ℝ)
    (h1 : (eqLoop1 (realLibm eps) na p as)[k]? = some e1) :
    ∃ e0 a, (p :: eqLoop1 (realLibm eps) na p as)[k]? = some e0 ∧ as[k]? = some a ∧ (e1 * e1 - e0 * e0) * Real.sin (theta (realLibm eps) na) / 2 = a / na := by
  induction as generalizing p k with
  | nil => simp [eqLoop1] at h1
  | cons a as ih =>
    have hn' : (0 : ℝ) < na := by exact_mod_cast hn
    cases k with
    | zero =>
      simp only [eqLoop1, List.getElem?_cons_zero, Option.some.injEq] at h1
      refine ⟨p, a, by simp, by simp, ?_⟩
      rw [← h1]
      change (√(2 * a / (sin (theta (realLibm eps) na) * na) + p * p) * √(2 * a / (sin (theta (realLibm eps) na) * na) + p * p) - p * p) * _ / 2 = _
      have := ha a (by simp)
      rw [Real.mul_self_sqrt (add_nonneg (by positivity) (mul_self_nonneg p))]
      field_simp
      ring
    | succ k =>
      simp only [eqLoop1, List.getElem?_cons_succ] at h1
      obtain ⟨e0, a', h, h', h''⟩ := ih (fun a ha' => ha a (by simp [ha'])) k h1
      exact ⟨e0, a', by simpa [eqLoop1] using h, by simpa using h', h''⟩

theorem eqRadii1_spec {eps : ℝ} {na : Nat} {as : List ℝ} (ha : ∀ a ∈ as, 0 ≤ a) (hs : 0 < Real.sin (theta (realLibm eps) na)) (hn : 0 < na) (k : Nat) (e1 : ℝ)
    (h1 : (eqRadii1 (realLibm eps) na as)[k]? = some e1) :
    ∃ e0 a, (0 :: eqRadii1 (realLibm eps) na as)[k]? = some e0 ∧ as[k]? = some a ∧ (e1 * e1 - e0 * e0) * Real.sin (theta (realLibm eps) na) / 2 = a / na := by
  have : eqRadii1 (realLibm eps) na as = eqLoop1 (realLibm eps) na 0 as := by
    cases as with
    | nil => rfl
    | cons a as => simp [eqRadii1, eqLoop1]
  rw [this] at h1 ⊢
  exact eqLoop1_spec ha hs hn k e1 h1

theorem radiiLoop_pos {eps p : ℝ} {as : List ℝ} (hp : 0 < p) (ha : ∀ a ∈ as, 0 ≤ a) : ∀ r ∈ radiiLoop (realLibm eps) p as, 0 < r := by
  induction as generalizing p with
  | nil => simp [radiiLoop]
  | cons a as ih =>
    have h0 : 0 < √(a / π + p * p) := Real.sqrt_pos.2 (by have := ha a (by simp); have := Real.pi_pos; positivity)
    intro r hr
    simp only [radiiLoop, List.mem_cons] at hr
    rcases hr with rfl | hr
    · exact h0
    · exact ih h0 (fun a ha' => ha a (by simp [ha'])) r hr

theorem ringRadii_pos {eps : ℝ} {a : ℝ} {as : List ℝ} (h : 0 < a) (ha : ∀ a ∈ as, 0 ≤ a) : ∀ r ∈ ringRadii (realLibm eps) (a :: as), 0 < r := by
  have h0 : 0 < √(a / π) := Real.sqrt_pos.2 (by have := Real.pi_pos; positivity)
  intro r hr
  simp only [ringRadii, List.mem_cons] at hr
  rcases hr with rfl | hr
  · exact h0
  · exact radiiLoop_pos h0 ha r hr

/-- The area between the centre and one arc of a ring with radius `l` and equivalent radius `e`. -/
noncomputable def sector (g l e : ℝ) : ℝ := l * l * Real.sin (2 * g) / 2 + 2 / 3 * (2 * (e * l * Real.sin g) - l * l * Real.sin (2 * g))

theorem eqLoop2_spec {eps : ℝ} {na : Nat} {l1 e1 : ℝ} {ls as : List ℝ} (hl : ∀ l ∈ ls, 0 < l) (hs : 0 < Real.sin (gamma (realLibm eps) na)) (k : Nat) (e l : ℝ)
    (h1 : (eqLoop2 (realLibm eps) na l1 e1 ls as)[k]? = some e) (h2 : ls[k]? = some l) :
    ∃ e0 l0 a, (e1 :: eqLoop2 (realLibm eps) na l1 e1 ls as)[k]? = some e0 ∧ (l1 :: ls)[k]? = some l0 ∧ as[k]? = some a ∧
      sector (gamma (realLibm eps) na) l e - sector (gamma (realLibm eps) na) l0 e0 = a / na := by
  induction as generalizing l1 e1 ls k with
  | nil => cases ls <;> simp [eqLoop2] at h1
  | cons a as ih =>
    cases ls with
    | nil => simp at h2
    | cons x xs =>
      cases k with
      | zero =>
        simp only [eqLoop2, List.getElem?_cons_zero, Option.some.injEq] at h1 h2
        subst h2
        refine ⟨e1, l1, a, by simp, by simp, by simp, ?_⟩
        rw [← h1]
        have hx := hl x (by simp)
        change sector (gamma (realLibm eps) na) x (3 / 4 * (a / (na : ℝ) - (x * x - l1 * l1) * (sin (gamma (realLibm eps) na) * cos (gamma (realLibm eps) na)) +
          l1 * sin (gamma (realLibm eps) na) * (e1 - l1 * cos (gamma (realLibm eps) na)) / (3 / 4)) / (x * sin (gamma (realLibm eps) na)) + x * cos (gamma (realLibm eps) na)) - _ = _
        unfold sector
        generalize gamma (realLibm eps) na = g at *
        generalize a / (na : ℝ) = A
        rw [Real.sin_two_mul]
        field_simp
        ring
      | succ k =>
        simp only [eqLoop2, List.getElem?_cons_succ] at h1 h2
        obtain ⟨e0, l0, a', q1, q2, q3, q4⟩ := ih (fun l h => hl l (by simp [h])) k h1 h2
        exact ⟨e0, l0, a', by simpa [eqLoop2] using q1, by simpa using q2, by simpa using q3, q4⟩

theorem eqRadii2_spec {eps : ℝ} {na : Nat} {ls as : List ℝ} (hl : ∀ l ∈ ls, 0 < l) (hs : 0 < Real.sin (gamma (realLibm eps) na)) (k : Nat) (e l : ℝ)
    (h1 : (eqRadii2 (realLibm eps) na ls as)[k]? = some e) (h2 : ls[k]? = some l) :
    ∃ e0 l0 a, (0 :: eqRadii2 (realLibm eps) na ls as)[k]? = some e0 ∧ (0 :: ls)[k]? = some l0 ∧ as[k]? = some a ∧
      sector (gamma (realLibm eps) na) l e - sector (gamma (realLibm eps) na) l0 e0 = a / na := by
  have : eqRadii2 (realLibm eps) na ls as = eqLoop2 (realLibm eps) na 0 0 ls as := by
    cases ls with
    | nil => rfl
    | cons l ls =>
      cases as with
      | nil => rfl
      | cons a as => simp [eqRadii2, eqLoop2]
  rw [this] at h1 ⊢
  exact eqLoop2_spec hl hs k e l h1 h2

end

/-! ## Positions of the vertices -/

section
variable {K : Type} [Field K] [LinearOrder K]

theorem flatMap_at {α β : Type} {f : α → List β} {m : Nat} (l : List α) (hl : ∀ x, (f x).length = m) (r a : Nat) (ha : a < m) :
    (l.flatMap f)[r * m + a]? = l[r]?.bind fun x => (f x)[a]? := by
  induction l generalizing r with
  | nil => simp
  | cons x l ih =>
    rw [List.flatMap_cons]
    cases r with
    | zero => rw [List.getElem?_append_left (by rw [hl]; omega)]; simp
    | succ r =>
      rw [List.getElem?_append_right (by rw [hl, Nat.succ_mul]; omega), hl, show (r + 1) * m + a - m = r * m + a by rw [Nat.succ_mul]; omega, ih]
      simp

theorem append_at {α : Type} {l1 l2 : List α} {n k : Nat} (h : l1.length = n) : (l1 ++ l2)[n + k]? = l2[k]? := by
  subst h
  rw [List.getElem?_append_right (by omega), Nat.add_sub_cancel_left]

theorem map_at {α : Type} (f : Nat → α) {n k : Nat} (h : k < n) : ((List.range n).map f)[k]? = some (f k) := by
  rw [List.getElem?_map, List.getElem?_range h, Option.map_some]

theorem points1_T (m : Libm K) (na : Nat) (pitch : K) (eq : List K) (i : Nat) (hi : i < na / 2) :
    (points1 m na pitch eq)[1 + i]? = some (polar (eq.headD 0 / 2) (m.cos (theta m na * (2 * (i : K) + 1)), m.sin (theta m na * (2 * (i : K) + 1)))) := by
  unfold points1
  rw [List.append_assoc, List.append_assoc, append_at (by simp), List.getElem?_append_left (by simp [triPoints1, hi]), triPoints1, map_at _ hi]

theorem points1_R (m : Libm K) (na : Nat) (pitch : K) (eq : List K) (r a : Nat) (e : K) (he : eq[r]? = some e) (ha : a < na) :
    (points1 m na pitch eq)[1 + na / 2 + r * na + a]? = some (polar e (snapTrig m (theta m na * (a : K)))) := by
  unfold points1
  have hr := (List.getElem?_eq_some_iff.1 he).1
  have hlen : (eq.flatMap (ringPoints1 m na)).length = eq.length * na := Mpact.flatMap_length _ na _ fun x _ => by simp [ringPoints1]
  rw [List.append_assoc, Nat.add_assoc (1 + na / 2), append_at (n := 1 + na / 2) (by simp [triPoints1]; omega), List.getElem?_append_left, flatMap_at _ (fun x => by simp [ringPoints1]) _ _ ha, he]
  · simp only [Option.bind_some, ringPoints1]
    exact map_at _ ha
  · rw [hlen]
    have : (r + 1) * na ≤ eq.length * na := Nat.mul_le_mul_right _ hr
    rw [Nat.succ_mul] at this
    omega

theorem points1_bd (m : Libm K) (na : Nat) (pitch : K) (eq : List K) (a : Nat) (ha : a < na) :
    (points1 m na pitch eq)[1 + na / 2 + eq.length * na + a]? =
      some (polar (boundaryRadius pitch (snapTrig m (theta m na * (a : K)))) (snapTrig m (theta m na * (a : K)))) := by
  unfold points1
  have hlen : (eq.flatMap (ringPoints1 m na)).length = eq.length * na := Mpact.flatMap_length _ na _ fun x _ => by simp [ringPoints1]
  rw [append_at (by simp [triPoints1, hlen]; omega)]
  exact map_at _ ha

/-- The vertices after a ring of radius `r`, before the next ring or the boundary. -/
def gap2 (m : Libm K) (na : Nat) (pitch r : K) : List K → List (K × K)
  | [] => beforePoints2 m na pitch r
  | r' :: _ => betweenPoints2 m na r r'

theorem gap2_length (m : Libm K) (na : Nat) (pitch r : K) (rs : List K) : (gap2 m na pitch r rs).length = na := by
  cases rs <;> simp [gap2, beforePoints2, betweenPoints2]

theorem ringPoints2_length (m : Libm K) (na : Nat) (r e : K) : (ringPoints2 m na r e).length = 2 * na := by simp [ringPoints2]

/-- The vertices from the first ring on, order 2. -/
def outer2 (m : Libm K) (na : Nat) (pitch : K) : List K → List K → List (K × K)
  | r :: rs, e :: es =>
    ringPoints2 m na r e ++ (gap2 m na pitch r rs ++ outer2 m na pitch rs es)
  | _, _ => boundaryPoints2 m na pitch

theorem outer2_cons (m : Libm K) (na : Nat) (pitch r e : K) (rs es : List K) :
    outer2 m na pitch (r :: rs) (e :: es) = ringPoints2 m na r e ++ (gap2 m na pitch r rs ++ outer2 m na pitch rs es) := rfl

theorem rings2_outer (m : Libm K) (na : Nat) (pitch r e : K) (rs es : List K) (h : rs.length = es.length) :
    ringPoints2 m na r e ++ (rings2 m na r rs es ++ (beforePoints2 m na pitch ((r :: rs).getLastD 0) ++ boundaryPoints2 m na pitch)) = outer2 m na pitch (r :: rs) (e :: es) := by
  induction rs generalizing r e es with
  | nil =>
    cases es with
    | nil => simp [rings2, outer2, gap2]
    | cons e' es => simp at h
  | cons r' rs ih =>
    cases es with
    | nil => simp at h
    | cons e' es =>
      have h1 := ih r' e' es (by simpa using h)
      rw [outer2_cons, ← h1]
      simp [rings2, gap2]

theorem points2_outer (m : Libm K) (na : Nat) (pitch r e : K) (rs es : List K) (h : rs.length = es.length) :
    points2 m na pitch (r :: rs) (e :: es) = [(0, 0)] ++ (triPoints2 m na r ++ outer2 m na pitch (r :: rs) (e :: es)) := by
  rw [← rings2_outer m na pitch r e rs es h]
  unfold points2
  simp only [List.headD_cons, List.tail_cons, List.append_assoc]

theorem outer2_ring (m : Libm K) (na : Nat) (pitch : K) (rs es : List K) (k s : Nat) (r e : K) (hr : rs[k]? = some r) (he : es[k]? = some e) (hs : s < 2 * na) :
    (outer2 m na pitch rs es)[3 * na * k + s]? = some (polar (if s % 2 = 0 then r else e) (snapTrig m ((s : K) * gamma m na))) := by
  induction k generalizing rs es with
  | zero =>
    cases rs with
    | nil => simp at hr
    | cons r' rs =>
      cases es with
      | nil => simp at he
      | cons e' es =>
        simp only [List.getElem?_cons_zero, Option.some.injEq] at hr he
        subst hr he
        rw [outer2_cons, Nat.mul_zero, Nat.zero_add, List.getElem?_append_left (by simp [ringPoints2, hs])]
        exact map_at _ hs
  | succ k ih =>
    cases rs with
    | nil => simp at hr
    | cons r' rs =>
      cases es with
      | nil => simp at he
      | cons e' es =>
        simp only [List.getElem?_cons_succ] at hr he
        rw [outer2_cons, ← List.append_assoc, show 3 * na * (k + 1) + s = 3 * na + (3 * na * k + s) by rw [Nat.mul_succ]; omega, append_at]
        · exact ih rs es hr he
        · rw [List.length_append, gap2_length, ringPoints2_length]; omega

theorem outer2_between (m : Libm K) (na : Nat) (pitch : K) (rs es : List K) (k a : Nat) (r r' : K) (hr : rs[k]? = some r) (hr' : rs[k + 1]? = some r') (he : k < es.length) (ha : a < na) :
    (outer2 m na pitch rs es)[3 * na * k + 2 * na + a]? = some (polar ((r' + r) / 2) (snapTrig m ((a : K) * theta m na))) := by
  induction k generalizing rs es with
  | zero =>
    cases rs with
    | nil => simp at hr
    | cons x rs =>
      cases es with
      | nil => simp at he
      | cons e' es =>
        simp only [List.getElem?_cons_zero, Option.some.injEq, Nat.zero_add, List.getElem?_cons_succ] at hr hr'
        subst hr
        cases rs with
        | nil => simp at hr'
        | cons y rs =>
          simp only [List.getElem?_cons_zero, Option.some.injEq] at hr'
          subst hr'
          rw [outer2_cons, Nat.mul_zero, Nat.zero_add, append_at (by simp [ringPoints2]), List.getElem?_append_left (by rw [gap2_length]; exact ha)]
          exact map_at _ ha
  | succ k ih =>
    cases rs with
    | nil => simp at hr
    | cons x rs =>
      cases es with
      | nil => simp at he
      | cons e' es =>
        simp only [List.getElem?_cons_succ] at hr hr'
        rw [outer2_cons, ← List.append_assoc, show 3 * na * (k + 1) + 2 * na + a = 3 * na + (3 * na * k + 2 * na + a) by rw [Nat.mul_succ]; omega, append_at]
        · exact ih rs es hr hr' (by simpa using he)
        · rw [List.length_append, gap2_length, ringPoints2_length]; omega

theorem outer2_before (m : Libm K) (na : Nat) (pitch : K) (rs es : List K) (k a : Nat) (r : K) (hr : rs[k]? = some r) (hk : k + 1 = rs.length) (he : rs.length = es.length) (ha : a < na) :
    (outer2 m na pitch rs es)[3 * na * k + 2 * na + a]? =
      some (polar ((boundaryRadius pitch (snapTrig m ((a : K) * theta m na)) + r) / 2) (snapTrig m ((a : K) * theta m na))) := by
  induction k generalizing rs es with
  | zero =>
    cases rs with
    | nil => simp at hr
    | cons x rs =>
      cases es with
      | nil => simp at he
      | cons e' es =>
        simp only [List.getElem?_cons_zero, Option.some.injEq, Nat.zero_add] at hr
        subst hr
        cases rs with
        | cons y rs => simp at hk
        | nil =>
          rw [outer2_cons, Nat.mul_zero, Nat.zero_add, append_at (by simp [ringPoints2]), List.getElem?_append_left (by rw [gap2_length]; exact ha)]
          exact map_at _ ha
  | succ k ih =>
    cases rs with
    | nil => simp at hr
    | cons x rs =>
      cases es with
      | nil => simp at he
      | cons e' es =>
        simp only [List.getElem?_cons_succ] at hr
        rw [outer2_cons, ← List.append_assoc, show 3 * na * (k + 1) + 2 * na + a = 3 * na + (3 * na * k + 2 * na + a) by rw [Nat.mul_succ]; omega, append_at]
        · exact ih rs es hr (by simpa using hk) (by simpa using he)
        · rw [List.length_append, gap2_length, ringPoints2_length]; omega

theorem outer2_bd (m : Libm K) (na : Nat) (pitch : K) (rs es : List K) (s : Nat) (he : rs.length = es.length) (hs : s < 2 * na) :
    (outer2 m na pitch rs es)[3 * na * rs.length + s]? =
      some (polar (boundaryRadius pitch (snapTrig m (gamma m na * (s : K)))) (snapTrig m (gamma m na * (s : K)))) := by
  induction rs generalizing es with
  | nil =>
    cases es with
    | nil =>
      rw [outer2, List.length_nil, Nat.mul_zero, Nat.zero_add]
      · exact map_at _ hs
      · simp
    | cons e es => simp at he
  | cons x rs ih =>
    cases es with
    | nil => simp at he
    | cons e' es =>
      rw [outer2_cons, ← List.append_assoc, show 3 * na * (x :: rs).length + s = 3 * na + (3 * na * rs.length + s) by rw [List.length_cons, Nat.mul_succ]; omega, append_at]
      · exact ih es (by simpa using he)
      · rw [List.length_append, gap2_length, ringPoints2_length]; omega

theorem triPoints2_at (m : Libm K) (na : Nat) (r : K) (i : Nat) (hi : 2 * i + 1 < na) :
    (triPoints2 m na r)[4 * i]? = some (polar (r / 2) (m.cos ((2 * i : Nat) * theta m na), m.sin ((2 * i : Nat) * theta m na))) ∧
    (triPoints2 m na r)[4 * i + 1]? = some (polar (r / 2 / 2) (m.cos ((2 * i + 1 : Nat) * theta m na), m.sin ((2 * i + 1 : Nat) * theta m na))) ∧
    (triPoints2 m na r)[4 * i + 2]? = some (polar (r / 2) (m.cos ((2 * i + 1 : Nat) * theta m na), m.sin ((2 * i + 1 : Nat) * theta m na))) ∧
    (triPoints2 m na r)[4 * i + 3]? = some (polar (3 * (r / 2) / 2) (m.cos ((2 * i + 1 : Nat) * theta m na), m.sin ((2 * i + 1 : Nat) * theta m na))) := by
  obtain ⟨c, rfl⟩ : ∃ c, na = 2 * i + (2 + c) := ⟨na - (2 * i + 2), by omega⟩
  generalize hth : theta m (2 * i + (2 + c)) = th
  unfold triPoints2
  rw [hth]
  clear hth hi
  have hlen : ∀ i : Nat, ((List.range (2 * i)).flatMap fun ia : Nat =>
      if ia % 2 = 0 then [(r / 2 * m.cos (↑ia * th), r / 2 * m.sin (↑ia * th))]
      else [(r / 2 * m.cos (↑ia * th) / 2, r / 2 * m.sin (↑ia * th) / 2), (r / 2 * m.cos (↑ia * th), r / 2 * m.sin (↑ia * th)),
        (3 * (r / 2) * m.cos (↑ia * th) / 2, 3 * (r / 2) * m.sin (↑ia * th) / 2)]).length = 4 * i := by
    intro i
    induction i with
    | zero => simp
    | succ i ih =>
      rw [show 2 * (i + 1) = 2 * i + 1 + 1 by omega, List.range_succ, List.range_succ, List.flatMap_append, List.flatMap_append, List.length_append, List.length_append, ih,
        List.flatMap_singleton, List.flatMap_singleton, if_pos (by omega), if_neg (by omega)]
      simp; omega
  have hr : List.range (2 * i + (2 + c)) = List.range (2 * i) ++ (2 * i :: (2 * i + 1) :: (List.range c).map fun x => 2 * i + (2 + x)) := by
    rw [List.range_add, List.range_add]
    simp [List.range_succ]
    intro a _; omega
  rw [hr, List.flatMap_append, List.flatMap_cons, List.flatMap_cons, if_pos (show 2 * i % 2 = 0 by omega), if_neg (show ¬ (2 * i + 1) % 2 = 0 by omega)]
  refine ⟨?_, ?_, ?_, ?_⟩
  · rw [show 4 * i = 4 * i + 0 from rfl, append_at (hlen i)]
    simp [polar]
  · rw [append_at (hlen i)]
    simp [polar]; constructor <;> ring
  · rw [append_at (hlen i)]
    simp [polar]
  · rw [append_at (hlen i)]
    simp [polar]; constructor <;> ring

end

end Verif.PinArea
