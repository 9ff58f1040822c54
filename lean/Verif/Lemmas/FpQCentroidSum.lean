import Verif.Lemmas.FpQCentroid
import Verif.Lemmas.FpQuad

/-! The sums and the quotient of the centroid of a quadratic cell. -/

namespace Verif.Fp.QCen

open Verif.Fp Verif.Fp.QLen

variable {p : ℕ} (R : Rounding ℝ p)

/-- The moment of a part of the cell, of which the area has `k` relative errors and the centroid the error `h`. -/
theorem moment_err (hp : 1 ≤ p) (f : Bool) {k : ℕ} {x x' g g' M h : ℝ} (hx : Rel (1 / 2 ^ p) k x x') (hg : |g' - g| ≤ h) (hM : |g| ≤ M) :
    |prodIf R f (x' * g') - x * g| ≤ ((1 + 1 / 2 ^ p) ^ (k + 1) * (M + h) - M) * |x| := by
  have u0 := unit_nonneg (K := ℝ) p
  have gM : |g'| ≤ M + h := size hM hg
  have h0 : 0 ≤ h := (abs_nonneg _).trans hg
  have e := mul_err (le_refl |x|) gM hx hg
  have k0 := one_le_grow u0 k
  have s : |x' * g'| ≤ (1 + 1 / 2 ^ p) ^ k * |x| * (M + h) := by
    rw [abs_mul]
    refine mul_le_mul ?_ gM (abs_nonneg _) (by positivity)
    have := size (le_refl |x|) hx
    linarith
  have r := tri (prod_le R hp f s) e
  refine r.trans (le_of_eq ?_)
  rw [pow_succ]
  ring

/-- One step of the sum of the moments. -/
theorem moment_step (hp : 1 ≤ p) {k : ℕ} {m m' S x y y' M h : ℝ} (hm : |m' - m| ≤ ((1 + 1 / 2 ^ p) ^ k * (M + h) - M) * S) (hS : |m| ≤ M * S)
    (hy : |y' - y| ≤ ((1 + 1 / 2 ^ p) ^ k * (M + h) - M) * |x|) (hx : |y| ≤ M * |x|) :
    |R.rnd (m' + y') - (m + y)| ≤ ((1 + 1 / 2 ^ p) ^ (k + 1) * (M + h) - M) * (S + |x|) ∧ |m + y| ≤ M * (S + |x|) := by
  have z : |m + y| ≤ M * (S + |x|) := (abs_add_le _ _).trans (by linarith)
  refine ⟨?_, z⟩
  have e := add_err hm hy
  refine (tri (rnd_le R hp (size z e)) e).trans (le_of_eq ?_)
  rw [pow_succ]
  ring

/-- The loop. `X` is the area of a part and `G` its centroid. -/
theorem loop_err (hp : 1 ≤ p) (m : QCenFuse) (X : P2 ℝ × P2 ℝ × P2 ℝ → ℝ) (G : P2 ℝ × P2 ℝ × P2 ℝ → P2 ℝ) {M h : ℝ} (M0 : 0 ≤ M) (h0 : 0 ≤ h) :
    ∀ (es : List (P2 ℝ × P2 ℝ × P2 ℝ)) (k : ℕ) (s s' S : ℝ) (c c' : P2 ℝ), 7 ≤ k →
      (∀ e ∈ es, Rel (1 / 2 ^ p) 5 (X e) (qEnclosed R m.a e.1 e.2.1 e.2.2) ∧ |(G e).1| ≤ M ∧ |(G e).2| ≤ M ∧
        ∃ g, qEnclosedCentroid R Real.sqrt m e.1 e.2.1 e.2.2 = some g ∧ |g.1 - (G e).1| ≤ h ∧ |g.2 - (G e).2| ≤ h) →
      |s' - s| ≤ ((1 + 1 / 2 ^ p) ^ k - 1) * S → |s| ≤ S → |c'.1 - c.1| ≤ ((1 + 1 / 2 ^ p) ^ k * (M + h) - M) * S → |c.1| ≤ M * S →
      |c'.2 - c.2| ≤ ((1 + 1 / 2 ^ p) ^ k * (M + h) - M) * S → |c.2| ≤ M * S →
      ∃ t, qCentroidLoop R Real.sqrt m s' c' es = some t ∧
        |t.1 - (s + (es.map X).sum)| ≤ ((1 + 1 / 2 ^ p) ^ (k + es.length) - 1) * (S + (es.map fun e => |X e|).sum) ∧
        |t.2.1 - (c.1 + (es.map fun e => X e * (G e).1).sum)| ≤ ((1 + 1 / 2 ^ p) ^ (k + es.length) * (M + h) - M) * (S + (es.map fun e => |X e|).sum) ∧
        |t.2.2 - (c.2 + (es.map fun e => X e * (G e).2).sum)| ≤ ((1 + 1 / 2 ^ p) ^ (k + es.length) * (M + h) - M) * (S + (es.map fun e => |X e|).sum) := by
  intro es
  have u0 := unit_nonneg (K := ℝ) p
  induction es with
  | nil => intro k s s' S c c' _ _ a1 _ a3 _ a5 _; exact ⟨_, rfl, by simpa using a1, by simpa using a3, by simpa using a5⟩
  | cons e es ih =>
    intro k s s' S c c' hk he a1 a2 a3 a4 a5 a6
    obtain ⟨hx, g1, g2, g, hg, d1, d2⟩ := he e (by simp)
    have hr := hx.rnd R hp
    have grow : ∀ {y y' : ℝ}, |y' - y| ≤ ((1 + 1 / 2 ^ p) ^ (5 + 1 + 1) * (M + h) - M) * |X e| → |y' - y| ≤ ((1 + 1 / 2 ^ p) ^ k * (M + h) - M) * |X e| := by
      intro y y' hy
      refine hy.trans (mul_le_mul_of_nonneg_right (sub_le_sub_right (mul_le_mul_of_nonneg_right ?_ (by linarith)) _) (abs_nonneg _))
      exact pow_le_pow_right₀ (by linarith) (by omega)
    have sz : ∀ {y : ℝ}, |y| ≤ M → |X e * y| ≤ M * |X e| := by
      intro y hy
      rw [abs_mul, mul_comm M]
      exact mul_le_mul_of_nonneg_left hy (abs_nonneg _)
    have m1 := moment_step R hp a3 a4 (grow (moment_err R hp m.c hr d1 g1)) (sz g1)
    have m2 := moment_step R hp a5 a6 (grow (moment_err R hp m.c hr d2 g2)) (sz g2)
    have st := Rel.step R hp (show 5 ≤ k by omega) a1 a2 hx
    obtain ⟨t, ht, b1, b2, b3⟩ := ih (k + 1) _ _ _ (c.1 + X e * (G e).1, c.2 + X e * (G e).2)
      (R.rnd (c'.1 + prodIf R m.c (R.rnd (qEnclosed R m.a e.1 e.2.1 e.2.2) * g.1)), R.rnd (c'.2 + prodIf R m.c (R.rnd (qEnclosed R m.a e.1 e.2.1 e.2.2) * g.2)))
      (by omega) (fun e' h' => he e' (by simp [h'])) st ((abs_add_le _ _).trans (add_le_add_left a2 _)) m1.1 m1.2 m2.1 m2.2
    refine ⟨t, ?_, ?_⟩
    · obtain ⟨q0, q1, q2⟩ := e
      show (qEnclosedCentroid R Real.sqrt m q0 q1 q2).bind _ = some t
      rw [hg]
      exact ht
    · simp only [List.map_cons, List.sum_cons, List.length_cons]
      rw [show k + (es.length + 1) = k + 1 + es.length by omega, ← add_assoc, ← add_assoc, ← add_assoc, ← add_assoc]
      exact ⟨b1, b2, b3⟩

/-- Eleven roundings. -/
theorem grow11 {u : ℝ} (u0 : 0 ≤ u) (hu : u ≤ 1 / 4096) {k : ℕ} (hk : k ≤ 11) : (1 + u) ^ k ≤ 1 + 12 * u := by
  refine (pow_le_pow_right₀ (by linarith) hk).trans ?_
  have s : ∀ {x c : ℝ}, c ≤ 11 → 0 ≤ c → x ≤ 1 + c * u → x * (1 + u) ≤ 1 + (c + 1 + 1 / 100) * u := by
    intro x c hc c0 hx
    have a := mul_le_mul_of_nonneg_right hx (by linarith : 0 ≤ 1 + u)
    have b : c * u * u ≤ 1 / 100 * u := mul_le_mul_of_nonneg_right (by nlinarith) u0
    nlinarith
  have h1 : (1 + u) ^ 1 ≤ 1 + 1 * u := by linarith
  have h2 := s (by norm_num) (by norm_num) h1
  have h3 := s (by norm_num) (by norm_num) h2
  have h4 := s (by norm_num) (by norm_num) h3
  have h5 := s (by norm_num) (by norm_num) h4
  have h6 := s (by norm_num) (by norm_num) h5
  have h7 := s (by norm_num) (by norm_num) h6
  have h8 := s (by norm_num) (by norm_num) h7
  have h9 := s (by norm_num) (by norm_num) h8
  have h10 := s (by norm_num) (by norm_num) h9
  have h11 := s (by norm_num) (by norm_num) h10
  rw [← pow_succ, ← pow_succ, ← pow_succ, ← pow_succ, ← pow_succ, ← pow_succ, ← pow_succ, ← pow_succ, ← pow_succ, ← pow_succ] at h11
  norm_num at h11
  refine h11.trans ?_
  linarith

/-- The quotient. -/
theorem quot_err (hp : 1 ≤ p) (hu : (1 : ℝ) / 2 ^ p ≤ 1 / 4096) {k : ℕ} (hk : k ≤ 11) {A A' S c c' M h : ℝ} (A0 : 0 < A) (AS : A ≤ S) (M0 : 0 ≤ M) (h0 : 0 ≤ h)
    (hS : 64 * (1 / 2 ^ p) * S ≤ A) (hA : |A' - A| ≤ ((1 + 1 / 2 ^ p) ^ k - 1) * S) (hc : |c' - c| ≤ ((1 + 1 / 2 ^ p) ^ k * (M + h) - M) * S) :
    A' ≠ 0 ∧ |R.rnd (c' / A') - c / A| ≤ S / A * (1 / 2 ^ p * (16 * M + 17 * |c / A|) + 2 * h) := by
  have u0 := unit_nonneg (K := ℝ) p
  have S0 : 0 < S := by linarith
  have g := grow11 u0 hu hk
  have r := rnd_le R hp (le_refl |c' / A'|)
  generalize (1 : ℝ) / 2 ^ p = u at *
  have hA1 : |A' - A| ≤ 12 * u * S := hA.trans (mul_le_mul_of_nonneg_right (by linarith) S0.le)
  have hc1 : |c' - c| ≤ (12 * u * M + (1 + 12 * u) * h) * S := by
    refine hc.trans (mul_le_mul_of_nonneg_right ?_ S0.le)
    have := mul_le_mul_of_nonneg_right g (add_nonneg M0 h0)
    linarith
  have lo : 13 / 16 * A ≤ A' := by
    have := (abs_le.1 hA1).1
    linarith
  have A'0 : 0 < A' := by linarith
  refine ⟨A'0.ne', ?_⟩
  have hC : c = c / A * A := by field_simp
  generalize c / A = C at *
  have C0 := abs_nonneg C
  have e : c' / A' - C = ((c' - c) - C * (A' - A)) / A' := by rw [hC]; field_simp; ring
  have q : |c' / A' - C| ≤ 16 / 13 * (S / A) * (12 * u * (M + |C|) + (1 + 12 * u) * h) := by
    rw [e, abs_div, abs_of_pos A'0, div_le_iff₀ A'0]
    have n : |c' - c - C * (A' - A)| ≤ (12 * u * (M + |C|) + (1 + 12 * u) * h) * S := by
      refine (abs_sub _ _).trans ?_
      rw [abs_mul]
      have := mul_le_mul_of_nonneg_left hA1 C0
      linarith
    refine n.trans ?_
    have x0 : 0 ≤ 16 / 13 * (S / A) * (12 * u * (M + |C|) + (1 + 12 * u) * h) := by positivity
    refine le_trans (le_of_eq ?_) (mul_le_mul_of_nonneg_left lo x0)
    field_simp
  have hu2 : 12 * u * h ≤ 12 / 4096 * h := by nlinarith
  have T1 : 1 ≤ S / A := by rwa [one_le_div A0]
  generalize S / A = T at *
  have uM := mul_nonneg u0 M0
  have uC := mul_nonneg u0 C0
  have q' : |c' / A' - C| ≤ T * (15 * (u * M) + 15 * (u * |C|) + 5 / 4 * h) := by
    refine q.trans ?_
    rw [mul_comm (16 / 13) T, mul_assoc]
    refine mul_le_mul_of_nonneg_left ?_ (by linarith)
    linarith
  have s := size (le_refl |C|) q'
  refine (tri r q').trans ?_
  have us := mul_le_mul_of_nonneg_left s u0
  have w0 : 0 ≤ T * (15 * (u * M) + 15 * (u * |C|) + 5 / 4 * h) := by positivity
  have w1 := mul_le_mul_of_nonneg_right hu w0
  have w2 : u * |C| ≤ T * (u * |C|) := le_mul_of_one_le_left uC T1
  have Tm := mul_nonneg (by linarith : 0 ≤ T) uM
  have Tc := mul_nonneg (by linarith : 0 ≤ T) uC
  have Th := mul_nonneg (by linarith : 0 ≤ T) h0
  nlinarith

end Verif.Fp.QCen
