import Verif.Lemmas.FpQLength

/-! The error of the length of a quadratic segment: the last steps. -/

namespace Verif.Fp.QLen

open Verif.Fp

variable {p : ℕ} (R : Rounding ℝ p)

section
variable {α β γ S η B a b c : ℝ} (h : Sit p α β γ S η B) (k : Coef p α γ B a b c)
include h

/-- The difference that follows the logarithm, given its factors. -/
theorem diff_err (hb : |b - B| ≤ 41 / 10 * (1 / 2 ^ p) * (α * γ)) {w s t : ℝ} (hw : |w - (2 * α ^ 2 + B)| ≤ 31 / 5 * (1 / 2 ^ p) * (α * S)) (hs : |s - β| ≤ 26 / 5 * η * β)
    (ht : |t - γ| ≤ 201 / 100 * (1 / 2 ^ p) * γ) (f g : Bool) :
    |R.rnd (prodIf R f (w * s) - prodIf R g (b * t)) - ((2 * α ^ 2 + B) * β - B * γ)| ≤ 67 / 2 * (1 / 2 ^ p) * (α * S ^ 2) ∧
      |(2 * α ^ 2 + B) * β - B * γ| ≤ 4 * (α * S ^ 2) := by
  have p1 := one_le h
  have u0 := unit_nonneg (K := ℝ) p
  have u1 := h.u1
  have α0 := h.α0
  have β0 := h.β0
  have γ0 := h.γ0
  have n0 := η0 h
  have n1 := η_le h
  have sγ : γ ≤ S := by rw [h.hS]; linarith
  have sβ := β_le h
  have s0 := S0 h
  have hB := h.hB
  have hE := h.hE
  have eη : η * (α * β ^ 2) = 1 / 2 ^ p * (α * S ^ 2) := by linear_combination α * h.hη
  generalize 2 * α ^ 2 + B = E at *
  have gg : α * (γ * γ) ≤ α * S ^ 2 := mul_le_mul_of_nonneg_left (by nlinarith) α0.le
  have bb : α * (β * β) ≤ α * S ^ 2 := mul_le_mul_of_nonneg_left (by nlinarith) α0.le
  have sb : α * (S * β) ≤ α * S ^ 2 := mul_le_mul_of_nonneg_left (by nlinarith) α0.le
  have Q0 : 0 < α * S ^ 2 := by positivity
  have m1 := mul_err hE (size (abs_of_pos β0).le hs) hw hs
  have m2 := mul_err hB (size (abs_of_pos γ0).le ht) hb ht
  have z1 : |E * β| ≤ 2 * (α * S ^ 2) := by
    rw [abs_mul, abs_of_pos β0]
    have := mul_le_mul_of_nonneg_right hE β0.le
    linarith
  have z2 : |B * γ| ≤ 2 * (α * S ^ 2) := by
    rw [abs_mul, abs_of_pos γ0]
    have := mul_le_mul_of_nonneg_right hB γ0.le
    linarith
  have m1' : |w * s - E * β| ≤ 84 / 5 * (1 / 2 ^ p) * (α * S ^ 2) := by
    refine m1.trans ?_
    have e : 31 / 5 * (1 / 2 ^ p) * (α * S) * (β + 26 / 5 * η * β) + 2 * (α * β) * (26 / 5 * η * β) =
        31 / 5 * (1 / 2 ^ p * (α * (S * β))) * (1 + 26 / 5 * η) + 52 / 5 * (η * (α * β ^ 2)) := by ring
    rw [e, eη]
    have x := mul_le_mul_of_nonneg_left sb u0
    have y := mul_le_mul x (by linarith : 1 + 26 / 5 * η ≤ 103 / 100) (by linarith) (mul_nonneg u0 Q0.le)
    linarith [mul_nonneg u0 Q0.le]
  have m2' : |b * t - B * γ| ≤ 83 / 10 * (1 / 2 ^ p) * (α * S ^ 2) := by
    refine m2.trans ?_
    have e : 41 / 10 * (1 / 2 ^ p) * (α * γ) * (γ + 201 / 100 * (1 / 2 ^ p) * γ) + 2 * (α * γ) * (201 / 100 * (1 / 2 ^ p) * γ) =
        1 / 2 ^ p * (α * (γ * γ)) * (812 / 100 + 41 / 10 * (201 / 100) * (1 / 2 ^ p)) := by ring
    rw [e]
    have x := mul_le_mul_of_nonneg_left gg u0
    have y := mul_le_mul x (by linarith : 812 / 100 + 41 / 10 * (201 / 100) * (1 / 2 ^ p) ≤ (83 / 10 : ℝ)) (by linarith) (mul_nonneg u0 Q0.le)
    linarith
  have q1 := tri (prod_le R p1 f (size z1 m1')) m1'
  have q2 := tri (prod_le R p1 g (size z2 m2')) m2'
  have s1 := sub_err q1 q2
  have z : |E * β - B * γ| ≤ 4 * (α * S ^ 2) := (abs_sub _ _).trans (by linarith)
  have r := rnd_le R p1 (size z s1)
  refine ⟨(tri r s1).trans ?_, z⟩
  generalize α * S ^ 2 = Q at *
  have i := mul_nonneg u0 Q0.le
  have j := mul_le_mul_of_nonneg_right u1 i
  have j2 := mul_le_mul_of_nonneg_right u1 (mul_nonneg u0 i)
  clear eη bb gg sb m1 m2 m1' m2' q1 q2 s1 z1 z2 r
  linarith

/-- The numerator. -/
theorem num_err {d l Λ s g G : ℝ} (hd : |d - (B ^ 2 - 4 * (α ^ 2 * γ ^ 2))| ≤ 45 * (1 / 2 ^ p) * (α ^ 2 * γ ^ 2))
    (hl : |l - Λ| ≤ 22 / 100 + 2 * (1 / 2 ^ p) * |Λ|) (hW : (4 * (α ^ 2 * γ ^ 2) - B ^ 2) * |l - Λ| ≤ (219 + 8 * |Λ|) * (1 / 2 ^ p) * (α ^ 2 * S ^ 2))
    (hs : |s - α| ≤ 201 / 100 * (1 / 2 ^ p) * α) (hg : |g - G| ≤ 67 / 2 * (1 / 2 ^ p) * (α * S ^ 2)) (hG : |G| ≤ 4 * (α * S ^ 2)) (f1 f2 : Bool) :
    |R.rnd (prodIf R f1 (d * l) + prodIf R f2 (s * (2 * g))) - ((B ^ 2 - 4 * (α ^ 2 * γ ^ 2)) * Λ + α * (2 * G))| ≤ (332 + 64 * |Λ|) * (1 / 2 ^ p) * (α ^ 2 * S ^ 2) ∧
      |(B ^ 2 - 4 * (α ^ 2 * γ ^ 2)) * Λ + α * (2 * G)| ≤ (8 + 4 * |Λ|) * (α ^ 2 * S ^ 2) := by
  have p1 := one_le h
  have u0 := unit_nonneg (K := ℝ) p
  have u1 := h.u1
  have α0 := h.α0
  have s0 := S0 h
  have sγ : γ ≤ S := by rw [h.hS]; linarith
  have W0 : 0 ≤ 4 * (α ^ 2 * γ ^ 2) - B ^ 2 := le_trans (by positivity) h.hW
  have gg : α ^ 2 * γ ^ 2 ≤ α ^ 2 * S ^ 2 := mul_le_mul_of_nonneg_left (pow_le_pow_left₀ h.γ0.le sγ 2) (sq_nonneg α)
  have W1 : 4 * (α ^ 2 * γ ^ 2) - B ^ 2 ≤ 4 * (α ^ 2 * S ^ 2) := by nlinarith [sq_nonneg B]
  have dw : B ^ 2 - 4 * (α ^ 2 * γ ^ 2) = -(4 * (α ^ 2 * γ ^ 2) - B ^ 2) := by ring
  rw [dw] at hd ⊢
  have hd2 : |d - -(4 * (α ^ 2 * γ ^ 2) - B ^ 2)| ≤ 45 * (1 / 2 ^ p) * (α ^ 2 * S ^ 2) := hd.trans (mul_le_mul_of_nonneg_left gg (by positivity))
  have Q0 : 0 < α ^ 2 * S ^ 2 := by positivity
  have qe : α * (α * S ^ 2) = α ^ 2 * S ^ 2 := by ring
  have T0 : 0 < α * S ^ 2 := by positivity
  generalize 4 * (α ^ 2 * γ ^ 2) - B ^ 2 = W at *
  -- the first term
  have L0 := abs_nonneg Λ
  have z1 : |-W * Λ| ≤ 4 * (α ^ 2 * S ^ 2) * |Λ| := by
    rw [abs_mul, abs_neg, abs_of_nonneg W0]; exact mul_le_mul_of_nonneg_right W1 L0
  have sl := size (le_refl |Λ|) hl
  have m1 : |d * l - -W * Λ| ≤ (230 + 54 * |Λ|) * (1 / 2 ^ p) * (α ^ 2 * S ^ 2) := by
    have e : d * l - -W * Λ = (d - -W) * l + -W * (l - Λ) := by ring
    rw [e]
    refine (abs_add_le _ _).trans ?_
    rw [abs_mul, abs_mul, abs_neg, abs_of_nonneg W0]
    have x := mul_le_mul hd2 sl (abs_nonneg _) (by positivity)
    refine (add_le_add x hW).trans ?_
    generalize |Λ| = L at *
    generalize α ^ 2 * S ^ 2 = Q at *
    have i := mul_nonneg u0 Q0.le
    have j := mul_le_mul_of_nonneg_right u1 (mul_nonneg i L0)
    have j2 := mul_nonneg i L0
    clear z1 e hd hd2 hl hW sl hg hG hs W1 W0
    generalize (1 : ℝ) / 2 ^ p = u at *
    linarith
  have q1 := tri (prod_le R p1 f1 (size z1 m1)) m1
  -- the second term
  have z2 : |α * (2 * G)| ≤ 8 * (α ^ 2 * S ^ 2) := by
    rw [abs_mul, abs_mul, abs_of_pos α0, abs_of_pos (by norm_num : (0 : ℝ) < 2)]
    have := mul_le_mul_of_nonneg_left hG α0.le
    linarith
  have hg2 : |2 * g - 2 * G| ≤ 67 * (1 / 2 ^ p) * (α * S ^ 2) := by
    rw [← mul_sub, abs_mul, abs_of_pos (by norm_num : (0 : ℝ) < 2)]; linarith
  have hG2 : |2 * G| ≤ 8 * (α * S ^ 2) := by
    rw [abs_mul, abs_of_pos (by norm_num : (0 : ℝ) < 2)]; linarith
  have m2 : |s * (2 * g) - α * (2 * G)| ≤ 417 / 5 * (1 / 2 ^ p) * (α ^ 2 * S ^ 2) := by
    have m := mul_err (abs_of_pos α0).le (size hG2 hg2) hs hg2
    refine m.trans ?_
    have e : 201 / 100 * (1 / 2 ^ p) * α * (8 * (α * S ^ 2) + 67 * (1 / 2 ^ p) * (α * S ^ 2)) + α * (67 * (1 / 2 ^ p) * (α * S ^ 2)) =
        (201 / 100 * 8 + 67 + 201 / 100 * 67 * (1 / 2 ^ p)) * (1 / 2 ^ p * (α * (α * S ^ 2))) := by ring
    rw [e, qe, mul_assoc (417 / 5 : ℝ)]
    exact mul_le_mul_of_nonneg_right (by linarith) (mul_nonneg u0 Q0.le)
  have q2 := tri (prod_le R p1 f2 (size z2 m2)) m2
  have s1 := add_err q1 q2
  have z : |-W * Λ + α * (2 * G)| ≤ (8 + 4 * |Λ|) * (α ^ 2 * S ^ 2) := (abs_add_le _ _).trans (by linarith)
  have r := rnd_le R p1 (size z s1)
  refine ⟨(tri r s1).trans ?_, z⟩
  clear r s1 z q1 q2 m1 m2 hg2 hG2 z1 z2 hg hG hs hd hd2 hl hW sl
  generalize |Λ| = L at *
  generalize α ^ 2 * S ^ 2 = Q at *
  have i := mul_nonneg u0 Q0.le
  have iL := mul_nonneg i L0
  have j := mul_le_mul_of_nonneg_right u1 i
  have jL := mul_le_mul_of_nonneg_right u1 iL
  have j2 := mul_le_mul_of_nonneg_right u1 (mul_nonneg u0 i)
  have j2L := mul_le_mul_of_nonneg_right u1 (mul_nonneg u0 iL)
  generalize (1 : ℝ) / 2 ^ p = u at *
  linarith

/-- The denominator. -/
theorem den_err {s : ℝ} (fs : IsFp p s) (hs : |s - α| ≤ 201 / 100 * (1 / 2 ^ p) * α) :
    |R.rnd (R.rnd (R.rnd (8 * s) * s) * s) - 8 * α ^ 3| ≤ 41 / 5 * (1 / 2 ^ p) * (8 * α ^ 3) := by
  have p1 := one_le h
  have u0 := unit_nonneg (K := ℝ) p
  have u1 := h.u1
  have α0 := h.α0
  have f8 : IsFp p (8 * s) := by
    have := fs.double.double.double
    have e : 2 * (2 * (2 * s)) = 8 * s := by ring
    rwa [e] at this
  rw [R.id f8]
  have a2 : 0 < α ^ 2 := pow_pos α0 2
  have a3 : 0 < α ^ 3 := pow_pos α0 3
  have m1 := mul_err (abs_of_pos α0).le (size (abs_of_pos α0).le hs) hs hs
  have m1' : |8 * s * s - 8 * α ^ 2| ≤ 323 / 10 * (1 / 2 ^ p) * α ^ 2 := by
    have e : 8 * s * s - 8 * α ^ 2 = 8 * (s * s - α * α) := by ring
    rw [e, abs_mul, abs_of_pos (by norm_num : (0 : ℝ) < 8)]
    have e2 : 201 / 100 * (1 / 2 ^ p) * α * (α + 201 / 100 * (1 / 2 ^ p) * α) + α * (201 / 100 * (1 / 2 ^ p) * α) = (402 / 100 + (201 / 100) ^ 2 * (1 / 2 ^ p)) * (1 / 2 ^ p * α ^ 2) := by ring
    rw [e2] at m1
    have : (402 / 100 + (201 / 100) ^ 2 * (1 / 2 ^ p)) * (1 / 2 ^ p * α ^ 2) ≤ 403 / 100 * (1 / 2 ^ p * α ^ 2) :=
      mul_le_mul_of_nonneg_right (by linarith) (mul_nonneg u0 a2.le)
    linarith [mul_nonneg u0 a2.le]
  have z1 : |8 * α ^ 2| ≤ 8 * α ^ 2 := (abs_of_pos (by positivity)).le
  have r1 := tri (rnd_le R p1 (size z1 m1')) m1'
  have r1' : |R.rnd (8 * s * s) - 8 * α ^ 2| ≤ 404 / 10 * (1 / 2 ^ p) * α ^ 2 := by
    refine r1.trans ?_
    have := mul_le_mul_of_nonneg_right u1 (mul_nonneg u0 a2.le)
    linarith [mul_nonneg u0 a2.le]
  have m2 := mul_err z1 (size (abs_of_pos α0).le hs) r1' hs
  have m2' : |R.rnd (8 * s * s) * s - 8 * α ^ 3| ≤ 566 / 10 * (1 / 2 ^ p) * α ^ 3 := by
    have e : 8 * α ^ 2 * α = 8 * α ^ 3 := by ring
    rw [e] at m2
    refine m2.trans ?_
    have e2 : 404 / 10 * (1 / 2 ^ p) * α ^ 2 * (α + 201 / 100 * (1 / 2 ^ p) * α) + 8 * α ^ 2 * (201 / 100 * (1 / 2 ^ p) * α) =
        (5648 / 100 + 404 / 10 * (201 / 100) * (1 / 2 ^ p)) * (1 / 2 ^ p * α ^ 3) := by ring
    rw [e2, mul_assoc (566 / 10 : ℝ)]
    exact mul_le_mul_of_nonneg_right (by linarith) (mul_nonneg u0 a3.le)
  have z2 : |8 * α ^ 3| ≤ 8 * α ^ 3 := (abs_of_pos (by positivity)).le
  refine (tri (rnd_le R p1 (size z2 m2')) m2').trans ?_
  have := mul_le_mul_of_nonneg_right u1 (mul_nonneg u0 a3.le)
  linarith [mul_nonneg u0 a3.le]

/-- The quotient. -/
theorem quot_err {n N d L : ℝ} (L0 : 0 ≤ L) (hn : |n - N| ≤ (332 + 64 * L) * (1 / 2 ^ p) * (α ^ 2 * S ^ 2)) (hN : |N| ≤ (8 + 4 * L) * (α ^ 2 * S ^ 2))
    (hd : |d - 8 * α ^ 3| ≤ 41 / 5 * (1 / 2 ^ p) * (8 * α ^ 3)) :
    0 < d ∧ |R.rnd (n / d) - N / (8 * α ^ 3)| ≤ (60 + 15 * L) * (1 / 2 ^ p) * (S ^ 2 / α) := by
  have p1 := one_le h
  have u0 := unit_nonneg (K := ℝ) p
  have u1 := h.u1
  have α0 := h.α0
  have s0 := S0 h
  have a3 : 0 < 8 * α ^ 3 := by positivity
  have db := abs_le.1 hd
  have ud := mul_le_mul_of_nonneg_right u1 a3.le
  have dlo : 99 / 100 * (8 * α ^ 3) ≤ d := by linarith
  have d0 : 0 < d := lt_of_lt_of_le (by positivity) dlo
  refine ⟨d0, ?_⟩
  have Y0 : 0 < S ^ 2 / α := by positivity
  have ey : S ^ 2 / α * (8 * α ^ 3) = 8 * (α ^ 2 * S ^ 2) := by field_simp
  have z : |N / (8 * α ^ 3)| ≤ (1 + L / 2) * (S ^ 2 / α) := by
    rw [abs_div, abs_of_pos a3, div_le_iff₀ a3, mul_assoc, ey]; linarith
  have q : |n / d - N / (8 * α ^ 3)| ≤ (51 + 13 * L) * (1 / 2 ^ p) * (S ^ 2 / α) := by
    have e : n / d - N / (8 * α ^ 3) = ((n - N) - N / (8 * α ^ 3) * (d - 8 * α ^ 3)) / d := by
      field_simp; ring
    rw [e, abs_div, abs_of_pos d0, div_le_iff₀ d0]
    have t := abs_sub (n - N) (N / (8 * α ^ 3) * (d - 8 * α ^ 3))
    rw [abs_mul] at t
    have x := mul_le_mul z hd (abs_nonneg _) (by positivity)
    have c0 : 0 ≤ (51 + 13 * L) * (1 / 2 ^ p) * (S ^ 2 / α) := by positivity
    have y := mul_le_mul_of_nonneg_left dlo c0
    refine (t.trans (add_le_add hn x)).trans (le_trans ?_ y)
    have e1 : (1 + L / 2) * (S ^ 2 / α) * (41 / 5 * (1 / 2 ^ p) * (8 * α ^ 3)) = (1 + L / 2) * (41 / 5) * (1 / 2 ^ p) * (S ^ 2 / α * (8 * α ^ 3)) := by ring
    have e2 : (51 + 13 * L) * (1 / 2 ^ p) * (S ^ 2 / α) * (99 / 100 * (8 * α ^ 3)) = (51 + 13 * L) * (99 / 100) * (1 / 2 ^ p) * (S ^ 2 / α * (8 * α ^ 3)) := by ring
    rw [e1, e2, ey]
    have Q0 : 0 < α ^ 2 * S ^ 2 := by positivity
    generalize α ^ 2 * S ^ 2 = Q at *
    have i := mul_nonneg u0 Q0.le
    have j := mul_nonneg i L0
    generalize (1 : ℝ) / 2 ^ p = u at *
    linarith
  refine (tri (rnd_le R p1 (size z q)) q).trans ?_
  generalize S ^ 2 / α = Y at *
  have i := mul_nonneg u0 Y0.le
  have iL := mul_nonneg i L0
  have j := mul_le_mul_of_nonneg_right u1 i
  have jL := mul_le_mul_of_nonneg_right u1 iL
  generalize (1 : ℝ) / 2 ^ p = u at *
  linarith

include k

/-- The formula. -/
theorem formula_err {m : QLenMath ℝ} (hsq : ∀ x, m.sqrt x = √x) (hl : ∀ x, 0 < x → IsFp p x → |m.log x - Real.log x| ≤ 2 / 2 ^ p * |Real.log x|) :
    ∃ l, qLenFormula R m a b c = some l ∧
      |l - ((B ^ 2 - 4 * (α ^ 2 * γ ^ 2)) * Real.log ((2 * (α * γ) + B) / (2 * (α * β) + (2 * α ^ 2 + B))) + α * (2 * ((2 * α ^ 2 + B) * β - B * γ))) / (8 * α ^ 3)| ≤
        (60 + 15 * |Real.log ((2 * (α * γ) + B) / (2 * (α * β) + (2 * α ^ 2 + B)))|) * (1 / 2 ^ p) * (S ^ 2 / α) := by
  obtain ⟨t0, hβ⟩ := sabc_err R h k
  obtain ⟨hα, hγ⟩ := sa_err R h k
  have ha2b := a2b_err R h k
  obtain ⟨d0, r0, l1, l2⟩ := log_err R h hl (n_err R h k m.n) (d_err R h k m.d)
  obtain ⟨g1, g2⟩ := diff_err R h k.hb ha2b hβ hγ m.g m.h
  obtain ⟨n1, n2⟩ := num_err R h (disc_err R h k) l1 l2 hα g1 g2 m.s m.t
  have dd := den_err R h (R.mem √a) hα
  obtain ⟨q0, q1⟩ := quot_err R h (abs_nonneg _) n1 n2 dd
  refine ⟨_, ?_, q1⟩
  unfold qLenFormula
  simp only [hsq]
  rw [if_neg (not_lt.2 t0), if_neg d0.ne', if_neg (not_le.2 r0), if_neg q0.ne', R.id (x := 2 * R.rnd (_ - _)) (R.mem _).double]

end

end Verif.Fp.QLen
