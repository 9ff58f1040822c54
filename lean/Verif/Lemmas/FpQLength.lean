import Verif.Model.FpQLength
import Verif.Lemmas.FpQuad
import Verif.Lemmas.FpRoots
import Mathlib.Analysis.SpecialFunctions.Log.Basic

/-! The errors of the length of a quadratic segment, step by step.  `α`, `γ` and `β` are the roots of `a`, `c` and `a + b + c`, `S` is `α + γ`, and `η` is
the unit at the scale of `S²` relative to `β²`. -/

namespace Verif.Fp.QLen

open Verif.Fp

variable {p : ℕ} (R : Rounding ℝ p)

/-- The error of a rounding, given the size of the number. -/
theorem rnd_le (hp : 1 ≤ p) {x X : ℝ} (h : |x| ≤ X) : |R.rnd x - x| ≤ 1 / 2 ^ p * X :=
  (Fp.rel_u R hp x).trans (mul_le_mul_of_nonneg_left h (unit_nonneg (K := ℝ) p))

theorem prod_le (hp : 1 ≤ p) (f : Bool) {x X : ℝ} (h : |x| ≤ X) : |prodIf R f x - x| ≤ 1 / 2 ^ p * X := by
  unfold prodIf
  split
  · rw [sub_self, abs_zero]; exact mul_nonneg (unit_nonneg (K := ℝ) p) ((abs_nonneg _).trans h)
  · exact rnd_le R hp h

/-- From a bound of the exact number and of the error to a bound of the number. -/
theorem size {x x' X e : ℝ} (h : |x| ≤ X) (g : |x' - x| ≤ e) : |x'| ≤ X + e := by
  have := abs_sub_abs_le_abs_sub x' x
  linarith

theorem tri {x y z e f : ℝ} (h : |x - y| ≤ e) (g : |y - z| ≤ f) : |x - z| ≤ e + f := (abs_sub_le x y z).trans (add_le_add h g)

/-- The error of a product. -/
theorem mul_err {x x' y y' X Y' e f : ℝ} (hx : |x| ≤ X) (hy : |y'| ≤ Y') (h : |x' - x| ≤ e) (g : |y' - y| ≤ f) : |x' * y' - x * y| ≤ e * Y' + X * f := by
  have r : x' * y' - x * y = (x' - x) * y' + x * (y' - y) := by ring
  rw [r]
  refine (abs_add_le _ _).trans (add_le_add ?_ ?_)
  · rw [abs_mul]; exact mul_le_mul h hy (abs_nonneg _) ((abs_nonneg _).trans h)
  · rw [abs_mul]; exact mul_le_mul hx g (abs_nonneg _) ((abs_nonneg _).trans hx)

theorem add_err {x x' y y' e f : ℝ} (h : |x' - x| ≤ e) (g : |y' - y| ≤ f) : |x' + y' - (x + y)| ≤ e + f := by
  have r : x' + y' - (x + y) = (x' - x) + (y' - y) := by ring
  rw [r]; exact (abs_add_le _ _).trans (add_le_add h g)

theorem sub_err {x x' y y' e f : ℝ} (h : |x' - x| ≤ e) (g : |y' - y| ≤ f) : |x' - y' - (x - y)| ≤ e + f := by
  have r : x' - y' - (x - y) = (x' - x) - (y' - y) := by ring
  rw [r]; exact (abs_sub _ _).trans (add_le_add h g)

/-- The logarithms of close numbers are close. -/
theorem log_close {x x' δ : ℝ} (x0 : 0 < x) (hδ : δ ≤ 1 / 8) (h : |x' - x| ≤ δ * x) : 0 < x' ∧ |Real.log x' - Real.log x| ≤ 8 / 7 * δ := by
  have δ0 : 0 ≤ δ := by
    by_contra hn
    have := mul_neg_of_neg_of_pos (not_le.1 hn) x0
    linarith [abs_nonneg (x' - x)]
  have b := abs_le.1 h
  have x0' : 0 < x' := by nlinarith
  refine ⟨x0', ?_⟩
  rw [abs_le]
  have l1 := Real.log_le_sub_one_of_pos (div_pos x0' x0)
  have l2 := Real.log_le_sub_one_of_pos (div_pos x0 x0')
  rw [Real.log_div x0'.ne' x0.ne'] at l1
  rw [Real.log_div x0.ne' x0'.ne'] at l2
  have q1 : x' / x ≤ 1 + δ := by rw [div_le_iff₀ x0]; linarith
  have q2 : x / x' ≤ 1 + 8 / 7 * δ := by
    rw [div_le_iff₀ x0']
    have : x * (1 - δ) ≤ x' := by linarith
    nlinarith [mul_nonneg δ0 x0.le, mul_nonneg (mul_nonneg δ0 x0.le) (by linarith : 0 ≤ 1 / 8 - δ)]
  constructor <;> linarith

/-- The root of a number that is close to a square. -/
theorem sqrt_close {t β δ : ℝ} (β0 : 0 < β) (hδ : δ ≤ 1) (h : |t - β ^ 2| ≤ δ * β ^ 2) : 0 ≤ t ∧ |√t - β| ≤ δ * β := by
  have b := abs_le.1 h
  have t0 : 0 ≤ t := by nlinarith [sq_nonneg β]
  refine ⟨t0, ?_⟩
  have s0 := Real.sqrt_nonneg t
  have e : (√t - β) * (√t + β) = t - β ^ 2 := by
    have := Real.sq_sqrt t0
    linear_combination this
  have h2 : |√t - β| * (√t + β) ≤ δ * β * β := by
    rw [← abs_of_nonneg (by linarith : 0 ≤ √t + β), ← abs_mul, e]; linarith
  have h3 : |√t - β| * β ≤ δ * β * β := by nlinarith [mul_nonneg (abs_nonneg (√t - β)) s0]
  exact le_of_mul_le_mul_right h3 β0

/-- The exact quantities. -/
structure Sit (p : ℕ) (α β γ S η B : ℝ) : Prop where
  u1 : (1 : ℝ) / 2 ^ p ≤ 1 / 4096
  α0 : 0 < α
  β0 : 0 < β
  γ0 : 0 < γ
  hS : S = α + γ
  hβ : β ^ 2 = α ^ 2 + B + γ ^ 2
  hB : |B| ≤ 2 * (α * γ)
  hE : |2 * α ^ 2 + B| ≤ 2 * (α * β)
  hη : η * β ^ 2 = 1 / 2 ^ p * S ^ 2
  hW : 1024 * (1 / 2 ^ p) * (α ^ 2 * S ^ 2) ≤ 4 * (α ^ 2 * γ ^ 2) - B ^ 2

section
variable {α β γ S η B : ℝ} (h : Sit p α β γ S η B)
include h

theorem one_le : 1 ≤ p := by
  by_contra hn
  have : p = 0 := by omega
  have := h.u1
  subst p
  norm_num at this

theorem S0 : 0 < S := by rw [h.hS]; linarith [h.α0, h.γ0]

theorem β_le : β ≤ S := by
  have a := h.α0; have c := h.γ0; have b := (abs_le.1 h.hB).2
  have : β ^ 2 ≤ S ^ 2 := by rw [h.hβ, h.hS]; nlinarith
  exact (abs_le_of_sq_le_sq' this (S0 h).le).2

theorem η0 : 0 ≤ η := by
  have := h.hη
  have b := pow_pos h.β0 2
  by_contra hn
  have n := mul_neg_of_neg_of_pos (not_le.1 hn) b
  have : 0 ≤ 1 / 2 ^ p * S ^ 2 := mul_nonneg (unit_nonneg (K := ℝ) p) (sq_nonneg S)
  linarith

theorem u_le : 1 / 2 ^ p ≤ η := by
  have e := h.hη
  have b := pow_pos h.β0 2
  have : β ^ 2 ≤ S ^ 2 := pow_le_pow_left₀ h.β0.le (β_le h) 2
  have u0 := unit_nonneg (K := ℝ) p
  have : 1 / 2 ^ p * β ^ 2 ≤ η * β ^ 2 := by rw [e]; exact mul_le_mul_of_nonneg_left this u0
  exact le_of_mul_le_mul_right this b

theorem η_le : η ≤ 1 / 256 := by
  have w := h.hW
  have e := h.hη
  have E : 4 * (α ^ 2 * γ ^ 2) - B ^ 2 = 4 * (α ^ 2 * β ^ 2) - (2 * α ^ 2 + B) ^ 2 := by rw [h.hβ]; ring
  have k : 1024 * (α ^ 2 * (η * β ^ 2)) ≤ 4 * (α ^ 2 * β ^ 2) := by rw [e]; nlinarith [sq_nonneg (2 * α ^ 2 + B)]
  have pos : 0 < α ^ 2 * β ^ 2 := mul_pos (pow_pos h.α0 2) (pow_pos h.β0 2)
  have : η * (α ^ 2 * β ^ 2) ≤ 1 / 256 * (α ^ 2 * β ^ 2) := by linarith
  exact le_of_mul_le_mul_right this pos

/-- `u S ≤ η β`. -/
theorem uS_le : 1 / 2 ^ p * S ≤ η * β := by
  have e := h.hη
  have b := β_le h
  have n := η0 h
  have s := S0 h
  have : 1 / 2 ^ p * S * S ≤ η * β * S := by
    calc 1 / 2 ^ p * S * S = η * β * β := by linear_combination -e
      _ ≤ _ := mul_le_mul_of_nonneg_left b (mul_nonneg n h.β0.le)
  exact le_of_mul_le_mul_right this s

/-- The argument of the logarithm of the numerator. -/
theorem N_ge : 0 < 2 * (α * γ) + B ∧ 256 * (1 / 2 ^ p) * (α * γ) ≤ 2 * (α * γ) + B ∧ (2 * (α * γ) + B) * (2 * (α * γ) - B) = 4 * (α ^ 2 * γ ^ 2) - B ^ 2 ∧ 2 * (α * γ) - B ≤ 4 * (α * γ) ∧ 0 ≤ 2 * (α * γ) - B := by
  have u0 := unit_nonneg (K := ℝ) p
  have up : (0 : ℝ) < 1 / 2 ^ p := by positivity
  have b := abs_le.1 h.hB
  have w := h.hW
  have m : 0 < α * γ := mul_pos h.α0 h.γ0
  have e : (2 * (α * γ) + B) * (2 * (α * γ) - B) = 4 * (α ^ 2 * γ ^ 2) - B ^ 2 := by ring
  have s : γ ^ 2 ≤ S ^ 2 := by rw [h.hS]; nlinarith [h.α0, h.γ0]
  have k : 1024 * (1 / 2 ^ p) * (α * γ) * (α * γ) ≤ (2 * (α * γ) + B) * (4 * (α * γ)) := by
    have : 1024 * (1 / 2 ^ p) * (α ^ 2 * γ ^ 2) ≤ 1024 * (1 / 2 ^ p) * (α ^ 2 * S ^ 2) := mul_le_mul_of_nonneg_left (mul_le_mul_of_nonneg_left s (sq_nonneg α)) (by positivity)
    have t : (2 * (α * γ) + B) * (2 * (α * γ) - B) ≤ (2 * (α * γ) + B) * (4 * (α * γ)) := mul_le_mul_of_nonneg_left (by linarith) (by linarith)
    calc _ = 1024 * (1 / 2 ^ p) * (α ^ 2 * γ ^ 2) := by ring
      _ ≤ _ := by linarith
  have k2 : 256 * (1 / 2 ^ p) * (α * γ) ≤ 2 * (α * γ) + B := by
    refine le_of_mul_le_mul_right ?_ m
    linarith
  exact ⟨lt_of_lt_of_le (by positivity) k2, k2, e, by linarith, by linarith⟩

/-- The argument of the logarithm of the denominator. -/
theorem D_ge : 0 < 2 * (α * β) + (2 * α ^ 2 + B) ∧ 256 * η * (α * β) ≤ 2 * (α * β) + (2 * α ^ 2 + B) ∧
    (2 * (α * β) + (2 * α ^ 2 + B)) * (2 * (α * β) - (2 * α ^ 2 + B)) = 4 * (α ^ 2 * γ ^ 2) - B ^ 2 ∧ 2 * (α * β) - (2 * α ^ 2 + B) ≤ 4 * (α * β) ∧ 0 ≤ 2 * (α * β) - (2 * α ^ 2 + B) := by
  have up : (0 : ℝ) < 1 / 2 ^ p := by positivity
  have ηp : 0 < η := lt_of_lt_of_le up (u_le h)
  have b := abs_le.1 h.hE
  have w := h.hW
  have m : 0 < α * β := mul_pos h.α0 h.β0
  have e : (2 * (α * β) + (2 * α ^ 2 + B)) * (2 * (α * β) - (2 * α ^ 2 + B)) = 4 * (α ^ 2 * γ ^ 2) - B ^ 2 := by
    have := h.hβ
    linear_combination (4 * α ^ 2) * this
  have k : 1024 * η * (α * β) * (α * β) ≤ (2 * (α * β) + (2 * α ^ 2 + B)) * (4 * (α * β)) := by
    have t : (2 * (α * β) + (2 * α ^ 2 + B)) * (2 * (α * β) - (2 * α ^ 2 + B)) ≤ (2 * (α * β) + (2 * α ^ 2 + B)) * (4 * (α * β)) :=
      mul_le_mul_of_nonneg_left (by linarith) (by linarith)
    calc _ = 1024 * (1 / 2 ^ p) * (α ^ 2 * S ^ 2) := by linear_combination 1024 * α ^ 2 * h.hη
      _ ≤ _ := by linarith
  have k2 : 256 * η * (α * β) ≤ 2 * (α * β) + (2 * α ^ 2 + B) := by
    refine le_of_mul_le_mul_right ?_ m
    linarith
  exact ⟨lt_of_lt_of_le (by positivity) k2, k2, e, by linarith, by linarith⟩

end

/-- The computed coefficients of the speed. -/
structure Coef (p : ℕ) (α γ B a b c : ℝ) : Prop where
  fa : IsFp p a
  fb : IsFp p b
  fc : IsFp p c
  ha : |a - α ^ 2| ≤ 2001 / 1000 * (1 / 2 ^ p) * α ^ 2
  hb : |b - B| ≤ 41 / 10 * (1 / 2 ^ p) * (α * γ)
  hc : |c - γ ^ 2| ≤ 2001 / 1000 * (1 / 2 ^ p) * γ ^ 2

section
variable {α β γ S η B a b c : ℝ} (h : Sit p α β γ S η B) (k : Coef p α γ B a b c)
include h k

/-- The sum of the three coefficients. -/
theorem abc_err : |R.rnd (R.rnd (a + b) + c) - β ^ 2| ≤ 41 / 10 * η * β ^ 2 := by
  have p1 := one_le h
  have A0 : 0 ≤ α ^ 2 := sq_nonneg α
  have C0 : 0 ≤ γ ^ 2 := sq_nonneg γ
  have m0 : 0 ≤ α * γ := (mul_pos h.α0 h.γ0).le
  have e : 41 / 10 * η * β ^ 2 = 41 / 10 * (1 / 2 ^ p) * (α ^ 2 + 2 * (α * γ) + γ ^ 2) := by
    rw [mul_assoc, h.hη, h.hS]; ring
  have E := h.hβ
  rw [e, E]
  have u0 := unit_nonneg (K := ℝ) p
  have u1 := h.u1
  obtain ⟨_, _, _, ha, hb, hc⟩ := k
  have hB := h.hB
  generalize α ^ 2 = A at *
  generalize γ ^ 2 = C at *
  generalize α * γ = m at *
  have s1 := add_err ha hb
  have z1 : |A + B| ≤ A + 2 * m := (abs_add_le _ _).trans (by rw [abs_of_nonneg A0]; linarith)
  have r1 := rnd_le R p1 (size z1 s1)
  have s2 := add_err (tri r1 s1) hc
  have z2 : |A + B + C| ≤ A + 2 * m + C := (abs_add_le _ _).trans (by rw [abs_of_nonneg C0]; linarith)
  have r2 := rnd_le R p1 (size z2 s2)
  refine (tri r2 s2).trans ?_
  generalize (1 : ℝ) / 2 ^ p = u at *
  have uA : u * A ≤ 1 / 4096 * A := mul_le_mul_of_nonneg_right u1 A0
  have um : u * m ≤ 1 / 4096 * m := mul_le_mul_of_nonneg_right u1 m0
  have uC : u * C ≤ 1 / 4096 * C := mul_le_mul_of_nonneg_right u1 C0
  have i1 : 0 ≤ u * A := mul_nonneg u0 A0
  have i2 : 0 ≤ u * m := mul_nonneg u0 m0
  have i3 : 0 ≤ u * C := mul_nonneg u0 C0
  have j1 : u * (u * A) ≤ 1 / 4096 * (u * A) := mul_le_mul_of_nonneg_right u1 i1
  have j2 : u * (u * m) ≤ 1 / 4096 * (u * m) := mul_le_mul_of_nonneg_right u1 i2
  have j3 : u * (u * C) ≤ 1 / 4096 * (u * C) := mul_le_mul_of_nonneg_right u1 i3
  have k1 : u * (u * (u * A)) ≤ 1 / 4096 * (u * (u * A)) := mul_le_mul_of_nonneg_right u1 (mul_nonneg u0 i1)
  have k2 : u * (u * (u * m)) ≤ 1 / 4096 * (u * (u * m)) := mul_le_mul_of_nonneg_right u1 (mul_nonneg u0 i2)
  linarith

/-- The root of the sum. -/
theorem sabc_err : 0 ≤ R.rnd (R.rnd (a + b) + c) ∧ |R.rnd √(R.rnd (R.rnd (a + b) + c)) - β| ≤ 26 / 5 * η * β := by
  have p1 := one_le h
  have e := abc_err R h k
  have η1 := η_le h
  have n0 := η0 h
  have b0 := h.β0
  obtain ⟨t0, s⟩ := sqrt_close b0 (by linarith) e
  refine ⟨t0, ?_⟩
  have r := rnd_le R p1 (size (abs_of_pos b0).le s)
  refine (tri r s).trans ?_
  have u := mul_le_mul_of_nonneg_right (u_le h) b0.le
  have u1 := h.u1
  have i : 0 ≤ η * β := mul_nonneg n0 b0.le
  have j := mul_le_mul_of_nonneg_right u1 i
  linarith

/-- `2 a + b`. -/
theorem a2b_err : |R.rnd (R.rnd (2 * a) + b) - (2 * α ^ 2 + B)| ≤ 31 / 5 * (1 / 2 ^ p) * (α * S) := by
  have p1 := one_le h
  rw [R.id k.fa.double]
  have s1 : |2 * a + b - (2 * α ^ 2 + B)| ≤ 41 / 10 * (1 / 2 ^ p) * (α * S) := by
    have u0 := unit_nonneg (K := ℝ) p
    have i := mul_nonneg u0 (sq_nonneg α)
    have j := mul_nonneg u0 (mul_pos h.α0 h.γ0).le
    have e : 41 / 10 * (1 / 2 ^ p) * (α * S) = 41 / 10 * (1 / 2 ^ p * α ^ 2) + 41 / 10 * (1 / 2 ^ p * (α * γ)) := by rw [h.hS]; ring
    rw [e]
    have ha := abs_le.1 k.ha
    have hb := abs_le.1 k.hb
    rw [abs_le]
    constructor <;> linarith
  have r := rnd_le R p1 (size h.hE s1)
  refine (tri r s1).trans ?_
  have u0 := unit_nonneg (K := ℝ) p
  have b := mul_le_mul_of_nonneg_left (mul_le_mul_of_nonneg_left (β_le h) h.α0.le) u0
  have i : 0 ≤ 1 / 2 ^ p * (α * S) := mul_nonneg u0 (mul_pos h.α0 (S0 h)).le
  have j := mul_le_mul_of_nonneg_right h.u1 i
  linarith

/-- The roots of the first and the last coefficient. -/
theorem sa_err : |R.rnd √a - α| ≤ 201 / 100 * (1 / 2 ^ p) * α ∧ |R.rnd √c - γ| ≤ 201 / 100 * (1 / 2 ^ p) * γ := by
  have p1 := one_le h
  have u0 := unit_nonneg (K := ℝ) p
  have key : ∀ {x t : ℝ}, 0 < x → |t - x ^ 2| ≤ 2001 / 1000 * (1 / 2 ^ p) * x ^ 2 → |R.rnd √t - x| ≤ 201 / 100 * (1 / 2 ^ p) * x := by
    intro x t x0 ht
    have b := abs_le.1 ht
    have x2 := sq_nonneg x
    have i := mul_le_mul_of_nonneg_right h.u1 x2
    have t0 : 0 ≤ t := by linarith
    have s0 := Real.sqrt_nonneg t
    have e : (√t - x) * (√t + x) = t - x ^ 2 := by
      have := Real.sq_sqrt t0
      linear_combination this
    -- a first bound, then a better one
    obtain ⟨_, s⟩ := sqrt_close x0 (by linarith [h.u1]) ht
    have sb := abs_le.1 s
    have ux := mul_le_mul_of_nonneg_right h.u1 x0.le
    have lo : 1999 / 1000 * x ≤ √t + x := by linarith
    have s2 : |√t - x| ≤ 1002 / 1000 * (1 / 2 ^ p) * x := by
      have : |√t - x| * (√t + x) ≤ 2001 / 1000 * (1 / 2 ^ p) * x ^ 2 := by
        rw [← abs_of_nonneg (by linarith : 0 ≤ √t + x), ← abs_mul, e]; exact ht
      have m := mul_le_mul_of_nonneg_left lo (abs_nonneg (√t - x))
      have m2 : |√t - x| * x ≤ 1002 / 1000 * (1 / 2 ^ p) * x * x := by nlinarith [mul_nonneg u0 x2]
      exact le_of_mul_le_mul_right m2 x0
    have r := rnd_le R p1 (size (abs_of_pos x0).le s2)
    refine (tri r s2).trans ?_
    have i2 := mul_nonneg u0 x0.le
    have j := mul_le_mul_of_nonneg_right h.u1 i2
    linarith
  exact ⟨key h.α0 k.ha, key h.γ0 k.hc⟩

/-- The numerator of the argument of the logarithm. -/
theorem n_err (f : Bool) : |R.rnd (prodIf R f (R.rnd (2 * R.rnd √a) * R.rnd √c) + b) - (2 * (α * γ) + B)| ≤ 37 / 2 * (1 / 2 ^ p) * (α * γ) := by
  have p1 := one_le h
  have u0 := unit_nonneg (K := ℝ) p
  obtain ⟨sa, sc⟩ := sa_err R h k
  rw [R.id (R.mem _).double]
  have hb := k.hb
  have hB := h.hB
  have γ0 := h.γ0
  have α0 := h.α0
  generalize R.rnd √a = s at *
  generalize R.rnd √c = t at *
  have m1 := mul_err (abs_of_pos α0).le (size (abs_of_pos γ0).le sc) sa sc
  have m0 : 0 < α * γ := mul_pos α0 γ0
  have i : 0 ≤ 1 / 2 ^ p * (α * γ) := mul_nonneg u0 m0.le
  have j := mul_le_mul_of_nonneg_right h.u1 i
  have m2 : |2 * s * t - 2 * (α * γ)| ≤ 81 / 10 * (1 / 2 ^ p) * (α * γ) := by
    have e : 2 * s * t - 2 * (α * γ) = 2 * (s * t - α * γ) := by ring
    rw [e, abs_mul, abs_of_pos (by norm_num : (0 : ℝ) < 2)]
    have : |s * t - α * γ| ≤ 402 / 100 * (1 / 2 ^ p * (α * γ)) + (201 / 100) ^ 2 * (1 / 2 ^ p * (1 / 2 ^ p * (α * γ))) := m1.trans (le_of_eq (by ring))
    linarith
  have z : |2 * (α * γ)| ≤ 2 * (α * γ) := (abs_of_pos (by positivity)).le
  have r1 := tri (prod_le R p1 f (size z m2)) m2
  have s1 := add_err r1 hb
  have z1 : |2 * (α * γ) + B| ≤ 4 * (α * γ) := (abs_add_le _ _).trans (by linarith)
  have r2 := rnd_le R p1 (size z1 s1)
  refine (tri r2 s1).trans ?_
  have j2 := mul_le_mul_of_nonneg_right h.u1 (mul_nonneg u0 i)
  generalize α * γ = m at *
  linarith

/-- The denominator of the argument of the logarithm. -/
theorem d_err (f : Bool) : |R.rnd (prodIf R f (R.rnd (2 * R.rnd √a) * R.rnd √(R.rnd (R.rnd (a + b) + c))) + R.rnd (R.rnd (2 * a) + b)) - (2 * (α * β) + (2 * α ^ 2 + B))| ≤
    28 * η * (α * β) := by
  have p1 := one_le h
  have u0 := unit_nonneg (K := ℝ) p
  obtain ⟨sa, -⟩ := sa_err R h k
  obtain ⟨-, sb⟩ := sabc_err R h k
  have a2 := a2b_err R h k
  rw [R.id (R.mem _).double]
  have hE := h.hE
  have β0 := h.β0
  have α0 := h.α0
  have us := mul_le_mul_of_nonneg_left (uS_le h) α0.le
  have n0 := η0 h
  have n1 := η_le h
  have u1 := h.u1
  have un := u_le h
  generalize R.rnd √a = s at *
  generalize R.rnd √(R.rnd (R.rnd (a + b) + c)) = t at *
  generalize R.rnd (R.rnd (2 * a) + b) = w at *
  have m1 := mul_err (abs_of_pos α0).le (size (abs_of_pos β0).le sb) sa sb
  have m0 : 0 < α * β := mul_pos α0 β0
  have i : 0 ≤ η * (α * β) := mul_nonneg n0 m0.le
  have ui := mul_le_mul_of_nonneg_right un m0.le
  have uj := mul_le_mul_of_nonneg_right n1 (mul_nonneg u0 m0.le)
  have uk := mul_le_mul_of_nonneg_right u1 i
  have m2 : |2 * s * t - 2 * (α * β)| ≤ 73 / 5 * η * (α * β) := by
    have e : 2 * s * t - 2 * (α * β) = 2 * (s * t - α * β) := by ring
    rw [e, abs_mul, abs_of_pos (by norm_num : (0 : ℝ) < 2)]
    have : |s * t - α * β| ≤ 201 / 100 * (1 / 2 ^ p * (α * β)) + 201 / 100 * (26 / 5) * (η * (1 / 2 ^ p * (α * β))) + 26 / 5 * (η * (α * β)) := m1.trans (le_of_eq (by ring))
    linarith
  have z : |2 * (α * β)| ≤ 2 * (α * β) := (abs_of_pos (by positivity)).le
  have r1 := tri (prod_le R p1 f (size z m2)) m2
  have a3 : |w - (2 * α ^ 2 + B)| ≤ 31 / 5 * η * (α * β) := a2.trans (by linarith)
  have s1 := add_err r1 a3
  have z1 : |2 * (α * β) + (2 * α ^ 2 + B)| ≤ 4 * (α * β) := (abs_add_le _ _).trans (by linarith)
  have r2 := rnd_le R p1 (size z1 s1)
  refine (tri r2 s1).trans ?_
  have j2 := mul_le_mul_of_nonneg_right u1 (mul_nonneg u0 i)
  have j3 := mul_le_mul_of_nonneg_right u1 (mul_nonneg u0 m0.le)
  generalize α * β = m at *
  linarith

/-- The discriminant. -/
theorem disc_err : |disc R a b c - (B ^ 2 - 4 * (α ^ 2 * γ ^ 2))| ≤ 45 * (1 / 2 ^ p) * (α ^ 2 * γ ^ 2) := by
  have p1 := one_le h
  have d := disc_error R p1 k.fa k.fb k.fc
  have u0 := unit_nonneg (K := ℝ) p
  have u1 := h.u1
  have e2 : (3 : ℝ) / 2 ^ p + 2 / 2 ^ (2 * p) = 3 * (1 / 2 ^ p) + 2 * (1 / 2 ^ p * (1 / 2 ^ p)) := by
    rw [mul_comm 2 p, pow_mul]; field_simp
  rw [e2] at d
  obtain ⟨_, _, _, ha, hb, hc⟩ := k
  have hB := h.hB
  have α0 := h.α0
  have γ0 := h.γ0
  have m0 : 0 < α * γ := mul_pos α0 γ0
  have A0 : 0 < α ^ 2 := pow_pos α0 2
  have C0 : 0 < γ ^ 2 := pow_pos γ0 2
  have M0 : 0 < α ^ 2 * γ ^ 2 := mul_pos A0 C0
  generalize (1 : ℝ) / 2 ^ p = u at *
  have i := mul_nonneg u0 M0.le
  have j := mul_le_mul_of_nonneg_right u1 i
  have s1 := mul_err hB (size hB hb) hb hb
  have s2 := mul_err (abs_of_pos A0).le (size (abs_of_pos C0).le hc) ha hc
  have s3 : |b * b - B * B| ≤ 33 / 2 * (u * (α ^ 2 * γ ^ 2)) := by
    have : |b * b - B * B| ≤ 82 / 5 * (u * (α ^ 2 * γ ^ 2)) + (41 / 10) ^ 2 * (u * (u * (α ^ 2 * γ ^ 2))) := s1.trans (le_of_eq (by ring))
    linarith
  have s4 : |a * c - α ^ 2 * γ ^ 2| ≤ 401 / 100 * (u * (α ^ 2 * γ ^ 2)) := by
    have : |a * c - α ^ 2 * γ ^ 2| ≤ 4002 / 1000 * (u * (α ^ 2 * γ ^ 2)) + (2001 / 1000) ^ 2 * (u * (u * (α ^ 2 * γ ^ 2))) := s2.trans (le_of_eq (by ring))
    linarith
  have s5 : |b ^ 2 - 4 * a * c - (B ^ 2 - 4 * (α ^ 2 * γ ^ 2))| ≤ 1627 / 50 * (u * (α ^ 2 * γ ^ 2)) := by
    have x := abs_le.1 s3
    have y := abs_le.1 s4
    rw [abs_le]
    constructor <;> linarith [x.1, x.2, y.1, y.2]
  have z : |B ^ 2 - 4 * (α ^ 2 * γ ^ 2)| ≤ 4 * (α ^ 2 * γ ^ 2) := by
    have : B ^ 2 ≤ (2 * (α * γ)) ^ 2 := by rw [← sq_abs B]; exact pow_le_pow_left₀ (abs_nonneg _) hB 2
    rw [abs_le]
    constructor <;> nlinarith [sq_nonneg B]
  have z2 := size z s5
  generalize b ^ 2 - 4 * a * c = X at *
  generalize α ^ 2 * γ ^ 2 = M at *
  have c0 : 0 ≤ 3 * u + 2 * (u * u) := by positivity
  have d2 := d.trans (mul_le_mul_of_nonneg_left z2 c0)
  refine (tri d2 s5).trans ?_
  have j2 := mul_le_mul_of_nonneg_right u1 (mul_nonneg u0 i)
  have e : (3 * u + 2 * (u * u)) * (4 * M + 1627 / 50 * (u * M)) = 12 * (u * M) + (8 + 3 * (1627 / 50)) * (u * (u * M)) + 2 * (1627 / 50) * (u * (u * (u * M))) := by ring
  rw [e]
  linarith

end

section
variable {α β γ S η B : ℝ} (h : Sit p α β γ S η B)
include h

/-- The logarithm, and what its error amounts to. -/
theorem log_err {log : ℝ → ℝ} (hl : ∀ x, 0 < x → IsFp p x → |log x - Real.log x| ≤ 2 / 2 ^ p * |Real.log x|) {n d : ℝ}
    (hn : |n - (2 * (α * γ) + B)| ≤ 37 / 2 * (1 / 2 ^ p) * (α * γ)) (hd : |d - (2 * (α * β) + (2 * α ^ 2 + B))| ≤ 28 * η * (α * β)) :
    0 < d ∧ 0 < R.rnd (n / d) ∧
    |log (R.rnd (n / d)) - Real.log ((2 * (α * γ) + B) / (2 * (α * β) + (2 * α ^ 2 + B)))| ≤
      22 / 100 + 2 * (1 / 2 ^ p) * |Real.log ((2 * (α * γ) + B) / (2 * (α * β) + (2 * α ^ 2 + B)))| ∧
    (4 * (α ^ 2 * γ ^ 2) - B ^ 2) * |log (R.rnd (n / d)) - Real.log ((2 * (α * γ) + B) / (2 * (α * β) + (2 * α ^ 2 + B)))| ≤
      (219 + 8 * |Real.log ((2 * (α * γ) + B) / (2 * (α * β) + (2 * α ^ 2 + B)))|) * (1 / 2 ^ p) * (α ^ 2 * S ^ 2) := by
  have p1 := one_le h
  have u0 := unit_nonneg (K := ℝ) p
  have u1 := h.u1
  obtain ⟨N0, N1, N2, N3, N4⟩ := N_ge h
  obtain ⟨D0, D1, D2, D3, D4⟩ := D_ge h
  have mγ : 0 < α * γ := mul_pos h.α0 h.γ0
  have mβ : 0 < α * β := mul_pos h.α0 h.β0
  have η0' := η0 h
  have sγ : γ ≤ S := by rw [h.hS]; linarith [h.α0]
  have e1 : α * γ * (α * γ) ≤ α ^ 2 * S ^ 2 := by
    have : γ * γ ≤ S * S := mul_le_mul sγ sγ h.γ0.le (S0 h).le
    nlinarith [sq_nonneg α]
  have e2 : η * (α * β * (α * β)) = 1 / 2 ^ p * (α ^ 2 * S ^ 2) := by linear_combination α ^ 2 * h.hη
  have w3 : 4 * (α ^ 2 * γ ^ 2) - B ^ 2 ≤ 4 * (α ^ 2 * S ^ 2) := by nlinarith [sq_nonneg B]
  have Q0 : 0 ≤ α ^ 2 * S ^ 2 := by positivity
  generalize 4 * (α ^ 2 * γ ^ 2) - B ^ 2 = W at *
  generalize 2 * (α * γ) - B = N' at *
  generalize 2 * (α * β) - (2 * α ^ 2 + B) = D' at *
  generalize 2 * (α * γ) + B = N at *
  generalize 2 * (α * β) + (2 * α ^ 2 + B) = D at *
  generalize α * γ = mg at *
  generalize α * β = mb at *
  generalize α ^ 2 * S ^ 2 = Q at *
  have u2 : (2 : ℝ) / 2 ^ p = 2 * (1 / 2 ^ p) := by ring
  rw [u2] at hl
  have rr := fun x => Fp.rel_u R p1 x
  have up : (0 : ℝ) < 1 / 2 ^ p := by positivity
  generalize (1 : ℝ) / 2 ^ p = u at *
  -- the relative errors
  have δn : 37 / 2 * u * mg / N ≤ 37 / 512 := by rw [div_le_iff₀ N0]; linarith
  have δd : 28 * η * mb / D ≤ 28 / 256 := by rw [div_le_iff₀ D0]; linarith
  obtain ⟨n0, ln⟩ := log_close (δ := 37 / 2 * u * mg / N) N0 (by linarith) (by rwa [div_mul_cancel₀ _ N0.ne'])
  obtain ⟨d0, ld⟩ := log_close (δ := 28 * η * mb / D) D0 (by linarith) (by rwa [div_mul_cancel₀ _ D0.ne'])
  have q0 : 0 < n / d := div_pos n0 d0
  obtain ⟨r0, lr⟩ := log_close (x' := R.rnd (n / d)) (δ := u) q0 (by linarith) (by have := rr (n / d); rwa [abs_of_pos q0] at this)
  refine ⟨d0, r0, ?_⟩
  have hl' := hl _ r0 (R.mem _)
  generalize R.rnd (n / d) = r at *
  rw [Real.log_div n0.ne' d0.ne'] at lr
  rw [Real.log_div N0.ne' D0.ne']
  generalize Real.log n = ln' at *
  generalize Real.log d = ld' at *
  generalize Real.log r = lr' at *
  generalize Real.log N = LN at *
  generalize Real.log D = LD at *
  generalize log r = l at *
  set δ1 := 37 / 2 * u * mg / N with hδ1
  set δ2 := 28 * η * mb / D with hδ2
  have Δ : |lr' - (LN - LD)| ≤ 8 / 7 * (δ1 + δ2 + u) := by
    have a := abs_le.1 ln; have b := abs_le.1 ld; have c := abs_le.1 lr
    rw [abs_le]; constructor <;> linarith [a.1, a.2, b.1, b.2, c.1, c.2]
  have sz := size (le_refl |LN - LD|) Δ
  have fin : |l - (LN - LD)| ≤ 2 * u * |LN - LD| + 8 / 7 * (δ1 + δ2 + u) * (1 + 2 * u) := by
    refine (tri hl' Δ).trans ?_
    have := mul_le_mul_of_nonneg_left sz (by linarith : 0 ≤ 2 * u)
    linarith
  have dsum : 8 / 7 * (δ1 + δ2 + u) ≤ 21 / 100 := by linarith
  have δ1p : 0 ≤ δ1 := by rw [hδ1]; positivity
  have δ2p : 0 ≤ δ2 := by rw [hδ2]; positivity
  refine ⟨?_, ?_⟩
  · refine fin.trans ?_
    have : 8 / 7 * (δ1 + δ2 + u) * (1 + 2 * u) ≤ 21 / 100 * (1 + 2 * u) := mul_le_mul_of_nonneg_right dsum (by linarith)
    linarith
  · have W0 : 0 ≤ W := by rw [← N2]; exact mul_nonneg N0.le N4
    have w1 : W * δ1 ≤ 74 * u * Q := by
      have : W * δ1 = 37 / 2 * u * mg * N' := by rw [← N2, hδ1]; field_simp
      rw [this]
      have a := mul_le_mul_of_nonneg_left N3 (by positivity : 0 ≤ 37 / 2 * u * mg)
      have b := mul_le_mul_of_nonneg_left e1 (by positivity : 0 ≤ 74 * u)
      linarith
    have w2 : W * δ2 ≤ 112 * u * Q := by
      have : W * δ2 = 28 * η * mb * D' := by rw [← D2, hδ2]; field_simp
      rw [this]
      have a := mul_le_mul_of_nonneg_left D3 (by positivity : 0 ≤ 28 * η * mb)
      linarith
    have f2 := mul_le_mul_of_nonneg_left fin W0
    have L0 := abs_nonneg (LN - LD)
    generalize |LN - LD| = Λ at *
    refine f2.trans ?_
    have x1 : W * (δ1 + δ2 + u) ≤ 190 * u * Q := by
      have := mul_le_mul_of_nonneg_right w3 u0
      linarith
    have x2 := mul_le_mul_of_nonneg_right x1 (by linarith : 0 ≤ 1 + 2 * u)
    have x3 := mul_le_mul_of_nonneg_right w3 (mul_nonneg u0 L0)
    have x4 := mul_le_mul_of_nonneg_right u1 (mul_nonneg u0 Q0)
    have x5 := mul_nonneg u0 Q0
    clear fin sz Δ dsum w1 w2 δn δd
    linarith

end

end Verif.Fp.QLen
