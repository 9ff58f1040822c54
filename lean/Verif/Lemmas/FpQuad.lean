import Verif.Model.FpQuad
import Verif.Lemmas.FpArea
import Verif.Lemmas.FpNorm

/-! Lemmas on quadratic segments in floating-point arithmetic. -/

set_option linter.unusedSectionVars false

namespace Verif.Fp

variable {K : Type} [Field K] [LinearOrder K] [IsStrictOrderedRing K] [FloorRing K] {p : ℕ} (R : Rounding K p)

/-- `y` is `x` up to `k` relative errors `u`, whatever the signs. -/
def Rel (u : K) (k : ℕ) (x y : K) : Prop := |y - x| ≤ ((1 + u) ^ k - 1) * |x|

section
variable {u : K} (u0 : 0 ≤ u)
include u0

theorem one_le_grow (k : ℕ) : 0 ≤ (1 + u) ^ k - 1 := by
  have := one_le_pow₀ (n := k) (show (1 : K) ≤ 1 + u by linarith)
  linarith

theorem Rel.mono {k l : ℕ} (hk : k ≤ l) {x y : K} (h : Rel u k x y) : Rel u l x y := by
  refine le_trans h (mul_le_mul_of_nonneg_right ?_ (abs_nonneg _))
  have := pow_le_pow_right₀ (show (1 : K) ≤ 1 + u by linarith) hk
  linarith

theorem Rel.mul {k l : ℕ} {x x' y y' : K} (h : Rel u k x x') (g : Rel u l y y') : Rel u (k + l) (x * y) (x' * y') := by
  unfold Rel at *
  have e : x' * y' - x * y = (x' - x) * (y' - y) + ((x' - x) * y + x * (y' - y)) := by ring
  have t1 := abs_add_le ((x' - x) * (y' - y)) ((x' - x) * y + x * (y' - y))
  have t2 := abs_add_le ((x' - x) * y) (x * (y' - y))
  rw [abs_mul] at t1
  rw [abs_mul, abs_mul] at t2
  have a0 := one_le_grow u0 k
  have b0 := one_le_grow u0 l
  rw [pow_add, e, abs_mul]
  generalize (1 + u) ^ k = α at *
  generalize (1 + u) ^ l = β at *
  have b1 : |x' - x| * |y' - y| ≤ ((α - 1) * |x|) * ((β - 1) * |y|) := mul_le_mul h g (abs_nonneg _) (mul_nonneg a0 (abs_nonneg _))
  have b2 : |x' - x| * |y| ≤ (α - 1) * |x| * |y| := mul_le_mul_of_nonneg_right h (abs_nonneg _)
  have b3 : |x| * |y' - y| ≤ |x| * ((β - 1) * |y|) := mul_le_mul_of_nonneg_left g (abs_nonneg _)
  have e2 : (α * β - 1) * (|x| * |y|) = ((α - 1) * |x|) * ((β - 1) * |y|) + ((α - 1) * |x| * |y| + |x| * ((β - 1) * |y|)) := by ring
  rw [e2]
  linarith

end

theorem Rel.refl (u x : K) : Rel u 0 x x := by simp [Rel]

theorem Rel.rnd (hp : 1 ≤ p) {k : ℕ} {x y : K} (h : Rel (1 / 2 ^ p) k x y) : Rel (1 / 2 ^ p) (k + 1) x (R.rnd y) := by
  unfold Rel at *
  have r := rel_u R hp y
  have u0 := unit_nonneg (K := K) p
  have g := one_le_grow u0 k
  rw [pow_succ]
  generalize (1 : K) / 2 ^ p = u at *
  generalize (1 + u) ^ k = α at *
  have m : |y| ≤ α * |x| := by
    have := abs_sub_abs_le_abs_sub y x
    linarith
  have t : |R.rnd y - x| ≤ |R.rnd y - y| + |y - x| := abs_sub_le _ _ _
  have := mul_le_mul_of_nonneg_left m u0
  have e : (α * (1 + u) - 1) * |x| = (α - 1) * |x| + u * (α * |x|) := by ring
  rw [e]
  linarith

theorem Rel.prod (hp : 1 ≤ p) (f : Bool) {k : ℕ} {x y : K} (h : Rel (1 / 2 ^ p) k x y) : Rel (1 / 2 ^ p) (k + 1) x (prodIf R f y) := by
  unfold prodIf
  cases f
  · exact h.rnd R hp
  · exact h.mono (unit_nonneg p) (Nat.le_succ k)

/-- One step of a sum. -/
theorem Rel.step (hp : 1 ≤ p) {k l : ℕ} (hl : l ≤ k) {acc acc' A x x' : K} (h : |acc' - acc| ≤ ((1 + 1 / 2 ^ p) ^ k - 1) * A) (hA : |acc| ≤ A) (hx : Rel (1 / 2 ^ p) l x x') :
    |R.rnd (acc' + x') - (acc + x)| ≤ ((1 + 1 / 2 ^ p) ^ (k + 1) - 1) * (A + |x|) := by
  have := term_step R hp le_rfl h hA (hx.mono (unit_nonneg p) hl)
  refine this.trans (le_of_eq ?_)
  rw [pow_succ]; ring

/-- The weights of the interpolation. -/
theorem qInterp_error (hp : 1 ≤ p) (f0 f1 f2 : Bool) {r : K} (hr : IsFp p r) (v0 v1 v2 : K) :
    |qInterp R f0 f1 f2 v0 v1 v2 r - ((2 * r - 1) * (r - 1) * v0 + (2 * r - 1) * r * v1 + -4 * r * (r - 1) * v2)| ≤
      ((1 + 1 / 2 ^ p) ^ 6 - 1) * (|(2 * r - 1) * (r - 1) * v0| + |(2 * r - 1) * r * v1| + |-4 * r * (r - 1) * v2|) := by
  have u0 := unit_nonneg (K := K) p
  have h4 : IsFp p (-4 * r) := by
    have := hr.double.double.neg
    rwa [show -(2 * (2 * r)) = -4 * r by ring] at this
  unfold qInterp
  dsimp only
  rw [R.id hr.double, R.id h4]
  have ra := (Rel.refl (1 / 2 ^ p) (2 * r - 1)).rnd R hp
  have rb := (Rel.refl (1 / 2 ^ p) (r - 1)).rnd R hp
  have t0 := (((ra.mul u0 rb).rnd R hp).mul u0 (Rel.refl _ v0)).prod R hp f0
  have t1 := (((ra.mul u0 (Rel.refl _ r)).rnd R hp).mul u0 (Rel.refl _ v1)).prod R hp f1
  have t2 := ((((Rel.refl _ (-4 * r)).mul u0 rb).rnd R hp).mul u0 (Rel.refl _ v2)).prod R hp f2
  have s1 := Rel.step R hp (k := 4) (l := 3) (by omega) t0 le_rfl t1
  exact Rel.step R hp (k := 5) (l := 3) (by omega) s1 (abs_add_le _ _) t2

theorem qJacobian_error (hp : 1 ≤ p) (f0 f1 : Bool) {r : K} (hr : IsFp p r) (v0 v1 v2 : K) :
    |qJacobian R f0 f1 v0 v1 v2 r - ((4 * r - 3) * (v0 - v2) + (4 * r - 1) * (v1 - v2))| ≤
      ((1 + 1 / 2 ^ p) ^ 4 - 1) * (|(4 * r - 3) * (v0 - v2)| + |(4 * r - 1) * (v1 - v2)|) := by
  have u0 := unit_nonneg (K := K) p
  have h4 : IsFp p (4 * r) := by
    have := hr.double.double
    rwa [show 2 * (2 * r) = 4 * r by ring] at this
  unfold qJacobian
  rw [R.id h4]
  have a := (Rel.refl (1 / 2 ^ p) (4 * r - 3)).rnd R hp
  have b := (Rel.refl (1 / 2 ^ p) (4 * r - 1)).rnd R hp
  have c := (Rel.refl (1 / 2 ^ p) (v0 - v2)).rnd R hp
  have d := (Rel.refl (1 / 2 ^ p) (v1 - v2)).rnd R hp
  exact Rel.step R hp (k := 3) (l := 3) le_rfl ((a.mul u0 c).prod R hp f0) le_rfl ((b.mul u0 d).prod R hp f1)

/-! ### The box -/

/-- The greatest value of a quadratic polynomial on the unit interval. -/
theorem quad_le {c b a M s : K} (s0 : 0 ≤ s) (s1 : s ≤ 1) (h0 : c ≤ M) (h1 : c + b + a ≤ M)
    (h : a < 0 → 0 < -(b / 2) / a → -(b / 2) / a < 1 → c + -(b / 2) / a * (b / 2) ≤ M) : c + s * b + s ^ 2 * a ≤ M := by
  rcases le_or_gt 0 a with a0 | a0
  · have e : c + s * b + s ^ 2 * a = (1 - s) * c + s * (c + b + a) - a * (s * (1 - s)) := by ring
    have : 0 ≤ a * (s * (1 - s)) := mul_nonneg a0 (mul_nonneg s0 (by linarith))
    have := mul_le_mul_of_nonneg_left h0 (show 0 ≤ 1 - s by linarith)
    have := mul_le_mul_of_nonneg_left h1 s0
    rw [e]
    linarith
  · by_cases g0 : 0 < -(b / 2) / a
    · by_cases g1 : -(b / 2) / a < 1
      · have hx := h a0 g0 g1
        have e : c + s * b + s ^ 2 * a = c + -(b / 2) / a * (b / 2) + a * (s - -(b / 2) / a) ^ 2 := by
          have ha : a ≠ 0 := a0.ne
          have : b = -(2 * (-(b / 2) / a * a)) := by field_simp
          generalize -(b / 2) / a = ρ at *
          rw [this]; ring
        have : a * (s - -(b / 2) / a) ^ 2 ≤ 0 := mul_nonpos_of_nonpos_of_nonneg a0.le (sq_nonneg _)
        rw [e]
        linarith
      · rw [not_lt, le_div_iff_of_neg a0] at g1
        have e : c + s * b + s ^ 2 * a = c + b + a - (1 - s) * (b + a * (1 + s)) := by ring
        have h2 : a * (1 + s) ≥ 2 * a := by nlinarith
        have := mul_nonneg (show 0 ≤ 1 - s by linarith) (show 0 ≤ b + a * (1 + s) by linarith)
        rw [e]
        linarith
    · rw [not_lt, div_le_iff_of_neg a0] at g0
      have hb : b ≤ 0 := by linarith
      have := mul_nonpos_of_nonneg_of_nonpos s0 hb
      have := mul_nonpos_of_nonneg_of_nonpos (sq_nonneg s) a0.le
      linarith

section
variable (hp : 5 ≤ p) (f0 f1 : Bool) (v0 v1 v2 : K)
include hp

theorem unit_32 : (1 : K) / 2 ^ p ≤ 1 / 32 := by
  refine one_div_le_one_div_of_le (by norm_num) ?_
  calc (32 : K) = 2 ^ 5 := by norm_num
    _ ≤ 2 ^ p := pow_le_pow_right₀ (by norm_num) hp

/-- The coefficients. -/
theorem qCoeffs_error : |(qCoeffs R f0 v0 v1 v2).1 - (3 * (v2 - v0) + (v2 - v1))| ≤ 10 * (1 / 2 ^ p) * (|v2 - v0| + |v2 - v1|) ∧
    |(qCoeffs R f0 v0 v1 v2).2 - -2 * ((v2 - v0) + (v2 - v1))| ≤ 5 * (1 / 2 ^ p) * (|v2 - v0| + |v2 - v1|) := by
  have u0 := unit_nonneg (K := K) p
  have u1 := unit_32 (K := K) hp
  have hp1 : 1 ≤ p := by omega
  have d0 := (Rel.refl (1 / 2 ^ p) (v2 - v0)).rnd R hp1
  have d1 := (Rel.refl (1 / 2 ^ p) (v2 - v1)).rnd R hp1
  have s1 : _ ≤ ((1 + 1 / 2 ^ p : K) ^ 3 - 1) * _ := Rel.step R hp1 (k := 2) (l := 1) (by omega) (((Rel.refl _ (3 : K)).mul u0 d0).prod R hp1 f0) le_rfl d1
  have s2 : _ ≤ ((1 + 1 / 2 ^ p : K) ^ 2 - 1) * _ := Rel.step R hp1 (k := 1) (l := 1) le_rfl d0 le_rfl d1
  have h2 : R.rnd (-2 * R.rnd (R.rnd (v2 - v0) + R.rnd (v2 - v1))) = -2 * R.rnd (R.rnd (v2 - v0) + R.rnd (v2 - v1)) := by
    have := (R.mem (R.rnd (v2 - v0) + R.rnd (v2 - v1))).double.neg
    rw [show -(2 * R.rnd (R.rnd (v2 - v0) + R.rnd (v2 - v1))) = -2 * R.rnd (R.rnd (v2 - v0) + R.rnd (v2 - v1)) by ring] at this
    exact R.id this
  unfold qCoeffs
  dsimp only
  rw [h2, ← mul_sub, abs_mul]
  have n2 : |(-2 : K)| = 2 := by norm_num
  rw [n2]
  rw [abs_mul, abs_of_pos (by norm_num : (0 : K) < 3)] at s1
  have a0 := abs_nonneg (v2 - v0)
  have a1 := abs_nonneg (v2 - v1)
  generalize |v2 - v0| = S0 at *
  generalize |v2 - v1| = S1 at *
  generalize (1 : K) / 2 ^ p = u at *
  constructor
  · refine s1.trans ?_
    have : (1 + u) ^ 3 - 1 ≤ 10 / 3 * u := by nlinarith [mul_nonneg u0 u0]
    have := mul_le_mul_of_nonneg_right this (show 0 ≤ 3 * S0 + S1 by linarith)
    nlinarith [mul_nonneg u0 a1]
  · have : (1 + u) ^ 2 - 1 ≤ 5 / 2 * u := by nlinarith [mul_nonneg u0 u0]
    have := mul_le_mul_of_nonneg_right this (show 0 ≤ S0 + S1 by linarith)
    linarith

/-- The extremum, when it is computed and when it is not. -/
theorem qBox_extremum {a b S ρ : K} (hb : |b| ≤ 4 * S) (ha : |a| ≤ 3 * S) (ha0 : a ≠ 0) (hbf : IsFp p b) (hρ : ρ = -(b / 2) / a) (h0 : 0 < ρ) (h1 : ρ < 1) :
    (0 < R.rnd (-R.rnd (b / 2) / a) ∧ R.rnd (-R.rnd (b / 2) / a) < 1 ∧
      |R.rnd (v0 + prodIf R f1 (R.rnd (-R.rnd (b / 2) / a) * R.rnd (b / 2))) - (v0 + ρ * (b / 2))| ≤ 9 * (1 / 2 ^ p) * S + 1 / 2 ^ p * |v0|) ∨
    (1 ≤ R.rnd (-R.rnd (b / 2) / a) ∧ |v0 + ρ * (b / 2) - (v0 + b + a)| ≤ 1 / 2 ^ p * S) := by
  have u0 := unit_nonneg (K := K) p
  have u1 := unit_32 (K := K) hp
  have hp1 : 1 ≤ p := by omega
  have S0 : 0 ≤ S := by linarith [abs_nonneg a]
  rw [R.id hbf.half, ← hρ]
  rcases lt_or_ge (R.rnd ρ) 1 with hr | hr
  · refine Or.inl ⟨R.pos hp1 h0, hr, ?_⟩
    have t := ((((Rel.refl _ ρ).rnd R hp1).mul u0 (Rel.refl _ (b / 2))).prod R hp1 f1)
    unfold Rel at t
    have hm : |ρ * (b / 2)| ≤ 2 * S := by
      rw [abs_mul, abs_of_pos h0, abs_div, abs_of_pos (by norm_num : (0 : K) < 2)]
      nlinarith [abs_nonneg b]
    generalize prodIf R f1 (R.rnd ρ * (b / 2)) = x at *
    have r := rel_u R hp1 (v0 + x)
    have g : |R.rnd (v0 + x) - (v0 + ρ * (b / 2))| ≤ |R.rnd (v0 + x) - (v0 + x)| + |(v0 + x) - (v0 + ρ * (b / 2))| := abs_sub_le _ _ _
    rw [add_sub_add_left_eq_sub] at g
    have v := abs_add_le v0 x
    have w := abs_sub_abs_le_abs_sub x (ρ * (b / 2))
    have k : (1 + 1 / 2 ^ p : K) ^ (0 + 1 + 0 + 1) - 1 ≤ 5 / 2 * (1 / 2 ^ p) := by
      norm_num only
      nlinarith [mul_nonneg u0 u0]
    have m0 := abs_nonneg (ρ * (b / 2))
    generalize (1 : K) / 2 ^ p = u at *
    have t2 := t.trans (mul_le_mul_of_nonneg_right k m0)
    have t3 := mul_le_mul_of_nonneg_left hm (show 0 ≤ 5 / 2 * u by linarith)
    have t4 : |x - ρ * (b / 2)| ≤ 5 * u * S := by linarith
    have t5 : |x| ≤ 2 * S + 5 * u * S := by linarith
    have t6 : u * |v0 + x| ≤ u * |v0| + u * (2 * S + 5 * u * S) := by
      rw [← mul_add]; exact mul_le_mul_of_nonneg_left (by linarith) u0
    have t7 : u * (5 * u * S) ≤ u * S := by
      refine mul_le_mul_of_nonneg_left ?_ u0
      nlinarith
    have t8 := mul_nonneg u0 S0
    have t9 : u * (2 * S + 5 * u * S) = 2 * (u * S) + u * (5 * u * S) := by ring
    linarith
  · refine Or.inr ⟨hr, ?_⟩
    have hlt : 1 - 1 / 2 ^ p < ρ := by
      by_contra hc
      rw [not_lt] at hc
      have hf : IsFp p (1 - 1 / 2 ^ p : K) := by
        refine ⟨2 ^ p - 1, -(p : ℤ), ?_, ?_⟩
        · rw [abs_of_nonneg (by have : (1 : ℤ) ≤ 2 ^ p := one_le_pow₀ (by norm_num); linarith)]
          linarith
        · push_cast
          rw [zpow_neg, zpow_natCast]
          field_simp
      have := R.le_of_le hc hf
      have : (0 : K) < 1 / 2 ^ p := by positivity
      linarith
    have e : v0 + ρ * (b / 2) - (v0 + b + a) = -(a * (1 - ρ) ^ 2) := by
      have : b / 2 = -(ρ * a) := by rw [hρ]; field_simp
      have : b = -(2 * (ρ * a)) := by linarith
      rw [this]; ring
    rw [e, abs_neg, abs_mul, abs_of_nonneg (sq_nonneg (1 - ρ))]
    generalize (1 : K) / 2 ^ p = u at *
    have q : (1 - ρ) ^ 2 ≤ u * (1 / 32) := by nlinarith
    have := mul_le_mul ha q (sq_nonneg _) (by linarith)
    nlinarith [mul_nonneg u0 S0]

end

/-! ### Areas -/

theorem cross_rel (hp : 1 ≤ p) {u v : P2 K} (h1 : IsFp p u.1) (h2 : IsFp p u.2) (h3 : IsFp p v.1) (h4 : IsFp p v.2) : Rel (1 / 2 ^ p) 3 (u.1 * v.2 - u.2 * v.1) (cross R u v) := by
  have e := det_error R hp h1 h2 h3 h4
  refine le_trans e (mul_le_mul_of_nonneg_right ?_ (abs_nonneg _))
  have u0 := unit_nonneg (K := K) p
  have : (3 : K) / 2 ^ p + 2 / 2 ^ (2 * p) = 3 * (1 / 2 ^ p) + 2 * (1 / 2 ^ p) ^ 2 := by
    rw [pow_mul', div_pow]; ring
  rw [this]
  generalize (1 : K) / 2 ^ p = u at *
  nlinarith [mul_nonneg u0 u0, pow_nonneg u0 3]

/-- The loop, for edges with areas within `k` roundings. -/
theorem qAreaLoop_error (hp : 1 ≤ p) (f : Bool) (X : P2 K × P2 K × P2 K → K) : ∀ (es : List (P2 K × P2 K × P2 K)) (k : ℕ) (acc acc' A : K), 5 ≤ k →
    (∀ e ∈ es, Rel (1 / 2 ^ p) 5 (X e) (qEnclosed R f e.1 e.2.1 e.2.2)) → |acc' - acc| ≤ ((1 + 1 / 2 ^ p) ^ k - 1) * A → |acc| ≤ A →
    |qAreaLoop R f acc' es - (acc + (es.map X).sum)| ≤ ((1 + 1 / 2 ^ p) ^ (k + es.length) - 1) * (A + (es.map fun e => |X e|).sum) := by
  intro es
  induction es with
  | nil => intro k acc acc' A _ _ h _; simpa [qAreaLoop] using h
  | cons e es ih =>
    intro k acc acc' A hk he h hA
    have s := Rel.step R hp hk h hA (he e (by simp))
    have := ih (k + 1) _ _ _ (by omega) (fun e' h' => he e' (by simp [h'])) s ((abs_add_le _ _).trans (add_le_add_left hA _))
    simp only [List.map_cons, List.sum_cons, List.length_cons]
    rw [show k + (es.length + 1) = k + 1 + es.length by omega, ← add_assoc, ← add_assoc]
    exact this

/-- Straight edges change nothing. -/
theorem qAreaLoop_straight (f : Bool) : ∀ (es : List (P2 K × P2 K × P2 K)) (acc : K), IsFp p acc → (∀ e ∈ es, qEnclosed R f e.1 e.2.1 e.2.2 = 0) → qAreaLoop R f acc es = acc := by
  intro es
  induction es with
  | nil => intro acc _ _; rfl
  | cons e es ih =>
    intro acc ha he
    have h0 := he e (by simp)
    show qAreaLoop R f (R.rnd (acc + qEnclosed R f e.1 e.2.1 e.2.2)) es = acc
    rw [h0, add_zero, R.id ha]
    exact ih acc ha fun e' h' => he e' (by simp [h'])

end Verif.Fp
