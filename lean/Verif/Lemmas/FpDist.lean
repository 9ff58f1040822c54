import Verif.Model.FpDist
import Verif.Lemmas.FpLerp

/-! Distances in floating-point arithmetic. -/

set_option linter.unusedSectionVars false

namespace Verif.Fp

variable {K : Type} [Field K] [LinearOrder K] [IsStrictOrderedRing K] [FloorRing K] {p : ℕ}

/-- `y` is `x` after `k` relative errors of at most `u`. -/
def Off (u : K) (k : ℕ) (x y : K) : Prop := x * (1 - u) ^ k ≤ y ∧ y ≤ x * (1 + u) ^ k

section
variable {u : K} (u0 : 0 ≤ u) (u1 : u ≤ 1)
include u0 u1

theorem Off.nonneg {k : ℕ} {x y : K} (x0 : 0 ≤ x) (h : Off u k x y) : 0 ≤ y :=
  (mul_nonneg x0 (pow_nonneg (sub_nonneg.2 u1) k)).trans h.1

theorem Off.weaken {k l : ℕ} {x y : K} (x0 : 0 ≤ x) (hk : k ≤ l) (h : Off u k x y) : Off u l x y :=
  ⟨(mul_le_mul_of_nonneg_left (pow_le_pow_of_le_one (by linarith) (by linarith) hk) x0).trans h.1,
    h.2.trans (mul_le_mul_of_nonneg_left (pow_le_pow_right₀ (by linarith) hk) x0)⟩

theorem Off.add {k : ℕ} {x y x' y' : K} (h : Off u k x x') (g : Off u k y y') : Off u k (x + y) (x' + y') :=
  ⟨by rw [add_mul]; exact add_le_add h.1 g.1, by rw [add_mul]; exact add_le_add h.2 g.2⟩

theorem Off.mul {k l : ℕ} {x y x' y' : K} (x0 : 0 ≤ x) (y0 : 0 ≤ y) (h : Off u k x x') (g : Off u l y y') : Off u (k + l) (x * y) (x' * y') := by
  have x0' := h.nonneg u0 u1 x0
  have y0' := g.nonneg u0 u1 y0
  have a : 0 ≤ (1 - u) ^ l := pow_nonneg (sub_nonneg.2 u1) l
  have b : 0 ≤ (1 + u) ^ k := pow_nonneg (by linarith) k
  constructor
  · rw [pow_add, mul_mul_mul_comm]
    exact mul_le_mul h.1 g.1 (mul_nonneg y0 a) x0'
  · rw [pow_add, mul_mul_mul_comm]
    exact mul_le_mul h.2 g.2 y0' (mul_nonneg x0 b)

end

theorem unit_le (p : ℕ) : (1 : K) / 2 ^ p ≤ 1 := by rw [div_le_one (by positivity)]; exact one_le_pow₀ (by norm_num)

theorem unit_nonneg (p : ℕ) : (0 : K) ≤ 1 / 2 ^ p := by positivity

theorem Off.refl (u x : K) : Off u 0 x x := by simp [Off]

variable (R : Rounding K p)

/-- One rounding. -/
theorem Off.rnd (hp : 1 ≤ p) {k : ℕ} {x y : K} (x0 : 0 ≤ x) (h : Off (1 / 2 ^ p) k x y) : Off (1 / 2 ^ p) (k + 1) x (R.rnd y) := by
  have u0 := unit_nonneg (K := K) p
  have u1 := unit_le (K := K) p
  have y0 := h.nonneg u0 u1 x0
  have r := rel_u R hp y
  rw [abs_of_nonneg y0] at r
  obtain ⟨r1, r2⟩ := abs_le.1 r
  generalize (1 : K) / 2 ^ p = u at *
  constructor
  · have := mul_le_mul_of_nonneg_right h.1 (sub_nonneg.2 u1)
    rw [pow_succ, ← mul_assoc]
    linarith
  · have := mul_le_mul_of_nonneg_right h.2 (by linarith : 0 ≤ 1 + u)
    rw [pow_succ, ← mul_assoc]
    linarith

/-- The square of a rounded difference. -/
theorem Off.sq (hp : 1 ≤ p) (d : K) : Off (1 / 2 ^ p) 2 (d * d) (R.rnd d * R.rnd d) := by
  have u0 := unit_nonneg (K := K) p
  have u1 := unit_le (K := K) p
  have h : Off (1 / 2 ^ p) 1 |d| |R.rnd d| := by
    have r := rel_u R hp d
    have a := abs_sub_abs_le_abs_sub (R.rnd d) d
    have b := abs_sub_abs_le_abs_sub d (R.rnd d)
    rw [abs_sub_comm d] at b
    unfold Off
    rw [pow_one, pow_one]
    constructor <;> nlinarith
  have := h.mul u0 u1 (abs_nonneg d) (abs_nonneg d) h
  rwa [abs_mul_abs_self, abs_mul_abs_self] at this

theorem Off.mulAdd (hp : 1 ≤ p) (fused : Bool) {k : ℕ} {x y x' a : K} (x0 : 0 ≤ x) (y0 : 0 ≤ y) (h : Off (1 / 2 ^ p) (k + 1) x x') (g : Off (1 / 2 ^ p) k y (a * a)) :
    Off (1 / 2 ^ p) (k + 2) (x + y) (mulAdd R fused x' a a) := by
  have u0 := unit_nonneg (K := K) p
  have u1 := unit_le (K := K) p
  unfold Fp.mulAdd
  split
  · exact Off.rnd R hp (add_nonneg x0 y0) (h.add u0 u1 (g.weaken u0 u1 y0 (by omega)))
  · exact Off.rnd R hp (add_nonneg x0 y0) (h.add u0 u1 (Off.rnd R hp y0 g))

/-- The exact sum of squares. -/
def sumSq (v : List K) : K := (v.map fun x => x * x).sum

theorem sumSq_nonneg (v : List K) : 0 ≤ sumSq v := by
  refine List.sum_nonneg fun x hx => ?_
  obtain ⟨y, -, rfl⟩ := List.mem_map.1 hx
  exact mul_self_nonneg y

/-- The loop over rounded values. -/
theorem loop_off (hp : 1 ≤ p) (fused : Bool) : ∀ (v : List K) (k : ℕ) (x acc : K), 0 ≤ x → 2 ≤ k → Off (1 / 2 ^ p) (k + 1) x acc →
    Off (1 / 2 ^ p) (k + 1 + v.length) (x + sumSq v) (dotLoop R fused acc (v.map R.rnd) (v.map R.rnd))
  | [], k, x, acc, x0, hk, h => by simpa [dotLoop, sumSq] using h
  | d :: v, k, x, acc, x0, hk, h => by
    have u0 := unit_nonneg (K := K) p
    have u1 := unit_le (K := K) p
    have := loop_off hp fused v (k + 1) (x + d * d) (mulAdd R fused acc (R.rnd d) (R.rnd d)) (add_nonneg x0 (mul_self_nonneg d)) (by omega)
      (Off.mulAdd R hp fused x0 (mul_self_nonneg d) h ((Off.sq R hp d).weaken u0 u1 (mul_self_nonneg d) hk))
    have e : x + sumSq (d :: v) = x + d * d + sumSq v := by simp [sumSq]; ring
    rw [e, List.length_cons, show k + 1 + (v.length + 1) = k + 1 + 1 + v.length by ring]
    simpa [dotLoop] using this

theorem sqNorm_off (hp : 1 ≤ p) (fused : Bool) (v : List K) : Off (1 / 2 ^ p) (v.length + 2) (sumSq v) (squaredNorm R fused (v.map R.rnd)) := by
  have u0 := unit_nonneg (K := K) p
  have u1 := unit_le (K := K) p
  cases v with
  | nil => simp [squaredNorm, dot, sumSq, Off]
  | cons d v =>
    have := loop_off R hp fused v 2 (d * d) _ (mul_self_nonneg d) le_rfl (Off.rnd R hp (mul_self_nonneg d) (Off.sq R hp d))
    rw [List.length_cons, show v.length + 1 + 2 = 2 + 1 + v.length by ring]
    simpa [squaredNorm, dot, sumSq] using this

theorem subV_eq (a b : List K) : subV R a b = (List.zipWith (fun x y => x - y) a b).map R.rnd := by
  unfold subV
  rw [List.map_zipWith]

end Verif.Fp
