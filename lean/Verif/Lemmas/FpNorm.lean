import Verif.Model.FpNorm
import Verif.Lemmas.FpArea

/-! Helper lemmas for norms in floating-point arithmetic. -/

set_option linter.unusedSectionVars false

namespace Verif.Fp

variable {K : Type} [Field K] [LinearOrder K] [IsStrictOrderedRing K] [FloorRing K] {p : ℕ} (R : Rounding K p)

/-- `sqrt` is the exact square root. -/
def IsSqrt (sqrt : K → K) : Prop := ∀ x, 0 ≤ x → 0 ≤ sqrt x ∧ sqrt x * sqrt x = x

theorem Off.sqrt {sqrt : K → K} (hs : IsSqrt sqrt) {u : K} (u0 : 0 ≤ u) (u1 : u ≤ 1) {k : ℕ} {x y : K} (x0 : 0 ≤ x) (h : Off u (2 * k) x y) : Off u k (sqrt x) (sqrt y) := by
  obtain ⟨a1, a2⟩ := hs x x0
  obtain ⟨b1, b2⟩ := hs y (h.nonneg u0 u1 x0)
  have p1 : 0 ≤ (1 - u) ^ k := pow_nonneg (sub_nonneg.2 u1) k
  have p2 : 0 ≤ (1 + u) ^ k := pow_nonneg (by linarith) k
  constructor
  · rw [mul_self_le_mul_self_iff (mul_nonneg a1 p1) b1, b2, mul_mul_mul_comm, a2, ← pow_add, ← two_mul]
    exact h.1
  · rw [mul_self_le_mul_self_iff b1 (mul_nonneg a1 p2), b2, mul_mul_mul_comm, a2, ← pow_add, ← two_mul]
    exact h.2

theorem map_rnd {v : List K} (h : ∀ x ∈ v, IsFp p x) : v.map R.rnd = v := by
  conv_rhs => rw [← List.map_id v]
  exact List.map_congr_left fun x hx => R.id (h x hx)

theorem norm_off (hp : 1 ≤ p) {sqrt : K → K} (hs : IsSqrt sqrt) (fused : Bool) {v : List K} (h : ∀ x ∈ v, IsFp p x) :
    Off (1 / 2 ^ p) ((v.length + 3) / 2 + 1) (sqrt (sumSq v)) (norm R sqrt fused v) := by
  have u0 := unit_nonneg (K := K) p
  have u1 := unit_le (K := K) p
  have o := sqNorm_off R hp fused v
  rw [map_rnd R h] at o
  exact Off.rnd R hp (hs _ (sumSq_nonneg v)).1 (Off.sqrt hs u0 u1 (sumSq_nonneg v) (o.weaken u0 u1 (sumSq_nonneg v) (by omega)))

/-- The exact square of the distance. -/
def exactDist2 (a b : List K) : K := sumSq (List.zipWith (fun x y => x - y) a b)

theorem distance_off (hp : 1 ≤ p) {sqrt : K → K} (hs : IsSqrt sqrt) (fused : Bool) {n : ℕ} {a b : List K} (ha : a.length = n) (hb : b.length = n) :
    Off (1 / 2 ^ p) ((n + 3) / 2 + 1) (sqrt (exactDist2 a b)) (distanceTo R sqrt fused a b) := by
  have u0 := unit_nonneg (K := K) p
  have u1 := unit_le (K := K) p
  have o := sqNorm_off R hp fused (List.zipWith (fun x y => x - y) a b)
  rw [← subV_eq, List.length_zipWith, ha, hb, min_self] at o
  exact Off.rnd R hp (hs _ (sumSq_nonneg _)).1 (Off.sqrt hs u0 u1 (sumSq_nonneg _) (o.weaken u0 u1 (sumSq_nonneg _) (by omega)))

/-- Off something positive is positive. -/
theorem Off.pos {u : K} (u1 : u < 1) {k : ℕ} {x y : K} (x0 : 0 < x) (h : Off u k x y) : 0 < y :=
  lt_of_lt_of_le (mul_pos x0 (pow_pos (sub_pos.2 u1) k)) h.1

theorem Off.zero {u : K} {k : ℕ} {y : K} (h : Off u k 0 y) : y = 0 := by
  unfold Off at h
  rw [zero_mul, zero_mul] at h
  exact le_antisymm h.2 h.1

theorem unit_lt (hp : 1 ≤ p) : (1 : K) / 2 ^ p < 1 := by
  rw [div_lt_one (by positivity)]
  exact one_lt_pow₀ (by norm_num) (by omega)

theorem unit_half (hp : 1 ≤ p) : (1 : K) / 2 ^ p ≤ 1 / 2 := by
  refine one_div_le_one_div_of_le (by norm_num) ?_
  calc (2 : K) = 2 ^ 1 := by norm_num
    _ ≤ 2 ^ p := pow_le_pow_right₀ (by norm_num) hp

/-- The exact lengths along a path. -/
def lengths (sqrt : K → K) : List (List K) → List K
  | v :: w :: vs => sqrt (exactDist2 v w) :: lengths sqrt (w :: vs)
  | _ => []

theorem lengths_nonneg {sqrt : K → K} (hs : IsSqrt sqrt) : ∀ vs : List (List K), ∀ x ∈ lengths sqrt vs, 0 ≤ x
  | [], x, h => by simp [lengths] at h
  | [v], x, h => by simp [lengths] at h
  | v :: w :: vs, x, h => by
    rw [lengths, List.mem_cons] at h
    rcases h with rfl | h
    · exact (hs _ (sumSq_nonneg _)).1
    · exact lengths_nonneg hs (w :: vs) x h

theorem perimeterLoop_off (hp : 1 ≤ p) {sqrt : K → K} (hs : IsSqrt sqrt) (fused : Bool) {n : ℕ} : ∀ (vs : List (List K)), (∀ v ∈ vs, v.length = n) → ∀ (k : ℕ) (x acc : K), 0 ≤ x →
    (n + 3) / 2 + 1 ≤ k → Off (1 / 2 ^ p) k x acc → Off (1 / 2 ^ p) (k + (vs.length - 1)) (x + (lengths sqrt vs).sum) (perimeterLoop R sqrt fused acc vs)
  | [], _, k, x, acc, x0, hk, h => by simpa [perimeterLoop, lengths] using h
  | [v], _, k, x, acc, x0, hk, h => by simpa [perimeterLoop, lengths] using h
  | v :: w :: vs, hv, k, x, acc, x0, hk, h => by
    have u0 := unit_nonneg (K := K) p
    have u1 := unit_le (K := K) p
    have d := distance_off R hp hs fused (hv v (by simp)) (hv w (by simp))
    have d0 := (hs _ (sumSq_nonneg (List.zipWith (fun x y => x - y) v w))).1
    have st := Off.rnd R hp (add_nonneg x0 d0) (h.add u0 u1 (d.weaken u0 u1 d0 hk))
    have ih := perimeterLoop_off hp hs fused (w :: vs) (fun v h => hv v (by simp [h])) (k + 1) _ _ (add_nonneg x0 d0) (by omega) st
    have e : k + ((v :: w :: vs).length - 1) = k + 1 + ((w :: vs).length - 1) := by simp only [List.length_cons]; omega
    rw [e]
    simpa [perimeterLoop, lengths, exactDist2, add_assoc] using ih

end Verif.Fp
