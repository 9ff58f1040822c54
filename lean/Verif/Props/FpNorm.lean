import Verif.Lemmas.FpNorm
import Mathlib.Data.Rat.Floor
import Mathlib.Analysis.Real.Sqrt
import Mathlib.Algebra.Order.Archimedean.Real.Basic

/-! C131: norms, unit vectors, perimeters and mean chords in floating-point arithmetic. -/

set_option linter.unusedSectionVars false

namespace Verif.FpNormP

open Verif.Fp

variable {K : Type} [Field K] [LinearOrder K] [IsStrictOrderedRing K] [FloorRing K] {p : ℕ} (R : Rounding K p)

/-- `y` is `x` up to `k` relative errors of half a unit in the last place. -/
def Near (p k : ℕ) (x y : K) : Prop := x * (1 - 1 / 2 ^ p) ^ k ≤ y ∧ y ≤ x * (1 + 1 / 2 ^ p) ^ k

/-- The norm of a vector with `n` coordinates has a relative error of `(n + 3) / 2 + 1` roundings, and is zero for the zero vector only. -/
theorem C131_norm (hp : 1 ≤ p) {sqrt : K → K} (hs : IsSqrt sqrt) (fused : Bool) {v : List K} (h : ∀ x ∈ v, IsFp p x) :
    Near p ((v.length + 3) / 2 + 1) (sqrt (v.map fun x => x * x).sum) (norm R sqrt fused v) ∧ (norm R sqrt fused v = 0 ↔ ∀ x ∈ v, x = 0) := by
  have o := norm_off R hp hs fused h
  refine ⟨o, ?_⟩
  have e : (∀ x ∈ v, x = 0) ↔ sumSq v = 0 := by
    unfold sumSq
    constructor
    · intro g
      refine List.sum_eq_zero fun y hy => ?_
      obtain ⟨x, hx, rfl⟩ := List.mem_map.1 hy
      rw [g x hx, mul_zero]
    · intro g x hx
      have k := List.single_le_sum (l := v.map fun x => x * x) (by
        intro y hy
        obtain ⟨z, -, rfl⟩ := List.mem_map.1 hy
        exact mul_self_nonneg z) (x * x) (List.mem_map_of_mem hx)
      rw [g] at k
      exact mul_self_eq_zero.1 (le_antisymm k (mul_self_nonneg x))
  rw [e]
  obtain ⟨s0, s1⟩ := hs _ (sumSq_nonneg v)
  constructor
  · intro g
    by_contra c
    have : 0 < sqrt (sumSq v) := lt_of_le_of_ne s0 fun d => c (by rw [← s1, ← d, zero_mul])
    exact (o.pos (unit_lt hp) this).ne' g
  · intro g
    have : sqrt (sumSq v) = 0 := by rw [g] at s1; rw [g]; exact mul_self_eq_zero.1 s1
    rw [this] at o
    exact o.zero

/-- The distance of two points with `n` coordinates has a relative error of `(n + 3) / 2 + 1` roundings, whatever the points. -/
theorem C131_distance (hp : 1 ≤ p) {sqrt : K → K} (hs : IsSqrt sqrt) (fused : Bool) {n : ℕ} {a b : List K} (ha : a.length = n) (hb : b.length = n) :
    Near p ((n + 3) / 2 + 1) (sqrt (List.zipWith (fun x y => (x - y) * (x - y)) a b).sum) (distanceTo R sqrt fused a b) := by
  have := distance_off R hp hs fused ha hb
  unfold exactDist2 sumSq at this
  rwa [List.map_zipWith] at this

theorem abs_off {k : ℕ} (hp : 1 ≤ p) {N N' : K} (N0 : 0 < N) (h : Off (1 / 2 ^ p) k N N') (x : K) : Off (1 / 2 ^ p) (2 * k + 1) (|x| / N) |R.rnd (x / N')| := by
  have u0 := unit_nonneg (K := K) p
  have u1 := unit_le (K := K) p
  have N0' := h.pos (unit_lt hp) N0
  have d := Off.div u0 (unit_half hp) (abs_nonneg x) N0 (Off.refl (1 / 2 ^ p) |x|) h
  rw [zero_add] at d
  have e : |x| / N' = |x / N'| := by rw [abs_div, abs_of_pos N0']
  have r := rel_u R hp (x / N')
  rw [e] at d
  have q : Off (1 / 2 ^ p) 1 |x / N'| |R.rnd (x / N')| := by
    have a := abs_sub_abs_le_abs_sub (R.rnd (x / N')) (x / N')
    have b := abs_sub_abs_le_abs_sub (x / N') (R.rnd (x / N'))
    rw [abs_sub_comm (x / N')] at b
    unfold Off
    rw [pow_one, pow_one]
    constructor <;> nlinarith
  have z := abs_nonneg x
  have z2 : 0 ≤ |x| / N := div_nonneg z N0.le
  generalize (1 : K) / 2 ^ p = u at *
  constructor
  · rw [pow_succ, ← mul_assoc]
    refine le_trans ?_ (q.1.trans_eq rfl)
    rw [pow_one]
    exact mul_le_mul_of_nonneg_right d.1 (sub_nonneg.2 u1)
  · rw [pow_succ, ← mul_assoc]
    refine q.2.trans ?_
    rw [pow_one]
    exact mul_le_mul_of_nonneg_right d.2 (by linarith)

theorem sumSq_off {k : ℕ} {N : K} (f : K → K) (v : List K) (h : ∀ x ∈ v, Off (1 / 2 ^ p) k (|x| / N) |f x|) (N0 : 0 < N) :
    Off (1 / 2 ^ p) (k + k) (sumSq v / (N * N)) (sumSq (v.map f)) := by
  have u0 := unit_nonneg (K := K) p
  have u1 := unit_le (K := K) p
  induction v with
  | nil => simp [sumSq, Off]
  | cons x v ih =>
    have a := h x (by simp)
    have b := a.mul u0 u1 (div_nonneg (abs_nonneg x) N0.le) (div_nonneg (abs_nonneg x) N0.le) a
    rw [abs_mul_abs_self, div_mul_div_comm, abs_mul_abs_self] at b
    have c := b.add u0 u1 (ih fun x hx => h x (by simp [hx]))
    have e : sumSq (x :: v) / (N * N) = x * x / (N * N) + sumSq v / (N * N) := by simp [sumSq, add_div]
    rw [e]
    simpa [sumSq] using c

/-- A vector other than zero has a unit vector, in its own direction: no sign changes, zeros stay, and the square of its exact length is one up to `4 k + 2` roundings, with
`k = (n + 3) / 2 + 1`. -/
theorem C131_unit (hp : 1 ≤ p) {sqrt : K → K} (hs : IsSqrt sqrt) (fused : Bool) {v : List K} (h : ∀ x ∈ v, IsFp p x) :
    (normalized R sqrt fused v = none ↔ ∀ x ∈ v, x = 0) ∧
    ∀ w, normalized R sqrt fused v = some w → w.length = v.length ∧ (∀ xy ∈ v.zip w, (0 < xy.1 ↔ 0 < xy.2) ∧ (xy.1 = 0 ↔ xy.2 = 0)) ∧
      Near p (4 * ((v.length + 3) / 2 + 1) + 2) 1 (w.map fun x => x * x).sum := by
  obtain ⟨o, z⟩ := C131_norm R hp hs fused h
  unfold normalized
  refine ⟨by rw [← z]; split <;> rename_i c <;> simp [c], fun w hw => ?_⟩
  split at hw
  · cases hw
  rename_i nz
  cases hw
  have o := norm_off R hp hs fused h
  obtain ⟨s0, s1⟩ := hs _ (sumSq_nonneg v)
  have N0 : 0 < sqrt (sumSq v) := lt_of_le_of_ne s0 fun d => nz (by rw [← d] at o; exact o.zero)
  have N0' : 0 < norm R sqrt fused v := o.pos (unit_lt hp) N0
  refine ⟨by simp, ?_, ?_⟩
  · intro xy hxy
    rw [List.zip_map_right, List.mem_map] at hxy
    obtain ⟨⟨x, y⟩, hm, rfl⟩ := hxy
    have : x = y := by
      obtain ⟨i, hi, e⟩ := List.getElem_of_mem hm
      rw [List.getElem_zip] at e
      cases e; rfl
    subst this
    simp only [Prod.map, _root_.id]
    rw [R.pos_iff hp, R.zero_iff hp, div_pos_iff_of_pos_right N0', div_eq_zero_iff, or_iff_left N0'.ne']
    exact ⟨Iff.rfl, Iff.rfl⟩
  · have k := sumSq_off (fun x => R.rnd (x / norm R sqrt fused v)) v (fun x _ => abs_off R hp N0 o x) N0
    have s : sumSq v ≠ 0 := fun c => by
      rw [c] at s1 N0
      exact (mul_pos N0 N0).ne' s1
    rw [s1, div_self s] at k
    rw [show 4 * ((v.length + 3) / 2 + 1) + 2 = 2 * ((v.length + 3) / 2 + 1) + 1 + (2 * ((v.length + 3) / 2 + 1) + 1) by ring]
    exact k

/-- A unit vector of the plane or of space is accepted as the direction of a ray, in single precision as in double. -/
theorem C131_direction (hp : 24 ≤ p) {sqrt : K → K} (hs : IsSqrt sqrt) (fused : Bool) {v w : List K} (h : ∀ x ∈ v, IsFp p x) (hn : v.length ≤ 3)
    (hw : normalized R sqrt fused v = some w) : rayAssert R fused w = true := by
  have hp1 : 1 ≤ p := by omega
  have u0 := unit_nonneg (K := K) p
  have u1 := unit_le (K := K) p
  obtain ⟨l, _, o⟩ := (C131_unit R hp1 hs fused h).2 w hw
  have fw : ∀ x ∈ w, IsFp p x := by
    unfold normalized at hw
    split at hw
    · cases hw
    · cases hw
      intro x hx
      obtain ⟨y, _, rfl⟩ := List.mem_map.1 hx
      exact R.mem _
  have q := sqNorm_off R hp1 fused w
  rw [map_rnd R fw, l] at q
  have o' : Off (1 / 2 ^ p) 18 (1 : K) (sumSq w) := Off.weaken u0 u1 zero_le_one (by omega) o
  have s0 := sumSq_nonneg w
  have q' := Off.weaken u0 u1 s0 (show v.length + 2 ≤ 5 by omega) q
  have us : (1 : K) / 2 ^ p ≤ 1 / 2 ^ 24 := one_div_le_one_div_of_le (by positivity) (pow_le_pow_right₀ (by norm_num) hp)
  unfold rayAssert
  rw [decide_eq_true_iff]
  generalize squaredNorm R fused w = S at *
  have hi : S ≤ 1 + 1 / 2 ^ 19 := by
    have a : S ≤ (1 + 1 / 2 ^ p) ^ 18 * (1 + 1 / 2 ^ p) ^ 5 := by
      refine q'.2.trans (mul_le_mul_of_nonneg_right ?_ (pow_nonneg (by linarith) 5))
      simpa using o'.2
    rw [← pow_add] at a
    refine a.trans ((pow_le_pow_left₀ (by linarith) (add_le_add le_rfl us) 23).trans ?_)
    norm_num
  have lo : 1 - 1 / 2 ^ 19 ≤ S := by
    have a : (1 - 1 / 2 ^ p) ^ 18 * (1 - 1 / 2 ^ p) ^ 5 ≤ S := by
      refine le_trans (mul_le_mul_of_nonneg_right ?_ (pow_nonneg (sub_nonneg.2 u1) 5)) q'.1
      simpa using o'.1
    rw [← pow_add] at a
    refine le_trans ?_ ((pow_le_pow_left₀ (by norm_num) (sub_le_sub_left us 1) 23).trans a)
    norm_num
  have f1 : IsFp p (1 / 2 ^ 19 : K) := by
    have := isFp_pow (K := K) hp1 (-19)
    rw [zpow_neg] at this
    simpa using this
  have f2 : IsFp p (1 / 2 ^ 18 : K) := by
    have := isFp_pow (K := K) hp1 (-18)
    rw [zpow_neg] at this
    simpa using this
  have a : |R.rnd (S - 1)| ≤ 1 / 2 ^ 19 := R.abs_le_of (abs_le.2 ⟨by linarith, by linarith⟩) f1
  have b : (1 / 2 ^ 18 : K) ≤ R.rnd (1 / 10 ^ 5) := R.ge_of_ge (by norm_num) f2
  have c : (1 / 2 ^ 19 : K) < 1 / 2 ^ 18 := by norm_num
  linarith

/-- The perimeter of a polygon with `m + 1` vertices in `n` dimensions has a relative error of `(n + 3) / 2 + 1 + m` roundings. -/
theorem C131_perimeter (hp : 1 ≤ p) {sqrt : K → K} (hs : IsSqrt sqrt) (fused : Bool) {n : ℕ} {v : List K} {vs : List (List K)} (h : ∀ w ∈ v :: vs, w.length = n) :
    Near p ((n + 3) / 2 + 1 + vs.length) (sqrt (exactDist2 ((v :: vs).getLast (by simp)) v) + (lengths sqrt (v :: vs)).sum) (perimeter R sqrt fused v vs) := by
  have d := distance_off R hp hs fused (h _ (List.getLast_mem (by simp : v :: vs ≠ []))) (h v (by simp))
  exact perimeterLoop_off R hp hs fused (v :: vs) h _ _ _ (hs _ (sumSq_nonneg _)).1 le_rfl d

theorem mean_off (hp : 5 ≤ p) {pi A A' l l' : K} {k : ℕ} (pi0 : 0 ≤ pi) (A0 : 0 ≤ A) (l0 : 0 < l) (hA : Off (1 / 2 ^ p) 4 A A') (hl : Off (1 / 2 ^ p) k l l') :
    l' ≠ 0 ∧ Near p (6 + 2 * k) (pi * A / l) (R.rnd (R.rnd (pi * A') / l')) := by
  have hp1 : 1 ≤ p := by omega
  have u0 := unit_nonneg (K := K) p
  have u1 := unit_le (K := K) p
  refine ⟨(hl.pos (unit_lt hp1) l0).ne', ?_⟩
  have a := Off.rnd R hp1 (mul_nonneg pi0 A0) ((Off.refl (1 / 2 ^ p) pi).mul u0 u1 pi0 A0 hA)
  have b := Off.div u0 (unit_half hp1) (mul_nonneg pi0 A0) l0 a hl
  have c := Off.rnd R hp1 (div_nonneg (mul_nonneg pi0 A0) l0.le) b
  rw [show 6 + 2 * k = 0 + 4 + 1 + 2 * k + 1 by ring]
  exact c

theorem half_off {k : ℕ} {x y : K} (h : Off (1 / 2 ^ p) k x y) : Off (1 / 2 ^ p) k (x / 2) (y / 2) := by
  constructor
  · rw [div_mul_eq_mul_div]; exact div_le_div_of_nonneg_right h.1 (by norm_num)
  · rw [div_mul_eq_mul_div]; exact div_le_div_of_nonneg_right h.2 (by norm_num)

/-- The exact perimeter of a triangle or quadrilateral. -/
def exactPerimeter (sqrt : K → K) (v : P2 K) (vs : List (P2 K)) : K :=
  sqrt (exactDist2 (((v :: vs).map coords).getLast (by simp)) (coords v)) + (lengths sqrt ((v :: vs).map coords)).sum

theorem perimeter_pos {sqrt : K → K} (hs : IsSqrt sqrt) {a b : P2 K} {vs : List (P2 K)} (h : a ≠ b) : 0 < exactPerimeter sqrt a (b :: vs) := by
  unfold exactPerimeter
  have l : 0 < sqrt (exactDist2 (coords a) (coords b)) := by
    obtain ⟨s0, s1⟩ := hs _ (sumSq_nonneg (List.zipWith (fun x y => x - y) (coords a) (coords b)))
    refine lt_of_le_of_ne s0 fun c => h ?_
    have z : exactDist2 (coords a) (coords b) = 0 := by
      change 0 = sqrt (sumSq _) at c
      unfold exactDist2
      rw [← s1, ← c, zero_mul]
    simp only [exactDist2, sumSq, coords, List.zipWith_cons_cons, List.zipWith_nil_right, List.map_cons, List.map_nil, List.sum_cons, List.sum_nil, add_zero] at z
    have z1 := mul_self_nonneg (a.1 - b.1)
    have z2 := mul_self_nonneg (a.2 - b.2)
    exact Prod.ext (sub_eq_zero.1 (mul_self_eq_zero.1 (by linarith))) (sub_eq_zero.1 (mul_self_eq_zero.1 (by linarith)))
  have r : 0 ≤ (lengths sqrt ((b :: vs).map coords)).sum := List.sum_nonneg (lengths_nonneg hs _)
  have e : (lengths sqrt ((a :: b :: vs).map coords)).sum = sqrt (exactDist2 (coords a) (coords b)) + (lengths sqrt ((b :: vs).map coords)).sum := by simp [lengths]
  rw [e]
  have f := (hs _ (sumSq_nonneg (List.zipWith (fun x y => x - y) (((a :: b :: vs).map coords).getLast (by simp)) (coords a)))).1
  unfold exactDist2 at *
  linarith

/-- The mean chord of a triangle with representable edges from its first point, counterclockwise, is pi times the area by the perimeter, with a relative error of sixteen roundings. -/
theorem C131_triangle_chord (hp : 5 ≤ p) {sqrt : K → K} (hs : IsSqrt sqrt) (fused : Bool) {pi : K} (pi0 : 0 ≤ pi) {a b c : P2 K} (h1 : IsFp p (b.1 - a.1) ∧ IsFp p (b.2 - a.2))
    (h2 : IsFp p (c.1 - a.1) ∧ IsFp p (c.2 - a.2)) (hA : 0 < (b.1 - a.1) * (c.2 - a.2) - (b.2 - a.2) * (c.1 - a.1)) :
    ∃ t, triMeanChord R sqrt fused pi a b c = some t ∧
      Near p 16 (pi * (((b.1 - a.1) * (c.2 - a.2) - (b.2 - a.2) * (c.1 - a.1)) / 2) / exactPerimeter sqrt a [b, c]) t := by
  have l := C131_perimeter R (by omega) hs fused (n := 2) (v := coords a) (vs := [coords b, coords c]) (by simp [coords])
  have o := half_off (cross_off R hp (u := (b.1 - a.1, b.2 - a.2)) (v := (c.1 - a.1, c.2 - a.2)) h1 h2 hA.le)
  have ne : a ≠ b := fun e => by rw [e] at hA; simp at hA
  have m := mean_off R hp pi0 (by unfold exactCross; linarith) (perimeter_pos hs (vs := [c]) ne) o l
  refine ⟨_, ?_, m.2⟩
  unfold triMeanChord triArea
  dsimp only
  rw [if_neg m.1, rnd_half R (cross_mem R _ _)]
  unfold sub
  rw [R.id h1.1, R.id h1.2, R.id h2.1, R.id h2.2]

/-- The mean chord of a quadrilateral with representable diagonals and a positive area: a relative error of eighteen roundings. -/
theorem C131_quad_chord (hp : 5 ≤ p) {sqrt : K → K} (hs : IsSqrt sqrt) (fused : Bool) {pi : K} (pi0 : 0 ≤ pi) {a b c d : P2 K} (h1 : IsFp p (c.1 - a.1) ∧ IsFp p (c.2 - a.2))
    (h2 : IsFp p (d.1 - b.1) ∧ IsFp p (d.2 - b.2)) (hA : 0 < (c.1 - a.1) * (d.2 - b.2) - (c.2 - a.2) * (d.1 - b.1)) (ne : a ≠ b) :
    ∃ t, quadMeanChord R sqrt fused pi a b c d = some t ∧
      Near p 18 (pi * (((c.1 - a.1) * (d.2 - b.2) - (c.2 - a.2) * (d.1 - b.1)) / 2) / exactPerimeter sqrt a [b, c, d]) t := by
  have l := C131_perimeter R (by omega) hs fused (n := 2) (v := coords a) (vs := [coords b, coords c, coords d]) (by simp [coords])
  have o := half_off (cross_off R hp (u := (c.1 - a.1, c.2 - a.2)) (v := (d.1 - b.1, d.2 - b.2)) h1 h2 hA.le)
  have m := mean_off R hp pi0 (by unfold exactCross; linarith) (perimeter_pos hs (vs := [c, d]) ne) o l
  refine ⟨_, ?_, m.2⟩
  unfold quadMeanChord quadArea
  dsimp only
  rw [if_neg m.1, rnd_half R (cross_mem R _ _)]
  unfold sub
  rw [R.id h1.1, R.id h1.2, R.id h2.1, R.id h2.2]

/-- The square root of the real numbers is one, so that the theorems apply to them. -/
theorem C131_real : IsSqrt Real.sqrt := fun x h => ⟨Real.sqrt_nonneg x, Real.mul_self_sqrt h⟩

/-- A rounding of real numbers to double precision, and a vector with an inexact unit vector; over the rational numbers, with the roots that are needed. -/
noncomputable example : Rounding ℝ 53 := ieee ℝ 53 (by norm_num)

def root (x : ℚ) : ℚ := if x = 25 then 5 else x

example : norm (ieee ℚ 53 (by norm_num)) root false [3, 4] = 5 ∧ normalized (ieee ℚ 53 (by norm_num)) root false [3, 4] = some [rne 53 (3 / 5), rne 53 (4 / 5)] ∧
    rayAssert (ieee ℚ 53 (by norm_num)) false [rne 53 (3 / 5), rne 53 (4 / 5)] = true ∧ rayAssert (ieee ℚ 53 (by norm_num)) false [3, 4] = false := by
  decide +kernel

end Verif.FpNormP
