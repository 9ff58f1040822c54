import Verif.Lemmas.FpBox
import Mathlib.Data.Rat.Floor

/-!
# C135: boxes in floating-point arithmetic

Specification: `Inside` (`Verif.Props.Box`) is the set of points a box stands for, `rayAt` the point of a ray at a time; exact arithmetic.
-/

set_option linter.unusedSectionVars false

namespace Verif.FpBoxP

open Verif.Fp
open Verif.Box (AABB fin Valid Inside rayAt)

variable {K : Type} [Field K] [LinearOrder K] [IsStrictOrderedRing K] [FloorRing K] {p D : ℕ} (R : Rounding K p)

/-- The corners are floating-point numbers. -/
def IsFpBox (p : ℕ) (a : AABB D K) : Prop := ∀ i, IsFp p (a.min i) ∧ IsFp p (a.max i)

/-- `a` is in `b`. -/
def Sub (a b : AABB D K) : Prop := ∀ i, b.min i ≤ a.min i ∧ a.max i ≤ b.max i

/-- The extents are not negative, are zero only for equal corners, and have one relative error. -/
theorem C135_extents (hp : 1 ≤ p) (a : AABB D K) (hv : Valid a) (i : Fin D) :
    0 ≤ boxExtents R a i ∧ (boxExtents R a i = 0 ↔ a.min i = a.max i) ∧
    |boxExtents R a i - (a.max i - a.min i)| ≤ (a.max i - a.min i) / 2 ^ p := by
  unfold boxExtents
  have h : 0 ≤ a.max i - a.min i := sub_nonneg.2 (hv i)
  refine ⟨R.ge_of_ge h isFp_zero, ?_, ?_⟩
  · rw [R.zero_iff hp, sub_eq_zero, eq_comm]
  · have := R.rel hp (a.max i - a.min i)
    rwa [abs_of_nonneg h, abs_sub_comm] at this

/-- The centroid is in the box. -/
theorem C135_centroid (a : AABB D K) (hv : Valid a) (hf : IsFpBox p a) : Inside (boxCentroid R a) a := by
  intro i
  unfold boxCentroid
  have h := hv i
  have lo : 2 * a.min i ≤ R.rnd (a.min i + a.max i) := R.ge_of_ge (by linarith) (hf i).1.double
  have hi : R.rnd (a.min i + a.max i) ≤ 2 * a.max i := R.le_of_le (by linarith) (hf i).2.double
  exact ⟨R.ge_of_ge (by linarith) (hf i).1, R.le_of_le (by linarith) (hf i).2⟩

/-- The factor of `scale`. -/
theorem factor_eq (s : K) : R.rnd (R.rnd (s - 1) / 2) = R.rnd (s - 1) / 2 := R.id (R.mem _).half

/-- The displacement of `scale`, as one operation or two. -/
theorem disp (fused : Bool) (a : AABB D K) (s : K) (i : Fin D) : ∃ x,
    (x = R.rnd (boxExtents R a i * (R.rnd (s - 1) / 2)) ∨ x = boxExtents R a i * (R.rnd (s - 1) / 2)) ∧
    (boxScale R fused a s).min i = R.rnd (a.min i - x) ∧ (boxScale R fused a s).max i = R.rnd (a.max i + x) := by
  unfold boxScale mulAdd
  dsimp only
  rw [factor_eq]
  cases fused
  · exact ⟨_, .inl rfl, rfl, rfl⟩
  · exact ⟨_, .inr rfl, rfl, rfl⟩

/-- Scaling by at least one does not lose a point of the box; scaling by one does nothing. -/
theorem C135_grow (fused : Bool) (a : AABB D K) (hv : Valid a) (hf : IsFpBox p a) (s : K) (hs : 1 ≤ s) :
    Sub a (boxScale R fused a s) ∧ (s = 1 → boxScale R fused a s = a) := by
  have key : ∀ i, ∃ x, 0 ≤ x ∧ (s = 1 → x = 0) ∧ (boxScale R fused a s).min i = R.rnd (a.min i - x) ∧
      (boxScale R fused a s).max i = R.rnd (a.max i + x) := by
    intro i
    obtain ⟨x, hx, e1, e2⟩ := disp R fused a s i
    have h1 : 0 ≤ boxExtents R a i := R.ge_of_ge (sub_nonneg.2 (hv i)) isFp_zero
    have h2 : 0 ≤ R.rnd (s - 1) := R.ge_of_ge (sub_nonneg.2 hs) isFp_zero
    have h3 : 0 ≤ boxExtents R a i * (R.rnd (s - 1) / 2) := mul_nonneg h1 (by linarith)
    refine ⟨x, ?_, ?_, e1, e2⟩
    · rcases hx with rfl | rfl
      · exact R.ge_of_ge h3 isFp_zero
      · exact h3
    · intro e
      rw [e, sub_self, R.zero, zero_div, mul_zero, R.zero] at hx
      rcases hx with h | h <;> exact h
  constructor
  · intro i
    obtain ⟨x, h0, _, e1, e2⟩ := key i
    rw [e1, e2]
    exact ⟨R.le_of_le (by linarith) (hf i).1, R.ge_of_ge (by linarith) (hf i).2⟩
  · intro e
    ext i
    · obtain ⟨x, _, hx, e1, _⟩ := key i
      rw [e1, hx e, sub_zero, R.id (hf i).1]
    · obtain ⟨x, _, hx, _, e2⟩ := key i
      rw [e2, hx e, add_zero, R.id (hf i).2]

/-- Scaling by at most one: both corners stay in the box. -/
theorem C135_shrink (hp : 1 ≤ p) (fused : Bool) (a : AABB D K) (hv : Valid a) (hf : IsFpBox p a) (s : K) (h0 : 0 ≤ s) (hs : s ≤ 1) :
    Inside (boxScale R fused a s).min a ∧ Inside (boxScale R fused a s).max a := by
  have key : ∀ i, ∃ x, 0 ≤ x ∧ x ≤ a.max i - a.min i ∧ (boxScale R fused a s).min i = R.rnd (a.min i + x) ∧
      (boxScale R fused a s).max i = R.rnd (a.max i - x) := by
    intro i
    obtain ⟨x, hx, e1, e2⟩ := disp R fused a s i
    have d0 : 0 ≤ a.max i - a.min i := sub_nonneg.2 (hv i)
    have h1 : 0 ≤ boxExtents R a i := R.ge_of_ge d0 isFp_zero
    have h2 : R.rnd (s - 1) ≤ 0 := R.le_of_le (by linarith) isFp_zero
    have one : IsFp p (1 : K) := by simpa using isFp_pow (K := K) hp 0
    have h3 : -1 ≤ R.rnd (s - 1) := R.ge_of_ge (by linarith) one.neg
    have h4 : boxExtents R a i * (R.rnd (s - 1) / 2) ≤ 0 := mul_nonpos_of_nonneg_of_nonpos h1 (by linarith)
    have h5 : -(boxExtents R a i / 2) ≤ boxExtents R a i * (R.rnd (s - 1) / 2) := by nlinarith
    have hx0 : x ≤ 0 := by
      rcases hx with rfl | rfl
      · exact R.le_of_le h4 isFp_zero
      · exact h4
    have hx1 : -(boxExtents R a i / 2) ≤ x := by
      rcases hx with rfl | rfl
      · exact R.ge_of_ge h5 (R.mem _).half.neg
      · exact h5
    have r := R.rel hp (a.max i - a.min i)
    have q : |a.max i - a.min i| / 2 ^ p ≤ a.max i - a.min i := by
      rw [abs_of_nonneg d0]
      exact div_le_self d0 (one_le_pow₀ (by norm_num))
    have h6 : boxExtents R a i ≤ 2 * (a.max i - a.min i) := by
      unfold boxExtents
      linarith [(abs_le.1 (r.trans q)).1]
    refine ⟨-x, by linarith, by linarith, ?_, ?_⟩
    · rw [e1, sub_eq_add_neg]
    · rw [e2, sub_neg_eq_add]
  constructor
  · intro i
    obtain ⟨x, x0, x1, e1, _⟩ := key i
    rw [e1]
    exact ⟨R.ge_of_ge (by linarith) (hf i).1, R.le_of_le (by linarith) (hf i).2⟩
  · intro i
    obtain ⟨x, x0, x1, _, e2⟩ := key i
    rw [e2]
    exact ⟨R.ge_of_ge (by linarith) (hf i).1, R.le_of_le (by linarith) (hf i).2⟩

/-- How far the corners of the enlarged box are from the exact ones. -/
theorem C135_grow_error (hp : 1 ≤ p) (fused : Bool) (a : AABB D K) (hv : Valid a) (s : K) (hs : 1 ≤ s) (i : Fin D) :
    let e := (a.max i - a.min i) * ((s - 1) / 2)
    let u : K := 1 / 2 ^ p
    |(boxScale R fused a s).min i - (a.min i - e)| ≤ u * |a.min i - e| + (1 + u) * ((1 + u) ^ 3 - 1) * e ∧
    |(boxScale R fused a s).max i - (a.max i + e)| ≤ u * |a.max i + e| + (1 + u) * ((1 + u) ^ 3 - 1) * e := by
  intro e u
  have u0 : (0 : K) ≤ u := unit_nonneg (K := K) p
  have u1 : u ≤ 1 := unit_le (K := K) p
  obtain ⟨x, hx, e1, e2⟩ := disp R fused a s i
  have d0 : 0 ≤ a.max i - a.min i := sub_nonneg.2 (hv i)
  have s0 : 0 ≤ s - 1 := sub_nonneg.2 hs
  have e0 : 0 ≤ e := mul_nonneg d0 (by linarith)
  have o1 : Off u 1 (a.max i - a.min i) (boxExtents R a i) := (Off.refl u _).rnd R hp d0
  have o2 : Off u 1 (s - 1) (R.rnd (s - 1)) := (Off.refl u _).rnd R hp s0
  have o2' : Off u 1 ((s - 1) / 2) (R.rnd (s - 1) / 2) := by
    obtain ⟨l, r⟩ := o2
    constructor <;> linarith
  have o3 : Off u 2 e (boxExtents R a i * (R.rnd (s - 1) / 2)) := o1.mul u0 u1 d0 (by linarith) o2'
  have o4 : Off u 3 e x := by
    rcases hx with rfl | rfl
    · exact o3.rnd R hp e0
    · exact o3.weaken u0 u1 e0 (by norm_num)
  obtain ⟨q0, q1⟩ := pow3_le u u0 u1
  have hxe : |x - e| ≤ ((1 + u) ^ 3 - 1) * e := by
    have m := mul_le_mul_of_nonneg_right q1 e0
    rw [abs_le]
    constructor
    · linarith [o4.1]
    · linarith [o4.2]
  have fin : ∀ y z : K, |y - z| ≤ ((1 + u) ^ 3 - 1) * e → |R.rnd y - z| ≤ u * |z| + (1 + u) * ((1 + u) ^ 3 - 1) * e := by
    intro y z h
    have r := rel_u R hp y
    have t1 : |y| ≤ |z| + |y - z| := by
      have := abs_add_le z (y - z)
      rwa [add_sub_cancel] at this
    have t2 : |R.rnd y - z| ≤ |R.rnd y - y| + |y - z| := abs_sub_le _ _ _
    have t3 : u * |y| ≤ u * (|z| + ((1 + u) ^ 3 - 1) * e) := mul_le_mul_of_nonneg_left (by linarith) u0
    have r' : |R.rnd y - y| ≤ u * |y| := by
      calc _ ≤ _ := r
        _ = u * |y| := by simp only [u]
    linarith
  rw [e1, e2]
  constructor
  · refine fin _ _ ?_
    rw [show a.min i - x - (a.min i - e) = -(x - e) by ring, abs_neg]
    exact hxe
  · refine fin _ _ ?_
    rw [show a.max i + x - (a.max i + e) = x - e by ring]
    exact hxe

/-! ## Rays -/

/-- The ray does not lie in the plane of a face. -/
def OffFaces (a : AABB D K) (o d : Fin D → K) : Prop := ∀ i, d i = 0 → o i ≠ a.min i ∧ o i ≠ a.max i

theorem OffFaces.clear {a : AABB D K} {o d : Fin D → K} (h : OffFaces a o d) : Clear a o d :=
  fun i hd => ⟨(h i hd).1.symm, (h i hd).2.symm⟩

/-- What is reported: a miss, or an interval of times in `[0, inf]` at each of which the ray is in the box, up to three relative errors of the
distance from its origin to the faces. -/
theorem C135_sound (hp : 1 ≤ p) (a : AABB D K) (o d : Fin D → K) (neg : Fin D → Bool) (inf : K) (hv : Valid a) (hc : OffFaces a o d) :
    boxIntersect R a o d neg inf = (fin (-1), fin (-1)) ∨
    ∃ r0 r1 : K, boxIntersect R a o d neg inf = (fin r0, fin r1) ∧ 0 ≤ r0 ∧ r0 ≤ r1 ∧ r1 ≤ inf ∧
      ∀ t, r0 ≤ t → t ≤ r1 → ∀ i,
        a.min i - ((1 + 1 / 2 ^ p) ^ 3 - 1) * |a.min i - o i| ≤ rayAt o d t i ∧
        rayAt o d t i ≤ a.max i + ((1 + 1 / 2 ^ p) ^ 3 - 1) * |a.max i - o i| := by
  rcases intersect_slabs R hp a o d neg inf hc.clear with ⟨r0, r1, h, h0, h1, h2, h3⟩ | ⟨h, _⟩
  · refine .inr ⟨r0, r1, h, h0, h1, h2, fun t t0 t1 i => ?_⟩
    exact InSlab.near R hp (hv i) (h0.trans t0) (((h3 t).1 ⟨t0, t1⟩).2.2 i)
  · exact .inl h

/-- Only slivers are missed: a ray that is in the box from `t0` to `t1`, where `t1` is larger by a few relative errors, is reported, from `t0` to
`t1` at least, up to those errors. -/
theorem C135_complete_partial (hp : 1 ≤ p) (a : AABB D K) (o d : Fin D → K) (neg : Fin D → Bool) (inf : K) (hv : Valid a) (hc : OffFaces a o d)
    (t0 t1 : K) (h0 : 0 ≤ t0) (h1 : t1 ≤ inf) (i0 : Inside (rayAt o d t0) a) (i1 : Inside (rayAt o d t1) a)
    (hl : t0 * (1 + 1 / 2 ^ p) ^ 3 ≤ t1 * (1 - 1 / 2 ^ p) ^ 3) :
    ∃ r0 r1 : K, boxIntersect R a o d neg inf = (fin r0, fin r1) ∧ 0 ≤ r0 ∧ r0 ≤ t0 * (1 + 1 / 2 ^ p) ^ 3 ∧ t1 * (1 - 1 / 2 ^ p) ^ 3 ≤ r1 := by
  have u0 := unit_nonneg (K := K) p
  have u1 := unit_le (K := K) p
  have a0 : 0 ≤ t0 * (1 + 1 / 2 ^ p) ^ 3 := mul_nonneg h0 (by positivity)
  have q : (1 - (1 : K) / 2 ^ p) ^ 3 ≤ 1 := pow_le_one₀ (by linarith) (by linarith)
  have q0 : 0 ≤ (1 - (1 : K) / 2 ^ p) ^ 3 := pow_nonneg (by linarith) 3
  have t1' : 0 ≤ t1 := by
    by_contra c
    have c' := not_le.1 c
    have q1 : 0 < (1 - (1 : K) / 2 ^ p) ^ 3 := by
      have : (1 : K) / 2 ^ p ≤ 1 / 2 := by
        rw [div_le_div_iff₀ (by positivity) (by norm_num)]
        have : (2 : K) ^ 1 ≤ 2 ^ p := pow_le_pow_right₀ (by norm_num) hp
        linarith
      exact pow_pos (by linarith) 3
    linarith [mul_neg_of_neg_of_pos c' q1]
  have b1 : t1 * (1 - 1 / 2 ^ p) ^ 3 ≤ inf := (mul_le_of_le_one_right t1' q).trans h1
  have key : ∀ t, t0 * (1 + 1 / 2 ^ p) ^ 3 ≤ t → t ≤ t1 * (1 - 1 / 2 ^ p) ^ 3 → ∀ i, InSlab R (o i) (d i) (neg i) (a.min i) (a.max i) t :=
    fun t l0 l1 i => InSlab.of_exact R hp (hv i) (fun h => (hc.clear i h).1) (fun h => (hc.clear i h).2) h0 t1' (i0 i) (i1 i) l0 l1
  rcases intersect_slabs R hp a o d neg inf hc.clear with ⟨r0, r1, h, g0, g1, g2, g3⟩ | ⟨h, g⟩
  · refine ⟨r0, r1, h, g0, ?_, ?_⟩
    · exact ((g3 _).2 ⟨a0, hl.trans b1, key _ (le_refl _) hl⟩).1
    · exact ((g3 _).2 ⟨a0.trans hl, b1, key _ hl (le_refl _)⟩).2
  · exact absurd (key _ (le_refl _) hl) (g _ a0 (hl.trans b1))

/-- A ray that starts in the box is never missed: the interval begins at zero. -/
theorem C135_inside (hp : 1 ≤ p) (a : AABB D K) (o d : Fin D → K) (neg : Fin D → Bool) (inf : K) (hi : 0 ≤ inf) (hv : Valid a) (hc : OffFaces a o d)
    (h : Inside o a) : ∃ r1 : K, boxIntersect R a o d neg inf = (fin 0, fin r1) ∧ 0 ≤ r1 := by
  have e : rayAt o d 0 = o := by
    funext i
    unfold rayAt
    rw [zero_mul, add_zero]
  obtain ⟨r0, r1, h1, h2, h3, h4⟩ := C135_complete_partial R hp a o d neg inf hv hc 0 0 (le_refl _) hi (by rwa [e]) (by rwa [e]) (by simp)
  rw [zero_mul] at h3 h4
  obtain rfl := le_antisymm h3 h2
  exact ⟨r1, h1, h4⟩

/-- A box is hit wherever a box in it is hit, for at least as long. -/
theorem C135_monotone (hp : 1 ≤ p) (a b : AABB D K) (o d : Fin D → K) (neg : Fin D → Bool) (inf : K) (hs : Sub a b) (hv : Valid a)
    (ha : OffFaces a o d) (hb : OffFaces b o d) (r0 r1 : K) (h : boxIntersect R a o d neg inf = (fin r0, fin r1)) (h0 : 0 ≤ r0) :
    ∃ q0 q1 : K, boxIntersect R b o d neg inf = (fin q0, fin q1) ∧ 0 ≤ q0 ∧ q0 ≤ r0 ∧ r1 ≤ q1 := by
  rcases intersect_slabs R hp a o d neg inf ha.clear with ⟨x0, x1, e, e0, e1, e2, e3⟩ | ⟨e, _⟩
  · rw [e] at h
    have hx : x0 = r0 ∧ x1 = r1 := by
      simp only [fin, Prod.mk.injEq, Option.some.injEq, WithBot.coe_inj, WithTop.coe_inj] at h
      exact h
    obtain ⟨rfl, rfl⟩ := hx
    have key : ∀ t, x0 ≤ t → t ≤ x1 → ∀ i, InSlab R (o i) (d i) (neg i) (b.min i) (b.max i) t := fun t t0 t1 i =>
      InSlab.mono R hp (hs i).1 (hv i) (hs i).2 (fun h => (hb.clear i h).1) (fun h => (hb.clear i h).2) (((e3 t).1 ⟨t0, t1⟩).2.2 i)
    rcases intersect_slabs R hp b o d neg inf hb.clear with ⟨q0, q1, f, f0, f1, f2, f3⟩ | ⟨f, g⟩
    · exact ⟨q0, q1, f, f0, ((f3 x0).2 ⟨e0, e1.trans e2, key _ (le_refl _) e1⟩).1, ((f3 x1).2 ⟨e0.trans e1, e2, key _ e1 (le_refl _)⟩).2⟩
    · exact absurd (key _ (le_refl _) e1) (g _ e0 (e1.trans e2))
  · rw [e] at h
    simp only [fin, Prod.mk.injEq, Option.some.injEq, WithBot.coe_inj, WithTop.coe_inj] at h
    linarith [h.1]

/-- The cell `j` of the grid with the divisions `x`. -/
def cell (x : Fin D → ℕ → K) (j : Fin D → ℕ) : AABB D K := ⟨fun i => x i (j i), fun i => x i (j i + 1)⟩

/-- A grid of boxes is watertight: wherever the box of the whole grid is hit, one of its cells is hit, and at each reported time one of them is
(`n i + 1` cells in direction `i`). -/
theorem C135_watertight (hp : 1 ≤ p) (x : Fin D → ℕ → K) (n : Fin D → ℕ) (hs : ∀ i, ∀ j < n i + 1, x i j ≤ x i (j + 1))
    (o d : Fin D → K) (neg : Fin D → Bool) (inf : K) (hc : ∀ i, d i = 0 → ∀ j ≤ n i + 1, o i ≠ x i j) (r0 r1 : K)
    (h : boxIntersect R ⟨fun i => x i 0, fun i => x i (n i + 1)⟩ o d neg inf = (fin r0, fin r1)) (h0 : 0 ≤ r0) (t : K) (t0 : r0 ≤ t) (t1 : t ≤ r1) :
    ∃ j : Fin D → ℕ, (∀ i, j i < n i + 1) ∧
      ∃ q0 q1 : K, boxIntersect R (cell x j) o d neg inf = (fin q0, fin q1) ∧ 0 ≤ q0 ∧ q0 ≤ t ∧ t ≤ q1 := by
  have ca : Clear (⟨fun i => x i 0, fun i => x i (n i + 1)⟩ : AABB D K) o d :=
    fun i hd => ⟨(hc i hd 0 (by omega)).symm, (hc i hd (n i + 1) (le_refl _)).symm⟩
  rcases intersect_slabs R hp _ o d neg inf ca with ⟨x0, x1, e, e0, e1, e2, e3⟩ | ⟨e, _⟩
  · rw [e] at h
    have hx : x0 = r0 ∧ x1 = r1 := by
      simp only [fin, Prod.mk.injEq, Option.some.injEq, WithBot.coe_inj, WithTop.coe_inj] at h
      exact h
    obtain ⟨rfl, rfl⟩ := hx
    obtain ⟨ht0, ht1, ht⟩ := (e3 t).1 ⟨t0, t1⟩
    have hj : ∀ i, ∃ j < n i + 1, InSlab R (o i) (d i) (neg i) (x i j) (x i (j + 1)) t := fun i =>
      InSlab.cells R hp (x i) (n i) (hs i) (fun j hj hd => (hc i hd j hj).symm) (ht i)
    choose j hj hin using hj
    refine ⟨j, hj, ?_⟩
    have cj : Clear (cell x j) o d := fun i hd => ⟨(hc i hd (j i) (hj i).le).symm, (hc i hd (j i + 1) (hj i)).symm⟩
    rcases intersect_slabs R hp (cell x j) o d neg inf cj with ⟨q0, q1, f, f0, f1, f2, f3⟩ | ⟨f, g⟩
    · have := (f3 t).2 ⟨ht0, ht1, hin⟩
      exact ⟨q0, q1, f, f0, this.1, this.2⟩
    · exact absurd hin (g t ht0 ht1)
  · rw [e] at h
    simp only [fin, Prod.mk.injEq, Option.some.injEq, WithBot.coe_inj, WithTop.coe_inj] at h
    linarith [h.1]

/-! ## Witnesses -/

/-- The rounding of `double`. -/
abbrev dbl : Rounding ℚ 53 := ieee ℚ 53 (by norm_num)

/-- A box, and a ray that crosses it near a corner. -/
def boxA : AABB 2 ℚ := ⟨![0, 4770825932706533 / 2 ^ 51], ![8239021175395277 / 2 ^ 52, 8]⟩
def rayO : Fin 2 → ℚ := ![1544888651860087 / 2 ^ 53, 7816276956857217 / 2 ^ 53]
def rayD : Fin 2 → ℚ := ![1237110936033179 / 2 ^ 50, 3733588314879227 / 2 ^ 52]

/-- A ray that crosses the interior of a box near a corner and is missed, in `double`. -/
theorem C135_corner_fails : ∃ (a : AABB 2 ℚ) (o d : Fin 2 → ℚ), Valid a ∧ IsFpBox 53 a ∧ (∀ i, IsFp 53 (o i) ∧ IsFp 53 (d i) ∧ 0 < d i) ∧
    (∃ t0 t1, 0 ≤ t0 ∧ t0 < t1 ∧ t1 ≤ 100000000 ∧ Inside (rayAt o d t0) a ∧ Inside (rayAt o d t1) a) ∧
    boxIntersect dbl a o d (fun _ => false) 100000000 = (fin (-1), fin (-1)) := by
  refine ⟨boxA, rayO, rayD, ?_, ?_, ?_, ⟨(boxA.min 1 - rayO 1) / rayD 1, (boxA.max 0 - rayO 0) / rayD 0, ?_, ?_, ?_, ?_, ?_⟩, ?_⟩
  · unfold Valid; decide +kernel
  · intro i
    fin_cases i
    · exact ⟨isFp_zero, ⟨8239021175395277, -52, by norm_num, by norm_num [boxA]⟩⟩
    · exact ⟨⟨4770825932706533, -51, by norm_num, by norm_num [boxA]⟩, ⟨8, 0, by norm_num, by norm_num [boxA]⟩⟩
  · intro i
    fin_cases i
    · exact ⟨⟨1544888651860087, -53, by norm_num, by norm_num [rayO]⟩, ⟨1237110936033179, -50, by norm_num, by norm_num [rayD]⟩, by norm_num [rayD]⟩
    · exact ⟨⟨7816276956857217, -53, by norm_num, by norm_num [rayO]⟩, ⟨3733588314879227, -52, by norm_num, by norm_num [rayD]⟩, by norm_num [rayD]⟩
  · decide +kernel
  · decide +kernel
  · decide +kernel
  · unfold Inside; decide +kernel
  · unfold Inside; decide +kernel
  · decide +kernel

/-- Scaling by zero can put the corners in the wrong order, in `double`. -/
theorem C135_zero_fails : ∃ a : AABB 1 ℚ, Valid a ∧ IsFpBox 53 a ∧ ¬ Valid (boxScale dbl false a 0) := by
  refine ⟨⟨fun _ => 323577592934417 / 2 ^ 53, fun _ => 2375400461852697 / 2 ^ 51⟩, ?_, ?_, ?_⟩
  · unfold Valid; decide +kernel
  · intro i
    exact ⟨⟨323577592934417, -53, by norm_num, by norm_num⟩, ⟨2375400461852697, -51, by norm_num, by norm_num⟩⟩
  · unfold Valid; decide +kernel

/-- Scaling by 3/2 can leave a box as it was, in `double`. -/
theorem C135_enlarge_fails : ∃ a : AABB 1 ℚ, (∀ i, a.min i < a.max i) ∧ IsFpBox 53 a ∧ boxScale dbl false a (3 / 2) = a := by
  refine ⟨⟨fun _ => 1, fun _ => 1 + 1 / 2 ^ 52⟩, ?_, ?_, ?_⟩
  · decide +kernel
  · intro i
    exact ⟨⟨1, 0, by norm_num, by norm_num⟩, ⟨2 ^ 52 + 1, -52, by norm_num, by norm_num⟩⟩
  · ext i
    · revert i; decide +kernel
    · revert i; decide +kernel

/-! ## The hypotheses hold -/

/-- A unit square and a ray from the left. -/
def boxU : AABB 2 ℚ := ⟨![0, 0], ![1, 1]⟩

example : Valid boxU ∧ IsFpBox 53 boxU ∧ OffFaces boxU ![-1, 1 / 2] ![1, 0] ∧
    Inside (rayAt ![-1, 1 / 2] ![1, 0] 1) boxU ∧ Inside (rayAt ![-1, 1 / 2] ![1, 0] 2) boxU ∧
    (1 : ℚ) * (1 + 1 / 2 ^ 53) ^ 3 ≤ 2 * (1 - 1 / 2 ^ 53) ^ 3 := by
  refine ⟨by unfold Valid; decide +kernel, ?_, by unfold OffFaces; decide +kernel, by unfold Inside; decide +kernel, by unfold Inside; decide +kernel,
    by decide +kernel⟩
  intro i
  fin_cases i
  · exact ⟨isFp_zero, ⟨1, 0, by norm_num, by norm_num [boxU]⟩⟩
  · exact ⟨isFp_zero, ⟨1, 0, by norm_num, by norm_num [boxU]⟩⟩

example : boxIntersect dbl boxU ![-1, 1 / 2] ![1, 0] (fun _ => false) 100000000 = (fin 1, fin 2) := by decide +kernel

/-- The grid of four cells of the square of side two. -/
example : boxIntersect dbl (⟨fun _ => 0, fun _ => 2⟩ : AABB 2 ℚ) ![-1, 1 / 2] ![1, 1 / 4] (fun _ => false) 100000000 = (fin 1, fin 3) ∧
    (∀ i : Fin 2, ∀ j < 1 + 1, ((fun (_ : Fin 2) (j : ℕ) => (j : ℚ)) i j) ≤ (fun (_ : Fin 2) (j : ℕ) => (j : ℚ)) i (j + 1)) := by
  refine ⟨by decide +kernel, fun i j hj => ?_⟩
  push_cast
  linarith

end Verif.FpBoxP
