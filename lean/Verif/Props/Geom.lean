import Verif.Model.Geom
import Mathlib.Tactic.Ring
import Mathlib.Tactic.FieldSimp
import Mathlib.Tactic.Linarith
import Mathlib.Tactic.NormNum
import Mathlib.Tactic.FinCases
import Mathlib.Tactic.LinearCombination
import Mathlib.Tactic.Positivity

/-!
# C26-C30: segments, triangles, quadrilaterals, polygons

Exact arithmetic over any linearly ordered field.
-/

namespace Verif.Geom

set_option linter.unusedSectionVars false

variable {D : Nat} {K : Type} [Field K] [LinearOrder K] [IsStrictOrderedRing K]

omit [LinearOrder K] [IsStrictOrderedRing K] in
theorem cross_eq (a b : Pt 2 K) : cross a b = a 0 * b 1 - a 1 * b 0 := by
  unfold cross Mx.det2x2; ring

/-! ## C26: closest point -/

theorem clamp_mem (v : K) : 0 ≤ clamp v 0 1 ∧ clamp v 0 1 ≤ 1 := by
  unfold clamp
  split_ifs with h1 h2
  · exact ⟨le_refl _, zero_le_one⟩
  · exact ⟨zero_le_one, le_refl _⟩
  · exact ⟨not_lt.1 h1, not_lt.1 h2⟩

theorem clamp_of_mem (v : K) (h0 : 0 ≤ v) (h1 : v ≤ 1) : clamp v 0 1 = v := by
  unfold clamp; rw [if_neg (not_lt.2 h0), if_neg (not_lt.2 h1)]

theorem clamp_nearest (v r : K) (h0 : 0 ≤ r) (h1 : r ≤ 1) :
    (clamp v 0 1 - v) ^ 2 ≤ (r - v) ^ 2 := by
  unfold clamp
  split_ifs with h h'
  · nlinarith
  · nlinarith
  · nlinarith [sq_nonneg (r - v)]

omit [LinearOrder K] [IsStrictOrderedRing K] in
theorem sqDist_expand (l : Poly 2 D K) (p : Pt D K) (r : K) :
    sqDist (segAt l r) p = sqDist (l 0) p - 2 * r * dot (p - l 0) (l 1 - l 0) + r ^ 2 * sqNorm (l 1 - l 0) := by
  unfold sqDist segAt dot sqNorm
  rw [Finset.mul_sum, Finset.mul_sum, ← Finset.sum_sub_distrib, ← Finset.sum_add_distrib]
  refine Finset.sum_congr rfl fun i _ => ?_
  simp only [Pi.sub_apply]
  ring

theorem sqNorm_nonneg (a : Pt D K) : 0 ≤ sqNorm a := by
  unfold sqNorm
  exact Finset.sum_nonneg fun i _ => mul_self_nonneg _

/-- The squared norm is zero only for the zero vector. -/
theorem sqNorm_eq_zero (a : Pt D K) : sqNorm a = 0 ↔ a = 0 := by
  unfold sqNorm
  rw [Finset.sum_eq_zero_iff_of_nonneg fun i _ => mul_self_nonneg _]
  constructor
  · intro h; funext i; exact mul_self_eq_zero.1 (h i (Finset.mem_univ i))
  · rintro rfl i _; simp

/-- On a segment with distinct ends `pointClosestTo(p)` returns a parameter in `[0, 1]` whose point is
nearest to `p` among all points of the segment, and `squaredDistanceTo` is that distance. Coinciding
ends are the only case without a result. -/
theorem C26_closest (l : Poly 2 D K) (p : Pt D K) :
    (l 0 = l 1 ∧ pointClosestTo l p = none) ∨
    ∃ r, pointClosestTo l p = some r ∧ 0 ≤ r ∧ r ≤ 1 ∧
      segSqDist l p = some (sqDist (segAt l r) p) ∧
      ∀ s, 0 ≤ s → s ≤ 1 → sqDist (segAt l r) p ≤ sqDist (segAt l s) p := by
  by_cases hn : sqNorm (l 1 - l 0) = 0
  · left
    refine ⟨(sub_eq_zero.1 ((sqNorm_eq_zero _).1 hn)).symm, ?_⟩
    unfold pointClosestTo; simp only [if_pos hn]
  · right
    have hpos : 0 < sqNorm (l 1 - l 0) := lt_of_le_of_ne (sqNorm_nonneg _) (Ne.symm hn)
    set v := dot (p - l 0) (l 1 - l 0) / sqNorm (l 1 - l 0) with hv
    have hc := clamp_mem v
    have e : pointClosestTo l p = some (clamp v 0 1) := by
      unfold pointClosestTo
      simp only [if_neg hn]
      rw [← hv, clamp_of_mem _ hc.1 hc.2]
    refine ⟨clamp v 0 1, e, hc.1, hc.2, by unfold segSqDist; rw [e]; rfl, fun s h0 h1 => ?_⟩
    rw [sqDist_expand, sqDist_expand]
    have hd : dot (p - l 0) (l 1 - l 0) = v * sqNorm (l 1 - l 0) := by
      rw [hv]; field_simp
    rw [hd]
    have := mul_le_mul_of_nonneg_right (clamp_nearest v s h0 h1) hpos.le
    nlinarith

/-- The ends are points of the segment. -/
theorem C26_ends (l : Poly 2 D K) : segAt l 0 = l 0 ∧ segAt l 1 = l 1 := by
  constructor <;> funext i <;> simp [segAt]

example : pointClosestTo (K := ℚ) ![![0, 0], ![2, 0]] ![1, 5] = some (1/2) := by decide +kernel

/-! ## C27: ray and segment -/

/-- The ray is not parallel to the segment: the two parameters are determined. -/
theorem seg_solve (l : Poly 2 2 K) (o d : Pt 2 K) (hz : cross (l 1 - l 0) d ≠ 0) (r s : K) :
    (∀ i, o i + r * d i = segAt l s i) ↔
      s = cross (o - l 0) d / cross (l 1 - l 0) d ∧ r = cross (o - l 0) (l 1 - l 0) / cross (l 1 - l 0) d := by
  rw [eq_div_iff hz, eq_div_iff hz]
  rw [cross_eq] at hz
  simp only [cross_eq, Pi.sub_apply, segAt] at *
  constructor
  · intro h
    have h0 := h 0
    have h1 := h 1
    constructor
    · linear_combination d 0 * h1 - d 1 * h0
    · linear_combination (l 1 0 - l 0 0) * h1 - (l 1 1 - l 0 1) * h0
  · rintro ⟨hs, hr⟩ i
    have key : ∀ x : K, ((l 1 0 - l 0 0) * d 1 - (l 1 1 - l 0 1) * d 0) * x = 0 → x = 0 :=
      fun x hx => (mul_eq_zero.1 hx).resolve_left hz
    rw [← sub_eq_zero]
    apply key
    fin_cases i
    · simp only [Fin.zero_eta]
      linear_combination d 0 * hr - (l 1 0 - l 0 0) * hs
    · simp only [Fin.mk_one]
      linear_combination d 1 * hr - (l 1 1 - l 0 1) * hs

/-- A ray not parallel to the segment: `intersect` finds `r` iff `r ≥ 0` and `ray(r)` is a point of
the segment; it finds nothing iff no point of the ray is on the segment. -/
theorem C27_intersect (l : Poly 2 2 K) (o d : Pt 2 K) (hz : cross (l 1 - l 0) d ≠ 0) :
    (∀ r, segIntersect l o d = some r ↔
      0 ≤ r ∧ ∃ s, 0 ≤ s ∧ s ≤ 1 ∧ ∀ i, o i + r * d i = segAt l s i) ∧
    (segIntersect l o d = none ↔
      ∀ r s, 0 ≤ r → 0 ≤ s → s ≤ 1 → ¬ ∀ i, o i + r * d i = segAt l s i) := by
  have h1 : ∀ r, segIntersect l o d = some r ↔
      0 ≤ r ∧ ∃ s, 0 ≤ s ∧ s ≤ 1 ∧ ∀ i, o i + r * d i = segAt l s i := by
    intro r
    simp only [seg_solve l o d hz]
    unfold segIntersect
    simp only [if_neg hz]
    split_ifs with h
    · constructor
      · intro hr
        rw [Option.some_inj] at hr
        exact ⟨hr ▸ h.2.2, _, h.1, h.2.1, rfl, hr.symm⟩
      · rintro ⟨_, s, _, _, _, hr⟩; rw [hr]
    · constructor
      · intro hr; exact absurd hr (by simp)
      · rintro ⟨h0, s, a, b, hs, hr⟩
        exact absurd ⟨hs ▸ a, hs ▸ b, hr ▸ h0⟩ h
  refine ⟨h1, ?_⟩
  constructor
  · intro hn r s a b c hi
    have := (h1 r).2 ⟨a, s, b, c, hi⟩
    rw [hn] at this; exact absurd this (by simp)
  · intro h
    cases hr : segIntersect l o d with
    | none => rfl
    | some r =>
      obtain ⟨a, s, b, c, hi⟩ := (h1 r).1 hr
      exact absurd hi (h r s a b c)

/-- A ray parallel to the segment gives no intersection, even if it runs along the segment. -/
theorem C27_parallel (l : Poly 2 2 K) (o d : Pt 2 K) (hz : cross (l 1 - l 0) d = 0) :
    segIntersect l o d = none := by
  unfold segIntersect; simp only [if_pos hz]

/-- `isLeft(p)`: twice the signed area of `(v0, v1, p)` is not negative. -/
theorem C27_isLeft (l : Poly 2 2 K) (p : Pt 2 K) :
    isLeft l p = true ↔
      0 ≤ (l 1 0 - l 0 0) * (p 1 - l 0 1) - (l 1 1 - l 0 1) * (p 0 - l 0 0) := by
  unfold isLeft areCCW
  rw [cross_eq]
  simp

omit [IsStrictOrderedRing K] in
theorem polyIntersect_flatMap {N : Nat} (v : Poly N 2 K) (o d : Pt 2 K) :
    polyIntersect v o d = (List.finRange N).flatMap fun i => (segIntersect (getEdge v i) o d).toList := by
  unfold polyIntersect
  have : ∀ (js : List (Fin N)) (b : List K),
      js.foldl (fun buf i => buf ++ (segIntersect (getEdge v i) o d).toList) b =
        b ++ js.flatMap fun i => (segIntersect (getEdge v i) o d).toList := by
    intro js
    induction js with
    | nil => simp
    | cons j js ih => intro b; rw [List.foldl_cons, ih]; simp
  rw [this]; simp

/-- A polygon's `intersect` writes exactly the ray parameters of its boundary (edges not parallel to
the ray), at most one for each edge. -/
theorem C27_polygon {N : Nat} (v : Poly N 2 K) (o d : Pt 2 K)
    (hz : ∀ i, cross (getEdge v i 1 - getEdge v i 0) d ≠ 0) :
    (polyIntersect v o d).length ≤ N ∧
    ∀ r, r ∈ polyIntersect v o d ↔
      0 ≤ r ∧ ∃ i s, 0 ≤ s ∧ s ≤ 1 ∧ ∀ k, o k + r * d k = segAt (getEdge v i) s k := by
  rw [polyIntersect_flatMap]
  constructor
  · rw [List.length_flatMap]
    have h : ∀ x ∈ (List.finRange N).map (fun i => (segIntersect (getEdge v i) o d).toList.length), x ≤ 1 := by
      intro x hx
      obtain ⟨i, _, rfl⟩ := List.mem_map.1 hx
      cases segIntersect (getEdge v i) o d <;> simp
    have := List.sum_le_card_nsmul _ 1 h
    simpa using this
  · intro r
    simp only [List.mem_flatMap, List.mem_finRange, true_and, Option.mem_toList]
    constructor
    · rintro ⟨i, hi⟩
      obtain ⟨a, s, b⟩ := ((C27_intersect _ o d (hz i)).1 r).1 hi
      exact ⟨a, i, s, b⟩
    · rintro ⟨a, i, s, b⟩
      exact ⟨i, ((C27_intersect _ o d (hz i)).1 r).2 ⟨a, s, b⟩⟩

example : segIntersect (K := ℚ) ![![1, -1], ![1, 1]] ![0, 0] ![1, 0] = some 1 := by decide +kernel
example : cross (K := ℚ) ((![![1, -1], ![1, 1]] : Poly 2 2 ℚ) 1 - (![![1, -1], ![1, 1]] : Poly 2 2 ℚ) 0) ![1, 0] ≠ 0 := by
  decide +kernel

/-! ## C28: triangles -/

/-- Twice the signed area of the triangle `a b c`. -/
def area2 (a b c : Pt 2 K) : K := (b 0 - a 0) * (c 1 - a 1) - (b 1 - a 1) * (c 0 - a 0)

theorem areCCW_iff (a b c : Pt 2 K) : areCCW a b c = true ↔ 0 ≤ area2 a b c := by
  unfold areCCW area2; rw [cross_eq]; simp

/-- A convex combination of the vertices. -/
def InHull {N : Nat} (v : Poly N 2 K) (p : Pt 2 K) : Prop :=
  ∃ w : Fin N → K, (∀ k, 0 ≤ w k) ∧ ∑ k, w k = 1 ∧ ∀ i, p i = ∑ k, w k * v k i

/-- `area` is half the cross product of two sides; `isCCW` is the sign of the area. -/
theorem C28_area (t : Poly 3 2 K) :
    triArea t = area2 (t 0) (t 1) (t 2) / 2 ∧
    (triIsCCW t = true ↔ 0 ≤ triArea t) ∧
    (triArea (triFlip t) = - triArea t) ∧
    (triArea ![t 1, t 2, t 0] = triArea t) ∧
    (∀ c : Pt 2 K, triArea (fun k => t k + c) = triArea t) := by
  have e : ∀ t : Poly 3 2 K, triArea t = area2 (t 0) (t 1) (t 2) / 2 := by
    intro t; unfold triArea area2; rw [cross_eq]; simp
  refine ⟨e t, ?_, ?_, ?_, ?_⟩
  · unfold triIsCCW
    rw [areCCW_iff, e]
    constructor
    · intro h; positivity
    · intro h; linarith
  · rw [e, e]; unfold area2 triFlip swapV; simp; ring
  · rw [e, e]; unfold area2; simp; ring
  · intro c; rw [e, e]; unfold area2; simp

/-- A counter-clockwise triangle contains exactly the convex combinations of its vertices. -/
theorem tri_hull (a b c p : Pt 2 K) (h : 0 < area2 a b c) (h0 : 0 ≤ area2 a b p) (h1 : 0 ≤ area2 b c p)
    (h2 : 0 ≤ area2 c a p) :
    ∃ w0 w1 w2 : K, 0 ≤ w0 ∧ 0 ≤ w1 ∧ 0 ≤ w2 ∧ w0 + w1 + w2 = 1 ∧
      ∀ i, p i = w0 * a i + w1 * b i + w2 * c i := by
  have hne := h.ne'
  refine ⟨area2 b c p / area2 a b c, area2 c a p / area2 a b c, area2 a b p / area2 a b c,
    div_nonneg h1 h.le, div_nonneg h2 h.le, div_nonneg h0 h.le, ?_, fun i => ?_⟩
  · rw [← add_div, ← add_div, div_eq_one_iff_eq hne]
    unfold area2; ring
  · rw [div_mul_eq_mul_div, div_mul_eq_mul_div, div_mul_eq_mul_div, ← add_div, ← add_div, eq_div_iff hne]
    unfold area2
    fin_cases i
    · simp only [Fin.zero_eta]; ring
    · simp only [Fin.mk_one]; ring

theorem area2_affine (a b : Pt 2 K) {N : Nat} (v : Poly N 2 K) (w : Fin N → K) (p : Pt 2 K)
    (hs : ∑ k, w k = 1) (hp : ∀ i, p i = ∑ k, w k * v k i) :
    area2 a b p = ∑ k, w k * area2 a b (v k) := by
  have e : ∀ k, w k * area2 a b (v k) =
      (b 0 - a 0) * (w k * v k 1) - (b 1 - a 1) * (w k * v k 0) +
        w k * ((b 1 - a 1) * a 0 - (b 0 - a 0) * a 1) := by
    intro k; unfold area2; ring
  rw [Finset.sum_congr rfl fun k _ => e k, Finset.sum_add_distrib, Finset.sum_sub_distrib,
    ← Finset.mul_sum, ← Finset.mul_sum, ← Finset.sum_mul, hs, ← hp 0, ← hp 1]
  unfold area2; ring

/-- The hull is left of a line that has every vertex on its left. -/
theorem hull_left (a b : Pt 2 K) {N : Nat} (v : Poly N 2 K) (p : Pt 2 K) (h : InHull v p)
    (hv : ∀ k, 0 ≤ area2 a b (v k)) : 0 ≤ area2 a b p := by
  obtain ⟨w, w0, ws, wp⟩ := h
  rw [area2_affine a b v w p ws wp]
  exact Finset.sum_nonneg fun k _ => mul_nonneg (w0 k) (hv k)

theorem C28_contains (t : Poly 3 2 K) (p : Pt 2 K) (h : 0 < triArea t) :
    triContains t p = true ↔ InHull t p := by
  rw [(C28_area t).1] at h
  have h : 0 < area2 (t 0) (t 1) (t 2) := by linarith
  unfold triContains
  rw [Bool.and_eq_true, Bool.and_eq_true, areCCW_iff, areCCW_iff, areCCW_iff]
  constructor
  · rintro ⟨⟨h0, h1⟩, h2⟩
    obtain ⟨w0, w1, w2, a0, a1, a2, hs, hp⟩ := tri_hull _ _ _ p h h0 h1 h2
    refine ⟨![w0, w1, w2], fun k => ?_, ?_, fun i => ?_⟩
    · fin_cases k <;> assumption
    · rw [Fin.sum_univ_three]; exact hs
    · rw [Fin.sum_univ_three]; exact hp i
  · intro hh
    refine ⟨⟨hull_left _ _ t p hh ?_, hull_left _ _ t p hh ?_⟩, hull_left _ _ t p hh ?_⟩
    all_goals
      intro k
      have hc : area2 (t 1) (t 2) (t 0) = area2 (t 0) (t 1) (t 2) := by unfold area2; ring
      have hc' : area2 (t 2) (t 0) (t 1) = area2 (t 0) (t 1) (t 2) := by unfold area2; ring
      have z1 : ∀ a b : Pt 2 K, area2 a b a = 0 := by intro a b; unfold area2; ring
      have z2 : ∀ a b : Pt 2 K, area2 a b b = 0 := by intro a b; unfold area2; ring
      fin_cases k <;> simp only [Fin.zero_eta, Fin.mk_one, Fin.reduceFinMk, z1, z2, hc, hc'] <;>
        first | exact le_refl _ | exact h.le

/-- The reference vertices map to the vertices, the map is affine with the given jacobian, the
centroid is in the triangle. -/
theorem C28_maps (t : Poly 3 D K) :
    triAt t 0 0 = t 0 ∧ triAt t 1 0 = t 1 ∧ triAt t 0 1 = t 2 ∧
    ∀ r s i, triAt t r s i = t 0 i + r * (triJac t).1 i + s * (triJac t).2 i := by
  refine ⟨?_, ?_, ?_, fun r s i => ?_⟩
  · funext i; simp [triAt]
  · funext i; simp [triAt]
  · funext i; simp [triAt]
  · simp only [triAt, triJac, Pi.sub_apply]; ring

/-- The triangle is the image of the reference triangle, and the centroid is contained. -/
theorem C28_image (t : Poly 3 2 K) (h : 0 < triArea t) :
    (∀ p, triContains t p = true ↔ ∃ r s, 0 ≤ r ∧ 0 ≤ s ∧ r + s ≤ 1 ∧ p = triAt t r s) ∧
    triContains t (triCentroid t) = true ∧ triCentroid t = triAt t (1/3) (1/3) := by
  have h1 : ∀ p, triContains t p = true ↔ ∃ r s, 0 ≤ r ∧ 0 ≤ s ∧ r + s ≤ 1 ∧ p = triAt t r s := by
    intro p
    rw [C28_contains t p h]
    constructor
    · rintro ⟨w, w0, ws, wp⟩
      rw [Fin.sum_univ_three] at ws
      refine ⟨w 1, w 2, w0 1, w0 2, by linarith [w0 0], ?_⟩
      funext i
      rw [wp i, Fin.sum_univ_three]
      unfold triAt
      linear_combination (t 0 i) * ws
    · rintro ⟨r, s, hr, hs, hrs, rfl⟩
      refine ⟨![1 - r - s, r, s], fun k => ?_, ?_, fun i => ?_⟩
      · fin_cases k
        · simp only [Fin.zero_eta, Matrix.cons_val_zero]; linarith
        · exact hr
        · exact hs
      · rw [Fin.sum_univ_three]; simp; ring
      · rw [Fin.sum_univ_three]; simp [triAt]
  have h2 : triCentroid t = triAt t (1/3) (1/3) := by
    funext i; unfold triCentroid triAt; field_simp; ring
  refine ⟨h1, ?_, h2⟩
  rw [h1, h2]
  exact ⟨1/3, 1/3, by positivity, by positivity, by norm_num, rfl⟩

/-- `flip` keeps the set of vertices and is its own inverse. -/
theorem C28_flip (t : Poly 3 D K) :
    Set.range (triFlip t) = Set.range t ∧ triFlip (triFlip t) = t := by
  constructor
  · ext p
    simp only [Set.mem_range, triFlip, swapV]
    constructor
    · rintro ⟨k, hk⟩
      fin_cases k
      · exact ⟨0, by simpa using hk⟩
      · exact ⟨2, by simpa using hk⟩
      · exact ⟨1, by simpa using hk⟩
    · rintro ⟨k, hk⟩
      fin_cases k
      · exact ⟨0, by simpa using hk⟩
      · exact ⟨2, by simpa using hk⟩
      · exact ⟨1, by simpa using hk⟩
  · funext k
    fin_cases k <;> simp [triFlip, swapV]

example : 0 < triArea (K := ℚ) ![![0, 0], ![1, 0], ![0, 1]] := by decide +kernel

/-- A degenerate triangle passes `isCCW`, but `contains` then holds of points outside it. -/
theorem C28_degenerate_fails : ∃ (t : Poly 3 2 ℚ) (p : Pt 2 ℚ),
    triIsCCW t = true ∧ triArea t = 0 ∧ triContains t p = true ∧ ¬ InHull t p := by
  refine ⟨![![0, 0], ![1, 0], ![2, 0]], ![5, 0], by decide +kernel, by decide +kernel, by decide +kernel, ?_⟩
  rintro ⟨w, w0, ws, wp⟩
  have := wp 0
  rw [Fin.sum_univ_three] at ws this
  simp at this
  have a := w0 0; have b := w0 1; have c := w0 2
  linarith

/-! ## C29: quadrilaterals -/

/-- `area` is the shoelace area, the sum of the areas of two triangles (for either diagonal); it is
negated by `flip` and invariant under translation. -/
theorem C29_area (q : Poly 4 2 K) :
    quadArea q = (∑ k : Fin 4, (q k 0 * q (k + 1) 1 - q k 1 * q (k + 1) 0)) / 2 ∧
    quadArea q = triArea ![q 0, q 1, q 2] + triArea ![q 0, q 2, q 3] ∧
    quadArea q = triArea ![q 1, q 2, q 3] + triArea ![q 1, q 3, q 0] ∧
    quadArea (quadFlip q) = - quadArea q ∧
    ∀ c : Pt 2 K, quadArea (fun k => q k + c) = quadArea q := by
  refine ⟨?_, ?_, ?_, ?_, ?_⟩
  · rw [Fin.sum_univ_four]
    unfold quadArea; rw [cross_eq]
    have e1 : (0 : Fin 4) + 1 = 1 := rfl
    have e2 : (1 : Fin 4) + 1 = 2 := rfl
    have e3 : (2 : Fin 4) + 1 = 3 := rfl
    have e4 : (3 : Fin 4) + 1 = 0 := rfl
    rw [e1, e2, e3, e4]
    simp only [Pi.sub_apply]; ring
  · rw [(C28_area _).1, (C28_area _).1]; unfold quadArea area2; rw [cross_eq]; simp; ring
  · rw [(C28_area _).1, (C28_area _).1]; unfold quadArea area2; rw [cross_eq]; simp; ring
  · unfold quadArea quadFlip swapV; rw [cross_eq, cross_eq]; simp; ring
  · intro c; unfold quadArea; rw [cross_eq, cross_eq]; simp

/-- The reference corners map to the vertices; the map is affine in each parameter with the slope
given by `jacobian`; each side of the reference square maps to the edge `getEdge` returns. -/
theorem C29_maps (q : Poly 4 D K) :
    quadAt q 0 0 = q 0 ∧ quadAt q 1 0 = q 1 ∧ quadAt q 1 1 = q 2 ∧ quadAt q 0 1 = q 3 ∧
    (∀ r s h i, quadAt q (r + h) s i = quadAt q r s i + h * (quadJac q r s).1 i) ∧
    (∀ r s h i, quadAt q r (s + h) i = quadAt q r s i + h * (quadJac q r s).2 i) ∧
    ∀ r, quadAt q r 0 = segAt (getEdge q 0) r ∧ quadAt q 1 r = segAt (getEdge q 1) r ∧
      quadAt q (1 - r) 1 = segAt (getEdge q 2) r ∧ quadAt q 0 (1 - r) = segAt (getEdge q 3) r := by
  refine ⟨?_, ?_, ?_, ?_, fun r s h i => ?_, fun r s h i => ?_, fun r => ⟨?_, ?_, ?_, ?_⟩⟩
  · funext i; simp [quadAt]
  · funext i; simp [quadAt]
  · funext i; simp [quadAt]
  · funext i; simp [quadAt]
  · simp only [quadAt, quadJac]; ring
  · simp only [quadAt, quadJac]; ring
  · funext i; simp [quadAt, segAt, getEdge]; ring
  · funext i; simp [quadAt, segAt, getEdge]; ring
  · funext i; simp [quadAt, segAt, getEdge]; ring
  · funext i; simp [quadAt, segAt, getEdge]; ring

/-- A convex quadrilateral with positive area contains exactly the convex combinations of its
vertices. -/
theorem C29_contains (q : Poly 4 2 K) (p : Pt 2 K) (hc : quadIsConvex q = true) (ha : 0 < quadArea q) :
    quadContains q p = true ↔ InHull q p := by
  unfold quadIsConvex at hc
  simp only [Bool.and_eq_true, areCCW_iff] at hc
  obtain ⟨⟨⟨c0, c1⟩, c2⟩, c3⟩ := hc
  unfold quadContains
  simp only [Bool.and_eq_true, areCCW_iff]
  have hsum : quadArea q = (area2 (q 0) (q 1) (q 2) + area2 (q 2) (q 3) (q 0)) / 2 := by
    rw [(C29_area q).2.1, (C28_area _).1, (C28_area _).1]; unfold area2; simp; ring
  rw [hsum] at ha
  constructor
  · rintro ⟨⟨⟨h0, h1⟩, h2⟩, h3⟩
    have i1 : area2 (q 0) (q 1) p + area2 (q 1) (q 2) p + area2 (q 2) (q 0) p =
        area2 (q 0) (q 1) (q 2) := by unfold area2; ring
    have i2 : area2 (q 2) (q 3) p + area2 (q 3) (q 0) p + area2 (q 0) (q 2) p =
        area2 (q 2) (q 3) (q 0) := by unfold area2; ring
    have i3 : area2 (q 2) (q 0) p = - area2 (q 0) (q 2) p := by unfold area2; ring
    have first : 0 < area2 (q 0) (q 1) (q 2) → 0 ≤ area2 (q 2) (q 0) p → InHull q p := by
      intro hp hs
      obtain ⟨w0, w1, w2, a0, a1, a2, hs, hp⟩ := tri_hull _ _ _ p hp h0 h1 hs
      refine ⟨![w0, w1, w2, 0], fun k => ?_, ?_, fun i => ?_⟩
      · fin_cases k
        · exact a0
        · exact a1
        · exact a2
        · exact le_refl _
      · rw [Fin.sum_univ_four]; simpa using hs
      · rw [Fin.sum_univ_four]; simpa using hp i
    have second : 0 < area2 (q 2) (q 3) (q 0) → 0 ≤ area2 (q 0) (q 2) p → InHull q p := by
      intro hp hs
      obtain ⟨w0, w1, w2, a0, a1, a2, hs, hp⟩ := tri_hull _ _ _ p hp h2 h3 hs
      refine ⟨![w2, 0, w0, w1], fun k => ?_, ?_, fun i => ?_⟩
      · fin_cases k
        · exact a2
        · exact le_refl _
        · exact a0
        · exact a1
      · rw [Fin.sum_univ_four]; simp; linarith
      · rw [Fin.sum_univ_four, hp i]; simp; ring
    rcases le_total 0 (area2 (q 0) (q 2) p) with hs | hs
    · rcases c2.lt_or_eq with hp | hz
      · exact second hp hs
      · have : area2 (q 0) (q 2) p = 0 := by linarith
        exact first (by linarith) (by linarith)
    · rcases c0.lt_or_eq with hp | hz
      · exact first hp (by linarith)
      · have : area2 (q 0) (q 2) p = 0 := by linarith
        exact second (by linarith) (by linarith)
  · intro hh
    have z1 : ∀ a b : Pt 2 K, area2 a b a = 0 := by intro a b; unfold area2; ring
    have z2 : ∀ a b : Pt 2 K, area2 a b b = 0 := by intro a b; unfold area2; ring
    have cyc : ∀ a b c : Pt 2 K, area2 a b c = area2 c a b := by intro a b c; unfold area2; ring
    refine ⟨⟨⟨hull_left _ _ q p hh ?_, hull_left _ _ q p hh ?_⟩, hull_left _ _ q p hh ?_⟩,
      hull_left _ _ q p hh ?_⟩
    all_goals
      intro k
      fin_cases k <;> simp only [Fin.zero_eta, Fin.mk_one, Fin.reduceFinMk, z1, z2] <;>
        first
        | exact le_refl _
        | assumption
        | (rw [cyc]; assumption)

/-- `centroid` is the mean of the centroids of the two triangles weighted by area. -/
theorem C29_centroid (q : Poly 4 2 K) (h : quadArea q ≠ 0) (i : Fin 2) :
    quadArea q * quadCentroid q i =
      triArea ![q 0, q 1, q 2] * triCentroid ![q 0, q 1, q 2] i +
      triArea ![q 0, q 2, q 3] * triCentroid ![q 0, q 2, q 3] i := by
  have e : quadArea q = (cross (q 1 - q 0) (q 2 - q 0) + cross (q 2 - q 0) (q 3 - q 0)) / 2 := by
    unfold quadArea; rw [cross_eq, cross_eq, cross_eq]; simp; ring
  have hne : cross (q 1 - q 0) (q 2 - q 0) + cross (q 2 - q 0) (q 3 - q 0) ≠ 0 := by
    intro hz; rw [e, hz] at h; simp at h
  have t1 : triArea ![q 0, q 1, q 2] = cross (q 1 - q 0) (q 2 - q 0) / 2 := rfl
  have t2 : triArea ![q 0, q 2, q 3] = cross (q 2 - q 0) (q 3 - q 0) / 2 := rfl
  rw [e, t1, t2]
  unfold quadCentroid triCentroid
  simp only [Matrix.cons_val_zero, Matrix.cons_val_one, Matrix.cons_val]
  field_simp
  ring

example : quadIsConvex (K := ℚ) ![![0, 0], ![2, 0], ![2, 1], ![0, 1]] = true ∧
    0 < quadArea (K := ℚ) ![![0, 0], ![2, 0], ![2, 1], ![0, 1]] := by decide +kernel
example : quadContains (K := ℚ) ![![0, 0], ![2, 0], ![2, 1], ![0, 1]] ![1, 1/2] = true := by decide +kernel

/-! ## C30: polygons -/

/-- The sum of `f` over the edges of the closed polygon. -/
def cyc {M : Type} [AddCommGroup M] (f : Pt 2 K → Pt 2 K → M) (p : Pt 2 K) (ps : List (Pt 2 K)) : M :=
  f ((p :: ps).getLast (by simp)) p + (((p :: ps).zip ps).map fun e => f e.1 e.2).sum

theorem shoelace2_eq (p : Pt 2 K) (ps : List (Pt 2 K)) : shoelace2 p ps = cyc cross p ps := by
  unfold shoelace2 cyc
  have : ∀ (l : List (Pt 2 K × Pt 2 K)) (a : K), l.foldl (fun s e => s + cross e.1 e.2) a =
      a + (l.map fun e => cross e.1 e.2).sum := by
    intro l
    induction l with
    | nil => simp
    | cons e l ih => intro a; rw [List.foldl_cons, ih]; simp [add_assoc]
  exact this _ _

theorem centroidSums_eq (p : Pt 2 K) (ps : List (Pt 2 K)) (i : Fin 2) :
    (centroidSums p ps).1 = cyc cross p ps ∧
    (centroidSums p ps).2 i = cyc (fun a b => cross a b * (a i + b i)) p ps := by
  unfold centroidSums cyc
  have : ∀ (l : List (Pt 2 K × Pt 2 K)) (a : K × Pt 2 K),
      (l.foldl (fun (s : K × Pt 2 K) (e : Pt 2 K × Pt 2 K) => (s.1 + cross e.1 e.2, fun i => s.2 i + cross e.1 e.2 * (e.1 i + e.2 i))) a).1 =
        a.1 + (l.map fun e => cross e.1 e.2).sum ∧
      (l.foldl (fun (s : K × Pt 2 K) (e : Pt 2 K × Pt 2 K) => (s.1 + cross e.1 e.2, fun i => s.2 i + cross e.1 e.2 * (e.1 i + e.2 i))) a).2 i =
        a.2 i + (l.map fun e => cross e.1 e.2 * (e.1 i + e.2 i)).sum := by
    intro l
    induction l with
    | nil => simp
    | cons e l ih => intro a; rw [List.foldl_cons]; have := ih (a.1 + cross e.1 e.2, fun i => a.2 i + cross e.1 e.2 * (e.1 i + e.2 i)); rw [this.1, this.2]; simp [add_assoc]
  exact this _ _

section
variable {M : Type} [AddCommGroup M]

/-- Sums of the open path. -/
def path (f : Pt 2 K → Pt 2 K → M) : Pt 2 K → List (Pt 2 K) → M
  | _, [] => 0
  | p, q :: qs => f p q + path f q qs

omit [LinearOrder K] [IsStrictOrderedRing K] [Field K] in
theorem zip_path (f : Pt 2 K → Pt 2 K → M) (p : Pt 2 K) (ps : List (Pt 2 K)) :
    (((p :: ps).zip ps).map fun e => f e.1 e.2).sum = path f p ps := by
  induction ps generalizing p with
  | nil => simp [path]
  | cons q qs ih =>
    rw [List.zip_cons_cons, List.map_cons, List.sum_cons, ih]; rfl

omit [LinearOrder K] [IsStrictOrderedRing K] [Field K] in
theorem path_append (f : Pt 2 K → Pt 2 K → M) (p : Pt 2 K) (as : List (Pt 2 K)) (b : Pt 2 K)
    (bs : List (Pt 2 K)) :
    path f p (as ++ b :: bs) = path f p (as ++ [b]) + path f b bs := by
  induction as generalizing p with
  | nil => simp [path]
  | cons a as ih => simp only [List.cons_append, path]; rw [ih]; abel

omit [LinearOrder K] [IsStrictOrderedRing K] [Field K] in
theorem cyc_path (f : Pt 2 K → Pt 2 K → M) (p : Pt 2 K) (ps : List (Pt 2 K)) :
    cyc f p ps = path f p (ps ++ [p]) := by
  unfold cyc
  rw [zip_path]
  rcases List.eq_nil_or_concat ps with rfl | ⟨qs, q, rfl⟩
  · simp [path]
  · have : (p :: qs.concat q).getLast (by simp) = q := by simp
    rw [this, List.concat_eq_append, List.append_assoc, List.cons_append, List.nil_append,
      path_append f p qs q [p]]
    simp [path, add_comm]

omit [LinearOrder K] [IsStrictOrderedRing K] [Field K] in
theorem path_congr (f g : Pt 2 K → Pt 2 K → M) (u : Pt 2 K → M)
    (h : ∀ a b, g a b = f a b + (u b - u a)) (p : Pt 2 K) (ps : List (Pt 2 K)) :
    path g p ps = path f p ps + (u ((p :: ps).getLast (by simp)) - u p) := by
  induction ps generalizing p with
  | nil => simp [path]
  | cons q qs ih =>
    simp only [path]; rw [ih, h, List.getLast_cons (List.cons_ne_nil q qs)]; abel

omit [LinearOrder K] [IsStrictOrderedRing K] [Field K] in
/-- Telescoping terms cancel round the polygon. -/
theorem cyc_congr (f g : Pt 2 K → Pt 2 K → M) (u : Pt 2 K → M)
    (h : ∀ a b, g a b = f a b + (u b - u a)) (p : Pt 2 K) (ps : List (Pt 2 K)) :
    cyc g p ps = cyc f p ps := by
  rw [cyc_path, cyc_path, path_congr f g u h]
  simp

end

/-- The vertices moved by `c`. -/
def shift (c : Pt 2 K) (p : Pt 2 K) : Pt 2 K := p + c

theorem cyc_map {M : Type} [AddCommGroup M] (f : Pt 2 K → Pt 2 K → M) (g : Pt 2 K → Pt 2 K)
    (p : Pt 2 K) (ps : List (Pt 2 K)) :
    cyc f (g p) (ps.map g) = cyc (fun a b => f (g a) (g b)) p ps := by
  rw [cyc_path, cyc_path]
  have : ∀ (l : List (Pt 2 K)) (p : Pt 2 K), path f (g p) (l.map g) = path (fun a b => f (g a) (g b)) p l := by
    intro l
    induction l with
    | nil => simp [path]
    | cons a l ih => intro p; simp only [List.map_cons, path]; rw [ih]
  rw [← this]; simp

theorem shoelace2_shift (c p : Pt 2 K) (ps : List (Pt 2 K)) :
    shoelace2 (shift c p) (ps.map (shift c)) = shoelace2 p ps := by
  rw [shoelace2_eq, shoelace2_eq, cyc_map]
  refine cyc_congr _ _ (fun a => cross c a) (fun a b => ?_) p ps
  simp only [cross_eq, shift, Pi.add_apply]; ring

/-- The area does not change under translation. -/
theorem C30_translation (c p : Pt 2 K) (ps : List (Pt 2 K)) :
    polyArea (shift c p) (ps.map (shift c)) = polyArea p ps := by
  unfold polyArea; rw [shoelace2_shift]

/-- Nor if the numbering starts at the next vertex. -/
theorem C30_rotation (p q : Pt 2 K) (ps : List (Pt 2 K)) :
    polyArea p (q :: ps) = polyArea q (ps ++ [p]) := by
  unfold polyArea
  rw [shoelace2_eq, shoelace2_eq, cyc_path, cyc_path, List.append_assoc]
  simp only [List.cons_append, List.nil_append, path]
  rw [path_append cross q ps p [q]]
  simp only [path]; ring

/-- Reversing the order of the vertices negates it. -/
theorem C30_reversal (p : Pt 2 K) (ps : List (Pt 2 K)) :
    polyArea p ps.reverse = - polyArea p ps := by
  have key : ∀ (as : List (Pt 2 K)) (a b : Pt 2 K),
      path cross b (as.reverse ++ [a]) = - path cross a (as ++ [b]) := by
    intro as
    induction as with
    | nil => intro a b; simp only [List.reverse_nil, List.nil_append, path, cross_eq]; ring
    | cons x as ih =>
      intro a b
      rw [List.reverse_cons, List.append_assoc, List.cons_append, List.nil_append, path_append, ih]
      simp only [List.cons_append, path, cross_eq]; ring
  unfold polyArea
  rw [shoelace2_eq, shoelace2_eq, cyc_path, cyc_path, key]; ring

/-- Cutting along the diagonal from `p` to `q` splits the area. -/
theorem C30_cut (p : Pt 2 K) (as : List (Pt 2 K)) (q : Pt 2 K) (bs : List (Pt 2 K)) :
    polyArea p (as ++ q :: bs) = polyArea p (as ++ [q]) + polyArea p (q :: bs) := by
  unfold polyArea
  simp only [shoelace2_eq, cyc_path, List.append_assoc, List.cons_append, List.nil_append]
  rw [path_append cross p as q (bs ++ [p]), path_append cross p as q [p]]
  simp only [path, cross_eq]; ring

/-- For three vertices it is the area of the triangle. -/
theorem C30_triangle (a b c : Pt 2 K) : polyArea a [b, c] = triArea ![a, b, c] := by
  unfold polyArea
  rw [shoelace2_eq, cyc_path, (C28_area _).1]
  simp only [List.cons_append, List.nil_append, path, cross_eq, area2, Matrix.cons_val_zero,
    Matrix.cons_val_one, Matrix.cons_val]
  ring

/-- So the area is the sum of the signed areas of the triangles of a fan. -/
theorem C30_fan (p q : Pt 2 K) (qs : List (Pt 2 K)) :
    polyArea p (q :: qs) = (((q :: qs).zip qs).map fun e => triArea ![p, e.1, e.2]).sum := by
  induction qs generalizing q with
  | nil =>
    unfold polyArea
    rw [shoelace2_eq, cyc_path]
    simp only [List.cons_append, List.nil_append, path, cross_eq]
    simp
    ring
  | cons r rs ih =>
    have := C30_cut p [q] r rs
    simp only [List.cons_append, List.nil_append] at this
    rw [this, C30_triangle, ih]
    rw [List.zip_cons_cons, List.map_cons, List.sum_cons]

/-- The centroid moves with the polygon. -/
theorem C30_centroid (c p : Pt 2 K) (ps : List (Pt 2 K)) (h : polyArea p ps ≠ 0) :
    polyCentroid (shift c p) (ps.map (shift c)) = shift c (polyCentroid p ps) := by
  have hne : shoelace2 p ps ≠ 0 := by
    intro hz; unfold polyArea at h; rw [hz] at h; simp at h
  have ha := shoelace2_shift c p ps
  funext i
  have e2 : cyc (fun a b => cross a b * (a i + b i)) (shift c p) (ps.map (shift c)) =
      cyc (fun a b => cross a b * (a i + b i)) p ps + 3 * c i * cyc cross p ps := by
    rw [cyc_map]
    have lin : ∀ (p : Pt 2 K) (ps : List (Pt 2 K)),
        cyc (fun a b => cross a b * (a i + b i) + 3 * c i * cross a b) p ps =
        cyc (fun a b => cross a b * (a i + b i)) p ps + 3 * c i * cyc cross p ps := by
      intro p ps
      simp only [cyc_path]
      generalize ps ++ [p] = l
      induction l generalizing p with
      | nil => simp [path]
      | cons a l ih => simp only [path]; rw [ih]; ring
    rw [← lin]
    refine cyc_congr _ _ (fun a => cross c a * (a i + 2 * c i)) (fun a b => ?_) p ps
    simp only [cross_eq, shift, Pi.add_apply]
    fin_cases i
    · simp only [Fin.zero_eta]; ring
    · simp only [Fin.mk_one]; ring
  unfold polyCentroid
  rw [(centroidSums_eq (shift c p) _ i).1, (centroidSums_eq (shift c p) _ i).2, ← shoelace2_eq, ha, e2]
  unfold shift
  simp only [Pi.add_apply]
  rw [(centroidSums_eq p ps i).1, (centroidSums_eq p ps i).2, ← shoelace2_eq]
  field_simp

/-- For three vertices it is their mean. -/
theorem C30_centroid_triangle (a b c : Pt 2 K) (h : polyArea a [b, c] ≠ 0) :
    polyCentroid a [b, c] = triCentroid ![a, b, c] := by
  have hne : shoelace2 a [b, c] ≠ 0 := by
    intro hz; unfold polyArea at h; rw [hz] at h; simp at h
  funext i
  unfold polyCentroid triCentroid
  rw [(centroidSums_eq a _ i).1, (centroidSums_eq a _ i).2, ← shoelace2_eq, div_eq_div_iff (by simpa using hne) (by norm_num)]
  rw [shoelace2_eq]
  simp only [cyc_path, List.cons_append, List.nil_append, path, cross_eq, Matrix.cons_val_zero,
    Matrix.cons_val_one, Matrix.cons_val]
  fin_cases i
  · simp only [Fin.zero_eta]; ring
  · simp only [Fin.mk_one]; ring

/-- The centroid times the area adds up over the parts of a cut. -/
theorem C30_centroid_cut (p : Pt 2 K) (as : List (Pt 2 K)) (q : Pt 2 K) (bs : List (Pt 2 K))
    (h : polyArea p (as ++ q :: bs) ≠ 0) (h1 : polyArea p (as ++ [q]) ≠ 0)
    (h2 : polyArea p (q :: bs) ≠ 0) (i : Fin 2) :
    polyArea p (as ++ q :: bs) * polyCentroid p (as ++ q :: bs) i =
      polyArea p (as ++ [q]) * polyCentroid p (as ++ [q]) i +
      polyArea p (q :: bs) * polyCentroid p (q :: bs) i := by
  have ac : ∀ ps : List (Pt 2 K), polyArea p ps ≠ 0 →
      polyArea p ps * polyCentroid p ps i = cyc (fun a b => cross a b * (a i + b i)) p ps / 6 := by
    intro ps h
    have hne : shoelace2 p ps ≠ 0 := by
      intro hz; unfold polyArea at h; rw [hz] at h; simp at h
    unfold polyArea polyCentroid
    rw [(centroidSums_eq p ps i).1, (centroidSums_eq p ps i).2, ← shoelace2_eq]
    field_simp
    ring
  rw [ac _ h, ac _ h1, ac _ h2]
  simp only [cyc_path, List.append_assoc, List.cons_append, List.nil_append]
  rw [path_append _ p as q (bs ++ [p]), path_append _ p as q [p]]
  simp only [path, cross_eq]; ring

example : polyArea (K := ℚ) ![0, 0] [![2, 0], ![2, 2], ![1, 3], ![0, 2]] ≠ 0 := by decide +kernel
example : polyArea (K := ℚ) ![0, 0] [![2, 0], ![2, 2], ![1, 3], ![0, 2]] = 5 := by decide +kernel

end Verif.Geom
