import Verif.Lemmas.FpTurn
import Mathlib.Data.Rat.Floor

/-! C120 and C121: determinants and orientation with rounding. -/

namespace Verif.FpGeomP

open Verif.Fp Verif.FpSpec

set_option linter.unusedSectionVars false

variable {K : Type} [Field K] [LinearOrder K] [IsStrictOrderedRing K] [FloorRing K] {p : ℕ} (R : Rounding K p)

/-! ## C120 -/

/-- The sign of the determinant of floating-point numbers is that of the exact value, and so it is zero only if the exact value is. -/
theorem C120_sign (hp : 2 ≤ p) {a b c d : K} (ha : IsFp p a) (hb : IsFp p b) (hc : IsFp p c) (hd : IsFp p d) :
    (0 < det2x2 R a b c d ↔ 0 < a * d - b * c) ∧ (det2x2 R a b c d = 0 ↔ a * d - b * c = 0) ∧ (det2x2 R a b c d < 0 ↔ a * d - b * c < 0) := by
  obtain ⟨h1, h2, h3⟩ := det_sign R hp ha hb hc hd
  rw [h1, h2, h3, sub_pos, sub_eq_zero, sub_neg]
  exact ⟨Iff.rfl, Iff.rfl, Iff.rfl⟩

/-- The relative error of the determinant is at most `3 u + 2 u²` with `u = 2 ^ -p`, whatever cancels. -/
theorem C120_error (hp : 1 ≤ p) {a b c d : K} (ha : IsFp p a) (hb : IsFp p b) (hc : IsFp p c) (hd : IsFp p d) :
    |det2x2 R a b c d - (a * d - b * c)| ≤ (3 / 2 ^ p + 2 / 2 ^ (2 * p)) * |a * d - b * c| :=
  det_error R hp ha hb hc hd

/-- The cross product of vectors of the plane and the components of that of vectors of space have the signs of the exact values. -/
theorem C120_cross (hp : 2 ≤ p) {u v : K × K × K} (h1 : IsFp p u.1) (h2 : IsFp p u.2.1) (h3 : IsFp p u.2.2) (g1 : IsFp p v.1) (g2 : IsFp p v.2.1)
    (g3 : IsFp p v.2.2) :
    (0 ≤ cross R (u.1, u.2.1) (v.1, v.2.1) ↔ 0 ≤ u.1 * v.2.1 - u.2.1 * v.1) ∧
    (0 < cross R (u.1, u.2.1) (v.1, v.2.1) ↔ 0 < u.1 * v.2.1 - u.2.1 * v.1) ∧
    (cross3 R u v = (0, 0, 0) ↔ u.2.1 * v.2.2 = u.2.2 * v.2.1 ∧ u.2.2 * v.1 = u.1 * v.2.2 ∧ u.1 * v.2.1 = u.2.1 * v.1) ∧
    (0 < (cross3 R u v).1 ↔ 0 < u.2.1 * v.2.2 - u.2.2 * v.2.1) ∧ (0 < (cross3 R u v).2.1 ↔ 0 < u.2.2 * v.1 - u.1 * v.2.2) ∧
    (0 < (cross3 R u v).2.2 ↔ 0 < u.1 * v.2.1 - u.2.1 * v.1) := by
  have x := C120_sign R hp h2 h3 g2 g3
  have y := C120_sign R hp h3 h1 g3 g1
  have z := C120_sign R hp h1 h2 g1 g2
  unfold cross cross3
  dsimp only
  refine ⟨by rw [← not_lt, z.2.2, not_lt], z.1, ?_, x.1, y.1, z.1⟩
  rw [Prod.mk.injEq, Prod.mk.injEq, x.2.1, y.2.1, z.2.1, sub_eq_zero, sub_eq_zero, sub_eq_zero]

/-- The inverse of a matrix divides by zero exactly if the matrix is singular; otherwise each entry has a relative error of at most `5 u`. -/
theorem C120_inverse (hp : 5 ≤ p) {a b c d : K} (ha : IsFp p a) (hb : IsFp p b) (hc : IsFp p c) (hd : IsFp p d) :
    (inv2 R (a, c, b, d) = none ↔ a * d - b * c = 0) ∧
    ∀ m, inv2 R (a, c, b, d) = some m →
      |m.1 - d / (a * d - b * c)| ≤ 5 / 2 ^ p * |d / (a * d - b * c)| ∧ |m.2.1 - -c / (a * d - b * c)| ≤ 5 / 2 ^ p * |-c / (a * d - b * c)| ∧
      |m.2.2.1 - -b / (a * d - b * c)| ≤ 5 / 2 ^ p * |-b / (a * d - b * c)| ∧ |m.2.2.2 - a / (a * d - b * c)| ≤ 5 / 2 ^ p * |a / (a * d - b * c)| := by
  have s := (C120_sign R (by omega) ha hb hc hd).2.1
  have e := C120_error R (by omega) ha hb hc hd
  unfold inv2
  dsimp only
  split
  · rename_i h
    exact ⟨⟨fun _ => s.1 h, fun _ => rfl⟩, fun m hm => by cases hm⟩
  · rename_i h
    have hD : a * d - b * c ≠ 0 := fun q => h (s.2 q)
    refine ⟨⟨fun q => (by cases q), fun q => absurd q hD⟩, fun m hm => ?_⟩
    cases hm
    exact ⟨quot_error R hp hD e, quot_error R hp hD e, quot_error R hp hD e, quot_error R hp hD e⟩

/-- The theorems apply to the rounding of IEEE 754 in double precision.  With `a d` and `b c` evaluated separately the sign would be lost: the
numbers are 2^30 + 1, 2^30, and so on, and the exact value is one. -/
example : det2x2 (ieee ℚ 53 (by norm_num)) (2 ^ 30 + 1) (2 ^ 30) (2 ^ 30 + 2) (2 ^ 30 + 1) = 1 ∧
    rne 53 (rne 53 ((2 ^ 30 + 1) * (2 ^ 30 + 1)) - rne 53 ((2 ^ 30) * (2 ^ 30 + 2)) : ℚ) = 0 ∧
    IsFp 53 (2 ^ 30 + 1 : ℚ) ∧ IsFp 53 (2 ^ 30 : ℚ) ∧ IsFp 53 (2 ^ 30 + 2 : ℚ) :=
  ⟨by decide +kernel, by decide +kernel, ⟨2 ^ 30 + 1, 0, by norm_num, by norm_num⟩, ⟨2 ^ 30, 0, by norm_num, by norm_num⟩,
    ⟨2 ^ 30 + 2, 0, by norm_num, by norm_num⟩⟩

/-! ## C121 -/

/-- `areCCW` decides exactly if the differences of the coordinates are floating-point numbers. -/
theorem C121_orientation_partial (hp : 2 ≤ p) {a b c : K × K} (h1 : IsFp p (b.1 - a.1)) (h2 : IsFp p (b.2 - a.2)) (h3 : IsFp p (c.1 - a.1))
    (h4 : IsFp p (c.2 - a.2)) : areCCW R a b c = true ↔ 0 ≤ turn a b c :=
  areCCW_exact R hp h1 h2 h3 h4

/-- A point of the grid of the multiples of `2 ^ k`, no further than `2 ^ (p - 1)` steps from the axes. -/
def OnGrid (K : Type) [Field K] (p : ℕ) (k : ℤ) (q : K × K) : Prop :=
  ∃ m n : ℤ, |m| ≤ 2 ^ (p - 1) ∧ |n| ≤ 2 ^ (p - 1) ∧ q = ((m : K) * 2 ^ k, (n : K) * 2 ^ k)

/-- On a grid, `contains` of a triangle is exact, so that triangles which cover an area contain each of its grid points. -/
theorem C121_triangle_partial (hp : 2 ≤ p) {k : ℤ} {a b c q : K × K} (ha : OnGrid K p k a) (hb : OnGrid K p k b) (hc : OnGrid K p k c)
    (hq : OnGrid K p k q) : triContains R a b c q = true ↔ InTriangle a b c q := by
  obtain ⟨a1, a2, ha1, ha2, rfl⟩ := ha
  obtain ⟨b1, b2, hb1, hb2, rfl⟩ := hb
  obtain ⟨c1, c2, hc1, hc2, rfl⟩ := hc
  obtain ⟨q1, q2, hq1, hq2, rfl⟩ := hq
  have hp1 : 1 ≤ p := by omega
  unfold triContains InTriangle
  rw [Bool.and_eq_true, Bool.and_eq_true,
    C121_orientation_partial R hp (grid_diff hp1 hb1 ha1) (grid_diff hp1 hb2 ha2) (grid_diff hp1 hq1 ha1) (grid_diff hp1 hq2 ha2),
    C121_orientation_partial R hp (grid_diff hp1 hc1 hb1) (grid_diff hp1 hc2 hb2) (grid_diff hp1 hq1 hb1) (grid_diff hp1 hq2 hb2),
    C121_orientation_partial R hp (grid_diff hp1 ha1 hc1) (grid_diff hp1 ha2 hc2) (grid_diff hp1 hq1 hc1) (grid_diff hp1 hq2 hc2), and_assoc]

/-- The double nearest to a decimal number. -/
def dbl (x : ℚ) : ℚ := rne 53 x

/-- In general it is not: in double precision the point (0.1, 0.3) is in neither of the triangles (0, 0), (1, 0), (0.5, 1.5) and
(0, 0), (0.5, 1.5), (0, 1.5), which share the edge that the point lies next to.  Both triangles are counter-clockwise, and the point is in the
interior of the quadrilateral that they make up. -/
theorem C121_gap_fails : ∃ a s b t q : ℚ × ℚ, (∀ x ∈ [a, s, b, t, q], IsFp 53 x.1 ∧ IsFp 53 x.2) ∧ 0 < turn a s b ∧ 0 < turn a b t ∧
    InTriangle a s b q ∧ 0 < turn a s q ∧ 0 < turn s b q ∧ 0 < turn b t q ∧ 0 < turn t a q ∧
    triContains (ieee ℚ 53 (by norm_num)) a s b q = false ∧ triContains (ieee ℚ 53 (by norm_num)) a b t q = false := by
  refine ⟨(0, 0), (1, 0), (1 / 2, 3 / 2), (0, 3 / 2), (dbl (1 / 10), dbl (3 / 10)), ?_, ?_⟩
  · have f0 : IsFp 53 (0 : ℚ) := isFp_zero
    have f1 : IsFp 53 (1 : ℚ) := ⟨1, 0, by norm_num, by norm_num⟩
    have f2 : IsFp 53 (1 / 2 : ℚ) := ⟨1, -1, by norm_num, by norm_num⟩
    have f3 : IsFp 53 (3 / 2 : ℚ) := ⟨3, -1, by norm_num, by norm_num⟩
    intro x hx
    simp only [List.mem_cons, List.not_mem_nil, or_false] at hx
    rcases hx with rfl | rfl | rfl | rfl | rfl
    · exact ⟨f0, f0⟩
    · exact ⟨f1, f0⟩
    · exact ⟨f2, f3⟩
    · exact ⟨f0, f3⟩
    · exact ⟨rne_mem (by norm_num) _, rne_mem (by norm_num) _⟩
  · unfold InTriangle
    decide +kernel

/-- How far the computed orientation is from the exact one. -/
theorem C121_error (hp : 5 ≤ p) (a b c : K × K) :
    |cross R (sub R b a) (sub R c a) - turn a b c| ≤ 6 / 2 ^ p * (|b.1 - a.1| * |c.2 - a.2| + |b.2 - a.2| * |c.1 - a.1|) :=
  cross_error R hp a b c

/-- `areApproxCCW` accepts all points in counter-clockwise order, and no points that are clockwise by more than twice the tolerance, if the coordinates are
small enough for the tolerance. -/
theorem C121_approx_partial (hp : 5 ≤ p) {L eps : K} (hL : 48 * L ^ 2 ≤ eps * 2 ^ p) {a b c : K × K} (ha : |a.1| ≤ L ∧ |a.2| ≤ L) (hb : |b.1| ≤ L ∧ |b.2| ≤ L)
    (hc : |c.1| ≤ L ∧ |c.2| ≤ L) :
    (0 ≤ turn a b c → areApproxCCW R eps a b c = true) ∧ (areApproxCCW R eps a b c = true → -(2 * eps) ≤ turn a b c) := by
  have E := C121_error R hp a b c
  have d : ∀ x y : K, |x| ≤ L → |y| ≤ L → |x - y| ≤ 2 * L := fun x y hx hy => (abs_sub x y).trans (by linarith)
  have L0 : 0 ≤ L := (abs_nonneg _).trans ha.1
  have S : |b.1 - a.1| * |c.2 - a.2| + |b.2 - a.2| * |c.1 - a.1| ≤ 8 * L ^ 2 := by
    have m1 := mul_le_mul (d _ _ hb.1 ha.1) (d _ _ hc.2 ha.2) (abs_nonneg _) (by linarith)
    have m2 := mul_le_mul (d _ _ hb.2 ha.2) (d _ _ hc.1 ha.1) (abs_nonneg _) (by linarith)
    nlinarith
  have B : 6 / 2 ^ p * (|b.1 - a.1| * |c.2 - a.2| + |b.2 - a.2| * |c.1 - a.1|) ≤ eps := by
    refine (mul_le_mul_of_nonneg_left S (by positivity)).trans ?_
    rw [div_mul_eq_mul_div, div_le_iff₀ (by positivity)]
    linarith
  have E' := abs_le.1 (E.trans B)
  unfold areApproxCCW
  rw [decide_eq_true_iff]
  exact ⟨fun h => by linarith [E'.1], fun h => by linarith [E'.2]⟩

/-- The tolerances are a micrometre and a nanometre, each up to one rounding: rounding the literal to `double` first does no harm. -/
theorem C121_eps : |epsDistance (rne 53) (rne 24) true - 1 / 10 ^ 4| ≤ (1 / 10 ^ 4 / 2 ^ 24 : ℚ) ∧ |epsDistance (rne 53) (rne 24) false - 1 / 10 ^ 7| ≤ (1 / 10 ^ 7 / 2 ^ 53 : ℚ) ∧
    epsDistance (rne 53) (rne 24) true = rne 24 (1 / 10 ^ 4 : ℚ) := by
  decide +kernel

/-- In double precision coordinates up to 4096 cm are small enough: points in counter-clockwise order are accepted, and what is accepted is clockwise by 0.0000002 (twice the
tolerance) at most. -/
theorem C121_approx_double {a b c : ℚ × ℚ} (ha : |a.1| ≤ 4096 ∧ |a.2| ≤ 4096) (hb : |b.1| ≤ 4096 ∧ |b.2| ≤ 4096) (hc : |c.1| ≤ 4096 ∧ |c.2| ≤ 4096) :
    (0 ≤ turn a b c → areApproxCCW (ieee ℚ 53 (by norm_num)) (epsDistance (rne 53) (rne 24) false) a b c = true) ∧
    (areApproxCCW (ieee ℚ 53 (by norm_num)) (epsDistance (rne 53) (rne 24) false) a b c = true → -(20000001 / 10 ^ 14) ≤ turn a b c) := by
  have h := C121_approx_partial (ieee ℚ 53 (by norm_num)) (by norm_num) (L := 4096) (eps := epsDistance (rne 53) (rne 24) false) (by decide +kernel) ha hb hc
  have e : 2 * epsDistance (rne 53) (rne 24) false ≤ (20000001 / 10 ^ 14 : ℚ) := by decide +kernel
  exact ⟨h.1, fun k => (neg_le_neg e).trans (h.2 k)⟩

/-- In single precision coordinates up to 100 cm are not, although the tolerance was chosen for them: the points (-79, -20), (56, -3.8) and (41, -5.6) are in counter-clockwise
order, and `areApproxCCW` rejects them. -/
theorem C121_approx_fails : ∃ a b c : ℚ × ℚ, (∀ x ∈ [a, b, c], IsFp 24 x.1 ∧ IsFp 24 x.2 ∧ |x.1| ≤ 100 ∧ |x.2| ≤ 100) ∧ 0 < turn a b c ∧
    areApproxCCW (ieee ℚ 24 (by norm_num)) (epsDistance (rne 53) (rne 24) true) a b c = false := by
  refine ⟨(-79, -20), (56, rne 24 (-38 / 10)), (41, rne 24 (-56 / 10)), ?_, ?_⟩
  · intro x hx
    simp only [List.mem_cons, List.not_mem_nil, or_false] at hx
    rcases hx with rfl | rfl | rfl
    · exact ⟨⟨-79, 0, by norm_num, by norm_num⟩, ⟨-20, 0, by norm_num, by norm_num⟩, by norm_num, by norm_num⟩
    · exact ⟨⟨56, 0, by norm_num, by norm_num⟩, rne_mem (by norm_num) _, by norm_num, by decide +kernel⟩
    · exact ⟨⟨41, 0, by norm_num, by norm_num⟩, rne_mem (by norm_num) _, by norm_num, by decide +kernel⟩
  · decide +kernel

/-- Points in tenths of a millimetre are not on such a grid, but points in 2^-10 cm are. -/
example : OnGrid ℚ 53 (-10) (3 / 1024, -5 / 512) := ⟨3, -10, by norm_num, by norm_num, by norm_num⟩

end Verif.FpGeomP
