import Verif.Props.Quadratic

/-!
# C68: area and centroid of quadratic polygons

Specification: Green's boundary integrals along the curved edges (`sweep`, `momentX`, `momentY`), and
the integral of the jacobian determinant over the reference cell.
-/

namespace Verif.Geom

/-! ## Area -/

theorem tri6Area_eq (v : Poly 6 2 ℝ) :
    tri6Area v = triArea (linearPolygon (m := 3) v) + enclosedArea (getEdge2 (m := 3) v 0) +
      enclosedArea (getEdge2 (m := 3) v 1) + enclosedArea (getEdge2 (m := 3) v 2) := rfl

theorem quad8Area_eq (v : Poly 8 2 ℝ) :
    quad8Area v = quadArea (linearPolygon (m := 4) v) + enclosedArea (getEdge2 (m := 4) v 0) +
      enclosedArea (getEdge2 (m := 4) v 1) + enclosedArea (getEdge2 (m := 4) v 2) +
      enclosedArea (getEdge2 (m := 4) v 3) := rfl

/-- The area of a quadratic triangle is Green's integral along its three curved edges. -/
theorem C68_tri6_area (v : Poly 6 2 ℝ) :
    tri6Area v = ∑ i, sweep (getEdge2 (m := 3) v i) := by
  rw [tri6Area_eq, Fin.sum_univ_three, C31_enclosedArea, C31_enclosedArea, C31_enclosedArea,
    (C28_area _).1]
  have e : area2 (linearPolygon (m := 3) v 0) (linearPolygon (m := 3) v 1) (linearPolygon (m := 3) v 2) / 2 =
      sweepLine (getEdge2 (m := 3) v 0 0) (getEdge2 (m := 3) v 0 1) +
      sweepLine (getEdge2 (m := 3) v 1 0) (getEdge2 (m := 3) v 1 1) +
      sweepLine (getEdge2 (m := 3) v 2 0) (getEdge2 (m := 3) v 2 1) := by
    simp [area2, sweepLine, linearPolygon, getEdge2]; ring
  rw [e]; ring

theorem C68_quad8_area (v : Poly 8 2 ℝ) :
    quad8Area v = ∑ i, sweep (getEdge2 (m := 4) v i) := by
  rw [quad8Area_eq, Fin.sum_univ_four, C31_enclosedArea, C31_enclosedArea, C31_enclosedArea,
    C31_enclosedArea]
  have e : quadArea (linearPolygon (m := 4) v) =
      sweepLine (getEdge2 (m := 4) v 0 0) (getEdge2 (m := 4) v 0 1) +
      sweepLine (getEdge2 (m := 4) v 1 0) (getEdge2 (m := 4) v 1 1) +
      sweepLine (getEdge2 (m := 4) v 2 0) (getEdge2 (m := 4) v 2 1) +
      sweepLine (getEdge2 (m := 4) v 3 0) (getEdge2 (m := 4) v 3 1) := by
    simp [quadArea, cross_eq, sweepLine, linearPolygon, getEdge2]; ring
  rw [e]; ring

/-- Reversing a quadratic triangle negates its area. -/
theorem C68_tri6_flip (v : Poly 6 2 ℝ) : tri6Area (tri6Flip v) = - tri6Area v := by
  rw [tri6Area_eq, tri6Area_eq]
  simp [triArea, enclosedArea, cross_eq, linearPolygon, getEdge2, tri6Flip, swapV]
  ring

theorem integral_poly3 (c0 c1 c2 c3 : ℝ) :
    ∫ r in (0 : ℝ)..1, (c0 + c1 * r + c2 * r ^ 2 + c3 * r ^ 3) = c0 + c1 / 2 + c2 / 3 + c3 / 4 := by
  have := integral_poly5 c0 c1 c2 c3 0 0
  simpa using this

theorem integral_poly2_to (u c0 c1 c2 : ℝ) :
    ∫ s in (0 : ℝ)..u, (c0 + c1 * s + c2 * s ^ 2) = c0 * u + c1 * u ^ 2 / 2 + c2 * u ^ 3 / 3 := by
  rw [intervalIntegral.integral_add, intervalIntegral.integral_add]
  · have e1 : ∫ r in (0 : ℝ)..u, c1 * r = c1 * u ^ 2 / 2 := by
      rw [intervalIntegral.integral_const_mul, integral_id]; ring
    rw [e1]
    simp only [intervalIntegral.integral_const_mul, integral_pow, intervalIntegral.integral_const]
    simp
    ring
  all_goals exact Continuous.intervalIntegrable (by fun_prop) _ _

/-- The determinant of the jacobian. -/
noncomputable def detJ (J : Pt 2 ℝ × Pt 2 ℝ) : ℝ := J.1 0 * J.2 1 - J.1 1 * J.2 0

/-- The area of a quadratic triangle is the integral of the jacobian determinant over the reference
triangle. -/
theorem C68_tri6_det (v : Poly 6 2 ℝ) :
    tri6Area v = ∫ r in (0 : ℝ)..1, ∫ s in (0 : ℝ)..(1 - r), detJ (tri6Jac v r s) := by
  -- columns `a + b r + c s` and `d + c r + e s`
  set a : Pt 2 ℝ := fun i => -3 * (v 0 i - v 3 i) - (v 1 i - v 3 i) with ha
  set b : Pt 2 ℝ := fun i => 4 * (v 0 i - v 3 i) + 4 * (v 1 i - v 3 i) with hb
  set c : Pt 2 ℝ := fun i => 4 * (v 0 i - v 3 i) + 4 * (v 4 i - v 5 i) with hc
  set d : Pt 2 ℝ := fun i => -3 * (v 0 i - v 5 i) - (v 2 i - v 5 i) with hd
  set e : Pt 2 ℝ := fun i => 4 * (v 0 i - v 5 i) + 4 * (v 2 i - v 5 i) with he
  have hJ : ∀ r s, detJ (tri6Jac v r s) =
      (cross a d + (cross b d + cross a c) * r + cross b c * r ^ 2) +
      (cross c d + cross a e + cross b e * r) * s + cross c e * s ^ 2 := by
    intro r s
    simp only [detJ, tri6Jac, cross_eq, ha, hb, hc, hd, he]; ring
  simp only [hJ, integral_poly2_to]
  have hp : ∀ r : ℝ, (cross a d + (cross b d + cross a c) * r + cross b c * r ^ 2) * (1 - r) +
      (cross c d + cross a e + cross b e * r) * (1 - r) ^ 2 / 2 + cross c e * (1 - r) ^ 3 / 3 =
      (cross a d + (cross c d + cross a e) / 2 + cross c e / 3) +
      (cross b d + cross a c - cross a d - (cross c d + cross a e) + cross b e / 2 - cross c e) * r +
      (cross b c - (cross b d + cross a c) + (cross c d + cross a e) / 2 - cross b e + cross c e) * r ^ 2 +
      (- cross b c + cross b e / 2 - cross c e / 3) * r ^ 3 := by
    intro r; ring
  simp only [hp, integral_poly3]
  rw [tri6Area_eq]
  simp [triArea, enclosedArea, cross_eq, linearPolygon, getEdge2, ha, hb, hc, hd, he]
  ring

/-- The same for a quadratic quadrilateral and the unit square. -/
theorem C68_quad8_det (v : Poly 8 2 ℝ) :
    quad8Area v = ∫ r in (0 : ℝ)..1, ∫ s in (0 : ℝ)..1, detJ (quad8Jac v r s) := by
  -- first column `a0 + a1 s + a2 s² + (b0 + b1 s) r`, second `c0 + c1 r + c2 r² + (d0 + d1 r) s`
  set a0 : Pt 2 ℝ := fun i => -3 * v 0 i - v 1 i + 4 * v 4 i with ha0
  set a1 : Pt 2 ℝ := fun i => 5 * v 0 i - v 1 i - 3 * v 2 i - v 3 i - 4 * v 4 i + 4 * v 6 i + 4 * v 5 i - 4 * v 7 i with ha1
  set a2 : Pt 2 ℝ := fun i => -2 * (v 0 i - v 1 i) + 2 * (v 2 i - v 3 i) - 4 * (v 5 i - v 7 i) with ha2
  set b0 : Pt 2 ℝ := fun i => 4 * (v 0 i + v 1 i - 2 * v 4 i) with hb0
  set b1 : Pt 2 ℝ := fun i => -4 * (v 0 i + v 1 i - 2 * v 4 i) + 4 * (v 2 i + v 3 i - 2 * v 6 i) with hb1
  set c0 : Pt 2 ℝ := fun i => -3 * v 0 i - v 3 i + 4 * v 7 i with hc0
  set c1 : Pt 2 ℝ := fun i => 5 * v 0 i - v 3 i - 3 * v 2 i - v 1 i - 4 * v 7 i + 4 * v 5 i + 4 * v 6 i - 4 * v 4 i with hc1
  set c2 : Pt 2 ℝ := fun i => -2 * (v 0 i - v 3 i) + 2 * (v 2 i - v 1 i) - 4 * (v 6 i - v 4 i) with hc2
  set d0 : Pt 2 ℝ := fun i => 4 * (v 0 i + v 3 i - 2 * v 7 i) with hd0
  set d1 : Pt 2 ℝ := fun i => -4 * (v 0 i + v 3 i - 2 * v 7 i) + 4 * (v 1 i + v 2 i - 2 * v 5 i) with hd1
  have j1 : ∀ r s i, (quad8Jac v r s).1 i = a0 i + a1 i * s + a2 i * s ^ 2 + (b0 i + b1 i * s) * r := by
    intro r s i
    simp only [quad8Jac, ha0, ha1, ha2, hb0, hb1]; ring
  have j2 : ∀ r s i, (quad8Jac v r s).2 i = c0 i + c1 i * r + c2 i * r ^ 2 + (d0 i + d1 i * r) * s := by
    intro r s i
    simp only [quad8Jac, hc0, hc1, hc2, hd0, hd1]; ring
  have hJ : ∀ r s, detJ (quad8Jac v r s) =
      (cross a0 c0 + (cross a0 c1 + cross b0 c0) * r + (cross a0 c2 + cross b0 c1) * r ^ 2 +
        cross b0 c2 * r ^ 3) +
      (cross a1 c0 + cross a0 d0 + (cross a1 c1 + cross b1 c0 + cross a0 d1 + cross b0 d0) * r +
        (cross a1 c2 + cross b1 c1 + cross b0 d1) * r ^ 2 + cross b1 c2 * r ^ 3) * s +
      (cross a2 c0 + cross a1 d0 + (cross a2 c1 + cross a1 d1 + cross b1 d0) * r +
        (cross a2 c2 + cross b1 d1) * r ^ 2) * s ^ 2 +
      (cross a2 d0 + cross a2 d1 * r) * s ^ 3 := by
    intro r s
    simp only [detJ, j1, j2, cross_eq]; ring
  simp only [hJ, integral_poly3]
  have hp : ∀ r : ℝ, (cross a0 c0 + (cross a0 c1 + cross b0 c0) * r + (cross a0 c2 + cross b0 c1) * r ^ 2 +
        cross b0 c2 * r ^ 3) +
      (cross a1 c0 + cross a0 d0 + (cross a1 c1 + cross b1 c0 + cross a0 d1 + cross b0 d0) * r +
        (cross a1 c2 + cross b1 c1 + cross b0 d1) * r ^ 2 + cross b1 c2 * r ^ 3) / 2 +
      (cross a2 c0 + cross a1 d0 + (cross a2 c1 + cross a1 d1 + cross b1 d0) * r +
        (cross a2 c2 + cross b1 d1) * r ^ 2) / 3 +
      (cross a2 d0 + cross a2 d1 * r) / 4 =
      (cross a0 c0 + (cross a1 c0 + cross a0 d0) / 2 + (cross a2 c0 + cross a1 d0) / 3 + cross a2 d0 / 4) +
      (cross a0 c1 + cross b0 c0 + (cross a1 c1 + cross b1 c0 + cross a0 d1 + cross b0 d0) / 2 +
        (cross a2 c1 + cross a1 d1 + cross b1 d0) / 3 + cross a2 d1 / 4) * r +
      (cross a0 c2 + cross b0 c1 + (cross a1 c2 + cross b1 c1 + cross b0 d1) / 2 +
        (cross a2 c2 + cross b1 d1) / 3) * r ^ 2 +
      (cross b0 c2 + cross b1 c2 / 2) * r ^ 3 := by
    intro r; ring
  simp only [hp, integral_poly3]
  rw [quad8Area_eq]
  simp [quadArea, enclosedArea, cross_eq, linearPolygon, getEdge2, ha0, ha1, ha2, hb0, hb1, hc0, hc1,
    hc2, hd0, hd1]
  ring

/-! ## Centroid -/

/-- Green's formulas for the first moments, `∬ x = ½ ∮ x² dy` and `∬ y = -½ ∮ y² dx`. -/
noncomputable def moment (q : Poly 3 2 ℝ) : Pt 2 ℝ :=
  ![1 / 2 * ∫ r in (0 : ℝ)..1, qsegAt q r 0 ^ 2 * qsegJac q r 1,
    -(1 / 2) * ∫ r in (0 : ℝ)..1, qsegAt q r 1 ^ 2 * qsegJac q r 0]

/-- A straight edge as a quadratic one. -/
noncomputable def straight (a b : Pt 2 ℝ) : Poly 3 2 ℝ := ![a, b, fun i => (a i + b i) / 2]

theorem moment_int (q : Poly 3 2 ℝ) (i j : Fin 2) :
    ∫ r in (0 : ℝ)..1, qsegAt q r i ^ 2 * qsegJac q r j =
      q 0 i ^ 2 * (polyCoeffs q).2.1 j +
      (2 * q 0 i * (polyCoeffs q).2.1 i * (polyCoeffs q).2.1 j + 2 * (polyCoeffs q).2.2 j * q 0 i ^ 2) / 2 +
      (((polyCoeffs q).2.1 i ^ 2 + 2 * (polyCoeffs q).2.2 i * q 0 i) * (polyCoeffs q).2.1 j +
        4 * (polyCoeffs q).2.2 j * (polyCoeffs q).2.1 i * q 0 i) / 3 +
      (2 * (polyCoeffs q).2.2 i * (polyCoeffs q).2.1 i * (polyCoeffs q).2.1 j +
        2 * (polyCoeffs q).2.2 j * ((polyCoeffs q).2.1 i ^ 2 + 2 * (polyCoeffs q).2.2 i * q 0 i)) / 4 +
      ((polyCoeffs q).2.2 i ^ 2 * (polyCoeffs q).2.1 j +
        4 * (polyCoeffs q).2.2 j * (polyCoeffs q).2.2 i * (polyCoeffs q).2.1 i) / 5 +
      2 * (polyCoeffs q).2.2 j * (polyCoeffs q).2.2 i ^ 2 / 6 := by
  rw [← integral_poly5]
  congr 1
  funext r
  have h1 : qsegAt q r i = q 0 i + r * (polyCoeffs q).2.1 i + r ^ 2 * (polyCoeffs q).2.2 i :=
    (C31_interpolate q).2.2.2 r i
  have h2 : qsegJac q r j = (polyCoeffs q).2.1 j + 2 * r * (polyCoeffs q).2.2 j := by
    simp only [qsegJac, polyCoeffs]; ring
  rw [h1, h2]; ring

/-- `enclosedCentroid`, unless the ends coincide, is the centroid of the region between the curve and
its chord: area times centroid is the difference of the moments. -/
theorem C68_enclosedCentroid (q : Poly 3 2 ℝ) (h : q 0 ≠ q 1) :
    ∃ c, enclosedCentroid q = some c ∧
      ∀ i, enclosedArea q * c i = moment q i - moment (straight (q 0) (q 1)) i := by
  have hn : sqNorm (q 1 - q 0) ≠ 0 := by
    rw [Ne, sqNorm_eq_zero, sub_eq_zero]; exact Ne.symm h
  have hpos : 0 < sqNorm (q 1 - q 0) := lt_of_le_of_ne (sqNorm_nonneg _) (Ne.symm hn)
  have hs : Real.sqrt (sqNorm (q 1 - q 0)) ≠ 0 := (Real.sqrt_pos.2 hpos).ne'
  have hsq : Real.sqrt (sqNorm (q 1 - q 0)) ^ 2 =
      (q 1 0 - q 0 0) * (q 1 0 - q 0 0) + (q 1 1 - q 0 1) * (q 1 1 - q 0 1) := by
    rw [Real.sq_sqrt hpos.le]; unfold sqNorm; rw [Fin.sum_univ_two]; rfl
  -- the rotation cancels
  have hc : enclosedCentroid q = some fun i => q 0 i + (3 * (q 1 i - q 0 i) + 4 * (q 2 i - q 0 i)) / 10 := by
    unfold enclosedCentroid
    dsimp only
    rw [if_neg hs]
    congr 1
    funext i
    generalize hN : Real.sqrt (sqNorm (q 1 - q 0)) = n at hs hsq
    unfold dot
    simp only [Fin.sum_univ_two, Pi.sub_apply, Matrix.cons_val_zero, Matrix.cons_val_one]
    fin_cases i
    · simp only [Fin.zero_eta, Matrix.cons_val_zero, Fin.isValue]
      field_simp
      linear_combination (-(3 * (q 1 0 - q 0 0) + 4 * (q 2 0 - q 0 0))) * hsq
    · simp only [Fin.mk_one, Matrix.cons_val_one, Matrix.cons_val_fin_one, Fin.isValue]
      field_simp
      linear_combination (-(3 * (q 1 1 - q 0 1) + 4 * (q 2 1 - q 0 1))) * hsq
  refine ⟨_, hc, fun i => ?_⟩
  unfold enclosedArea
  rw [cross_eq]
  fin_cases i
  · simp only [moment, Fin.zero_eta, Matrix.cons_val_zero, moment_int]
    simp [straight, polyCoeffs]
    ring
  · simp only [moment, Fin.mk_one, Matrix.cons_val_one, moment_int]
    simp [straight, polyCoeffs]
    ring

theorem moment_straight (a b : Pt 2 ℝ) (i : Fin 2) :
    moment (straight a b) i =
      (if i = 0 then (b 1 - a 1) * (a 0 ^ 2 + a 0 * b 0 + b 0 ^ 2)
       else -((b 0 - a 0) * (a 1 ^ 2 + a 1 * b 1 + b 1 ^ 2))) / 6 := by
  fin_cases i
  · simp only [moment, Fin.zero_eta, Matrix.cons_val_zero, moment_int]
    simp [straight, polyCoeffs]
    ring
  · simp only [moment, Fin.mk_one, Matrix.cons_val_one, Matrix.cons_val_fin_one, moment_int]
    simp [straight, polyCoeffs]
    ring

/-- `centroid` of a quadratic triangle whose corners differ and whose area is not zero: area times
centroid is the sum of the boundary moments. -/
theorem C68_tri6_centroid (v : Poly 6 2 ℝ) (h01 : v 0 ≠ v 1) (h12 : v 1 ≠ v 2) (h20 : v 2 ≠ v 0)
    (ha : tri6Area v ≠ 0) :
    ∃ c, quadraticCentroid (triArea (linearPolygon (m := 3) v)) (triCentroid (linearPolygon (m := 3) v))
        ((List.finRange 3).map (getEdge2 (m := 3) v)) = some c ∧
      ∀ k, tri6Area v * c k = ∑ i, moment (getEdge2 (m := 3) v i) k := by
  obtain ⟨c0, e0, m0⟩ := C68_enclosedCentroid (getEdge2 (m := 3) v 0) h01
  obtain ⟨c1, e1, m1⟩ := C68_enclosedCentroid (getEdge2 (m := 3) v 1) h12
  obtain ⟨c2, e2, m2⟩ := C68_enclosedCentroid (getEdge2 (m := 3) v 2) h20
  have hl : (List.finRange 3).map (getEdge2 (m := 3) v) =
      [getEdge2 (m := 3) v 0, getEdge2 (m := 3) v 1, getEdge2 (m := 3) v 2] := rfl
  rw [hl]
  unfold quadraticCentroid
  simp only [List.foldlM_cons, List.foldlM_nil, e0, e1, e2, Option.bind_eq_bind, Option.bind_some,
    Option.pure_def]
  rw [← tri6Area_eq, if_neg ha]
  refine ⟨_, rfl, fun k => ?_⟩
  rw [Fin.sum_univ_three]
  rw [mul_div_cancel₀ _ ha, m0 k, m1 k, m2 k]
  have lin : triArea (linearPolygon (m := 3) v) * triCentroid (linearPolygon (m := 3) v) k =
      moment (straight (getEdge2 (m := 3) v 0 0) (getEdge2 (m := 3) v 0 1)) k +
      moment (straight (getEdge2 (m := 3) v 1 0) (getEdge2 (m := 3) v 1 1)) k +
      moment (straight (getEdge2 (m := 3) v 2 0) (getEdge2 (m := 3) v 2 1)) k := by
    rw [moment_straight, moment_straight, moment_straight, (C28_area _).1]
    fin_cases k
    · simp [area2, triCentroid, linearPolygon, getEdge2]; ring
    · simp [area2, triCentroid, linearPolygon, getEdge2]; ring
  rw [lin]; ring

/-- The same for a quadratic quadrilateral (its straight-sided area must not be zero either). -/
theorem C68_quad8_centroid (v : Poly 8 2 ℝ) (h01 : v 0 ≠ v 1) (h12 : v 1 ≠ v 2) (h23 : v 2 ≠ v 3)
    (h30 : v 3 ≠ v 0) (hl : quadArea (linearPolygon (m := 4) v) ≠ 0) (ha : quad8Area v ≠ 0) :
    ∃ c, quadraticCentroid (quadArea (linearPolygon (m := 4) v)) (quadCentroid (linearPolygon (m := 4) v))
        ((List.finRange 4).map (getEdge2 (m := 4) v)) = some c ∧
      ∀ k, quad8Area v * c k = ∑ i, moment (getEdge2 (m := 4) v i) k := by
  obtain ⟨c0, e0, m0⟩ := C68_enclosedCentroid (getEdge2 (m := 4) v 0) h01
  obtain ⟨c1, e1, m1⟩ := C68_enclosedCentroid (getEdge2 (m := 4) v 1) h12
  obtain ⟨c2, e2, m2⟩ := C68_enclosedCentroid (getEdge2 (m := 4) v 2) h23
  obtain ⟨c3, e3, m3⟩ := C68_enclosedCentroid (getEdge2 (m := 4) v 3) h30
  have hlist : (List.finRange 4).map (getEdge2 (m := 4) v) =
      [getEdge2 (m := 4) v 0, getEdge2 (m := 4) v 1, getEdge2 (m := 4) v 2, getEdge2 (m := 4) v 3] := rfl
  rw [hlist]
  unfold quadraticCentroid
  simp only [List.foldlM_cons, List.foldlM_nil, e0, e1, e2, e3, Option.bind_eq_bind, Option.bind_some,
    Option.pure_def]
  rw [← quad8Area_eq, if_neg ha]
  refine ⟨_, rfl, fun k => ?_⟩
  rw [Fin.sum_univ_four]
  rw [mul_div_cancel₀ _ ha, m0 k, m1 k, m2 k, m3 k]
  have lin : quadArea (linearPolygon (m := 4) v) * quadCentroid (linearPolygon (m := 4) v) k =
      moment (straight (getEdge2 (m := 4) v 0 0) (getEdge2 (m := 4) v 0 1)) k +
      moment (straight (getEdge2 (m := 4) v 1 0) (getEdge2 (m := 4) v 1 1)) k +
      moment (straight (getEdge2 (m := 4) v 2 0) (getEdge2 (m := 4) v 2 1)) k +
      moment (straight (getEdge2 (m := 4) v 3 0) (getEdge2 (m := 4) v 3 1)) k := by
    rw [C29_centroid _ hl, moment_straight, moment_straight, moment_straight, moment_straight,
      (C28_area _).1, (C28_area _).1]
    fin_cases k
    · simp [area2, triCentroid, linearPolygon, getEdge2]; ring
    · simp [area2, triCentroid, linearPolygon, getEdge2]; ring
  rw [lin]; ring

/-- A quadratic triangle with one curved edge meets the hypotheses. -/
example : ∃ v : Poly 6 2 ℝ, v 0 ≠ v 1 ∧ v 1 ≠ v 2 ∧ v 2 ≠ v 0 ∧ tri6Area v ≠ 0 := by
  refine ⟨![![0, 0], ![1, 0], ![0, 1], ![1/2, -1/4], ![1/2, 1/2], ![0, 1/2]], ?_, ?_, ?_, ?_⟩
  · intro h; have := congrFun h 0; simp at this
  · intro h; have := congrFun h 0; simp at this
  · intro h; have := congrFun h 1; simp at this
  · rw [tri6Area_eq]
    simp [triArea, enclosedArea, cross_eq, linearPolygon, getEdge2]; norm_num

end Verif.Geom
