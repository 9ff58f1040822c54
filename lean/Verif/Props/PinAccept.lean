import Verif.Props.PinArea
import Mathlib.Analysis.SpecialFunctions.Trigonometric.Bounds

/-!
# C112: which cylindrical pins are meshed

Over the real numbers.  `addCylindricalPinMesh` moves the points of each ring outwards so that the faces have the area of the ring.  The radii of these
points are those of the rings times a factor which depends on the number of azimuthal divisions alone.
-/

namespace Verif.PropsPinAccept

open Verif Verif.Pin Verif.PinArea Verif.PropsPinArea

/-- The factor for linear meshes: a polygon of `na` sides with radius `factor1 na * r` has the area of the circle with radius `r`. -/
noncomputable def factor1 (na : Nat) : ℝ := √((2 * Real.pi / na) / Real.sin (2 * Real.pi / na))

/-- The factor for quadratic meshes: with the middle of each of the `na` parabolic sides at `factor2 na * r` and the ends at `r`, the sides enclose
the area of the circle with radius `r`. -/
noncomputable def factor2 (na : Nat) : ℝ := Real.cos (Real.pi / na) / 4 + 3 * (Real.pi / na) / (4 * Real.sin (Real.pi / na))

/-! ### The radii of the rings -/

theorem steps (eps a : ℝ) (ha : 0 ≤ a) (as : List ℝ) : ∀ (n : Nat) (p : ℝ), 0 ≤ p → ∃ L, radiiLoop (realLibm eps) p (List.replicate n a ++ as) =
    L ++ radiiLoop (realLibm eps) (√(p ^ 2 + n * (a / Real.pi))) as ∧ (∀ x ∈ L, x ≤ √(p ^ 2 + n * (a / Real.pi))) ∧ (0 < n → √(p ^ 2 + n * (a / Real.pi)) ∈ L) := by
  intro n
  induction n with
  | zero =>
    intro p hp
    refine ⟨[], ?_, by simp, by simp⟩
    simp [Real.sqrt_sq hp]
  | succ n ih =>
    intro p hp
    have hd : 0 ≤ a / Real.pi := div_nonneg ha Real.pi_pos.le
    obtain ⟨L, h1, h2, h3⟩ := ih (√(a / Real.pi + p * p)) (Real.sqrt_nonneg _)
    have e : √(a / Real.pi + p * p) ^ 2 + n * (a / Real.pi) = p ^ 2 + (n + 1 : Nat) * (a / Real.pi) := by
      rw [Real.sq_sqrt (by nlinarith)]; push_cast; ring
    rw [e] at h1 h2 h3
    refine ⟨√(a / Real.pi + p * p) :: L, ?_, ?_, ?_⟩
    · rw [List.replicate_succ, List.cons_append, radiiLoop, List.cons_append]
      congr 1
    · intro x hx
      rcases List.mem_cons.1 hx with rfl | hx
      · apply Real.sqrt_le_sqrt
        push_cast
        have : 0 ≤ (n : ℝ) * (a / Real.pi) := by positivity
        nlinarith
      · exact h2 x hx
    · intro _
      by_cases hn : 0 < n
      · exact List.mem_cons_of_mem _ (h3 hn)
      · have : n = 0 := by omega
        subst this
        refine List.mem_cons.2 (Or.inl ?_)
        congr 1
        push_cast; ring

theorem regions (eps : ℝ) : ∀ (radii : List ℝ) (rings : List Nat) (p : ℝ), 0 ≤ p → (p :: radii).Pairwise (· ≤ ·) → radii.length = rings.length →
    (∀ n ∈ rings, 0 < n) → ∀ R, R = radiiLoop (realLibm eps) p (ringAreas (regionAreas (realLibm eps) radii (some p)) rings) →
    (∀ x ∈ R, ∃ r ∈ radii, x ≤ r) ∧ ∀ r ∈ radii, r ∈ R := by
  intro radii
  induction radii with
  | nil =>
    intro rings p _ _ hl _ R hR
    have : rings = [] := by simpa using hl.symm
    subst this
    simp [regionAreas, ringAreas, radiiLoop] at hR
    subst hR
    simp
  | cons r rs ih =>
    intro rings p hp hpw hl hn R hR
    cases rings with
    | nil => simp at hl
    | cons n ns =>
      rw [List.pairwise_cons] at hpw
      obtain ⟨h1, h2⟩ := hpw
      have hpr := h1 r (by simp)
      have hn0 := hn n (by simp)
      have hn' : (0 : ℝ) < n := by exact_mod_cast hn0
      have hpi := Real.pi_pos
      set a : ℝ := Real.pi * (r * r - p * p) / n with ha
      have ha0 : 0 ≤ a := by
        have : 0 ≤ r * r - p * p := by nlinarith
        positivity
      have hR' : R = radiiLoop (realLibm eps) p (List.replicate n a ++ ringAreas (regionAreas (realLibm eps) rs (some r)) ns) := by
        rw [hR]
        congr 1
      obtain ⟨L, q1, q2, q3⟩ := steps eps a ha0 (ringAreas (regionAreas (realLibm eps) rs (some r)) ns) n p hp
      have e : √(p ^ 2 + n * (a / Real.pi)) = r := by
        have : p ^ 2 + n * (a / Real.pi) = r ^ 2 := by rw [ha]; field_simp; ring
        rw [this, Real.sqrt_sq (hp.trans hpr)]
      rw [e] at q1 q2 q3
      rw [q1] at hR'
      obtain ⟨i1, i2⟩ := ih ns r (hp.trans hpr) h2 (by simpa using hl) (fun m hm => hn m (by simp [hm])) _ rfl
      subst hR'
      constructor
      · intro x hx
        rcases List.mem_append.1 hx with hx | hx
        · exact ⟨r, by simp, q2 x hx⟩
        · obtain ⟨r', h, h'⟩ := i1 x hx
          exact ⟨r', by simp [h], h'⟩
      · intro x hx
        rcases List.mem_cons.1 hx with rfl | hx
        · exact List.mem_append_left _ (q3 hn0)
        · exact List.mem_append_right _ (i2 x hx)

theorem ringRadii_loop (eps : ℝ) (as : List ℝ) : ringRadii (realLibm eps) as = radiiLoop (realLibm eps) 0 as := by
  cases as with
  | nil => rfl
  | cons a as => simp [ringRadii, radiiLoop]

theorem regionAreas_zero (eps : ℝ) (radii : List ℝ) : regionAreas (realLibm eps) radii none = regionAreas (realLibm eps) radii (some 0) := by
  cases radii with
  | nil => rfl
  | cons r rs => simp [regionAreas, mul_assoc]

/-! ### The radii of the points -/

theorem eqLoop1_map (eps : ℝ) {na : Nat} (hn : 0 < na) (hs : 0 < Real.sin (2 * Real.pi / na)) (as : List ℝ) : ∀ p : ℝ,
    eqLoop1 (realLibm eps) na (factor1 na * p) as = (radiiLoop (realLibm eps) p as).map (factor1 na * ·) := by
  have hn' : (0 : ℝ) < na := by exact_mod_cast hn
  have hpi := Real.pi_pos
  have hf0 : 0 ≤ factor1 na := Real.sqrt_nonneg _
  have hf : factor1 na ^ 2 = (2 * Real.pi / na) / Real.sin (2 * Real.pi / na) := Real.sq_sqrt (by positivity)
  induction as with
  | nil => intro p; rfl
  | cons a as ih =>
    intro p
    have e : √(2 * a / (Real.sin (2 * Real.pi / na) * na) + factor1 na * p * (factor1 na * p)) = factor1 na * √(a / Real.pi + p * p) := by
      have : 2 * a / (Real.sin (2 * Real.pi / na) * na) + factor1 na * p * (factor1 na * p) = factor1 na ^ 2 * (a / Real.pi + p * p) := by
        rw [mul_add]
        congr 1
        · rw [hf]; field_simp
        · ring
      rw [this, Real.sqrt_mul (by positivity), Real.sqrt_sq hf0]
    show √(2 * a / (Real.sin (2 * Real.pi / na) * na) + factor1 na * p * (factor1 na * p)) :: eqLoop1 (realLibm eps) na (√(2 * a / (Real.sin (2 * Real.pi / na) * na) + factor1 na * p * (factor1 na * p))) as = _
    rw [e, ih]
    rfl

theorem eqRadii1_map (eps : ℝ) {na : Nat} (hn : 0 < na) (hs : 0 < Real.sin (2 * Real.pi / na)) (as : List ℝ) :
    eqRadii1 (realLibm eps) na as = (ringRadii (realLibm eps) as).map (factor1 na * ·) := by
  have : eqRadii1 (realLibm eps) na as = eqLoop1 (realLibm eps) na (factor1 na * 0) as := by
    cases as with
    | nil => rfl
    | cons a as => simp [eqRadii1, eqLoop1]
  rw [this, eqLoop1_map eps hn hs, ringRadii_loop]

theorem eqLoop2_map (eps : ℝ) {na : Nat} (hn : 0 < na) (hs : 0 < Real.sin (Real.pi / na)) (as : List ℝ) (ha : ∀ a ∈ as, 0 ≤ a) : ∀ l : ℝ, 0 < l →
    eqLoop2 (realLibm eps) na l (factor2 na * l) (radiiLoop (realLibm eps) l as) as = (radiiLoop (realLibm eps) l as).map (factor2 na * ·) := by
  have hn' : (0 : ℝ) < na := by exact_mod_cast hn
  have hpi := Real.pi_pos
  induction as with
  | nil => intro l _; rfl
  | cons a as ih =>
    intro l hl
    have ha0 := ha a (by simp)
    have hx : 0 < a / Real.pi + l * l := by positivity
    have hx2 : √(a / Real.pi + l * l) * √(a / Real.pi + l * l) = a / Real.pi + l * l := Real.mul_self_sqrt hx.le
    have hx0 : 0 < √(a / Real.pi + l * l) := Real.sqrt_pos.2 hx
    have hg : gamma (realLibm eps) na = Real.pi / na := by
      show 2 * Real.pi / na / 2 = _
      ring
    rw [radiiLoop, eqLoop2]
    rw [hg]
    simp only [realLibm]
    have e : 3 / 4 * (a / na - (√(a / Real.pi + l * l) * √(a / Real.pi + l * l) - l * l) * (Real.sin (Real.pi / na) * Real.cos (Real.pi / na)) +
        l * Real.sin (Real.pi / na) * (factor2 na * l - l * Real.cos (Real.pi / na)) / (3 / 4)) / (√(a / Real.pi + l * l) * Real.sin (Real.pi / na)) +
        √(a / Real.pi + l * l) * Real.cos (Real.pi / na) = factor2 na * √(a / Real.pi + l * l) := by
      generalize √(a / Real.pi + l * l) = y at *
      have hay : a = Real.pi * (y * y - l * l) := by rw [hx2]; field_simp; ring
      unfold factor2
      generalize Real.cos (Real.pi / na) = c at *
      generalize Real.sin (Real.pi / na) = s at *
      rw [hay]
      field_simp
      ring
    rw [e]
    have := ih (fun x hx => ha x (by simp [hx])) _ hx0
    simp only [realLibm] at this
    rw [this]
    rfl

theorem eqRadii2_map (eps : ℝ) {na : Nat} (hn : 0 < na) (hs : 0 < Real.sin (Real.pi / na)) (a : ℝ) (as : List ℝ) (h0 : 0 < a) (ha : ∀ a ∈ as, 0 ≤ a) :
    eqRadii2 (realLibm eps) na (ringRadii (realLibm eps) (a :: as)) (a :: as) = (ringRadii (realLibm eps) (a :: as)).map (factor2 na * ·) := by
  have hn' : (0 : ℝ) < na := by exact_mod_cast hn
  have hpi := Real.pi_pos
  have hx : 0 < a / Real.pi := by positivity
  have hx0 : 0 < √(a / Real.pi) := Real.sqrt_pos.2 hx
  have hx2 : √(a / Real.pi) * √(a / Real.pi) = a / Real.pi := Real.mul_self_sqrt hx.le
  have hg : gamma (realLibm eps) na = Real.pi / na := by
    show 2 * Real.pi / na / 2 = _
    ring
  rw [ringRadii, eqRadii2]
  rw [hg]
  simp only [realLibm]
  have e : 3 / 4 * (a / na - √(a / Real.pi) * √(a / Real.pi) * (Real.sin (Real.pi / na) * Real.cos (Real.pi / na))) / (√(a / Real.pi) * Real.sin (Real.pi / na)) +
      √(a / Real.pi) * Real.cos (Real.pi / na) = factor2 na * √(a / Real.pi) := by
    generalize √(a / Real.pi) = y at *
    have hay : a = Real.pi * (y * y) := by rw [hx2]; field_simp
    unfold factor2
    generalize Real.cos (Real.pi / na) = c at *
    generalize Real.sin (Real.pi / na) = s at *
    rw [hay]
    field_simp
    ring
  rw [e]
  have := eqLoop2_map eps hn hs as ha _ hx0
  simp only [realLibm] at this
  rw [this]
  rfl

/-! ### The factors -/

section
variable {na : Nat}

theorem angle_pos (h8 : 8 ≤ na) : 0 < Real.pi / na ∧ Real.pi / na ≤ Real.pi / 8 := by
  have hn : (8 : ℝ) ≤ na := by exact_mod_cast h8
  have hpi := Real.pi_pos
  exact ⟨by positivity, div_le_div_of_nonneg_left hpi.le (by norm_num) hn⟩

theorem sin1_pos (h8 : 8 ≤ na) : 0 < Real.sin (2 * Real.pi / na) := sin_theta_pos h8 0

theorem sin2_pos (h8 : 8 ≤ na) : 0 < Real.sin (Real.pi / na) := by
  have := angle_pos h8
  have hpi := Real.pi_pos
  exact Real.sin_pos_of_pos_of_lt_pi this.1 (by linarith)

theorem cos2_pos (h8 : 8 ≤ na) : 0 < Real.cos (Real.pi / na) := by
  have := angle_pos h8
  have hpi := Real.pi_pos
  exact Real.cos_pos_of_mem_Ioo ⟨by linarith, by linarith⟩

theorem factor1_sq (h8 : 8 ≤ na) : factor1 na ^ 2 = (Real.pi / na) / (Real.sin (Real.pi / na) * Real.cos (Real.pi / na)) := by
  have h1 := sin2_pos h8
  have h2 := cos2_pos h8
  have h3 := angle_pos h8
  have e : 2 * Real.pi / na = 2 * (Real.pi / na) := by ring
  unfold factor1
  rw [Real.sq_sqrt (by have := sin1_pos h8; have := Real.pi_pos; positivity), e, Real.sin_two_mul]
  field_simp

/-- The function whose derivative is `2 (1 - cos x)²`. -/
theorem four_sin_lt {x : ℝ} (h0 : 0 < x) (h1 : x < Real.pi) : 4 * Real.sin x < 3 * x + Real.sin x * Real.cos x := by
  have hm : StrictMonoOn (fun x => 3 * x + Real.sin x * Real.cos x - 4 * Real.sin x) (Set.Icc 0 x) := by
    refine strictMonoOn_of_deriv_pos (convex_Icc 0 x) (by fun_prop) ?_
    intro y hy
    rw [interior_Icc] at hy
    have hd : HasDerivAt (fun x => 3 * x + Real.sin x * Real.cos x - 4 * Real.sin x)
        (3 * 1 + (Real.cos y * Real.cos y + Real.sin y * (-Real.sin y)) - 4 * Real.cos y) y :=
      ((((hasDerivAt_id y).const_mul 3).add ((Real.hasDerivAt_sin y).mul (Real.hasDerivAt_cos y))).sub ((Real.hasDerivAt_sin y).const_mul 4))
    rw [hd.deriv]
    have hc : Real.cos y < 1 := by
      have := Real.cos_lt_cos_of_nonneg_of_le_pi le_rfl (by linarith [hy.2] : y ≤ Real.pi) hy.1
      simpa using this
    have := Real.sin_sq_add_cos_sq y
    nlinarith [sq_nonneg (1 - Real.cos y), mul_pos (sub_pos.2 hc) (sub_pos.2 hc)]
  have := hm ⟨le_rfl, h0.le⟩ ⟨h0.le, le_rfl⟩ h0
  simp at this
  linarith

theorem one_lt_factor2 (h8 : 8 ≤ na) : 1 < factor2 na := by
  have hs := sin2_pos h8
  have ha := angle_pos h8
  have hpi := Real.pi_pos
  have := four_sin_lt ha.1 (by linarith)
  unfold factor2
  rw [div_add_div _ _ (by norm_num) (by positivity), lt_div_iff₀ (by positivity)]
  linarith

theorem factor2_le_factor1 (h8 : 8 ≤ na) : factor2 na ≤ factor1 na := by
  have hs := sin2_pos h8
  have hc := cos2_pos h8
  have ha := angle_pos h8
  have hpi := Real.pi_pos
  have h1 := Real.sin_le ha.1.le
  have h2 : Real.pi / na ≤ Real.tan (Real.pi / na) := Real.le_tan ha.1.le (by linarith)
  have h3 := Real.cos_le_one (Real.pi / na)
  rw [Real.tan_eq_sin_div_cos, le_div_iff₀ hc] at h2
  have hsq := factor1_sq h8
  refine le_of_sq_le_sq ?_ (Real.sqrt_nonneg _)
  rw [hsq]
  unfold factor2
  generalize Real.pi / (na : ℝ) = g at *
  generalize Real.sin g = s at *
  generalize Real.cos g = c at *
  -- with `x = g / s`: `1 ≤ x` and `c * x ≤ 1`
  obtain ⟨x, hx⟩ : ∃ x, g = x * s := ⟨g / s, by field_simp⟩
  subst hx
  have x1 : 1 ≤ x := by by_contra hn; push Not at hn; nlinarith
  have x2 : x * c ≤ 1 := by by_contra hn; push Not at hn; nlinarith
  have e1 : 3 * (x * s) / (4 * s) = 3 * x / 4 := by field_simp
  have e2 : x * s / (s * c) = x / c := by field_simp
  rw [e1, e2, le_div_iff₀ hc]
  have c2 : c * c ≤ 1 := by nlinarith
  have c3 : c * c * c ≤ x := by nlinarith
  have c4 : c * c * x ≤ x := by nlinarith
  have c5 : x * (x * c) ≤ x := by nlinarith
  nlinarith

theorem factor1_double (h8 : 8 ≤ na) : factor1 (2 * na) ≤ factor1 na := by
  unfold factor1
  apply Real.sqrt_le_sqrt
  have hs := sin2_pos h8
  have hc := cos2_pos h8
  have ha := angle_pos h8
  have h3 := Real.cos_le_one (Real.pi / na)
  have e1 : 2 * Real.pi / ((2 * na : Nat) : ℝ) = Real.pi / na := by push_cast; rw [mul_div_mul_left _ _ (by norm_num)]
  have e2 : 2 * Real.pi / na = 2 * (Real.pi / na) := by ring
  rw [e1, e2, Real.sin_two_mul, div_le_div_iff₀ hs (by positivity)]
  nlinarith [mul_pos ha.1 hs, mul_nonneg (mul_pos ha.1 hs).le (sub_nonneg.2 h3)]

theorem factor2_double (h8 : 8 ≤ na) : factor2 (2 * na) ≤ factor2 na := by
  have h16 : 8 ≤ 2 * na := by omega
  have hs := sin2_pos h16
  have hc := cos2_pos h16
  have ha := angle_pos h16
  have h1 := Real.sin_le ha.1.le
  have h3 := Real.cos_le_one (Real.pi / (2 * na : Nat))
  have e : Real.pi / na = 2 * (Real.pi / (2 * na : Nat)) := by
    push_cast
    rw [mul_div_assoc', mul_div_mul_left _ _ (by norm_num)]
  unfold factor2
  rw [e, Real.sin_two_mul, Real.cos_two_mul]
  generalize Real.pi / ((2 * na : Nat) : ℝ) = g at *
  generalize Real.sin g = s at *
  generalize Real.cos g = c at *
  obtain ⟨x, hx⟩ : ∃ x, g = x * s := ⟨g / s, by field_simp⟩
  subst hx
  have x1 : 1 ≤ x := by by_contra hn; push Not at hn; nlinarith
  have e1 : 3 * (x * s) / (4 * s) = 3 * x / 4 := by field_simp
  have e2 : 3 * (2 * (x * s)) / (4 * (2 * s * c)) = 3 * x / 4 / c := by field_simp
  rw [e1, e2, ← sub_nonneg]
  have : (2 * c ^ 2 - 1) / 4 + 3 * x / 4 / c - (c / 4 + 3 * x / 4) = (1 - c) * (3 * x - (2 * c + 1) * c) / (4 * c) := by field_simp; ring
  rw [this]
  have : 0 ≤ 3 * x - (2 * c + 1) * c := by nlinarith
  have : 0 ≤ 1 - c := by linarith
  positivity

end

theorem eighth : Real.sin (Real.pi / 8) ^ 2 = (2 - √2) / 4 ∧ Real.cos (Real.pi / 8) ^ 2 = (2 + √2) / 4 := by
  rw [Real.sin_pi_div_eight, Real.cos_pi_div_eight, div_pow, div_pow, Real.sq_sqrt, Real.sq_sqrt]
  · constructor <;> ring
  · positivity
  · have : √2 ≤ 2 := by rw [Real.sqrt_le_left (by norm_num)]; norm_num
    linarith

/-- **C112**, the factors: more than one, less for quadratic meshes, and less with twice as many divisions; at eight divisions at most 5.4 % and 0.1 %
more than one. -/
theorem C112_factors : (∀ k, 3 ≤ k → 1 < factor2 (2 ^ k) ∧ factor2 (2 ^ k) ≤ factor1 (2 ^ k) ∧ factor1 (2 ^ (k + 1)) ≤ factor1 (2 ^ k) ∧
    factor2 (2 ^ (k + 1)) ≤ factor2 (2 ^ k)) ∧ 1053 / 1000 < factor1 8 ∧ factor1 8 < 1054 / 1000 ∧ factor2 8 < 1001 / 1000 := by
  refine ⟨?_, ?_⟩
  · intro k hk
    have h8 : 8 ≤ 2 ^ k := by
      calc 8 = 2 ^ 3 := rfl
        _ ≤ 2 ^ k := Nat.pow_le_pow_right (by decide) hk
    rw [pow_succ, Nat.mul_comm]
    exact ⟨one_lt_factor2 h8, factor2_le_factor1 h8, factor1_double h8, factor2_double h8⟩
  have hpi1 := Real.pi_gt_d4
  have hpi2 := Real.pi_lt_d4
  have hr : √2 ^ 2 = (2 : ℝ) := Real.sq_sqrt (by norm_num)
  have hr0 : 0 ≤ √(2 : ℝ) := Real.sqrt_nonneg _
  have hr1 : 1.4142 ≤ √(2 : ℝ) := by by_contra hn; push Not at hn; nlinarith
  have hr2 : √(2 : ℝ) ≤ 1.41422 := by by_contra hn; push Not at hn; nlinarith
  have h1 := factor1_sq (na := 8) le_rfl
  have hsc : Real.sin (Real.pi / (8 : Nat)) * Real.cos (Real.pi / (8 : Nat)) = √2 / 4 := by
    have := Real.sin_two_mul (Real.pi / 8)
    rw [show 2 * (Real.pi / 8) = Real.pi / 4 by ring, Real.sin_pi_div_four] at this
    push_cast
    linarith
  rw [hsc] at h1
  have h1' : factor1 8 ^ 2 = Real.pi * √2 / 4 := by
    rw [h1]
    push_cast
    rw [div_div_eq_mul_div, div_eq_div_iff (by positivity) (by norm_num)]
    nlinarith
  have hf : 0 ≤ factor1 8 := Real.sqrt_nonneg _
  refine ⟨?_, ?_, ?_⟩
  · by_contra hn; push Not at hn; nlinarith
  · by_contra hn; push Not at hn; nlinarith
  · have hs0 := sin2_pos (na := 8) le_rfl
    have hc0 := cos2_pos (na := 8) le_rfl
    obtain ⟨e1, e2⟩ := eighth
    unfold factor2
    push_cast at hs0 hc0 ⊢
    generalize Real.sin (Real.pi / 8) = x at *
    generalize Real.cos (Real.pi / 8) = y at *
    have hx : 0.3826 ≤ x := by by_contra hn; push Not at hn; nlinarith
    have hy : y ≤ 0.924 := by by_contra hn; push Not at hn; nlinarith
    have : 3 * (Real.pi / 8) / (4 * x) ≤ 0.7699 := by
      rw [div_le_iff₀ (by positivity)]
      nlinarith
    linarith

/-- A pin that can be drawn: circles of growing radii, each region with a ring. -/
structure Drawn (radii : List ℝ) (rings : List ℤ) : Prop where
  some : radii ≠ []
  length : radii.length = rings.length
  pos : ∀ r ∈ radii, 0 < r
  order : radii.Pairwise (· ≤ ·)
  rings : ∀ n ∈ rings, 0 < n

/-- The circles of a drawn pin are among the radii of the rings, and none of these is larger. -/
theorem drawn_radii (eps : ℝ) {radii : List ℝ} {rings : List ℤ} (h : Drawn radii rings) (f half : ℝ) (hf : 0 ≤ f) :
    ((ringRadii (realLibm eps) (ringAreas (regionAreas (realLibm eps) radii none) (rings.map Int.toNat))).map (f * ·)).any (fun r => decide (half < r)) = true ↔
      ∃ r ∈ radii, half < f * r := by
  have hr : ∀ n ∈ rings.map Int.toNat, 0 < n := by
    intro n hn
    obtain ⟨z, hz, rfl⟩ := List.mem_map.1 hn
    have := h.rings z hz
    omega
  obtain ⟨h1, h2⟩ := regions eps radii (rings.map Int.toNat) 0 le_rfl (List.pairwise_cons.2 ⟨fun r hr => (h.pos r hr).le, h.order⟩)
    (by rw [List.length_map]; exact h.length) hr _ rfl
  rw [regionAreas_zero, ringRadii_loop]
  simp only [List.any_eq_true, List.mem_map, decide_eq_true_eq]
  constructor
  · rintro ⟨_, ⟨x, hx, rfl⟩, hlt⟩
    obtain ⟨r, hr, hle⟩ := h1 x hx
    exact ⟨r, hr, hlt.trans_le (mul_le_mul_of_nonneg_left hle hf)⟩
  · rintro ⟨r, hr, hlt⟩
    exact ⟨_, ⟨r, h2 r hr, rfl⟩, hlt⟩

theorem pow_and (k : Nat) : 2 ^ k &&& (2 ^ k - 1) = 0 := by
  rw [Nat.and_two_pow_sub_one_eq_mod, Nat.mod_self]

theorem drawn_rings {radii : List ℝ} {rings : List ℤ} (h : Drawn radii rings) : ¬ (rings.headD 0 ≤ 0 ∨ rings.any (fun n => decide (n < 0)) = true) := by
  have hn : rings ≠ [] := by
    intro hn
    have := h.length
    rw [hn] at this
    exact h.some (List.eq_nil_of_length_eq_zero this)
  cases rings with
  | nil => exact absurd rfl hn
  | cons n ns =>
    have h1 := h.rings n (by simp)
    rintro (h2 | h2)
    · simp at h2; omega
    · obtain ⟨z, hz, hlt⟩ := List.any_eq_true.1 h2
      have := h.rings z hz
      simp at hlt
      omega

/-- **C112**, linear meshes: a pin with `2 ^ k` divisions, `k ≥ 3`, is meshed exactly if its circles, enlarged by the factor, fit into the cell;
otherwise it is refused. -/
theorem C112_linear_partial (eps pitch : ℝ) (radii : List ℝ) (rings : List ℤ) (h : Drawn radii rings) (k : Nat) (hk : 3 ≤ k)
    (hsize : 1 + ((rings.map Int.toNat).sum + 1) * 2 ^ k + 2 ^ k / 2 < 2 ^ 31) :
    ((∃ mesh, cylindricalMesh (realLibm eps) pitch radii rings (2 ^ k : Nat) 1 = some (some mesh)) ↔ ∀ r ∈ radii, factor1 (2 ^ k) * r ≤ pitch / 2) ∧
    (cylindricalMesh (realLibm eps) pitch radii rings (2 ^ k : Nat) 1 = some none ↔ ∃ r ∈ radii, pitch / 2 < factor1 (2 ^ k) * r) := by
  have h8 : 8 ≤ 2 ^ k := by
    calc 8 = 2 ^ 3 := rfl
      _ ≤ 2 ^ k := Nat.pow_le_pow_right (by decide) hk
  have hf : 1 < factor1 (2 ^ k) := (one_lt_factor2 h8).trans_le (factor2_le_factor1 h8)
  have key : cylindricalMesh (realLibm eps) pitch radii rings (2 ^ k : Nat) 1 =
      if ∃ r ∈ radii, pitch / 2 < factor1 (2 ^ k) * r then some none else
        some (some ⟨(points1 (realLibm eps) (2 ^ k) pitch (eqRadii1 (realLibm eps) (2 ^ k) (ringAreas (regionAreas (realLibm eps) radii none) (rings.map Int.toNat)))).map
          (shift (realLibm eps) pitch), faces1 (2 ^ k) (rings.map Int.toNat).sum⟩) := by
    unfold cylindricalMesh
    rw [if_neg (by decide), if_neg (by exact_mod_cast not_lt.2 h8)]
    rw [if_neg (by rw [Int.toNat_natCast, pow_and]; simp), if_neg (not_not.2 h.length)]
    by_cases hany : (radii.any fun r => decide (pitch / 2 < r)) = true
    · rw [if_pos hany]
      obtain ⟨r, hr, hlt⟩ := List.any_eq_true.1 hany
      have hlt := of_decide_eq_true hlt
      rw [if_pos]
      exact ⟨r, hr, by nlinarith [h.pos r hr]⟩
    · rw [if_neg hany, if_neg (drawn_rings h)]
      dsimp only
      rw [Int.toNat_natCast, if_pos rfl, if_neg (by omega), eqRadii1_map eps (by omega) (sin1_pos h8)]
      have := drawn_radii eps h (factor1 (2 ^ k)) (pitch / 2) (by linarith)
      by_cases hq : ∃ r ∈ radii, pitch / 2 < factor1 (2 ^ k) * r
      · rw [if_pos (this.2 hq), if_pos hq]
      · rw [if_neg (fun e => hq (this.1 e)), if_neg hq]
  rw [key]
  by_cases hq : ∃ r ∈ radii, pitch / 2 < factor1 (2 ^ k) * r
  · rw [if_pos hq]
    refine ⟨⟨?_, ?_⟩, by simp [hq]⟩
    · rintro ⟨_, h⟩; simp at h
    · intro hall
      obtain ⟨r, hr, hlt⟩ := hq
      exact absurd (hall r hr) (not_le.2 hlt)
  · rw [if_neg hq]
    refine ⟨⟨fun _ r hr => ?_, fun _ => ⟨_, rfl⟩⟩, ⟨fun e => by simp at e, fun e => absurd e hq⟩⟩
    by_contra hn
    exact hq ⟨r, hr, not_le.1 hn⟩

/-- **C112**, quadratic meshes. -/
theorem C112_quadratic_partial (eps pitch : ℝ) (radii : List ℝ) (rings : List ℤ) (h : Drawn radii rings) (k : Nat) (hk : 3 ≤ k)
    (hsize : 1 + 4 * 2 ^ k + 3 * 2 ^ k * (rings.map Int.toNat).sum < 2 ^ 31) :
    ((∃ mesh, cylindricalMesh (realLibm eps) pitch radii rings (2 ^ k : Nat) 2 = some (some mesh)) ↔ ∀ r ∈ radii, factor2 (2 ^ k) * r ≤ pitch / 2) ∧
    (cylindricalMesh (realLibm eps) pitch radii rings (2 ^ k : Nat) 2 = some none ↔ ∃ r ∈ radii, pitch / 2 < factor2 (2 ^ k) * r) := by
  have h8 : 8 ≤ 2 ^ k := by
    calc 8 = 2 ^ 3 := rfl
      _ ≤ 2 ^ k := Nat.pow_le_pow_right (by decide) hk
  have hf : 1 < factor2 (2 ^ k) := one_lt_factor2 h8
  obtain ⟨a, as, ha, ha0⟩ : ∃ a as, ringAreas (regionAreas (realLibm eps) radii none) (rings.map Int.toNat) = a :: as ∧ 0 < a := by
    rw [regionAreas_eps]
    refine ringAreas_head h.pos h.length ?_
    have := drawn_rings h
    push Not at this
    exact this.1
  have hnn : ∀ x ∈ as, 0 ≤ x := by
    intro x hx
    refine ringAreas_nonneg (regionAreas (realLibm eps) radii none) (rings.map Int.toNat) (regionAreas_nonneg eps radii h.pos h.order) x ?_
    rw [ha]
    exact List.mem_cons_of_mem _ hx
  have key : ∃ mesh, cylindricalMesh (realLibm eps) pitch radii rings (2 ^ k : Nat) 2 =
      if ∃ r ∈ radii, pitch / 2 < factor2 (2 ^ k) * r then some none else some (some mesh) := by
    unfold cylindricalMesh
    rw [if_neg (by decide), if_neg (by exact_mod_cast not_lt.2 h8)]
    rw [if_neg (by rw [Int.toNat_natCast, pow_and]; simp), if_neg (not_not.2 h.length)]
    by_cases hany : (radii.any fun r => decide (pitch / 2 < r)) = true
    · rw [if_pos hany]
      obtain ⟨r, hr, hlt⟩ := List.any_eq_true.1 hany
      have hlt := of_decide_eq_true hlt
      exact ⟨⟨[], []⟩, (if_pos ⟨r, hr, by nlinarith [h.pos r hr]⟩).symm⟩
    · rw [if_neg hany, if_neg (drawn_rings h)]
      dsimp only
      have hd := drawn_radii eps h (factor2 (2 ^ k)) (pitch / 2) (by linarith)
      rw [ha] at hd ⊢
      rw [Int.toNat_natCast, if_neg (by decide), if_neg (by omega), eqRadii2_map eps (by omega) (sin2_pos h8) a as ha0 hnn]
      by_cases hq : ∃ r ∈ radii, pitch / 2 < factor2 (2 ^ k) * r
      · exact ⟨⟨[], []⟩, by rw [if_pos (hd.2 hq), if_pos hq]⟩
      · exact ⟨_, by rw [if_neg (fun e => hq (hd.1 e)), if_neg hq]⟩
  obtain ⟨mesh, key⟩ := key
  rw [key]
  by_cases hq : ∃ r ∈ radii, pitch / 2 < factor2 (2 ^ k) * r
  · rw [if_pos hq]
    refine ⟨⟨?_, ?_⟩, by simp [hq]⟩
    · rintro ⟨_, h⟩; simp at h
    · intro hall
      obtain ⟨r, hr, hlt⟩ := hq
      exact absurd (hall r hr) (not_le.2 hlt)
  · rw [if_neg hq]
    refine ⟨⟨fun _ r hr => ?_, fun _ => ⟨_, rfl⟩⟩, ⟨fun e => by simp at e, fun e => absurd e hq⟩⟩
    by_contra hn
    exact hq ⟨r, hr, not_le.1 hn⟩

/-- **C112.**  A pin that is meshed is also meshed with twice the divisions, as long as the sizes fit in 32 bits; a pin that is meshed with straight
edges is also meshed with curved ones. -/
theorem C112_finer (eps pitch : ℝ) (radii : List ℝ) (rings : List ℤ) (h : Drawn radii rings) (k : Nat) (hk : 3 ≤ k)
    (hsize : 1 + 4 * 2 ^ (k + 1) + 3 * 2 ^ (k + 1) * (rings.map Int.toNat).sum < 2 ^ 31) :
    (∀ order : ℤ, order = 1 ∨ order = 2 → (∃ mesh, cylindricalMesh (realLibm eps) pitch radii rings (2 ^ k : Nat) order = some (some mesh)) →
      ∃ mesh, cylindricalMesh (realLibm eps) pitch radii rings (2 ^ (k + 1) : Nat) order = some (some mesh)) ∧
    ((∃ mesh, cylindricalMesh (realLibm eps) pitch radii rings (2 ^ k : Nat) 1 = some (some mesh)) →
      ∃ mesh, cylindricalMesh (realLibm eps) pitch radii rings (2 ^ k : Nat) 2 = some (some mesh)) := by
  obtain ⟨h1, h2, h3, h4⟩ := C112_factors.1 k hk
  have hm : ∀ a b : ℝ, a ≤ b → (∀ r ∈ radii, b * r ≤ pitch / 2) → ∀ r ∈ radii, a * r ≤ pitch / 2 := fun a b hab hall r hr =>
    (mul_le_mul_of_nonneg_right hab (h.pos r hr).le).trans (hall r hr)
  have hp : 2 ^ (k + 1) = 2 * 2 ^ k := by rw [pow_succ, Nat.mul_comm]
  rw [hp] at hsize
  generalize hS : (rings.map Int.toNat).sum = S at hsize
  have s0 : 2 ^ k * S ≤ 2 * (2 ^ k * S) := by omega
  have e1 : 3 * (2 * 2 ^ k) * S = 6 * (2 ^ k * S) := by ring
  have e2 : 3 * 2 ^ k * S = 3 * (2 ^ k * S) := by ring
  have e3 : (S + 1) * 2 ^ k = 2 ^ k * S + 2 ^ k := by ring
  have e4 : (S + 1) * (2 * 2 ^ k) = 2 * (2 ^ k * S) + 2 * 2 ^ k := by ring
  have s1 : 1 + (S + 1) * 2 ^ k + 2 ^ k / 2 < 2 ^ 31 := by omega
  have s2 : 1 + (S + 1) * 2 ^ (k + 1) + 2 ^ (k + 1) / 2 < 2 ^ 31 := by rw [hp]; omega
  have s3 : 1 + 4 * 2 ^ k + 3 * 2 ^ k * S < 2 ^ 31 := by omega
  have s4 : 1 + 4 * 2 ^ (k + 1) + 3 * 2 ^ (k + 1) * S < 2 ^ 31 := by rw [hp]; omega
  subst hS
  have l1 := (C112_linear_partial eps pitch radii rings h k hk s1).1
  have l2 := (C112_linear_partial eps pitch radii rings h (k + 1) (by omega) s2).1
  have q1 := (C112_quadratic_partial eps pitch radii rings h k hk s3).1
  have q2 := (C112_quadratic_partial eps pitch radii rings h (k + 1) (by omega) s4).1
  refine ⟨?_, ?_⟩
  · rintro order (rfl | rfl) hex
    · exact l2.2 (hm _ _ h3 (l1.1 hex))
    · exact q2.2 (hm _ _ h4 (q1.1 hex))
  · intro hex
    exact q1.2 (hm _ _ h2 (l1.1 hex))

/-- The pin of the C5G7 problem. -/
theorem c5g7_drawn : Drawn [54 / 100, 62 / 100] [3, 2] where
  some := by simp
  length := rfl
  pos := by simp
  order := by simp; norm_num
  rings := by simp

/-- The mesh of the C5G7 problem: quadratic, with eight divisions. -/
theorem c5g7_meshed (eps : ℝ) : ∃ mesh, cylindricalMesh (realLibm eps) (126 / 100) [54 / 100, 62 / 100] [3, 2] 8 2 = some (some mesh) := by
  have := (C112_quadratic_partial eps (126 / 100) _ _ c5g7_drawn 3 le_rfl (by decide)).1
  refine this.2 ?_
  have h := C112_factors.2.2.2
  have e : (2 : Nat) ^ 3 = 8 := rfl
  rw [e]
  simp only [List.mem_cons, List.not_mem_nil, or_false, forall_eq_or_imp, forall_eq]
  constructor <;> linarith

example : ∃ mesh, cylindricalMesh (realLibm 0) (126 / 100) [54 / 100, 62 / 100] [3, 2] 8 2 = some (some mesh) := c5g7_meshed 0

/-- **C112 fails** as the message of the function has it, that the radii must be less than half the pitch: a pin with radius 0.6 in a cell of side 1.26
is refused with eight divisions and straight edges. -/
theorem C112_half_pitch_fails (eps : ℝ) : (6 / 10 : ℝ) < (126 / 100) / 2 ∧ cylindricalMesh (realLibm eps) (126 / 100) [6 / 10] [1] 8 1 = some none := by
  refine ⟨by norm_num, ?_⟩
  have hd : Drawn [6 / 10] [1] := ⟨by simp, rfl, by simp, by simp, by simp⟩
  have := (C112_linear_partial eps (126 / 100) _ _ hd 3 le_rfl (by decide)).2
  refine this.2 ⟨6 / 10, by simp, ?_⟩
  have h := C112_factors.2.1
  have e : (2 : Nat) ^ 3 = 8 := rfl
  rw [e]
  linarith

end Verif.PropsPinAccept
