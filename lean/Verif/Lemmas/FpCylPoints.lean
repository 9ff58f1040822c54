import Verif.Lemmas.FpCylTerms

/-! The radii and the points of cylindrical pin meshes, in floating-point arithmetic. -/

set_option linter.unusedSectionVars false

namespace Verif.FpCyl

open Verif.Fp Verif.Pin Verif.PinArea Verif.PropsPinArea Verif.PropsPinAccept

variable {p : ℕ}

/-! ### Lists -/

theorem ringAreas_map (c : ℝ) (radii : List ℝ) : ∀ (rings : List ℕ) (q : Option ℝ),
    (ringAreas (regionAreas (realLibm 0) radii q) rings).map (fun a => a * c) = xInc (Real.pi * c) q (radii.zip rings) := by
  induction radii with
  | nil => intro rings q; simp [regionAreas, ringAreas, xInc]
  | cons r rs ih =>
    intro rings q
    cases rings with
    | nil => simp [ringAreas, xInc]
    | cons n ns =>
      have key : ∀ A As, ringAreas (A :: As) (n :: ns) = List.replicate n (A / (n : ℝ)) ++ ringAreas As ns := fun A As => by simp [ringAreas]
      rw [List.zip_cons_cons, xInc]
      cases q with
      | none =>
        rw [regionAreas, key, List.map_append, List.map_replicate, ih]
        congr 2
        show Real.pi * r * r / n * c = _
        simp only [Option.getD_none]
        ring
      | some q =>
        rw [regionAreas, key, List.map_append, List.map_replicate, ih]
        congr 2
        show Real.pi * (r * r - q * q) / n * c = _
        simp only [Option.getD_some]
        ring

theorem ringAreasFp_map (m : FpLibm ℝ p) (g : ℝ → ℝ) (radii : List ℝ) : ∀ (rings : List ℕ) (q : Option ℝ),
    (ringAreasFp m (regionAreasFp m radii q) rings).map g = fInc (fun q r n => g (m.R.rnd (regionFp m r q / m.R.rnd (n : ℝ)))) q (radii.zip rings) := by
  induction radii with
  | nil => intro rings q; simp [regionAreasFp, ringAreasFp, fInc]
  | cons r rs ih =>
    intro rings q
    cases rings with
    | nil => simp [ringAreasFp, fInc]
    | cons n ns =>
      have key : ∀ A As, ringAreasFp m (A :: As) (n :: ns) = List.replicate n (m.R.rnd (A / m.R.rnd (n : ℝ))) ++ ringAreasFp m As ns := fun A As => by simp [ringAreasFp]
      rw [List.zip_cons_cons, fInc, regionAreasFp, key, List.map_append, List.map_replicate, ih]

theorem eqRadii1_x (na : ℕ) (as : List ℝ) : eqRadii1 (realLibm 0) na as = xLoop 0 (as.map fun a => a * (2 / (Real.sin (2 * Real.pi / na) * na))) := by
  have key : ∀ (as : List ℝ) (q : ℝ), eqLoop1 (realLibm 0) na q as = xLoop q (as.map fun a => a * (2 / (Real.sin (2 * Real.pi / na) * na))) := by
    intro as
    induction as with
    | nil => intro q; rfl
    | cons a as ih =>
      intro q
      have e : (realLibm 0).sqrt (2 * a / ((realLibm 0).sin (theta (realLibm 0) na) * na) + q * q) = √(a * (2 / (Real.sin (2 * Real.pi / na) * na)) + q * q) := by
        show √(2 * a / (Real.sin (2 * Real.pi / na) * na) + q * q) = _
        congr 2
        ring
      rw [eqLoop1, List.map_cons, xLoop, e, ih]
  have : eqRadii1 (realLibm 0) na as = eqLoop1 (realLibm 0) na 0 as := by
    cases as with
    | nil => rfl
    | cons a as => simp [eqRadii1, eqLoop1]
  rw [this, key]

theorem ringRadii_x (as : List ℝ) : ringRadii (realLibm 0) as = xLoop 0 (as.map fun a => a * (1 / Real.pi)) := by
  have key : ∀ (as : List ℝ) (q : ℝ), radiiLoop (realLibm 0) q as = xLoop q (as.map fun a => a * (1 / Real.pi)) := by
    intro as
    induction as with
    | nil => intro q; rfl
    | cons a as ih =>
      intro q
      have e : (realLibm 0).sqrt (a / (realLibm 0).pi + q * q) = √(a * (1 / Real.pi) + q * q) := by
        show √(a / Real.pi + q * q) = _
        congr 2
        ring
      rw [radiiLoop, List.map_cons, xLoop, e, ih]
  rw [ringRadii_loop, key]

theorem prodFp_zero (R : Rounding ℝ p) (f : Bool) : prodFp R f (0 * 0) = 0 := by
  unfold prodFp
  rw [zero_mul]
  split
  · rfl
  · exact R.zero

section
variable {m : FpLibm ℝ p} (hm : Good m)
include hm

theorem eqRadii1Fp_f (na : ℕ) (as : List ℝ) : eqRadii1Fp m na as = fLoop m.R m.fuse3 0 (as.map (eqTermFp m na)) := by
  have key : ∀ (as : List ℝ) (q : ℝ), eqLoop1Fp m na q as = fLoop m.R m.fuse3 q (as.map (eqTermFp m na)) := by
    intro as
    induction as with
    | nil => intro q; rfl
    | cons a as ih =>
      intro q
      rw [eqLoop1Fp, List.map_cons, fLoop, ← hm.sqrt, ih]
  cases as with
  | nil => rfl
  | cons a as =>
    rw [eqRadii1Fp, List.map_cons, fLoop, key, prodFp_zero, add_zero, ← hm.sqrt]
    have : m.R.rnd (eqTermFp m na a) = eqTermFp m na a := m.R.id (m.R.mem _)
    rw [this]

theorem ringRadiiFp_f (as : List ℝ) : ringRadiiFp m as = fLoop m.R m.fuse3 0 (as.map fun a => m.R.rnd (a / m.pi)) := by
  have key : ∀ (as : List ℝ) (q : ℝ), radiiLoopFp m q as = fLoop m.R m.fuse3 q (as.map fun a => m.R.rnd (a / m.pi)) := by
    intro as
    induction as with
    | nil => intro q; rfl
    | cons a as ih =>
      intro q
      rw [radiiLoopFp, List.map_cons, fLoop, ← hm.sqrt, ih]
  cases as with
  | nil => rfl
  | cons a as =>
    rw [ringRadiiFp, List.map_cons, fLoop, key, prodFp_zero, add_zero, ← hm.sqrt]
    have : m.R.rnd (m.R.rnd (a / m.pi)) = m.R.rnd (a / m.pi) := m.R.id (m.R.mem _)
    rw [this]

end

theorem xInc_length (C : ℝ) (h : Option ℝ → ℝ → ℕ → ℝ) (regs : List (ℝ × ℕ)) : ∀ q, (fInc h q regs).length = (xInc C q regs).length := by
  induction regs with
  | nil => intro q; rfl
  | cons r rs ih => obtain ⟨r, n⟩ := r; intro q; simp [fInc, xInc, ih]

/-- A pin that can be drawn: circles of growing radii that are floating-point numbers, each region with a ring, not too many of them. -/
structure DrawnFp (p : ℕ) (radii : List ℝ) (rings : List ℤ) : Prop where
  some : radii ≠ []
  length : radii.length = rings.length
  fp : ∀ r ∈ radii, IsFp p r
  pos : ∀ r ∈ radii, 0 < r
  order : radii.Pairwise (· < ·)
  rings : ∀ n ∈ rings, 0 < n ∧ n ≤ 2 ^ p

theorem DrawnFp.drawn {radii : List ℝ} {rings : List ℤ} (h : DrawnFp p radii rings) : Drawn radii rings :=
  ⟨h.some, h.length, h.pos, h.order.imp fun h => h.le, fun n hn => (h.rings n hn).1⟩

/-- The areas of the rings, exactly. -/
noncomputable def areasX (radii : List ℝ) (rings : List ℤ) : List ℝ := ringAreas (regionAreas (realLibm 0) radii none) (rings.map Int.toNat)

/-- The areas of the rings, with roundings. -/
noncomputable def areasF (m : FpLibm ℝ p) (radii : List ℝ) (rings : List ℤ) : List ℝ := ringAreasFp m (regionAreasFp m radii none) (rings.map Int.toNat)

theorem regs_ok {radii : List ℝ} {rings : List ℤ} (h : DrawnFp p radii rings) : ∀ r ∈ radii.zip (rings.map Int.toNat), IsFp p r.1 ∧ 0 < r.2 ∧ r.2 ≤ 2 ^ p := by
  rintro ⟨r, n⟩ hr
  obtain ⟨h1, h2⟩ := List.of_mem_zip hr
  obtain ⟨z, hz, rfl⟩ := List.mem_map.1 h2
  obtain ⟨a, b⟩ := h.rings z hz
  refine ⟨h.fp r h1, by omega, ?_⟩
  have : ((z.toNat : ℕ) : ℤ) ≤ ((2 ^ p : ℕ) : ℤ) := by push_cast; omega
  exact_mod_cast this

theorem regs_order {radii : List ℝ} {rings : List ℤ} (h : DrawnFp p radii rings) : ((none : Option ℝ).getD 0 :: (radii.zip (rings.map Int.toNat)).map (·.1)).Pairwise (· < ·) := by
  have e : (radii.zip (rings.map Int.toNat)).map (·.1) = radii := by
    have := List.map_fst_zip (l₁ := radii) (l₂ := rings.map Int.toNat) (by rw [List.length_map, h.length])
    exact this
  rw [e]
  exact List.pairwise_cons.2 ⟨fun r hr => h.pos r hr, h.order⟩

section
variable {m : FpLibm ℝ p} (hm : Good m) (hp : 6 ≤ p) {radii : List ℝ} {rings : List ℤ} (hd : DrawnFp p radii rings)
include hm hp hd

theorem eq_length (na : ℕ) : (eqRadii1Fp m na (areasF m radii rings)).length = (eqRadii1 (realLibm 0) na (areasX radii rings)).length := by
  rw [eqRadii1Fp_f hm, eqRadii1_x, fLoop_length, xLoop_length, List.length_map, List.length_map]
  have := xInc_length (Real.pi * 1) (fun q r n => id (m.R.rnd (regionFp m r q / m.R.rnd (n : ℝ)))) (radii.zip (rings.map Int.toNat)) none
  rw [← ringAreas_map, ← ringAreasFp_map, List.length_map, List.length_map] at this
  exact this

/-- The equivalent radii. -/
theorem eq_off {k : ℕ} (hk : 3 ≤ k) (j : ℕ) (X Y : ℝ) (hX : (eqRadii1 (realLibm 0) (2 ^ k) (areasX radii rings))[j]? = some X)
    (hY : (eqRadii1Fp m (2 ^ k) (areasF m radii rings))[j]? = some Y) : 0 ≤ X ∧ 0 ≤ Y ∧ Off (1 / 2 ^ p) (4 * j + 10) X Y := by
  have u0 := unit_nonneg (K := ℝ) p
  have u1 := unit_le (K := ℝ) p
  have s0 := (sinTheta_off hm hp hk).2
  have k0 : (0 : ℝ) < ((2 ^ k : ℕ) : ℝ) := by positivity
  rw [eqRadii1_x, areasX, ringAreas_map] at hX
  rw [eqRadii1Fp_f hm, areasF, ringAreasFp_map] at hY
  have C0 : 0 ≤ 2 * Real.pi / (Real.sin (2 * Real.pi / (2 ^ k : ℕ)) * (2 ^ k : ℕ)) := by have := Real.pi_pos; positivity
  have e : Real.pi * (2 / (Real.sin (2 * Real.pi / ((2 ^ k : ℕ) : ℝ)) * ((2 ^ k : ℕ) : ℝ))) = 2 * Real.pi / (Real.sin (2 * Real.pi / (2 ^ k : ℕ)) * (2 ^ k : ℕ)) := by ring
  rw [e] at hX
  obtain ⟨hX0, hY0, h⟩ := loops m.R (by omega) m.fuse3 C0 (eqTerm_ok hm hp hk) (radii.zip (rings.map Int.toNat)) none 0 0 11 (by simp) (regs_order hd) (regs_ok hd) le_rfl le_rfl le_rfl
    (by simp) (by simp [Off]) j X Y hX hY
  refine ⟨hX0, hY0, ?_⟩
  have h2 := h.weaken (l := 2 * (4 * j + 10)) u0 u1 (sq_nonneg X) (by omega)
  have := h2.sqrt (sqrt := Real.sqrt) (fun x hx => ⟨Real.sqrt_nonneg x, Real.mul_self_sqrt hx⟩) u0 u1 (sq_nonneg X)
  rwa [Real.sqrt_sq hX0, Real.sqrt_sq hY0] at this

theorem rr_length : (ringRadiiFp m (areasF m radii rings)).length = (ringRadii (realLibm 0) (areasX radii rings)).length := by
  rw [ringRadiiFp_f hm, ringRadii_x, fLoop_length, xLoop_length, List.length_map, List.length_map]
  have := xInc_length (Real.pi * 1) (fun q r n => id (m.R.rnd (regionFp m r q / m.R.rnd (n : ℝ)))) (radii.zip (rings.map Int.toNat)) none
  rw [← ringAreas_map, ← ringAreasFp_map, List.length_map, List.length_map] at this
  exact this

/-- The ring radii. -/
theorem rr_off (j : ℕ) (X Y : ℝ) (hX : (ringRadii (realLibm 0) (areasX radii rings))[j]? = some X)
    (hY : (ringRadiiFp m (areasF m radii rings))[j]? = some Y) : 0 ≤ X ∧ 0 ≤ Y ∧ Off (1 / 2 ^ p) (4 * j + 8) X Y := by
  have u0 := unit_nonneg (K := ℝ) p
  have u1 := unit_le (K := ℝ) p
  have pi0 := Real.pi_pos
  rw [ringRadii_x, areasX, ringAreas_map] at hX
  rw [ringRadiiFp_f hm, areasF, ringAreasFp_map] at hY
  have e : Real.pi * (1 / Real.pi) = 1 := by field_simp
  rw [e] at hX
  obtain ⟨hX0, hY0, h⟩ := loops m.R (by omega) m.fuse3 zero_le_one (radiusTerm_ok hm hp) (radii.zip (rings.map Int.toNat)) none 0 0 8 (by simp) (regs_order hd) (regs_ok hd) le_rfl le_rfl le_rfl
    (by simp) (by simp [Off]) j X Y hX hY
  refine ⟨hX0, hY0, ?_⟩
  have h2 := h.weaken (l := 2 * (4 * j + 8)) u0 u1 (sq_nonneg X) (by omega)
  have := h2.sqrt (sqrt := Real.sqrt) (fun x hx => ⟨Real.sqrt_nonneg x, Real.mul_self_sqrt hx⟩) u0 u1 (sq_nonneg X)
  rwa [Real.sqrt_sq hX0, Real.sqrt_sq hY0] at this

end

/-! ### Angles -/

section
variable {m : FpLibm ℝ p} (hm : Good m) (hp : 10 ≤ p) {k : ℕ}
include hm hp

theorem unit_small : (1 : ℝ) / 2 ^ p ≤ 1 / 1024 := by
  refine one_div_le_one_div_of_le (by norm_num) ?_
  calc (1024 : ℝ) = 2 ^ 10 := by norm_num
    _ ≤ 2 ^ p := pow_le_pow_right₀ (by norm_num) hp

theorem angle_trig {s : ℕ} (hs : s < 2 ^ k) (hsp : s ≤ 2 ^ p) :
    |m.cos (angleFp m (2 ^ k) s) - Real.cos (theta (realLibm 0) (2 ^ k) * s)| ≤ 22 * (1 / 2 ^ p) ∧
    |m.sin (angleFp m (2 ^ k) s) - Real.sin (theta (realLibm 0) (2 ^ k) * s)| ≤ 22 * (1 / 2 ^ p) := by
  have u0 := unit_nonneg (K := ℝ) p
  have u1 := unit_le (K := ℝ) p
  have us := unit_small hm hp
  have pi0 := Real.pi_pos
  have pi4 := Real.pi_lt_d4
  obtain ⟨h1, -⟩ := theta_off hm (by omega : 6 ≤ p) (k := k)
  have k0 : (0 : ℝ) < ((2 ^ k : ℕ) : ℝ) := by positivity
  have th : theta (realLibm 0) (2 ^ k) = 2 * Real.pi / ((2 ^ k : ℕ) : ℝ) := rfl
  have fp : IsFp p (angleFp m (2 ^ k) s) := m.R.mem _
  have x0 : 0 ≤ theta (realLibm 0) (2 ^ k) * s := by rw [th]; positivity
  have x1 : theta (realLibm 0) (2 ^ k) * s ≤ 2 * Real.pi := by
    rw [th, div_mul_eq_mul_div, div_le_iff₀ k0]
    have : (s : ℝ) ≤ ((2 ^ k : ℕ) : ℝ) := by exact_mod_cast hs.le
    exact mul_le_mul_of_nonneg_left this (by positivity)
  have h2 : Off (1 / 2 ^ p) 3 (theta (realLibm 0) (2 ^ k) * s) (angleFp m (2 ^ k) s) := by
    unfold angleFp
    rw [m.R.id (isFp_nat (by omega) hsp)]
    exact (h1.mul u0 u1 (by positivity) (by positivity) (Off.refl _ _)).rnd m.R (by omega) x0
  have h3 : |angleFp m (2 ^ k) s - theta (realLibm 0) (2 ^ k) * s| ≤ 20 * (1 / 2 ^ p) := by
    generalize theta (realLibm 0) (2 ^ k) * s = x at *
    generalize angleFp m (2 ^ k) s = y at *
    set u : ℝ := 1 / 2 ^ p
    have q1 : (1 + u) ^ 3 ≤ 1 + 31 / 10 * u := by nlinarith [mul_nonneg u0 u0, mul_nonneg u0 (mul_nonneg u0 u0)]
    have q2 : 1 - 31 / 10 * u ≤ (1 - u) ^ 3 := by nlinarith [mul_nonneg u0 u0, mul_nonneg u0 (mul_nonneg u0 u0)]
    have b1 := mul_le_mul_of_nonneg_left q1 x0
    have b2 := mul_le_mul_of_nonneg_left q2 x0
    have b3 : x * u ≤ 6.2832 * u := mul_le_mul_of_nonneg_right (by linarith) u0
    rw [abs_le]
    constructor
    · have := h2.1; nlinarith
    · have := h2.2; nlinarith
  have e2 : (2 : ℝ) / 2 ^ p = 2 * (1 / 2 ^ p) := by ring
  constructor
  · have a := hm.cos _ fp
    rw [e2] at a
    have b := Real.abs_cos_sub_cos_le (angleFp m (2 ^ k) s) (theta (realLibm 0) (2 ^ k) * s)
    have c := Real.abs_cos_le_one (angleFp m (2 ^ k) s)
    have d := abs_sub_le (m.cos (angleFp m (2 ^ k) s)) (Real.cos (angleFp m (2 ^ k) s)) (Real.cos (theta (realLibm 0) (2 ^ k) * s))
    nlinarith
  · have a := hm.sin _ fp
    rw [e2] at a
    have b := Real.abs_sin_sub_sin_le (angleFp m (2 ^ k) s) (theta (realLibm 0) (2 ^ k) * s)
    have c := Real.abs_sin_le_one (angleFp m (2 ^ k) s)
    have d := abs_sub_le (m.sin (angleFp m (2 ^ k) s)) (Real.sin (angleFp m (2 ^ k) s)) (Real.sin (theta (realLibm 0) (2 ^ k) * s))
    nlinarith

theorem angleTri {s : ℕ} (hs : 2 * s + 1 ≤ 2 ^ p) : angleTriFp m (2 ^ k) s = angleFp m (2 ^ k) (2 * s + 1) := by
  have f : ∀ n : ℕ, n ≤ 2 ^ p → m.R.rnd (n : ℝ) = n := fun n hn => m.R.id (isFp_nat (by omega) hn)
  unfold angleTriFp angleFp
  have e1 : m.R.rnd (2 * (s : ℝ)) = 2 * s := by have := f (2 * s) (by omega); push_cast at this; exact this
  have e2 : m.R.rnd (2 * (s : ℝ) + 1) = 2 * s + 1 := by have := f (2 * s + 1) (by omega); push_cast at this; exact this
  rw [f s (by omega), e1, e2]
  push_cast
  rw [e2]

/-- The test for small values finds exactly those that are zero. -/
theorem snap_close {v v' : ℝ} {na : ℕ} (h : |v' - v| ≤ 22 * (1 / 2 ^ p)) (hf : v ≠ 0 → 2 / (na : ℝ) ≤ |v|) (h1 : 22 * (1 / 2 ^ p) < m.eps) (h2 : m.eps + 22 * (1 / 2 ^ p) ≤ 2 / (na : ℝ)) :
    |snapFp m v' - v| ≤ 22 * (1 / 2 ^ p) ∧ (snapFp m v' = 0 ↔ v = 0) := by
  have u0 := unit_nonneg (K := ℝ) p
  unfold snapFp
  by_cases hv : v = 0
  · subst hv
    rw [sub_zero] at h
    rw [if_pos (by linarith)]
    simp
  · have := hf hv
    have t := abs_sub_abs_le_abs_sub v v'
    rw [abs_sub_comm] at t
    rw [if_neg (by linarith)]
    refine ⟨h, ?_⟩
    constructor
    · intro h0
      rw [h0] at h t
      rw [abs_zero] at t
      exfalso
      linarith
    · intro h0; exact absurd h0 hv

end

end Verif.FpCyl
