import Verif.Lemmas.FpCyl2Pin

/-!
# C146: quadratic cylindrical pin meshes in floating-point arithmetic

The meshes of order 2 of `addCylindricalPinMesh` (`Verif.FpCyl.cylindricalMesh2Fp`) compared with those of exact arithmetic, for which C61 and C112 say
what they are.  `Good m` is what is assumed of the square root, the sine, the cosine and the constant `pi`; `g` says which sums are fused with a product.
-/

namespace Verif.PropsFpCyl2

open Verif.Fp Verif.Pin Verif.PinArea Verif.PropsPinArea Verif.PropsPinAccept Verif.FpCyl
open Verif.PropsFpCyl (total before divide eight_le double double_good pin_drawn ringRadii_entry before_lt)

variable {p : ℕ}

/-- The tolerance fits a pin and the precision. -/
structure Fits2 (p : ℕ) (eps pitch : ℝ) (radii : List ℝ) (na N : ℕ) : Prop where
  trig : eps + 22 / 2 ^ p ≤ 1 / na
  snap : 22 / 2 ^ p < eps
  side : 2 * eps ≤ pitch / (2 * na)
  away : ∀ r ∈ radii, factor2 na * r + 4 * eps ≤ pitch / 2
  few : (23 * N + 31) / 2 ^ p * pitch < eps

/-- **C146**: the equivalent radius of ring `j` is that of exact arithmetic, the radius of the ring times the factor of C112, up to a relative error of
`(46 (j + 1) + 10) 2 ^ -p`; the number of rings has to be less than `2 ^ p / 360`. -/
theorem C146_equivalent (m : FpLibm ℝ p) (hm : Good m) (hp : 10 ≤ p) (g : EqFused) (radii : List ℝ) (rings : List ℤ) (hd : DrawnFp p radii rings)
    (hN : 360 * total rings ≤ 2 ^ p) (k : ℕ) (hk : 3 ≤ k) (i t : ℕ) (r : ℝ) (n : ℤ) (hr : radii[i]? = some r) (hn : rings[i]? = some n) (ht : (t : ℤ) < n) :
    ∃ ρ, (eqRadii2Fp m g (2 ^ k) (ringRadiiFp m (ringAreasFp m (regionAreasFp m radii none) (rings.map Int.toNat)))
        (ringAreasFp m (regionAreasFp m radii none) (rings.map Int.toNat)))[before rings i + t]? = some ρ ∧
      |ρ - factor2 (2 ^ k) * divide (innerRadius radii i) r (t + 1) n.toNat| ≤
        (46 * (before rings i + t + 1) + 10) / 2 ^ p * (factor2 (2 ^ k) * divide (innerRadius radii i) r (t + 1) n.toNat) := by
  have hN' : 36 * (total rings : ℝ) * (1 / 2 ^ p) ≤ 1 / 10 := by
    have : (360 : ℝ) * total rings ≤ 2 ^ p := by exact_mod_cast hN
    rw [mul_one_div, div_le_div_iff₀ (by positivity) (by norm_num)]
    linarith
  have hX := ringRadii_entry hd hr hn ht
  have hlt := (List.getElem?_eq_some_iff.1 hX).1
  rw [← eq2_length hm hp hd hN' g hk] at hlt
  refine ⟨_, List.getElem?_eq_getElem hlt, ?_⟩
  have := eq2_linear hm hp hd hN' g hk _ _ _ hX (List.getElem?_eq_getElem hlt)
  refine this.trans (le_of_eq ?_)
  push_cast
  ring

/-! ### The mesh -/

/-- What the function does for a pin that can be drawn. -/
theorem mesh2_cases (m : FpLibm ℝ p) (g : EqFused) {pitch : ℝ} (hfp : IsFp p pitch) {radii : List ℝ} {rings : List ℤ} (hd : DrawnFp p radii rings) {k : ℕ} (hk : 3 ≤ k)
    (hsize : 1 + 4 * 2 ^ k + 3 * 2 ^ k * total rings < 2 ^ 31) :
    cylindricalMesh2Fp m g pitch radii rings (2 ^ k : ℕ) =
      if radii.any fun r => decide (pitch / 2 < r) then some none
      else if (eqRadii2Fp m g (2 ^ k) (ringRadiiFp m (areasF m radii rings)) (areasF m radii rings)).any fun r => decide (pitch / 2 < r) then some none
      else some (some ⟨(points2Fp m (2 ^ k) pitch (ringRadiiFp m (areasF m radii rings))
        (eqRadii2Fp m g (2 ^ k) (ringRadiiFp m (areasF m radii rings)) (areasF m radii rings))).map (shiftFp m pitch), faces2 (2 ^ k) (total rings)⟩) := by
  unfold cylindricalMesh2Fp
  rw [if_neg (by exact_mod_cast not_lt.2 (eight_le hk)), if_neg (by rw [Int.toNat_natCast, pow_and]; simp), if_neg (not_not.2 hd.length), m.R.id hfp.half]
  by_cases h1 : (radii.any fun r => decide (pitch / 2 < r)) = true
  · rw [if_pos h1, if_pos h1]
  · rw [if_neg h1, if_neg h1, if_neg (drawn_rings hd.drawn)]
    dsimp only
    rw [Int.toNat_natCast, if_neg (by unfold total at hsize; omega)]
    rfl

/-- Exact arithmetic, likewise. -/
theorem mesh2_exact {pitch : ℝ} {radii : List ℝ} {rings : List ℤ} (hd : DrawnFp p radii rings) {k : ℕ} (hk : 3 ≤ k)
    (hsize : 1 + 4 * 2 ^ k + 3 * 2 ^ k * total rings < 2 ^ 31) (h : ∀ r ∈ radii, factor2 (2 ^ k) * r ≤ pitch / 2) :
    cylindricalMesh (realLibm 0) pitch radii rings (2 ^ k : ℕ) 2 =
      some (some ⟨(points2 (realLibm 0) (2 ^ k) pitch (ringRadii (realLibm 0) (areasX radii rings))
        (eqRadii2 (realLibm 0) (2 ^ k) (ringRadii (realLibm 0) (areasX radii rings)) (areasX radii rings))).map (shift (realLibm 0) pitch), faces2 (2 ^ k) (total rings)⟩) := by
  obtain ⟨mesh, hmesh⟩ := (C112_quadratic_partial 0 pitch radii rings hd.drawn k hk hsize).1.2 h
  obtain ⟨-, -, -, -, -, -, rfl⟩ := mesh2_data hmesh
  rw [hmesh, Int.toNat_natCast]
  rfl

section
variable {m : FpLibm ℝ p} (hm : Good m) (hp : 10 ≤ p) {radii : List ℝ} {rings : List ℤ} (hd : DrawnFp p radii rings) {k : ℕ} (hk : 3 ≤ k)
  {pitch : ℝ} (hf : Fits2 p m.eps pitch radii (2 ^ k) (total rings))
include hk hf

theorem fits2_data : 0 < pitch ∧ 0 < m.eps ∧ m.eps + 22 * (1 / 2 ^ p) ≤ 2 / ((2 ^ (k + 1) : ℕ) : ℝ) ∧ 22 * (1 / 2 ^ p) < m.eps ∧
    (23 * (total rings : ℝ) + 31) * (1 / 2 ^ p) * pitch < m.eps ∧ (23 * (total rings : ℝ) + 31) * (1 / 2 ^ p) < 1 / 32 ∧ 36 * (total rings : ℝ) * (1 / 2 ^ p) ≤ 1 / 10 := by
  have u0 := unit_nonneg (K := ℝ) p
  have h1 := hf.snap
  have e : ∀ x : ℝ, x / 2 ^ p = x * (1 / 2 ^ p) := fun x => by ring
  rw [e] at h1
  have h2 := hf.trig
  rw [e] at h2
  have h3 := hf.few
  rw [e] at h3
  have k0 : (8 : ℝ) ≤ ((2 ^ k : ℕ) : ℝ) := by exact_mod_cast eight_le hk
  have e0 : 0 < m.eps := by linarith
  have h4 := hf.side
  rw [le_div_iff₀ (by positivity)] at h4
  have hpitch : 0 < pitch := by nlinarith
  have h5 : m.eps ≤ pitch / 32 := by nlinarith
  have h6 : (23 * (total rings : ℝ) + 31) * (1 / 2 ^ p) < 1 / 32 := by
    have : (23 * (total rings : ℝ) + 31) * (1 / 2 ^ p) * pitch < 1 / 32 * pitch := by linarith
    exact lt_of_mul_lt_mul_right this hpitch.le
  refine ⟨hpitch, e0, ?_, h1, h3, h6, ?_⟩
  · refine h2.trans (le_of_eq ?_)
    push_cast
    rw [pow_succ]
    field_simp
  · have : 0 ≤ (total rings : ℝ) * (1 / 2 ^ p) := by positivity
    nlinarith

include hd

omit hk hf in
/-- The exact ring radii are within the largest circle. -/
theorem rr_bound : ∃ R ∈ radii, ∀ x ∈ ringRadii (realLibm 0) (areasX radii rings), 0 ≤ x ∧ x ≤ R := drawn_bound hd.drawn

theorem radii_in : ∃ b : ℝ, 0 ≤ b ∧ b + 4 * m.eps ≤ pitch / 2 ∧ (∀ x ∈ ringRadii (realLibm 0) (areasX radii rings), 0 ≤ x ∧ x ≤ b) ∧
    (∀ x ∈ eqRadii2 (realLibm 0) (2 ^ k) (ringRadii (realLibm 0) (areasX radii rings)) (areasX radii rings), 0 ≤ x ∧ x ≤ b) := by
  obtain ⟨R, hR, hx⟩ := rr_bound hd
  have hf1 : 1 < factor2 (2 ^ k) := one_lt_factor2 (eight_le hk)
  have R0 := hd.pos R hR
  refine ⟨factor2 (2 ^ k) * R, by positivity, hf.away R hR, fun x h => ⟨(hx x h).1, (hx x h).2.trans (by nlinarith)⟩, fun x h => ?_⟩
  rw [eq2_map hd hk] at h
  obtain ⟨y, hy, rfl⟩ := List.mem_map.1 h
  obtain ⟨a, b⟩ := hx y hy
  exact ⟨mul_nonneg (by linarith) a, mul_le_mul_of_nonneg_left b (by linarith)⟩

omit hd hk hf in
theorem total_pos (hd : DrawnFp p radii rings) : 1 ≤ total rings := by
  obtain ⟨r, rs, e⟩ := List.exists_cons_of_ne_nil hd.some
  have hl := hd.length
  rw [e, List.length_cons] at hl
  obtain ⟨z, zs, rfl⟩ : ∃ z zs, rings = z :: zs := List.exists_cons_of_ne_nil fun h => by simp [h] at hl
  have := (hd.rings z (by simp)).1
  simp only [total, List.map_cons, List.sum_cons]
  omega

/-- The exact points are in the cell. -/
theorem points2_in : ∀ q ∈ points2 (realLibm 0) (2 ^ k) pitch (ringRadii (realLibm 0) (areasX radii rings))
    (eqRadii2 (realLibm 0) (2 ^ k) (ringRadii (realLibm 0) (areasX radii rings)) (areasX radii rings)), |q.1| ≤ pitch / 2 ∧ |q.2| ≤ pitch / 2 := by
  obtain ⟨hpitch, e0, -⟩ := fits2_data hk hf
  obtain ⟨b, b0, b1, hr, he⟩ := radii_in hd hk hf
  have bh : b ≤ pitch / 2 := by linarith
  set rr := ringRadii (realLibm 0) (areasX radii rings)
  set eq := eqRadii2 (realLibm 0) (2 ^ k) rr (areasX radii rings)
  have hhead : ∀ l : List ℝ, (∀ e ∈ l, 0 ≤ e ∧ e ≤ b) → 0 ≤ l.headD 0 ∧ l.headD 0 ≤ b := by
    intro l hl
    cases l with
    | nil => exact ⟨le_rfl, b0⟩
    | cons e es => exact hl e (by simp)
  have hlast : 0 ≤ rr.getLastD 0 ∧ rr.getLastD 0 ≤ b := by
    rw [List.getLastD_eq_getLast?]
    cases h : rr.getLast? with
    | none => exact ⟨le_rfl, b0⟩
    | some e => exact hr e (List.mem_of_getLast? h)
  have r1 := hhead rr hr
  have e1 := hhead eq he
  have near : ∀ {q : ℝ × ℝ}, Near b q → |q.1| ≤ pitch / 2 ∧ |q.2| ≤ pitch / 2 := fun h => ⟨h.1.trans bh, h.2.trans bh⟩
  intro q hq
  unfold points2 at hq
  simp only [List.mem_append, List.mem_singleton] at hq
  rcases hq with ((((rfl | hq) | hq) | hq) | hq) | hq
  · simp; linarith
  · exact near (tri2_near _ r1.1 r1.2 q hq)
  · exact near (ring2_near _ _ r1.1 r1.2 e1.1 e1.2 q hq)
  · exact near (rings2_near _ _ _ r1.1 r1.2 (fun r h => hr r (List.mem_of_mem_tail h)) (fun e h => he e (List.mem_of_mem_tail h)) q hq)
  · obtain ⟨s, -, rfl⟩ := List.mem_map.1 hq
    dsimp only
    rw [snapTrig_zero, boundaryRadius_eq hpitch]
    obtain ⟨q0, q1, q2⟩ := rbd_le hpitch.le ((s : ℝ) * theta (realLibm 0) (2 ^ k))
    have hn2 := near (near_polar (x := (s : ℝ) * theta (realLibm 0) (2 ^ k)) hlast.1 hlast.2)
    unfold polar at hn2 ⊢
    dsimp only at hn2 ⊢
    have a1 := abs_le.1 q1
    have a2 := abs_le.1 q2
    have a3 := abs_le.1 hn2.1
    have a4 := abs_le.1 hn2.2
    constructor <;> rw [abs_le] <;> constructor <;> linarith [a1.1, a1.2, a2.1, a2.2, a3.1, a3.2, a4.1, a4.2]
  · obtain ⟨s, -, rfl⟩ := List.mem_map.1 hq
    dsimp only
    rw [snapTrig_zero, boundaryRadius_eq hpitch]
    exact (rbd_le hpitch.le _).2

include hm hp

theorem rr2_close : List.Forall₂ (Rad p (pitch / 2) (8 * (total rings : ℝ) + 8)) (ringRadiiFp m (areasF m radii rings)) (ringRadii (realLibm 0) (areasX radii rings)) := by
  have u0 := unit_nonneg (K := ℝ) p
  obtain ⟨hpitch, e0, -, -, -, -, hN⟩ := fits2_data hk hf
  obtain ⟨b, b0, b1, hr, he⟩ := radii_in hd hk hf
  rw [List.forall₂_iff_get]
  refine ⟨rr_length hm (by omega) hd, fun j h1 h2 => ?_⟩
  rw [List.get_eq_getElem, List.get_eq_getElem]
  obtain ⟨hj, x0, y0, h⟩ := rr_linear hm hp hd hN j _ _ (List.getElem?_eq_getElem h2) (List.getElem?_eq_getElem h1)
  have hfp : IsFp p (ringRadiiFp m (areasF m radii rings))[j] := by
    have := fLoop_fp m.R m.fuse3 ((areasF m radii rings).map fun a => m.R.rnd (a / m.pi)) 0
    rw [← ringRadiiFp_f hm] at this
    exact this _ (List.getElem_mem h1)
  have hj' : (j : ℝ) + 1 ≤ total rings := by exact_mod_cast hj
  have hb := hr _ (List.getElem_mem h2)
  refine ⟨hfp, x0, by linarith, h.trans ?_⟩
  generalize (ringRadii (realLibm 0) (areasX radii rings))[j] = X at *
  refine mul_le_mul (mul_le_mul_of_nonneg_right (by linarith) u0) (by linarith) x0 (by positivity)

theorem eq2_close (g : EqFused) : List.Forall₂ (Rad p (pitch / 2) (46 * (total rings : ℝ) + 10)) (eqRadii2Fp m g (2 ^ k) (ringRadiiFp m (areasF m radii rings)) (areasF m radii rings))
    (eqRadii2 (realLibm 0) (2 ^ k) (ringRadii (realLibm 0) (areasX radii rings)) (areasX radii rings)) := by
  have u0 := unit_nonneg (K := ℝ) p
  obtain ⟨hpitch, e0, -, -, -, -, hN⟩ := fits2_data hk hf
  obtain ⟨b, b0, b1, hr, he⟩ := radii_in hd hk hf
  rw [eq2_map hd hk] at he ⊢
  rw [List.forall₂_iff_get]
  refine ⟨by rw [eq2_length hm hp hd hN g hk, List.length_map], fun j h1 h2 => ?_⟩
  have h2' := h2
  rw [List.length_map] at h2'
  rw [List.get_eq_getElem, List.get_eq_getElem]
  have hb := he _ (List.getElem_mem h2)
  rw [List.getElem_map] at hb ⊢
  have h := eq2_linear hm hp hd hN g hk j _ _ (List.getElem?_eq_getElem h2') (List.getElem?_eq_getElem h1)
  have hj := h2'
  rw [← rr_length hm (by omega) hd, ringRadiiFp_f hm, fLoop_length, List.length_map, areas_length hm hd (by omega)] at hj
  have hj' : (j : ℝ) + 1 ≤ total rings := by exact_mod_cast hj
  refine ⟨eqRadii2Fp_fp m g _ _ _ _ (List.getElem_mem h1), hb.1, by linarith, h.trans ?_⟩
  generalize factor2 (2 ^ k) * (ringRadii (realLibm 0) (areasX radii rings))[j] = X at *
  exact mul_le_mul (mul_le_mul_of_nonneg_right (by linarith) u0) (by linarith) hb.1 (by positivity)

end

/-- **C146**: a pin whose circles, enlarged by the factor of C112, stay four tolerances away from the sides is meshed, as in exact arithmetic, with the same
faces; every coordinate of every vertex is within `(23 N + 31) 2 ^ -p pitch` of the exact one, where `N` is the number of rings, and it is zero exactly when
the exact one is. -/
theorem C146_vertices (m : FpLibm ℝ p) (hm : Good m) (hp : 10 ≤ p) (g : EqFused) (pitch : ℝ) (hfp : IsFp p pitch) (radii : List ℝ) (rings : List ℤ) (hd : DrawnFp p radii rings) (k : ℕ)
    (hk : 3 ≤ k) (hsize : 1 + 4 * 2 ^ k + 3 * 2 ^ k * total rings < 2 ^ 31) (hf : Fits2 p m.eps pitch radii (2 ^ k) (total rings)) :
    ∃ mesh exact, cylindricalMesh2Fp m g pitch radii rings (2 ^ k : ℕ) = some (some mesh) ∧
      cylindricalMesh (realLibm 0) pitch radii rings (2 ^ k : ℕ) 2 = some (some exact) ∧ mesh.faces = exact.faces ∧
      List.Forall₂ (fun v w => (|v.1 - w.1| ≤ (23 * total rings + 31) / 2 ^ p * pitch ∧ |v.2 - w.2| ≤ (23 * total rings + 31) / 2 ^ p * pitch) ∧
        (v.1 = 0 ↔ w.1 = 0) ∧ (v.2 = 0 ↔ w.2 = 0)) mesh.verts exact.verts := by
  have u0 := unit_nonneg (K := ℝ) p
  obtain ⟨hpitch, e0, t1, t2, h3, h4, hN⟩ := fits2_data hk hf
  have hrc := rr2_close hm hp hd hk hf
  have hec := eq2_close hm hp hd hk hf g
  obtain ⟨b, b0, b1, hr, he⟩ := radii_in hd hk hf
  have hf1 : 1 < factor2 (2 ^ k) := one_lt_factor2 (eight_le hk)
  refine ⟨⟨(points2Fp m (2 ^ k) pitch (ringRadiiFp m (areasF m radii rings)) (eqRadii2Fp m g (2 ^ k) (ringRadiiFp m (areasF m radii rings)) (areasF m radii rings))).map (shiftFp m pitch),
    faces2 (2 ^ k) (total rings)⟩, _, ?_, mesh2_exact hd hk hsize fun r hr => by linarith [hf.away r hr], rfl, ?_⟩
  · rw [mesh2_cases m g hfp hd hk hsize, if_neg, if_neg]
    · simp only [List.any_eq_true, decide_eq_true_eq, not_exists, not_and, not_lt]
      intro e hm
      obtain ⟨j, hj, rfl⟩ := List.getElem_of_mem hm
      have hl := hec.length_eq
      obtain ⟨-, -, -, h⟩ := (List.forall₂_iff_get.1 hec).2 j hj (by omega)
      have hb := he _ (List.getElem_mem (by omega : j < _))
      rw [List.get_eq_getElem, List.get_eq_getElem] at h
      have := (abs_le.1 h).2
      have up : 0 ≤ 1 / 2 ^ p * pitch := by positivity
      nlinarith
    · simp only [List.any_eq_true, decide_eq_true_eq, not_exists, not_and, not_lt]
      intro r hr
      have := hf.away r hr
      have := hd.pos r hr
      nlinarith
  · dsimp only
    have N1 : 1 ≤ total rings := total_pos hd
    have N1' : (1 : ℝ) ≤ total rings := by exact_mod_cast N1
    have cl := points2_close hm hp hk hpitch t1 t2 (κ := 46 * total rings + 10) (κr := 8 * total rings + 8) (by positivity) (by linarith) (by nlinarith) hrc hec
    have n0 : 0 < 2 ^ k := by positivity
    have n2 : 2 ^ k % 2 = 0 := by
      obtain ⟨j, rfl⟩ : ∃ j, k = j + 1 := ⟨k - 1, by omega⟩
      rw [pow_succ]; omega
    have kept := points2_kept (b := b) (eps := 2 * m.eps) n0 n2 hpitch (by linarith) hf.side b0 (by linarith) _ _ hr he
    have inn := points2_in hd hk hf
    generalize points2Fp m (2 ^ k) pitch (ringRadiiFp m (areasF m radii rings)) (eqRadii2Fp m g (2 ^ k) (ringRadiiFp m (areasF m radii rings)) (areasF m radii rings)) = F at *
    generalize points2 (realLibm 0) (2 ^ k) pitch (ringRadii (realLibm 0) (areasX radii rings))
      (eqRadii2 (realLibm 0) (2 ^ k) (ringRadii (realLibm 0) (areasX radii rings)) (areasX radii rings)) = X at *
    rw [List.forall₂_map_left_iff, List.forall₂_map_right_iff, shift_zero]
    rw [List.forall₂_iff_get] at cl ⊢
    refine ⟨cl.1, fun j h1 h2 => ?_⟩
    obtain ⟨c1, c2⟩ := cl.2 j h1 h2
    have hq : X.get ⟨j, h2⟩ ∈ X := List.get_mem _ _
    obtain ⟨k1, k2⟩ := kept _ hq
    obtain ⟨i1, i2⟩ := inn _ hq
    clear kept inn hrc hec hr he cl
    set N : ℝ := (total rings : ℝ)
    have eN : (23 * N + 31) / 2 ^ p * pitch = (23 * N + 31) * (1 / 2 ^ p) * pitch := by ring
    rw [eN]
    set u : ℝ := 1 / 2 ^ p
    have up : 0 ≤ u * pitch := by positivity
    have B1 : (46 * N + 10 + 47) * u * (pitch / 2) = (23 * N + 57 / 2) * u * pitch := by ring
    rw [B1] at c1 c2
    have Bs : (23 * N + 57 / 2) * u * pitch ≤ pitch / 2 := by nlinarith
    have Bt : (23 * N + 57 / 2) * u * pitch + 2 * u * pitch ≤ (23 * N + 31) * u * pitch := by nlinarith
    have Be : (23 * N + 57 / 2) * u * pitch + 2 * u * pitch < m.eps := by linarith
    obtain ⟨a1, b1⟩ := shift_coord m hp hpitch hfp i1 Bs c1 k1 Be
    obtain ⟨a2, b2⟩ := shift_coord m hp hpitch hfp i2 Bs c2 k2 Be
    exact ⟨⟨a1.trans Bt, a2.trans Bt⟩, b1, b2⟩

/-- **C146**: a pin with a circle that, enlarged, is outside of the cell by more than the errors is refused. -/
theorem C146_refuses (m : FpLibm ℝ p) (hm : Good m) (hp : 10 ≤ p) (g : EqFused) (pitch : ℝ) (hfp : IsFp p pitch) (radii : List ℝ) (rings : List ℤ) (hd : DrawnFp p radii rings) (k : ℕ)
    (hk : 3 ≤ k) (hsize : 1 + 4 * 2 ^ k + 3 * 2 ^ k * total rings < 2 ^ 31) (hN : 360 * total rings ≤ 2 ^ p) (r : ℝ) (hr : r ∈ radii)
    (h : pitch / 2 < factor2 (2 ^ k) * r * (1 - (46 * total rings + 10) / 2 ^ p)) :
    cylindricalMesh2Fp m g pitch radii rings (2 ^ k : ℕ) = some none := by
  rw [mesh2_cases m g hfp hd hk hsize]
  split
  · rfl
  rw [if_pos]
  obtain ⟨i, hi, rfl⟩ := List.getElem_of_mem hr
  have hi' : i < rings.length := by rw [← hd.length]; exact hi
  have hn := hd.rings _ (List.getElem_mem hi')
  obtain ⟨t, ht⟩ : ∃ t : ℕ, (t : ℤ) + 1 = rings[i] := ⟨(rings[i] - 1).toNat, by omega⟩
  obtain ⟨ρ, h1, h2⟩ := C146_equivalent m hm hp g radii rings hd hN k hk i t _ _ (List.getElem?_eq_getElem hi) (List.getElem?_eq_getElem hi') (by omega)
  have hlt := before_lt (List.getElem?_eq_getElem hi') (t := t) (by omega)
  have hlt' : ((before rings i : ℕ) : ℝ) + t + 1 ≤ total rings := by exact_mod_cast hlt
  have hpos := hd.pos _ (List.getElem_mem hi)
  have e : divide (innerRadius radii i) radii[i] (t + 1) rings[i].toNat = radii[i] := by
    have : rings[i].toNat = t + 1 := by omega
    unfold divide
    rw [this, div_self (by positivity)]
    rw [show innerRadius radii i ^ 2 + 1 * (radii[i] ^ 2 - innerRadius radii i ^ 2) = radii[i] ^ 2 by ring, Real.sqrt_sq hpos.le]
  rw [e] at h2
  refine List.any_eq_true.2 ⟨ρ, List.mem_of_getElem? h1, decide_eq_true ?_⟩
  have hf0 : 0 ≤ factor2 (2 ^ k) * radii[i] := mul_nonneg (by linarith [one_lt_factor2 (eight_le hk)]) hpos.le
  have h3 := (abs_le.1 h2).1
  have h4 : (46 * ((before rings i : ℕ) + t + 1 : ℝ) + 10) / 2 ^ p * (factor2 (2 ^ k) * radii[i]) ≤ (46 * total rings + 10) / 2 ^ p * (factor2 (2 ^ k) * radii[i]) :=
    mul_le_mul_of_nonneg_right (div_le_div_of_nonneg_right (by linarith) (by positivity)) hf0
  linarith

/-- A product of differences of nearby numbers. -/
theorem cross_close {P B : ℝ} (B0 : 0 ≤ B) (BP : B ≤ P / 4) {x y z w x' y' z' w' : ℝ} (hx : 0 ≤ x ∧ x ≤ P) (hy : 0 ≤ y ∧ y ≤ P) (hz : 0 ≤ z ∧ z ≤ P) (hw : 0 ≤ w ∧ w ≤ P)
    (kx : |x' - x| ≤ B) (ky : |y' - y| ≤ B) (kz : |z' - z| ≤ B) (kw : |w' - w| ≤ B) : |(x' - y') * (z' - w') - (x - y) * (z - w)| ≤ 5 * B * P := by
  have d1 : |(x' - y') - (x - y)| ≤ 2 * B := by
    rw [show (x' - y') - (x - y) = (x' - x) - (y' - y) by ring]
    exact (abs_sub _ _).trans (by linarith)
  have d2 : |(z' - w') - (z - w)| ≤ 2 * B := by
    rw [show (z' - w') - (z - w) = (z' - z) - (w' - w) by ring]
    exact (abs_sub _ _).trans (by linarith)
  have b1 : |x - y| ≤ P := by rw [abs_le]; constructor <;> linarith [hx.1, hx.2, hy.1, hy.2]
  have b2 : |z - w| ≤ P := by rw [abs_le]; constructor <;> linarith [hz.1, hz.2, hw.1, hw.2]
  clear kx ky kz kw
  generalize x - y = s at *
  generalize z - w = t at *
  generalize x' - y' = s' at *
  generalize z' - w' = t' at *
  have e : s' * t' - s * t = (s' - s) * (t' - t) + ((s' - s) * t + s * (t' - t)) := by ring
  have t1 := abs_add_le ((s' - s) * (t' - t)) ((s' - s) * t + s * (t' - t))
  have t2 := abs_add_le ((s' - s) * t) (s * (t' - t))
  rw [abs_mul] at t1
  rw [abs_mul, abs_mul] at t2
  have c1 : |s' - s| * |t' - t| ≤ 2 * B * (2 * B) := mul_le_mul d1 d2 (abs_nonneg _) (by linarith)
  have c2 : |s' - s| * |t| ≤ 2 * B * P := mul_le_mul d1 b2 (abs_nonneg _) (by linarith)
  have c3 : |s| * |t' - t| ≤ P * (2 * B) := mul_le_mul b1 d2 (abs_nonneg _) (by linarith)
  have c4 : 2 * B * (2 * B) ≤ B * P := by nlinarith
  rw [e]
  nlinarith

/-- The point is in the cell. -/
def Inside (P : ℝ) (a : ℝ × ℝ) : Prop := 0 ≤ a.1 ∧ a.1 ≤ P ∧ 0 ≤ a.2 ∧ a.2 ≤ P

theorem edge_close {P B : ℝ} (B0 : 0 ≤ B) (BP : B ≤ P / 4) {a b c a' b' c' : ℝ × ℝ} (ha : Inside P a) (hb : Inside P b) (hc : Inside P c) (ka : Close B a' a) (kb : Close B b' b) (kc : Close B c' c) :
    |((c'.1 - a'.1) * (b'.2 - a'.2) - (c'.2 - a'.2) * (b'.1 - a'.1)) - ((c.1 - a.1) * (b.2 - a.2) - (c.2 - a.2) * (b.1 - a.1))| ≤ 10 * B * P := by
  have h1 := cross_close B0 BP ⟨hc.1, hc.2.1⟩ ⟨ha.1, ha.2.1⟩ ⟨hb.2.2.1, hb.2.2.2⟩ ⟨ha.2.2.1, ha.2.2.2⟩ kc.1 ka.1 kb.2 ka.2
  have h2 := cross_close B0 BP ⟨hc.2.2.1, hc.2.2.2⟩ ⟨ha.2.2.1, ha.2.2.2⟩ ⟨hb.1, hb.2.1⟩ ⟨ha.1, ha.2.1⟩ kc.2 ka.2 kb.1 ka.1
  rw [show ∀ x y z w : ℝ, (x - y) - (z - w) = (x - z) - (y - w) from fun x y z w => by ring]
  exact (abs_sub _ _).trans (by linarith)

/-- The areas of two quadratic quadrilaterals with nearby vertices. -/
theorem area8_close {P B : ℝ} (B0 : 0 ≤ B) (BP : B ≤ P / 4) {a b c d e f g h a' b' c' d' e' f' g' h' : ℝ × ℝ} (ha : Inside P a) (hb : Inside P b) (hc : Inside P c) (hd : Inside P d)
    (he : Inside P e) (hf : Inside P f) (hg : Inside P g) (hh : Inside P h) (ka : Close B a' a) (kb : Close B b' b) (kc : Close B c' c) (kd : Close B d' d)
    (ke : Close B e' e) (kf : Close B f' f) (kg : Close B g' g) (kh : Close B h' h) :
    |area8 a' b' c' d' e' f' g' h' - area8 a b c d e f g h| ≤ 32 * B * P := by
  have s := PropsFpCyl.area_close B0 BP ha hb hc hd ka kb kc kd
  have e1 := edge_close B0 BP ha hb he ka kb ke
  have e2 := edge_close B0 BP hb hc hf kb kc kf
  have e3 := edge_close B0 BP hc hd hg kc kd kg
  have e4 := edge_close B0 BP hd ha hh kd ka kh
  rw [area8_eq, area8_eq]
  have BP0 : 0 ≤ B * P := mul_nonneg B0 (by linarith)
  rw [abs_le] at *
  obtain ⟨s1, s2⟩ := s
  obtain ⟨e11, e12⟩ := e1
  obtain ⟨e21, e22⟩ := e2
  obtain ⟨e31, e32⟩ := e3
  obtain ⟨e41, e42⟩ := e4
  constructor <;> linarith

/-- **C146**: the face of ring `t` of region `i` in any direction has its share of the area of the region, up to `(736 N + 992) 2 ^ -p pitch ²`. -/
theorem C146_areas (m : FpLibm ℝ p) (hm : Good m) (hp : 10 ≤ p) (g : EqFused) (pitch : ℝ) (hfp : IsFp p pitch) (radii : List ℝ) (rings : List ℤ) (hd : DrawnFp p radii rings) (k : ℕ)
    (hk : 3 ≤ k) (hf : Fits2 p m.eps pitch radii (2 ^ k) (total rings)) (mesh : Mesh ℝ) (h : cylindricalMesh2Fp m g pitch radii rings (2 ^ k : ℕ) = some (some mesh))
    (i t a : ℕ) (r : ℝ) (n : ℤ) (hr : radii[i]? = some r) (hn : rings[i]? = some n) (ht : (t : ℤ) < n) (ha : a < 2 ^ k) :
    ∃ f A, mesh.faces[(before rings i + t) * 2 ^ k + a]? = some f ∧ faceArea8 mesh f = some A ∧
      |A - Real.pi * (r ^ 2 - innerRadius radii i ^ 2) / n / 2 ^ k| ≤ (736 * total rings + 992) / 2 ^ p * pitch ^ 2 := by
  have u0 := unit_nonneg (K := ℝ) p
  obtain ⟨hpitch, e0, t1, t2, h3, h4, hN⟩ := fits2_data hk hf
  have hsize : 1 + 4 * 2 ^ k + 3 * 2 ^ k * total rings < 2 ^ 31 := by
    by_contra hc
    unfold cylindricalMesh2Fp at h
    rw [if_neg (by exact_mod_cast not_lt.2 (eight_le hk)), if_neg (by rw [Int.toNat_natCast, pow_and]; simp), if_neg (not_not.2 hd.length)] at h
    split at h
    · simp at h
    rw [if_neg (drawn_rings hd.drawn)] at h
    dsimp only at h
    rw [Int.toNat_natCast, if_pos (by unfold total at hc; omega)] at h
    simp at h
  obtain ⟨mesh', exact', h1, h2, h6, h7⟩ := C146_vertices m hm hp g pitch hfp radii rings hd k hk hsize hf
  rw [h] at h1
  obtain rfl : mesh = mesh' := by simpa using h1
  have hin : ∀ w ∈ exact'.verts, Inside pitch w := by
    rw [mesh2_exact hd hk hsize fun r hr => by linarith [hf.away r hr]] at h2
    obtain rfl := Option.some.inj (Option.some.inj h2)
    intro w hw
    obtain ⟨q, hq, rfl⟩ := List.mem_map.1 hw
    rw [shift_zero]
    obtain ⟨i1, i2⟩ := points2_in hd hk hf q hq
    have i1 := abs_le.1 i1
    have i2 := abs_le.1 i2
    show 0 ≤ q.1 + pitch / 2 ∧ q.1 + pitch / 2 ≤ pitch ∧ 0 ≤ q.2 + pitch / 2 ∧ q.2 + pitch / 2 ≤ pitch
    exact ⟨by linarith, by linarith, by linarith, by linarith⟩
  obtain ⟨f, hf1, hf2⟩ := C61_quadratic_rings pitch radii rings (2 ^ k : ℕ) exact' hd.pos hd.drawn.order h2 i t a r n hr hn ht (by exact_mod_cast ha)
  rw [Int.toNat_natCast] at hf1
  rw [← h6] at hf1
  set B : ℝ := (23 * total rings + 31) / 2 ^ p * pitch with hB
  have eB : B = (23 * (total rings : ℝ) + 31) * (1 / 2 ^ p) * pitch := by rw [hB]; ring
  have B0 : 0 ≤ B := by positivity
  have BP : B ≤ pitch / 4 := by rw [eB]; nlinarith
  rw [List.forall₂_iff_get] at h7
  have vert : ∀ (v : ℕ) (w : ℝ × ℝ), exact'.verts[v]? = some w → ∃ w', mesh.verts[v]? = some w' ∧ Close B w' w ∧ Inside pitch w := by
    intro v w hv
    obtain ⟨hlt, rfl⟩ := List.getElem?_eq_some_iff.1 hv
    have hlt' : v < mesh.verts.length := by rw [h7.1]; exact hlt
    exact ⟨_, List.getElem?_eq_getElem hlt', (h7.2 v hlt' hlt).1, hin _ (List.getElem_mem hlt)⟩
  have area : ∀ f A, faceArea8 exact' f = some A → ∃ A', faceArea8 mesh f = some A' ∧ |A' - A| ≤ 32 * B * pitch := by
    intro f A hA
    unfold faceArea8 at hA
    split at hA
    · rename_i v1 v2 v3 v4 v5 v6 v7 v8 hmap
      rcases f with _ | ⟨f1, _ | ⟨f2, _ | ⟨f3, _ | ⟨f4, _ | ⟨f5, _ | ⟨f6, _ | ⟨f7, _ | ⟨f8, _ | ⟨f9, f⟩⟩⟩⟩⟩⟩⟩⟩⟩
      case cons.cons.cons.cons.cons.cons.cons.cons.nil =>
        simp only [List.map_cons, List.map_nil, List.cons.injEq, and_true] at hmap
        obtain ⟨g1, g2, g3, g4, g5, g6, g7, g8⟩ := hmap
        obtain ⟨w1, y1, c1, i1⟩ := vert _ _ g1
        obtain ⟨w2, y2, c2, i2⟩ := vert _ _ g2
        obtain ⟨w3, y3, c3, i3⟩ := vert _ _ g3
        obtain ⟨w4, y4, c4, i4⟩ := vert _ _ g4
        obtain ⟨w5, y5, c5, i5⟩ := vert _ _ g5
        obtain ⟨w6, y6, c6, i6⟩ := vert _ _ g6
        obtain ⟨w7, y7, c7, i7⟩ := vert _ _ g7
        obtain ⟨w8, y8, c8, i8⟩ := vert _ _ g8
        refine ⟨_, faceArea8_eq y1 y2 y3 y4 y5 y6 y7 y8, ?_⟩
        obtain rfl := Option.some.inj hA
        exact area8_close B0 BP i1 i2 i3 i4 i5 i6 i7 i8 c1 c2 c3 c4 c5 c6 c7 c8
      all_goals simp at hmap
    · simp at hA
  obtain ⟨A, hA, hle⟩ := area f _ hf2
  refine ⟨f, A, hf1, hA, ?_⟩
  have e1 : (((2 ^ k : ℕ) : ℤ) : ℝ) = 2 ^ k := by push_cast; ring
  rw [e1] at hle
  refine hle.trans (le_of_eq ?_)
  rw [hB]; ring

/-! ### A library and a pin that meet the hypotheses -/

theorem pin_fits2 : Fits2 53 double.eps (5 / 4) [1 / 4, 1 / 2] (2 ^ 3) (total [2, 1]) := by
  have e : double.eps = 1 / 2 ^ 23 := rfl
  have t : total [2, 1] = 3 := rfl
  have h := C112_factors.2.2.2
  rw [e, t]
  refine ⟨by norm_num, by norm_num, by norm_num, ?_, by norm_num⟩
  intro r hr
  simp only [List.mem_cons, List.not_mem_nil, or_false] at hr
  have e8 : (2 : ℕ) ^ 3 = 8 := rfl
  rw [e8]
  rcases hr with rfl | rfl <;> norm_num <;> linarith

/-- With eight divisions the circles are enlarged by more than a ten thousandth. -/
theorem factor2_eight : 10001 / 10000 < factor2 8 := by
  have hpi1 := Real.pi_gt_d4
  have hr : √2 ^ 2 = (2 : ℝ) := Real.sq_sqrt (by norm_num)
  have hr0 : 0 ≤ √(2 : ℝ) := Real.sqrt_nonneg _
  have hr1 : 1.4142 ≤ √(2 : ℝ) := by by_contra hn; push Not at hn; nlinarith
  have hr2 : √(2 : ℝ) ≤ 1.41422 := by by_contra hn; push Not at hn; nlinarith
  have hs0 := sin2_pos (na := 8) le_rfl
  have hc0 := cos2_pos (na := 8) le_rfl
  obtain ⟨e1, e2⟩ := eighth
  unfold factor2
  push_cast at hs0 hc0 ⊢
  generalize Real.sin (Real.pi / 8) = x at *
  generalize Real.cos (Real.pi / 8) = y at *
  have hx : x ≤ 0.3827 := by by_contra hn; push Not at hn; nlinarith
  have hy : 0.9238 ≤ y := by by_contra hn; push Not at hn; nlinarith
  have : 0.7695 ≤ 3 * (Real.pi / 8) / (4 * x) := by
    rw [le_div_iff₀ (by positivity)]
    nlinarith
  linarith

/-- Some of the sums are fused. -/
def some_fused : EqFused := ⟨true, false, true, false, true, true⟩

example : ∃ mesh, cylindricalMesh2Fp double some_fused (5 / 4) [1 / 4, 1 / 2] [2, 1] (2 ^ 3 : ℕ) = some (some mesh) ∧
    ∃ f A, mesh.faces[(2 + 0) * 2 ^ 3 + 5]? = some f ∧ faceArea8 mesh f = some A ∧ |A - Real.pi * ((1 / 2) ^ 2 - (1 / 4) ^ 2) / (1 : ℤ) / 2 ^ 3| ≤ 1 / 2 ^ 40 := by
  have hfp : IsFp 53 (5 / 4 : ℝ) := ⟨5, -2, by norm_num, by norm_num⟩
  obtain ⟨mesh, -, h, -⟩ := C146_vertices double double_good (by norm_num) some_fused (5 / 4) hfp _ _ pin_drawn 3 le_rfl (by decide) pin_fits2
  refine ⟨mesh, h, ?_⟩
  obtain ⟨f, A, h1, h2, h3⟩ := C146_areas double double_good (by norm_num) some_fused (5 / 4) hfp _ _ pin_drawn 3 le_rfl pin_fits2 mesh h 1 0 5 (1 / 2) 1 rfl rfl (by norm_num) (by norm_num)
  refine ⟨f, A, h1, h2, ?_⟩
  have t : total [2, 1] = 3 := rfl
  have i : innerRadius [1 / 4, 1 / 2] 1 = (1 / 4 : ℝ) := rfl
  rw [t, i] at h3
  exact h3.trans (by norm_num)

example : cylindricalMesh2Fp double some_fused (5 / 4) [1 / 4, 5 / 8] [2, 1] (2 ^ 3 : ℕ) = some none := by
  have hd : DrawnFp 53 [1 / 4, 5 / 8] [2, 1] := ⟨by simp, rfl, by
    intro r hr
    simp only [List.mem_cons, List.not_mem_nil, or_false] at hr
    rcases hr with rfl | rfl
    · exact ⟨1, -2, by norm_num, by norm_num⟩
    · exact ⟨5, -3, by norm_num, by norm_num⟩, by simp, by norm_num, by simp⟩
  refine C146_refuses double double_good (by norm_num) some_fused (5 / 4) ⟨5, -2, by norm_num, by norm_num⟩ _ _ hd 3 le_rfl (by decide) (by decide) (5 / 8) (by simp) ?_
  have t : total [2, 1] = 3 := rfl
  have h := factor2_eight
  have e8 : (2 : ℕ) ^ 3 = 8 := rfl
  rw [t, e8]
  refine lt_of_lt_of_le (b := 10001 / 10000 * (5 / 8) * (1 - (46 * ((3 : ℕ) : ℝ) + 10) / 2 ^ 53)) (by norm_num) ?_
  exact mul_le_mul_of_nonneg_right (by linarith) (by norm_num)

example : ∃ ρ, (eqRadii2Fp double some_fused (2 ^ 3) (ringRadiiFp double (ringAreasFp double (regionAreasFp double [1 / 4, 1 / 2] none) [2, 1]))
    (ringAreasFp double (regionAreasFp double [1 / 4, 1 / 2] none) [2, 1]))[2]? = some ρ ∧ |ρ - factor2 8 * (1 / 2)| ≤ 148 / 2 ^ 53 * (factor2 8 * (1 / 2)) := by
  obtain ⟨ρ, h1, h2⟩ := C146_equivalent double double_good (by norm_num) some_fused _ _ pin_drawn (by decide) 3 le_rfl 1 0 (1 / 2) 1 rfl rfl (by norm_num)
  refine ⟨ρ, h1, ?_⟩
  have e : divide (innerRadius [1 / 4, 1 / 2] 1) (1 / 2) (0 + 1) (1 : ℤ).toNat = 1 / 2 := by
    have i : innerRadius [1 / 4, 1 / 2] 1 = (1 / 4 : ℝ) := rfl
    have n1 : (1 : ℤ).toNat = 1 := rfl
    unfold divide
    rw [i, n1, show ((1 / 4 : ℝ)) ^ 2 + ((0 + 1 : ℕ) : ℝ) / ((1 : ℕ) : ℝ) * ((1 / 2) ^ 2 - (1 / 4) ^ 2) = (1 / 2) ^ 2 by norm_num, Real.sqrt_sq (by norm_num)]
  have b : before [2, 1] 1 = 2 := rfl
  rw [e, b] at h2
  norm_num at h2 ⊢
  exact h2

end Verif.PropsFpCyl2
