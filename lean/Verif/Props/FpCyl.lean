import Verif.Lemmas.FpCylMesh

/-!
# C142: cylindrical pin meshes in floating-point arithmetic

The meshes of order 1 of `addCylindricalPinMesh` (`Verif.FpCyl.cylindricalMeshFp`) compared with those of exact arithmetic, for which C61 and C112 say
what they are.  `Good m` is what is assumed of the square root, the sine, the cosine and the constant `pi`.
-/

namespace Verif.PropsFpCyl

open Verif.Fp Verif.Pin Verif.PinArea Verif.PropsPinArea Verif.PropsPinAccept Verif.FpCyl
open Verif.PropsRectPin (faceArea)

variable {p : ℕ}

/-- `y` is `x` with at most `k` relative errors of `2 ^ -p`. -/
def Within (p k : ℕ) (x y : ℝ) : Prop := x * (1 - 1 / 2 ^ p) ^ k ≤ y ∧ y ≤ x * (1 + 1 / 2 ^ p) ^ k

/-- The radius of the circle that divides the region between `q` and `r` after `t` of `n` equal areas. -/
noncomputable def divide (q r : ℝ) (t n : ℕ) : ℝ := √(q ^ 2 + t / n * (r ^ 2 - q ^ 2))

/-- The number of rings of a pin. -/
def total (rings : List ℤ) : ℕ := (rings.map Int.toNat).sum

/-- The number of the first ring of region `i`. -/
def before (rings : List ℤ) (i : ℕ) : ℕ := ((rings.take i).map Int.toNat).sum

/-! ### Radii -/

theorem entry (regs : List (ℝ × ℕ)) : ∀ (q : Option ℝ) (x : ℝ) (i t : ℕ) (r : ℝ) (n : ℕ), 0 ≤ x → x ^ 2 = q.getD 0 ^ 2 → 0 ≤ q.getD 0 → (q.getD 0 :: regs.map (·.1)).Pairwise (· < ·) →
    (∀ r ∈ regs, 0 < r.2) → regs[i]? = some (r, n) → t < n →
    (xLoop x (xInc 1 q regs))[((regs.take i).map (·.2)).sum + t]? = some (divide ((q.getD 0 :: regs.map (·.1)).getD i 0) r (t + 1) n) := by
  induction regs with
  | nil => intro q x i t r n _ _ _ _ _ h; simp at h
  | cons reg regs ih =>
    obtain ⟨r', n'⟩ := reg
    intro q x i t r n x0 hx q0 hinc hpos h ht
    have hn0 : 0 < n' := hpos (r', n') (by simp)
    have hn0' : (0 : ℝ) < n' := by exact_mod_cast hn0
    rw [List.map_cons, List.pairwise_cons] at hinc
    have hqr : q.getD 0 < r' := hinc.1 r' (by simp)
    have hq2 : q.getD 0 ^ 2 ≤ r' ^ 2 := pow_le_pow_left₀ q0 hqr.le 2
    obtain ⟨L, x', hL, hl, hLy, x0', hx'⟩ := xLoop_region (G := 1 * (r' ^ 2 - q.getD 0 ^ 2) / n') (div_nonneg (by linarith) hn0'.le) (xInc 1 (some r') regs) n' x x0
    rw [xInc, hL]
    cases i with
    | zero =>
      simp only [List.getElem?_cons_zero, Option.some.injEq, Prod.mk.injEq] at h
      obtain ⟨rfl, rfl⟩ := h
      simp only [List.take_zero, List.map_nil, List.sum_nil, zero_add, List.getD_cons_zero]
      rw [List.getElem?_append_left (by omega)]
      have hlt : t < L.length := by omega
      rw [List.getElem?_eq_getElem hlt]
      obtain ⟨a, b⟩ := hLy t L[t] (List.getElem?_eq_getElem hlt)
      congr 1
      unfold divide
      rw [← Real.sqrt_sq a, b, hx]
      congr 1
      push_cast
      ring
    | succ i =>
      simp only [List.getElem?_cons_succ] at h
      have hx2 : x' ^ 2 = (some r').getD 0 ^ 2 := by
        rw [hx', hx, Option.getD_some]; field_simp; ring
      have := ih (some r') x' i t r n x0' hx2 (q0.trans hqr.le) hinc.2 (fun s hs => hpos s (by simp [hs])) h ht
      simp only [List.take_succ_cons, List.map_cons, List.sum_cons, List.getD_cons_succ]
      rw [add_assoc, List.getElem?_append_right (by omega), hl, Nat.add_sub_cancel_left]
      exact this

section
variable {radii : List ℝ} {rings : List ℤ} (hd : DrawnFp p radii rings) {i t : ℕ} {r : ℝ} {n : ℤ} (hr : radii[i]? = some r) (hn : rings[i]? = some n) (ht : (t : ℤ) < n)
include hd hr hn ht

theorem ringRadii_entry : (ringRadii (realLibm 0) (areasX radii rings))[before rings i + t]? = some (divide (innerRadius radii i) r (t + 1) n.toNat) := by
  have pi0 := Real.pi_pos
  rw [ringRadii_x, areasX, ringAreas_map, show Real.pi * (1 / Real.pi) = 1 by field_simp]
  have hz : (radii.zip (rings.map Int.toNat)).map (·.1) = radii := List.map_fst_zip (by rw [List.length_map, hd.length])
  have hz2 : (radii.zip (rings.map Int.toNat)).map (·.2) = rings.map Int.toNat := List.map_snd_zip (by rw [List.length_map, hd.length])
  have := entry (radii.zip (rings.map Int.toNat)) none 0 i t r n.toNat le_rfl (by simp) le_rfl (regs_order hd) (fun r hr => (regs_ok hd r hr).2.1)
    (by rw [List.getElem?_zip_eq_some]; exact ⟨hr, by rw [List.getElem?_map, hn]; rfl⟩) (by omega)
  rw [List.map_take, hz2, ← List.map_take, hz] at this
  exact this

omit hd hr in
theorem before_lt : before rings i + t < total rings := by
  have := take_lt (rings := rings.map Int.toNat) (i := i) (t := t) (n := n.toNat) (by rw [List.getElem?_map, hn]; rfl) (by omega)
  rwa [← List.map_take] at this

end

/-- **C142**: the radius of a ring is that of exact arithmetic with at most `4 j + 8` rounding errors, where `j` is the number of the ring. -/
theorem C142_radii (m : FpLibm ℝ p) (hm : Good m) (hp : 6 ≤ p) (radii : List ℝ) (rings : List ℤ) (hd : DrawnFp p radii rings) (i t : ℕ) (r : ℝ) (n : ℤ)
    (hr : radii[i]? = some r) (hn : rings[i]? = some n) (ht : (t : ℤ) < n) :
    ∃ ρ, (ringRadiiFp m (ringAreasFp m (regionAreasFp m radii none) (rings.map Int.toNat)))[before rings i + t]? = some ρ ∧
      Within p (4 * (before rings i + t) + 8) (divide (innerRadius radii i) r (t + 1) n.toNat) ρ := by
  have hX := ringRadii_entry hd hr hn ht
  have hlt := (List.getElem?_eq_some_iff.1 hX).1
  rw [← rr_length hm hp hd] at hlt
  exact ⟨_, List.getElem?_eq_getElem hlt, (rr_off hm hp hd _ _ _ hX (List.getElem?_eq_getElem hlt)).2.2⟩

/-- **C142**: the equivalent radius of a ring is that of exact arithmetic with at most `4 j + 10` rounding errors. -/
theorem C142_equivalent (m : FpLibm ℝ p) (hm : Good m) (hp : 6 ≤ p) (radii : List ℝ) (rings : List ℤ) (hd : DrawnFp p radii rings) (k : ℕ) (hk : 3 ≤ k) (i t : ℕ) (r : ℝ) (n : ℤ)
    (hr : radii[i]? = some r) (hn : rings[i]? = some n) (ht : (t : ℤ) < n) :
    ∃ ρ, (eqRadii1Fp m (2 ^ k) (ringAreasFp m (regionAreasFp m radii none) (rings.map Int.toNat)))[before rings i + t]? = some ρ ∧
      Within p (4 * (before rings i + t) + 10) (factor1 (2 ^ k) * divide (innerRadius radii i) r (t + 1) n.toNat) ρ := by
  have hX := ringRadii_entry hd hr hn ht
  have hE : (eqRadii1 (realLibm 0) (2 ^ k) (areasX radii rings))[before rings i + t]? = some (factor1 (2 ^ k) * divide (innerRadius radii i) r (t + 1) n.toNat) := by
    rw [eqRadii1_map 0 (by positivity) (sinTheta_off hm hp hk).2, List.getElem?_map, hX]; rfl
  have hlt := (List.getElem?_eq_some_iff.1 hE).1
  rw [← eq_length hm hp hd] at hlt
  exact ⟨_, List.getElem?_eq_getElem hlt, (eq_off hm hp hd hk _ _ _ hE (List.getElem?_eq_getElem hlt)).2.2⟩

/-! ### The mesh -/

theorem eight_le {k : ℕ} (hk : 3 ≤ k) : 8 ≤ 2 ^ k := by
  calc 8 = 2 ^ 3 := rfl
    _ ≤ 2 ^ k := Nat.pow_le_pow_right (by decide) hk

/-- What the function does for a pin that can be drawn. -/
theorem mesh_cases (m : FpLibm ℝ p) {pitch : ℝ} (hfp : IsFp p pitch) {radii : List ℝ} {rings : List ℤ} (hd : DrawnFp p radii rings) {k : ℕ} (hk : 3 ≤ k)
    (hsize : 1 + (total rings + 1) * 2 ^ k + 2 ^ k / 2 < 2 ^ 31) :
    cylindricalMeshFp m pitch radii rings (2 ^ k : ℕ) =
      if radii.any fun r => decide (pitch / 2 < r) then some none
      else if (eqRadii1Fp m (2 ^ k) (areasF m radii rings)).any fun r => decide (pitch / 2 < r) then some none
      else some (some ⟨(points1Fp m (2 ^ k) pitch (eqRadii1Fp m (2 ^ k) (areasF m radii rings))).map (shiftFp m pitch), faces1 (2 ^ k) (total rings)⟩) := by
  unfold cylindricalMeshFp
  rw [if_neg (by exact_mod_cast not_lt.2 (eight_le hk)), if_neg (by rw [Int.toNat_natCast, pow_and]; simp), if_neg (not_not.2 hd.length), m.R.id hfp.half]
  by_cases h1 : (radii.any fun r => decide (pitch / 2 < r)) = true
  · rw [if_pos h1, if_pos h1]
  · rw [if_neg h1, if_neg h1, if_neg (drawn_rings hd.drawn)]
    dsimp only
    rw [Int.toNat_natCast, if_neg (by unfold total at hsize; omega)]
    rfl

/-- Exact arithmetic, likewise. -/
theorem mesh_exact {pitch : ℝ} {radii : List ℝ} {rings : List ℤ} (hd : DrawnFp p radii rings) {k : ℕ} (hk : 3 ≤ k)
    (hsize : 1 + (total rings + 1) * 2 ^ k + 2 ^ k / 2 < 2 ^ 31) (h : ∀ r ∈ radii, factor1 (2 ^ k) * r ≤ pitch / 2) :
    cylindricalMesh (realLibm 0) pitch radii rings (2 ^ k : ℕ) 1 =
      some (some ⟨(points1 (realLibm 0) (2 ^ k) pitch (eqRadii1 (realLibm 0) (2 ^ k) (areasX radii rings))).map (shift (realLibm 0) pitch), faces1 (2 ^ k) (total rings)⟩) := by
  obtain ⟨mesh, hmesh⟩ := (C112_linear_partial 0 pitch radii rings hd.drawn k hk hsize).1.2 h
  obtain ⟨-, -, -, -, -, -, rfl⟩ := mesh1_data hmesh
  rw [hmesh, Int.toNat_natCast]
  rfl

section
variable {m : FpLibm ℝ p} (hm : Good m) (hp : 10 ≤ p) {radii : List ℝ} {rings : List ℤ} (hd : DrawnFp p radii rings) {k : ℕ} (hk : 3 ≤ k)
include hm hp hd hk

omit hm hp hk in
theorem eq_len {k : ℕ} : (eqRadii1 (realLibm 0) (2 ^ k) (areasX radii rings)).length = total rings := by
  rw [PropsPinTopo.eqRadii1_length]
  exact PropsPinTopo.ringAreas_length _ _ (by rw [PropsPinTopo.regionAreas_length, List.length_map]; exact hd.length)

/-- The exact equivalent radii are within the largest circle, enlarged. -/
theorem eq_bound : ∃ R ∈ radii, ∀ x ∈ eqRadii1 (realLibm 0) (2 ^ k) (areasX radii rings), 0 ≤ x ∧ x ≤ factor1 (2 ^ k) * R := by
  obtain ⟨R, hR, hx⟩ := drawn_bound hd.drawn
  refine ⟨R, hR, fun x hx' => ?_⟩
  rw [eqRadii1_map 0 (by positivity) (sinTheta_off hm (by omega) hk).2] at hx'
  obtain ⟨y, hy, rfl⟩ := List.mem_map.1 hx'
  obtain ⟨a, b⟩ := hx y hy
  have hf : 0 ≤ factor1 (2 ^ k) := Real.sqrt_nonneg _
  exact ⟨mul_nonneg hf a, mul_le_mul_of_nonneg_left b hf⟩

variable {pitch : ℝ} (hf : Fits p m.eps pitch radii (2 ^ k) (total rings))
include hf

omit hm hp hd in
theorem fits_data : 0 < pitch ∧ 0 < m.eps ∧ m.eps + 22 * (1 / 2 ^ p) ≤ 2 / ((2 ^ k : ℕ) : ℝ) ∧ 22 * (1 / 2 ^ p) < m.eps ∧ (4 * (total rings : ℝ) + 40) * (1 / 2 ^ p) * pitch < m.eps ∧
    (4 * (total rings : ℝ) + 40) * (1 / 2 ^ p) < 1 / 4 ∧ m.eps ≤ pitch / 4 := by
  have u0 := unit_nonneg (K := ℝ) p
  have h1 := hf.snap
  have e : ∀ x : ℝ, x / 2 ^ p = x * (1 / 2 ^ p) := fun x => by ring
  rw [e] at h1
  have h2 := hf.trig
  rw [e] at h2
  have h3 := hf.few
  rw [e] at h3
  have k0 : (8 : ℝ) ≤ ((2 ^ k : ℕ) : ℝ) := by exact_mod_cast eight_le hk
  have e0 : 0 < m.eps := by linarith
  have h4 := hf.side
  rw [le_div_iff₀ (by positivity)] at h4
  have hpitch : 0 < pitch := by nlinarith
  have h5 : m.eps ≤ pitch / 4 := by nlinarith
  refine ⟨hpitch, e0, h2, h1, h3, ?_, h5⟩
  have : (4 * (total rings : ℝ) + 40) * (1 / 2 ^ p) * pitch < 1 / 4 * pitch := by linarith
  exact lt_of_mul_lt_mul_right this hpitch.le

theorem eq_close : List.Forall₂ (fun e E => 0 ≤ E ∧ E + 2 * m.eps ≤ pitch / 2 ∧ e ≤ pitch / 2 ∧ |e - E| ≤ (8 * (total rings : ℝ) + 15) * (1 / 2 ^ p) * (pitch / 2) ∧
      |m.R.rnd (e / 2) - E / 2| ≤ (8 * (total rings : ℝ) + 15) * (1 / 2 ^ p) * (pitch / 2))
    (eqRadii1Fp m (2 ^ k) (areasF m radii rings)) (eqRadii1 (realLibm 0) (2 ^ k) (areasX radii rings)) := by
  have u0 := unit_nonneg (K := ℝ) p
  have u1 := unit_le (K := ℝ) p
  obtain ⟨hpitch, e0, -, -, h3, h4, -⟩ := fits_data hk hf
  obtain ⟨R, hR, hb⟩ := eq_bound hm hp hd hk
  have haw := hf.away R hR
  have hlen := eq_length hm (by omega) hd (2 ^ k)
  have hl := eq_len hd (k := k)
  rw [List.forall₂_iff_get]
  refine ⟨hlen, fun j h1 h2 => ?_⟩
  rw [List.get_eq_getElem, List.get_eq_getElem]
  obtain ⟨a, b, c⟩ := eq_off hm (by omega) hd hk j _ _ (List.getElem?_eq_getElem h2) (List.getElem?_eq_getElem h1)
  have hE := hb _ (List.getElem_mem h2)
  generalize (eqRadii1Fp m (2 ^ k) (areasF m radii rings))[j] = e at *
  generalize (eqRadii1 (realLibm 0) (2 ^ k) (areasX radii rings))[j] = E at *
  have hj : j + 1 ≤ total rings := by omega
  have hj' : (j : ℝ) + 1 ≤ total rings := by exact_mod_cast hj
  have c1 := c.weaken (l := 4 * total rings + 7) u0 u1 a (by omega)
  have half : Off (1 / 2 ^ p) (4 * total rings + 7) (E / 2) (m.R.rnd (e / 2)) := by
    have := c.mul u0 u1 a (by norm_num : (0 : ℝ) ≤ 1 / 2) (Off.refl _ _)
    rw [mul_one_div, mul_one_div] at this
    exact (this.rnd m.R (by omega) (by linarith)).weaken u0 u1 (by linarith) (by omega)
  have small : ((4 * total rings + 7 : ℕ) : ℝ) * (1 / 2 ^ p) ≤ 1 / 2 := by
    push_cast
    nlinarith
  have d1 := off_linear u0 u1 a small c1
  have d2 := off_linear u0 u1 (by linarith) small half
  push_cast at d1 d2
  set N : ℝ := (total rings : ℝ)
  set u : ℝ := 1 / 2 ^ p
  have N0 : 0 ≤ N := Nat.cast_nonneg _
  have Eh : E ≤ pitch / 2 := by linarith [hE.2]
  have kk : 0 ≤ 2 * (4 * N + 7) * u := by positivity
  have b1 : 2 * (4 * N + 7) * u * E ≤ 2 * (4 * N + 7) * u * (pitch / 2) := mul_le_mul_of_nonneg_left Eh kk
  have b2 : 2 * (4 * N + 7) * u * (E / 2) ≤ 2 * (4 * N + 7) * u * (pitch / 2) := mul_le_mul_of_nonneg_left (by linarith) kk
  have b3 : 0 ≤ u * (pitch / 2) := by positivity
  have b4 : 2 * (4 * N + 7) * u * (pitch / 2) ≤ (8 * N + 15) * u * (pitch / 2) := by nlinarith
  refine ⟨a, by linarith [hE.2], ?_, by linarith, by linarith⟩
  have := (abs_le.1 d1).2
  have b5 : 0 ≤ u * pitch := by positivity
  have b6 : 2 * (4 * N + 7) * u * (pitch / 2) ≤ (4 * N + 40) * u * pitch := by nlinarith
  linarith [hE.2]

/-- The exact points are in the cell. -/
theorem points_in : ∀ q ∈ points1 (realLibm 0) (2 ^ k) pitch (eqRadii1 (realLibm 0) (2 ^ k) (areasX radii rings)), |q.1| ≤ pitch / 2 ∧ |q.2| ≤ pitch / 2 := by
  obtain ⟨hpitch, e0, -, -, -, -, -⟩ := fits_data hk hf
  obtain ⟨R, hR, hb⟩ := eq_bound hm hp hd hk
  have haw := hf.away R hR
  set eq := eqRadii1 (realLibm 0) (2 ^ k) (areasX radii rings)
  have hhead : 0 ≤ eq.headD 0 ∧ eq.headD 0 ≤ pitch / 2 := by
    generalize eq = l at *
    cases l with
    | nil => exact ⟨le_rfl, by simp; linarith⟩
    | cons e es => have := hb e (by simp); exact ⟨this.1, by simp only [List.headD_cons]; linarith [this.2]⟩
  intro q hq
  unfold points1 at hq
  simp only [List.mem_append, List.mem_singleton] at hq
  rcases hq with ((rfl | hq) | hq) | hq
  · simp; linarith
  · obtain ⟨s, -, rfl⟩ := List.mem_map.1 hq
    exact near_polar (R := eq.headD 0 / 2) (b := pitch / 2) (by linarith) (by linarith)
  · obtain ⟨e, he, hq⟩ := List.mem_flatMap.1 hq
    exact ring1_near e (hb e he).1 (by linarith [(hb e he).2]) q hq
  · obtain ⟨s, -, rfl⟩ := List.mem_map.1 hq
    rw [snapTrig_zero, boundaryRadius_eq hpitch]
    exact (rbd_le hpitch.le _).2

end

/-- **C142**: a pin whose circles, enlarged by the factor of C112, stay two tolerances away from the sides is meshed, as in exact arithmetic, with the same
faces; every coordinate of every vertex is within `(4 N + 40) 2 ^ -p pitch` of the exact one, where `N` is the number of rings, and it is zero exactly when
the exact one is.  The tolerance has to be larger than the errors and smaller than half of a quarter of a division. -/
theorem C142_vertices (m : FpLibm ℝ p) (hm : Good m) (hp : 10 ≤ p) (pitch : ℝ) (hfp : IsFp p pitch) (radii : List ℝ) (rings : List ℤ) (hd : DrawnFp p radii rings) (k : ℕ) (hk : 3 ≤ k)
    (hsize : 1 + (total rings + 1) * 2 ^ k + 2 ^ k / 2 < 2 ^ 31) (hf : Fits p m.eps pitch radii (2 ^ k) (total rings)) :
    ∃ mesh exact, cylindricalMeshFp m pitch radii rings (2 ^ k : ℕ) = some (some mesh) ∧
      cylindricalMesh (realLibm 0) pitch radii rings (2 ^ k : ℕ) 1 = some (some exact) ∧ mesh.faces = exact.faces ∧
      List.Forall₂ (fun v w => (|v.1 - w.1| ≤ (4 * total rings + 40) / 2 ^ p * pitch ∧ |v.2 - w.2| ≤ (4 * total rings + 40) / 2 ^ p * pitch) ∧
        (v.1 = 0 ↔ w.1 = 0) ∧ (v.2 = 0 ↔ w.2 = 0)) mesh.verts exact.verts := by
  have u0 := unit_nonneg (K := ℝ) p
  obtain ⟨hpitch, e0, t1, t2, h3, h4, h5⟩ := fits_data hk hf
  have hec := eq_close hm hp hd hk hf
  obtain ⟨R, hR, hb⟩ := eq_bound hm hp hd hk
  have haw := hf.away R hR
  have hf1 : 1 < factor1 (2 ^ k) := (one_lt_factor2 (eight_le hk)).trans_le (factor2_le_factor1 (eight_le hk))
  refine ⟨⟨(points1Fp m (2 ^ k) pitch (eqRadii1Fp m (2 ^ k) (areasF m radii rings))).map (shiftFp m pitch), faces1 (2 ^ k) (total rings)⟩, _, ?_, mesh_exact hd hk hsize fun r hr => by linarith [hf.away r hr], rfl, ?_⟩
  · rw [mesh_cases m hfp hd hk hsize, if_neg, if_neg]
    · simp only [List.any_eq_true, decide_eq_true_eq, not_exists, not_and, not_lt]
      intro e he
      obtain ⟨j, hj, rfl⟩ := List.getElem_of_mem he
      have hl := hec.length_eq
      have := (List.forall₂_iff_get.1 hec).2 j hj (by omega)
      exact this.2.2.1
    · simp only [List.any_eq_true, decide_eq_true_eq, not_exists, not_and, not_lt]
      intro r hr
      have := hf.away r hr
      have := hd.pos r hr
      nlinarith
  · dsimp only
    have N1 : 1 ≤ total rings := by
      obtain ⟨r, rs, e⟩ := List.exists_cons_of_ne_nil hd.some
      have hl := hd.length
      rw [e, List.length_cons] at hl
      obtain ⟨z, zs, rfl⟩ : ∃ z zs, rings = z :: zs := List.exists_cons_of_ne_nil fun h => by simp [h] at hl
      have := (hd.rings z (by simp)).1
      simp only [total, List.map_cons, List.sum_cons]
      omega
    have N1' : (1 : ℝ) ≤ total rings := by exact_mod_cast N1
    have cl := points_close hm hp hk hpitch t1 t2 (κ := 8 * total rings + 15) (by linarith) (by nlinarith) (hec.imp fun e E h => ⟨h.1, by linarith [h.2.1], h.2.2.2.1, h.2.2.2.2⟩)
    have n0 : 0 < 2 ^ k := by positivity
    have n2 : 2 ^ k % 2 = 0 := by
      obtain ⟨j, rfl⟩ : ∃ j, k = j + 1 := ⟨k - 1, by omega⟩
      rw [pow_succ]; omega
    have hR0 := hd.pos R hR
    have kept := points1_kept (b := factor1 (2 ^ k) * R) n0 n2 hpitch hf.side (by positivity) (by linarith) _ hb
    have inn := points_in hm hp hd hk hf
    generalize points1Fp m (2 ^ k) pitch (eqRadii1Fp m (2 ^ k) (areasF m radii rings)) = F at *
    generalize points1 (realLibm 0) (2 ^ k) pitch (eqRadii1 (realLibm 0) (2 ^ k) (areasX radii rings)) = X at *
    rw [List.forall₂_map_left_iff, List.forall₂_map_right_iff, shift_zero]
    rw [List.forall₂_iff_get] at cl ⊢
    refine ⟨cl.1, fun j h1 h2 => ?_⟩
    obtain ⟨c1, c2⟩ := cl.2 j h1 h2
    have hq : X.get ⟨j, h2⟩ ∈ X := List.get_mem _ _
    obtain ⟨k1, k2⟩ := kept _ hq
    obtain ⟨i1, i2⟩ := inn _ hq
    set N : ℝ := (total rings : ℝ)
    have eN : (4 * N + 40) / 2 ^ p * pitch = (4 * N + 40) * (1 / 2 ^ p) * pitch := by ring
    rw [eN]
    set u : ℝ := 1 / 2 ^ p
    have up : 0 ≤ u * pitch := by positivity
    have B1 : (8 * N + 15 + 47) * u * (pitch / 2) = (4 * N + 31) * u * pitch := by ring
    rw [B1] at c1 c2
    have Bs : (4 * N + 31) * u * pitch ≤ pitch / 2 := by nlinarith
    have Be : (4 * N + 31) * u * pitch + 2 * u * pitch < m.eps := by nlinarith
    have Bt : (4 * N + 31) * u * pitch + 2 * u * pitch ≤ (4 * N + 40) * u * pitch := by nlinarith
    obtain ⟨a1, b1⟩ := shift_coord m hp hpitch hfp i1 Bs c1 k1 Be
    obtain ⟨a2, b2⟩ := shift_coord m hp hpitch hfp i2 Bs c2 k2 Be
    exact ⟨⟨a1.trans Bt, a2.trans Bt⟩, b1, b2⟩

/-- **C142**: a pin with a circle that, enlarged, is outside of the cell by more than the errors is refused. -/
theorem C142_refuses (m : FpLibm ℝ p) (hm : Good m) (hp : 10 ≤ p) (pitch : ℝ) (hfp : IsFp p pitch) (radii : List ℝ) (rings : List ℤ) (hd : DrawnFp p radii rings) (k : ℕ) (hk : 3 ≤ k)
    (hsize : 1 + (total rings + 1) * 2 ^ k + 2 ^ k / 2 < 2 ^ 31) (r : ℝ) (hr : r ∈ radii) (h : pitch / 2 < factor1 (2 ^ k) * r * (1 - 1 / 2 ^ p) ^ (4 * total rings + 6)) :
    cylindricalMeshFp m pitch radii rings (2 ^ k : ℕ) = some none := by
  have u0 := unit_nonneg (K := ℝ) p
  have u1 := unit_le (K := ℝ) p
  rw [mesh_cases m hfp hd hk hsize]
  split
  · rfl
  rw [if_pos]
  obtain ⟨i, hi, rfl⟩ := List.getElem_of_mem hr
  have hi' : i < rings.length := by rw [← hd.length]; exact hi
  have hn := hd.rings _ (List.getElem_mem hi')
  obtain ⟨t, ht⟩ : ∃ t : ℕ, (t : ℤ) + 1 = rings[i] := ⟨(rings[i] - 1).toNat, by omega⟩
  obtain ⟨ρ, h1, h2, -⟩ := C142_equivalent m hm (by omega) radii rings hd k hk i t _ _ (List.getElem?_eq_getElem hi) (List.getElem?_eq_getElem hi') (by omega)
  have hlt := before_lt (List.getElem?_eq_getElem hi') (t := t) (by omega)
  have hpos := hd.pos _ (List.getElem_mem hi)
  have e : divide (innerRadius radii i) radii[i] (t + 1) rings[i].toNat = radii[i] := by
    have : rings[i].toNat = t + 1 := by omega
    unfold divide
    rw [this, div_self (by positivity)]
    rw [show innerRadius radii i ^ 2 + 1 * (radii[i] ^ 2 - innerRadius radii i ^ 2) = radii[i] ^ 2 by ring, Real.sqrt_sq hpos.le]
  rw [e] at h2
  refine List.any_eq_true.2 ⟨ρ, List.mem_of_getElem? h1, decide_eq_true ?_⟩
  refine h.trans_le (le_trans ?_ h2)
  have hf0 : 0 ≤ factor1 (2 ^ k) * radii[i] := mul_nonneg (Real.sqrt_nonneg _) hpos.le
  exact mul_le_mul_of_nonneg_left (pow_le_pow_of_le_one (by linarith) (by linarith) (by omega)) hf0

/-- The areas of two quadrilaterals with nearby vertices. -/
theorem area_close {P B : ℝ} (B0 : 0 ≤ B) (BP : B ≤ P / 4) {a b c d a' b' c' d' : ℝ × ℝ} (ha : 0 ≤ a.1 ∧ a.1 ≤ P ∧ 0 ≤ a.2 ∧ a.2 ≤ P) (hb : 0 ≤ b.1 ∧ b.1 ≤ P ∧ 0 ≤ b.2 ∧ b.2 ≤ P)
    (hc : 0 ≤ c.1 ∧ c.1 ≤ P ∧ 0 ≤ c.2 ∧ c.2 ≤ P) (hd : 0 ≤ d.1 ∧ d.1 ≤ P ∧ 0 ≤ d.2 ∧ d.2 ≤ P) (ka : Close B a' a) (kb : Close B b' b) (kc : Close B c' c) (kd : Close B d' d) :
    |shoe a' b' c' d' - shoe a b c d| ≤ 5 * B * P := by
  have key : ∀ {x y x' y' : ℝ}, |x| ≤ P → |y| ≤ P → |x' - x| ≤ 2 * B → |y' - y| ≤ 2 * B → |x' * y' - x * y| ≤ 5 * B * P := by
    intro x y x' y' hx hy hx' hy'
    have e : x' * y' - x * y = (x' - x) * (y' - y) + ((x' - x) * y + x * (y' - y)) := by ring
    have t1 := abs_add_le ((x' - x) * (y' - y)) ((x' - x) * y + x * (y' - y))
    have t2 := abs_add_le ((x' - x) * y) (x * (y' - y))
    rw [abs_mul] at t1
    rw [abs_mul, abs_mul] at t2
    have b1 : |x' - x| * |y' - y| ≤ 2 * B * (2 * B) := mul_le_mul hx' hy' (abs_nonneg _) (by linarith)
    have b2 : |x' - x| * |y| ≤ 2 * B * P := mul_le_mul hx' hy (abs_nonneg _) (by linarith)
    have b3 : |x| * |y' - y| ≤ P * (2 * B) := mul_le_mul hx hy' (abs_nonneg _) (by linarith)
    have b4 : 2 * B * (2 * B) ≤ B * P := by nlinarith
    rw [e]
    nlinarith
  have diff : ∀ {x y x' y' : ℝ}, |x' - x| ≤ B → |y' - y| ≤ B → |(x' - y') - (x - y)| ≤ 2 * B := by
    intro x y x' y' h1 h2
    have e : (x' - y') - (x - y) = (x' - x) - (y' - y) := by ring
    rw [e]
    exact (abs_sub _ _).trans (by linarith)
  have bd : ∀ {x y : ℝ}, 0 ≤ x → x ≤ P → 0 ≤ y → y ≤ P → |x - y| ≤ P := by
    intro x y h1 h2 h3 h4
    rw [abs_le]; constructor <;> linarith
  have e1 : shoe a' b' c' d' - shoe a b c d =
      (((c'.1 - a'.1) * (d'.2 - b'.2) - (c.1 - a.1) * (d.2 - b.2)) - ((c'.2 - a'.2) * (d'.1 - b'.1) - (c.2 - a.2) * (d.1 - b.1))) / 2 := by
    unfold shoe; ring
  have k1 := key (bd hc.1 hc.2.1 ha.1 ha.2.1) (bd hd.2.2.1 hd.2.2.2 hb.2.2.1 hb.2.2.2) (diff kc.1 ka.1) (diff kd.2 kb.2)
  have k2 := key (bd hc.2.2.1 hc.2.2.2 ha.2.2.1 ha.2.2.2) (bd hd.1 hd.2.1 hb.1 hb.2.1) (diff kc.2 ka.2) (diff kd.1 kb.1)
  rw [e1, abs_div, abs_of_pos (by norm_num : (0 : ℝ) < 2)]
  have := abs_sub ((c'.1 - a'.1) * (d'.2 - b'.2) - (c.1 - a.1) * (d.2 - b.2)) ((c'.2 - a'.2) * (d'.1 - b'.1) - (c.2 - a.2) * (d.1 - b.1))
  linarith

/-- **C142**: the face of ring `t` of region `i` in any direction has its share of the area of the region, up to `(20 N + 200) 2 ^ -p pitch ²`. -/
theorem C142_areas (m : FpLibm ℝ p) (hm : Good m) (hp : 10 ≤ p) (pitch : ℝ) (hfp : IsFp p pitch) (radii : List ℝ) (rings : List ℤ) (hd : DrawnFp p radii rings) (k : ℕ) (hk : 3 ≤ k)
    (hf : Fits p m.eps pitch radii (2 ^ k) (total rings)) (mesh : Mesh ℝ) (h : cylindricalMeshFp m pitch radii rings (2 ^ k : ℕ) = some (some mesh))
    (i t a : ℕ) (r : ℝ) (n : ℤ) (hr : radii[i]? = some r) (hn : rings[i]? = some n) (ht : (t : ℤ) < n) (ha : a < 2 ^ k) :
    ∃ f A, mesh.faces[(before rings i + t) * 2 ^ k + a]? = some f ∧ faceArea mesh f = some A ∧
      |A - Real.pi * (r ^ 2 - innerRadius radii i ^ 2) / n / 2 ^ k| ≤ (20 * total rings + 200) / 2 ^ p * pitch ^ 2 := by
  have u0 := unit_nonneg (K := ℝ) p
  obtain ⟨hpitch, e0, t1, t2, h3, h4, h5⟩ := fits_data hk hf
  have hsize : 1 + (total rings + 1) * 2 ^ k + 2 ^ k / 2 < 2 ^ 31 := by
    by_contra hc
    unfold cylindricalMeshFp at h
    rw [if_neg (by exact_mod_cast not_lt.2 (eight_le hk)), if_neg (by rw [Int.toNat_natCast, pow_and]; simp), if_neg (not_not.2 hd.length)] at h
    split at h
    · simp at h
    rw [if_neg (drawn_rings hd.drawn)] at h
    dsimp only at h
    rw [Int.toNat_natCast, if_pos (by unfold total at hc; omega)] at h
    simp at h
  obtain ⟨mesh', exact', h1, h2, h6, h7⟩ := C142_vertices m hm hp pitch hfp radii rings hd k hk hsize hf
  rw [h] at h1
  obtain rfl : mesh = mesh' := by simpa using h1
  have hin : ∀ w ∈ exact'.verts, 0 ≤ w.1 ∧ w.1 ≤ pitch ∧ 0 ≤ w.2 ∧ w.2 ≤ pitch := by
    rw [mesh_exact hd hk hsize fun r hr => by linarith [hf.away r hr]] at h2
    obtain rfl := Option.some.inj (Option.some.inj h2)
    intro w hw
    obtain ⟨q, hq, rfl⟩ := List.mem_map.1 hw
    rw [shift_zero]
    obtain ⟨i1, i2⟩ := points_in hm hp hd hk hf q hq
    have i1 := abs_le.1 i1
    have i2 := abs_le.1 i2
    show 0 ≤ q.1 + pitch / 2 ∧ q.1 + pitch / 2 ≤ pitch ∧ 0 ≤ q.2 + pitch / 2 ∧ q.2 + pitch / 2 ≤ pitch
    exact ⟨by linarith, by linarith, by linarith, by linarith⟩
  obtain ⟨f, hf1, hf2⟩ := C61_linear_rings pitch radii rings (2 ^ k : ℕ) exact' hd.pos hd.drawn.order h2 i t a r n hr hn ht (by exact_mod_cast ha)
  rw [Int.toNat_natCast] at hf1
  rw [← h6] at hf1
  set B : ℝ := (4 * total rings + 40) / 2 ^ p * pitch with hB
  have eB : B = (4 * (total rings : ℝ) + 40) * (1 / 2 ^ p) * pitch := by rw [hB]; ring
  have B0 : 0 ≤ B := by positivity
  have BP : B ≤ pitch / 4 := by rw [eB]; linarith
  rw [List.forall₂_iff_get] at h7
  have vert : ∀ (v : ℕ) (w : ℝ × ℝ), exact'.verts[v]? = some w → ∃ w', mesh.verts[v]? = some w' ∧ Close B w' w ∧ (0 ≤ w.1 ∧ w.1 ≤ pitch ∧ 0 ≤ w.2 ∧ w.2 ≤ pitch) := by
    intro v w hv
    obtain ⟨hlt, rfl⟩ := List.getElem?_eq_some_iff.1 hv
    have hlt' : v < mesh.verts.length := by rw [h7.1]; exact hlt
    exact ⟨_, List.getElem?_eq_getElem hlt', (h7.2 v hlt' hlt).1, hin _ (List.getElem_mem hlt)⟩
  have area : ∀ f A, faceArea exact' f = some A → ∃ A', faceArea mesh f = some A' ∧ |A' - A| ≤ 5 * B * pitch := by
    intro f A hA
    unfold faceArea at hA
    split at hA
    · rename_i x y z w hmap
      rcases f with _ | ⟨f1, _ | ⟨f2, _ | ⟨f3, _ | ⟨f4, _ | ⟨f5, f⟩⟩⟩⟩⟩
      case cons.cons.cons.cons.nil =>
        simp only [List.map_cons, List.map_nil, List.cons.injEq, and_true] at hmap
        obtain ⟨g1, g2, g3, g4⟩ := hmap
        obtain ⟨x', hx', cx, ix⟩ := vert _ _ g1
        obtain ⟨y', hy', cy, iy⟩ := vert _ _ g2
        obtain ⟨z', hz', cz, iz⟩ := vert _ _ g3
        obtain ⟨w', hw', cw, iw⟩ := vert _ _ g4
        refine ⟨_, faceArea_eq hx' hy' hz' hw', ?_⟩
        obtain rfl := Option.some.inj hA
        exact area_close B0 BP ix iy iz iw cx cy cz cw
      all_goals simp at hmap
    · simp at hA
  obtain ⟨A, hA, hle⟩ := area f _ hf2
  refine ⟨f, A, hf1, hA, ?_⟩
  have e1 : (((2 ^ k : ℕ) : ℤ) : ℝ) = 2 ^ k := by push_cast; ring
  rw [e1] at hle
  refine hle.trans (le_of_eq ?_)
  rw [hB]; ring

/-- **C142**: the constant `pi<Float>`, a literal of 21 digits rounded to `double` and then to the type of the library, is `π` up to two rounding errors. -/
theorem C142_pi (D : Rounding ℝ 53) (R : Rounding ℝ p) (hp : 1 ≤ p) (h53 : p ≤ 53) : Within p 2 Real.pi (R.rnd (D.rnd (314159265358979323846 / 10 ^ 20))) := by
  have l := Real.pi_gt_d20
  have u := Real.pi_lt_d20
  have u0 := unit_nonneg (K := ℝ) p
  have u1 := unit_le (K := ℝ) p
  have hd := D.err (k := -51) (by norm_num) (x := 314159265358979323846 / 10 ^ 20) (by rw [abs_of_pos (by norm_num)]; norm_num)
  have hu : (1 : ℝ) / 2 ^ 53 ≤ 1 / 2 ^ p := one_div_le_one_div_of_le (by positivity) (pow_le_pow_right₀ (by norm_num) h53)
  have e51 : (2 : ℝ) ^ (-51 : ℤ) / 2 = 2 * (1 / 2 ^ 53) := by norm_num
  rw [e51] at hd
  generalize D.rnd (314159265358979323846 / 10 ^ 20 : ℝ) = d at *
  have hd := abs_le.1 hd
  have hr := abs_le.1 (rel_u R hp d)
  have tiny : (1 : ℝ) / 10 ^ 20 ≤ 1 / 10 * (1 / 2 ^ 53) := by norm_num
  have pi3 : (3 : ℝ) < Real.pi := Real.pi_gt_three
  have d1 : Real.pi - 1 / 2 ^ p * Real.pi ≤ d := by nlinarith
  have d2 : d ≤ Real.pi + 1 / 2 ^ p * Real.pi := by nlinarith
  have d0 : 0 ≤ d := by nlinarith
  rw [abs_of_nonneg d0] at hr
  constructor
  · nlinarith
  · nlinarith

/-- **C142 fails** for the corner of a cell, which exact arithmetic puts at `(pitch, pitch)`: with `double`, eight divisions and a cell of side 1, the cosine and
the sine of the angle nearest to `π / 4` are rounded to neighbours, and the corner is at `(1, 1 - 2 ^ -53)`.  (Cells of side 1.26 and 1.3 do the same.) -/
theorem C142_corner_fails : ∃ c s : ℚ, IsFp 53 c ∧ IsFp 53 s ∧ s ^ 2 < 1 / 2 ∧ 1 / 2 < c ^ 2 ∧ c - s = 1 / 2 ^ 53 ∧
    ∀ m : FpLibm ℚ 53, m.R = ieee ℚ 53 (by decide) → m.eps ≤ 1 / 2 → m.cos (angleFp m 8 1) = c → m.sin (angleFp m 8 1) = s →
      ((boundaryPoints1Fp m 8 1).map (shiftFp m 1))[1]? = some (1, 1 - 1 / 2 ^ 53) := by
  refine ⟨0x16a09e667f3bcd / 2 ^ 53, 0x16a09e667f3bcc / 2 ^ 53, ⟨0x16a09e667f3bcd, -53, by norm_num, by norm_num⟩, ⟨0x16a09e667f3bcc, -53, by norm_num, by norm_num⟩,
    by norm_num, by norm_num, by norm_num, ?_⟩
  intro m hR he hc hs
  have s1 : ∀ x : ℚ, 1 / 2 ≤ |x| → snapFp m x = x := fun x hx => by
    unfold snapFp; rw [if_neg (by linarith)]
  have e : ((boundaryPoints1Fp m 8 1).map (shiftFp m 1))[1]? =
      some (shiftFp m 1 (polarFp m (boundaryRadiusFp m 1 (snapTrigFp m (angleFp m 8 1))) (snapTrigFp m (angleFp m 8 1)))) := rfl
  have et : snapTrigFp m (angleFp m 8 1) = (0x16a09e667f3bcd / 2 ^ 53, 0x16a09e667f3bcc / 2 ^ 53) := by
    unfold snapTrigFp
    rw [hc, hs, s1 _ (by norm_num [abs_of_pos]), s1 _ (by norm_num [abs_of_pos])]
  rw [e, et]
  unfold shiftFp polarFp boundaryRadiusFp sideFp
  rw [hR]
  have v : ((ieee ℚ 53 (by decide)).rnd ((polarFp ⟨ieee ℚ 53 (by decide), id, id, id, 3, 0, false, false, false⟩
        (boundaryRadiusFp ⟨ieee ℚ 53 (by decide), id, id, id, 3, 0, false, false, false⟩ 1 (0x16a09e667f3bcd / 2 ^ 53, 0x16a09e667f3bcc / 2 ^ 53))
        (0x16a09e667f3bcd / 2 ^ 53, 0x16a09e667f3bcc / 2 ^ 53)).1 + (ieee ℚ 53 (by decide)).rnd (1 / 2)) = 1) ∧
      ((ieee ℚ 53 (by decide)).rnd ((polarFp ⟨ieee ℚ 53 (by decide), id, id, id, 3, 0, false, false, false⟩
        (boundaryRadiusFp ⟨ieee ℚ 53 (by decide), id, id, id, 3, 0, false, false, false⟩ 1 (0x16a09e667f3bcd / 2 ^ 53, 0x16a09e667f3bcc / 2 ^ 53))
        (0x16a09e667f3bcd / 2 ^ 53, 0x16a09e667f3bcc / 2 ^ 53)).2 + (ieee ℚ 53 (by decide)).rnd (1 / 2)) = 1 - 1 / 2 ^ 53) := by decide +kernel
  unfold polarFp boundaryRadiusFp sideFp at v
  refine congrArg some (Prod.ext ?_ ?_)
  · exact (congrArg _ v.1).trans (s1 _ (by norm_num))
  · exact (congrArg _ v.2).trans (s1 _ (by norm_num [abs_of_pos]))

/-! ### A library and a pin that meet the hypotheses -/

/-- `double` with functions that are rounded correctly, and a tolerance of about `1e-7`. -/
noncomputable def double : FpLibm ℝ 53 where
  R := ieee ℝ 53 (by decide)
  sqrt := Real.sqrt
  sin x := (ieee ℝ 53 (by decide)).rnd (Real.sin x)
  cos x := (ieee ℝ 53 (by decide)).rnd (Real.cos x)
  pi := (ieee ℝ 53 (by decide)).rnd ((ieee ℝ 53 (by decide)).rnd (314159265358979323846 / 10 ^ 20))
  eps := 1 / 2 ^ 23
  fuse1 := true
  fuse2 := false
  fuse3 := true

theorem double_good : Good double where
  sqrt _ := rfl
  sin_fp _ _ := (ieee ℝ 53 (by decide)).mem _
  sin x _ := (rel_u (ieee ℝ 53 (by decide)) (by decide) (Real.sin x)).trans (mul_le_mul_of_nonneg_right (by norm_num) (abs_nonneg _))
  cos_fp _ _ := (ieee ℝ 53 (by decide)).mem _
  cos x _ := (rel_u (ieee ℝ 53 (by decide)) (by decide) (Real.cos x)).trans (mul_le_mul_of_nonneg_right (by norm_num) (abs_nonneg _))
  pi_fp := (ieee ℝ 53 (by decide)).mem _
  pi := C142_pi (ieee ℝ 53 (by decide)) (ieee ℝ 53 (by decide)) (by decide) le_rfl

theorem pin_drawn : DrawnFp 53 [1 / 4, 1 / 2] [2, 1] where
  some := by simp
  length := rfl
  fp := by
    intro r hr
    simp only [List.mem_cons, List.not_mem_nil, or_false] at hr
    rcases hr with rfl | rfl
    · exact ⟨1, -2, by norm_num, by norm_num⟩
    · exact ⟨1, -1, by norm_num, by norm_num⟩
  pos := by simp
  order := by norm_num
  rings := by simp

theorem pin_fits : Fits 53 double.eps (5 / 4) [1 / 4, 1 / 2] (2 ^ 3) (total [2, 1]) := by
  have e : double.eps = 1 / 2 ^ 23 := rfl
  have t : total [2, 1] = 3 := rfl
  have h := C112_factors.2.2.1
  rw [e, t]
  refine ⟨by norm_num, by norm_num, by norm_num, ?_, by norm_num⟩
  intro r hr
  simp only [List.mem_cons, List.not_mem_nil, or_false] at hr
  have e8 : (2 : ℕ) ^ 3 = 8 := rfl
  rw [e8]
  rcases hr with rfl | rfl <;> norm_num <;> linarith

example : ∃ mesh, cylindricalMeshFp double (5 / 4) [1 / 4, 1 / 2] [2, 1] (2 ^ 3 : ℕ) = some (some mesh) ∧
    ∃ f A, mesh.faces[(2 + 0) * 2 ^ 3 + 5]? = some f ∧ faceArea mesh f = some A ∧ |A - Real.pi * ((1 / 2) ^ 2 - (1 / 4) ^ 2) / (1 : ℤ) / 2 ^ 3| ≤ 1 / 2 ^ 40 := by
  have hfp : IsFp 53 (5 / 4 : ℝ) := ⟨5, -2, by norm_num, by norm_num⟩
  obtain ⟨mesh, -, h, -⟩ := C142_vertices double double_good (by norm_num) (5 / 4) hfp _ _ pin_drawn 3 le_rfl (by decide) pin_fits
  refine ⟨mesh, h, ?_⟩
  obtain ⟨f, A, h1, h2, h3⟩ := C142_areas double double_good (by norm_num) (5 / 4) hfp _ _ pin_drawn 3 le_rfl pin_fits mesh h 1 0 5 (1 / 2) 1 rfl rfl (by norm_num) (by norm_num)
  refine ⟨f, A, h1, h2, ?_⟩
  have t : total [2, 1] = 3 := rfl
  have i : innerRadius [1 / 4, 1 / 2] 1 = (1 / 4 : ℝ) := rfl
  rw [t, i] at h3
  exact h3.trans (by norm_num)

example : ∃ ρ, (ringRadiiFp double (ringAreasFp double (regionAreasFp double [1 / 4, 1 / 2] none) [2, 1]))[0]? = some ρ ∧ Within 53 8 (√(1 / 32)) ρ := by
  obtain ⟨ρ, h1, h2⟩ := C142_radii double double_good (by norm_num) _ _ pin_drawn 0 0 (1 / 4) 2 rfl rfl (by norm_num)
  refine ⟨ρ, h1, ?_⟩
  have e : divide (innerRadius [1 / 4, 1 / 2] 0) (1 / 4) (0 + 1) (2 : ℤ).toNat = √(1 / 32) := by
    have i : innerRadius [1 / 4, 1 / 2] 0 = (0 : ℝ) := rfl
    have n2 : (2 : ℤ).toNat = 2 := rfl
    unfold divide
    rw [i, n2]
    norm_num
  rw [e] at h2
  exact h2

example : cylindricalMeshFp double (5 / 4) [1 / 4, 5 / 8] [2, 1] (2 ^ 3 : ℕ) = some none := by
  have hd : DrawnFp 53 [1 / 4, 5 / 8] [2, 1] := ⟨by simp, rfl, by
    intro r hr
    simp only [List.mem_cons, List.not_mem_nil, or_false] at hr
    rcases hr with rfl | rfl
    · exact ⟨1, -2, by norm_num, by norm_num⟩
    · exact ⟨5, -3, by norm_num, by norm_num⟩, by simp, by norm_num, by simp⟩
  refine C142_refuses double double_good (by norm_num) (5 / 4) ⟨5, -2, by norm_num, by norm_num⟩ _ _ hd 3 le_rfl (by decide) (5 / 8) (by simp) ?_
  have t : total [2, 1] = 3 := rfl
  have h := C112_factors.2.1
  have e8 : (2 : ℕ) ^ 3 = 8 := rfl
  rw [t, e8]
  refine lt_of_lt_of_le (b := 1053 / 1000 * (5 / 8) * (1 - 1 / 2 ^ 53) ^ (4 * 3 + 6)) (by norm_num) ?_
  exact mul_le_mul_of_nonneg_right (by linarith) (pow_nonneg (by norm_num) _)

end Verif.PropsFpCyl
