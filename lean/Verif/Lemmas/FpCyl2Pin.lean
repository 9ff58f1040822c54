import Verif.Lemmas.FpCyl2Mesh
import Verif.Props.FpCyl

/-!
# Quadratic cylindrical pin meshes in floating-point arithmetic: the radii of a pin

The areas, ring radii and equivalent radii of a drawn pin against those of exact arithmetic, for C146.
-/

namespace Verif.FpCyl

open Verif.Fp Verif.Pin Verif.PinArea Verif.PropsPinArea Verif.PropsPinAccept
open Verif.PropsFpCyl (total before divide eight_le)

variable {p : ℕ}

theorem fInc_nonneg {C : ℝ} (C0 : 0 ≤ C) {c : ℕ} (u1 : (1 : ℝ) / 2 ^ p ≤ 1) {h : Option ℝ → ℝ → ℕ → ℝ} (hh : IncOk p C c h) (regs : List (ℝ × ℕ)) :
    ∀ q : Option ℝ, (∀ x, q = some x → IsFp p x ∧ 0 < x) → 0 ≤ q.getD 0 → (q.getD 0 :: regs.map (·.1)).Pairwise (· < ·) → (∀ r ∈ regs, IsFp p r.1 ∧ 0 < r.2 ∧ r.2 ≤ 2 ^ p) →
      ∀ a ∈ fInc h q regs, 0 ≤ a := by
  induction regs with
  | nil => intro q _ _ _ _ a ha; simp [fInc] at ha
  | cons reg regs ih =>
    obtain ⟨r, n⟩ := reg
    intro q hq q0 hinc hok a ha
    rw [List.map_cons, List.pairwise_cons] at hinc
    have hqr : q.getD 0 < r := hinc.1 r (by simp)
    obtain ⟨ok1, ok2, ok3⟩ := hok (r, n) (by simp)
    rw [fInc, List.mem_append] at ha
    rcases ha with ha | ha
    · rw [List.eq_of_mem_replicate ha]
      obtain ⟨d, d0, -, -, hd⟩ := hh q r n hq ok1 hqr ok2 ok3
      exact hd.nonneg (unit_nonneg (K := ℝ) p) u1 (by positivity)
    · exact ih (some r) (fun x hx => by cases hx; exact ⟨ok1, q0.trans_lt hqr⟩) (q0.trans hqr.le) hinc.2 (fun s hs => hok s (by simp [hs])) a ha

section
variable {m : FpLibm ℝ p} (hm : Good m) (hp : 10 ≤ p) {radii : List ℝ} {rings : List ℤ} (hd : DrawnFp p radii rings)
include hm hp hd

omit hd in
theorem areas_ok : IncOk p Real.pi 5 (fun q r n => m.R.rnd (regionFp m r q / m.R.rnd (n : ℝ))) := fun q r n hq hr h hn hn' => ringArea_off hm (by omega) r q n hq hr h hn hn'

omit hm hp hd in
theorem areas_inc (m : FpLibm ℝ p) : areasF m radii rings = fInc (fun q r n => m.R.rnd (regionFp m r q / m.R.rnd (n : ℝ))) none (radii.zip (rings.map Int.toNat)) := by
  have := ringAreasFp_map m id radii (rings.map Int.toNat) none
  rw [List.map_id] at this
  exact this

theorem areas_nonneg : ∀ a ∈ areasF m radii rings, 0 ≤ a := by
  rw [areas_inc]
  exact fInc_nonneg Real.pi_pos.le (unit_le (K := ℝ) p) (areas_ok hm hp) _ none (by simp) le_rfl (regs_order hd) (regs_ok hd)

theorem areas_head : 0 < (areasF m radii rings).headD 0 := by
  have us := unit_small hm hp
  have u0 := unit_nonneg (K := ℝ) p
  have pi0 := Real.pi_pos
  rw [areas_inc]
  have h1 := regs_order hd
  have h2 := regs_ok hd
  have hne : radii.zip (rings.map Int.toNat) ≠ [] := by
    obtain ⟨r, rs, e⟩ := List.exists_cons_of_ne_nil hd.some
    have hl := hd.length
    rw [e, List.length_cons] at hl
    obtain ⟨z, zs, rfl⟩ : ∃ z zs, rings = z :: zs := List.exists_cons_of_ne_nil fun h => by simp [h] at hl
    rw [e]
    simp
  generalize radii.zip (rings.map Int.toNat) = regs at *
  obtain ⟨⟨r, n⟩, t, rfl⟩ := List.exists_cons_of_ne_nil hne
  obtain ⟨ok1, ok2, ok3⟩ := h2 (r, n) (by simp)
  rw [List.map_cons, List.pairwise_cons] at h1
  have hr : 0 < r := h1.1 r (by simp)
  obtain ⟨n', rfl⟩ : ∃ n', n = n' + 1 := ⟨n - 1, by dsimp only at ok2; omega⟩
  rw [fInc, List.replicate_succ, List.cons_append, List.headD_cons]
  obtain ⟨d, d0, d1, -, hd⟩ := areas_ok hm hp none r (n' + 1) (by simp) ok1 hr ok2 ok3
  simp only [Option.getD_none] at d1
  have dpos : 0 < d := lt_of_lt_of_le (by nlinarith [sq_pos_of_pos hr]) d1
  refine lt_of_lt_of_le ?_ hd.1
  exact mul_pos (by positivity) (pow_pos (by linarith) _)

omit hp in
theorem areas_length (hp : 6 ≤ p) : (areasF m radii rings).length = total rings := by
  have h := eq_length hm hp hd 8
  rw [eqRadii1Fp_f hm, fLoop_length, List.length_map, PropsPinTopo.eqRadii1_length] at h
  rw [h]
  exact PropsPinTopo.ringAreas_length _ _ (by rw [PropsPinTopo.regionAreas_length, List.length_map]; exact hd.length)

omit hm hp hd in
theorem fLoop_fp (R : Rounding ℝ p) (f : Bool) (gs : List ℝ) : ∀ q, ∀ x ∈ fLoop R f q gs, IsFp p x := by
  induction gs with
  | nil => intro q x hx; simp [fLoop] at hx
  | cons g gs ih =>
    intro q x hx
    rw [fLoop] at hx
    rcases List.mem_cons.1 hx with rfl | hx
    · exact R.mem _
    · exact ih _ x hx

omit hm hp hd in
theorem eqLoop2Fp_fp (m : FpLibm ℝ p) (g : EqFused) (na : ℕ) (ls : List ℝ) : ∀ (as : List ℝ) (l e : ℝ), ∀ x ∈ eqLoop2Fp m g na l e ls as, IsFp p x := by
  induction ls with
  | nil => intro as l e x hx; simp [eqLoop2Fp] at hx
  | cons l' ls ih =>
    intro as l e x hx
    cases as with
    | nil => simp [eqLoop2Fp] at hx
    | cons a as =>
      rw [eqLoop2Fp] at hx
      rcases List.mem_cons.1 hx with rfl | hx
      · exact m.R.mem _
      · exact ih _ _ _ x hx

omit hm hp hd in
theorem eqRadii2Fp_fp (m : FpLibm ℝ p) (g : EqFused) (na : ℕ) (ls as : List ℝ) : ∀ x ∈ eqRadii2Fp m g na ls as, IsFp p x := by
  intro x hx
  cases ls with
  | nil => simp [eqRadii2Fp] at hx
  | cons l ls =>
    cases as with
    | nil => simp [eqRadii2Fp] at hx
    | cons a as =>
      rw [eqRadii2Fp] at hx
      rcases List.mem_cons.1 hx with rfl | hx
      · exact m.R.mem _
      · exact eqLoop2Fp_fp m g na ls as _ _ x hx

omit hm hp in
/-- The exact equivalent radii. -/
theorem eq2_map {k : ℕ} (hk : 3 ≤ k) :
    eqRadii2 (realLibm 0) (2 ^ k) (ringRadii (realLibm 0) (areasX radii rings)) (areasX radii rings) = (ringRadii (realLibm 0) (areasX radii rings)).map (factor2 (2 ^ k) * ·) := by
  have h := hd.drawn
  obtain ⟨a, as, ha, ha0⟩ : ∃ a as, areasX radii rings = a :: as ∧ 0 < a := by
    refine ringAreas_head h.pos h.length ?_
    have := drawn_rings h
    push Not at this
    exact this.1
  have hnn : ∀ x ∈ as, 0 ≤ x := by
    intro x hx
    refine ringAreas_nonneg (regionAreas (realLibm 0) radii none) (rings.map Int.toNat) (regionAreas_nonneg 0 radii h.pos h.order) x ?_
    change x ∈ areasX radii rings
    rw [ha]
    exact List.mem_cons_of_mem _ hx
  rw [ha]
  exact eqRadii2_map 0 (by positivity) (sin2_pos (eight_le hk)) a as ha0 hnn

end

theorem eq2_arith {u J f l L e : ℝ} (u0 : 0 ≤ u) (J1 : 1 ≤ J) (hJ : 36 * J * u ≤ 1 / 10) (L0 : 0 ≤ L) (f1 : 1 ≤ f) (h1 : |e - f * l| ≤ 36 * J * u * l) (h2 : |l - L| ≤ (8 * J + 8) * u * L) :
    |e - f * L| ≤ (46 * J + 10) * u * (f * L) := by
  have e1 : e - f * L = (e - f * l) + f * (l - L) := by ring
  have t := abs_add_le (e - f * l) (f * (l - L))
  rw [abs_mul, abs_of_pos (by linarith : 0 < f)] at t
  have b1 : f * |l - L| ≤ f * ((8 * J + 8) * u * L) := mul_le_mul_of_nonneg_left h2 (by linarith)
  have s1 : (8 * J + 8) * u ≤ 1 / 22 := by nlinarith
  have b2 : l ≤ 23 / 22 * L := by
    have := (abs_le.1 h2).2
    have : (8 * J + 8) * u * L ≤ 1 / 22 * L := mul_le_mul_of_nonneg_right s1 L0
    linarith
  have JU : 0 ≤ J * u := by positivity
  have LF : L ≤ f * L := by nlinarith
  have FL : 0 ≤ f * L := L0.trans LF
  have b3 : 36 * J * u * l ≤ 36 * J * u * (23 / 22 * (f * L)) := mul_le_mul_of_nonneg_left (by linarith) (by linarith)
  rw [e1]
  have e2 : f * ((8 * J + 8) * u * L) = (8 * J + 8) * u * (f * L) := by ring
  have b4 : 0 ≤ J * u * (f * L) := mul_nonneg JU FL
  have b5 : 0 ≤ u * (f * L) := mul_nonneg u0 FL
  nlinarith

section
variable {m : FpLibm ℝ p} (hm : Good m) (hp : 10 ≤ p) {radii : List ℝ} {rings : List ℤ} (hd : DrawnFp p radii rings) (hN : 36 * (total rings : ℝ) * (1 / 2 ^ p) ≤ 1 / 10)
include hm hp hd hN

/-- The ring radii. -/
theorem rr_linear (j : ℕ) (X Y : ℝ) (hX : (ringRadii (realLibm 0) (areasX radii rings))[j]? = some X)
    (hY : (ringRadiiFp m (areasF m radii rings))[j]? = some Y) : j + 1 ≤ total rings ∧ 0 ≤ X ∧ 0 ≤ Y ∧ |Y - X| ≤ (8 * ((j : ℝ) + 1) + 8) * (1 / 2 ^ p) * X := by
  have u0 := unit_nonneg (K := ℝ) p
  have u1 := unit_le (K := ℝ) p
  obtain ⟨a, b, c⟩ := rr_off hm (by omega) hd j X Y hX hY
  have hj := (List.getElem?_eq_some_iff.1 hY).1
  rw [ringRadiiFp_f hm, fLoop_length, List.length_map, areas_length hm hd (by omega)] at hj
  have hj' : (j : ℝ) + 1 ≤ total rings := by exact_mod_cast hj
  have := off_linear u0 u1 a (by push_cast; nlinarith [Nat.cast_nonneg (α := ℝ) j]) c
  push_cast at this
  refine ⟨hj, a, b, this.trans (le_of_eq (by ring))⟩

/-- The equivalent radii. -/
theorem eq2_linear (g : EqFused) {k : ℕ} (hk : 3 ≤ k) (j : ℕ) (X E : ℝ) (hX : (ringRadii (realLibm 0) (areasX radii rings))[j]? = some X)
    (hE : (eqRadii2Fp m g (2 ^ k) (ringRadiiFp m (areasF m radii rings)) (areasF m radii rings))[j]? = some E) :
    |E - factor2 (2 ^ k) * X| ≤ (46 * ((j : ℝ) + 1) + 10) * (1 / 2 ^ p) * (factor2 (2 ^ k) * X) := by
  have u0 := unit_nonneg (K := ℝ) p
  have hl := areas_length hm hd (by omega)
  obtain ⟨-, h⟩ := eqRadii2_ap hm hp hk g (areasF m radii rings) (areas_nonneg hm hp hd) (areas_head hm hp hd) (by rw [hl]; exact hN)
  have hlt := (List.getElem?_eq_some_iff.1 hX).1
  rw [← rr_length hm (by omega) hd] at hlt
  obtain ⟨hj, a, b, c⟩ := rr_linear hm hp hd hN j X _ hX (List.getElem?_eq_getElem hlt)
  obtain ⟨l0, h2⟩ := h j E _ hE (List.getElem?_eq_getElem hlt)
  have hj' : (j : ℝ) + 1 ≤ total rings := by exact_mod_cast hj
  refine eq2_arith u0 (by linarith [Nat.cast_nonneg (α := ℝ) j]) ?_ a (one_lt_factor2 (eight_le hk)).le h2 c
  nlinarith

theorem eq2_length (g : EqFused) {k : ℕ} (hk : 3 ≤ k) :
    (eqRadii2Fp m g (2 ^ k) (ringRadiiFp m (areasF m radii rings)) (areasF m radii rings)).length = (ringRadii (realLibm 0) (areasX radii rings)).length := by
  have hl := areas_length hm hd (by omega)
  obtain ⟨h, -⟩ := eqRadii2_ap hm hp hk g (areasF m radii rings) (areas_nonneg hm hp hd) (areas_head hm hp hd) (by rw [hl]; exact hN)
  rw [h, ← rr_length hm (by omega) hd, ringRadiiFp_f hm, fLoop_length, List.length_map]

end

end Verif.FpCyl
