import Verif.Props.PinAccept

/-!
# C112: the tolerance of the meshes of cylindrical pins

Over the real numbers.  `addCylindricalPinMesh` sets sines, cosines and coordinates to zero if they are smaller than the tolerance.  When the pin keeps
a distance of two tolerances from the sides of its cell and the divisions are not too small, only zeros are set to zero.
-/

namespace Verif.PropsPinAccept

open Verif Verif.Pin Verif.PinArea Verif.PropsPinArea

/-! ### Sines and cosines -/

theorem sin_part {na r : Nat} (h0 : 0 < r) (h : r < na) : 2 / (na : ℝ) ≤ Real.sin (Real.pi / na * r) := by
  have hn : (0 : ℝ) < na := by exact_mod_cast h0.trans h
  have hpi := Real.pi_pos
  have key : ∀ r : Nat, 0 < r → 2 * r ≤ na → 2 / (na : ℝ) ≤ Real.sin (Real.pi / na * r) := by
    intro r h0 h2
    have h2' : 2 * (r : ℝ) ≤ na := by exact_mod_cast h2
    have h1' : (1 : ℝ) ≤ r := by exact_mod_cast h0
    have hle : Real.pi / na * r ≤ Real.pi / 2 := by
      rw [div_mul_eq_mul_div, div_le_div_iff₀ hn (by norm_num)]
      nlinarith
    have := Real.mul_le_sin (x := Real.pi / na * r) (by positivity) hle
    have e : 2 / Real.pi * (Real.pi / na * r) = 2 * r / na := by field_simp
    rw [e] at this
    refine le_trans ?_ this
    rw [div_le_div_iff_of_pos_right hn]
    linarith
  by_cases h2 : 2 * r ≤ na
  · exact key r h0 h2
  · have := key (na - r) (by omega) (by omega)
    rw [Nat.cast_sub h.le] at this
    have e : Real.pi / na * ((na : ℝ) - r) = Real.pi - Real.pi / na * r := by field_simp
    rwa [e, Real.sin_pi_sub] at this

theorem sin_far {na : Nat} (hn : 0 < na) (m : Nat) (h : Real.sin (Real.pi / na * m) ≠ 0) : 2 / (na : ℝ) ≤ |Real.sin (Real.pi / na * m)| := by
  have hn' : (na : ℝ) ≠ 0 := by exact_mod_cast hn.ne'
  have hm : (m : ℝ) = (m % na : Nat) + na * (m / na : Nat) := by exact_mod_cast (Nat.mod_add_div m na).symm
  have e : Real.pi / na * m = Real.pi / na * (m % na : Nat) + (m / na : Nat) * Real.pi := by
    rw [hm, mul_add, ← mul_assoc, div_mul_cancel₀ _ hn']
    rw [mul_comm Real.pi]
  rw [e, Real.sin_add_nat_mul_pi] at h ⊢
  have h1 : |((-1 : ℝ)) ^ (m / na)| = 1 := by rw [abs_pow]; simp
  rw [abs_mul, h1, one_mul]
  by_cases h0 : m % na = 0
  · rw [h0] at h; simp at h
  · exact (sin_part (Nat.pos_of_ne_zero h0) (Nat.mod_lt _ hn)).trans (le_abs_self _)

theorem cos_far {na : Nat} (hn : 0 < na) (h2 : na % 2 = 0) (m : Nat) (h : Real.cos (Real.pi / na * m) ≠ 0) : 2 / (na : ℝ) ≤ |Real.cos (Real.pi / na * m)| := by
  have hn' : (na : ℝ) ≠ 0 := by exact_mod_cast hn.ne'
  have hh : ((na / 2 : Nat) : ℝ) = na / 2 := by
    have : ((na / 2 : Nat) : ℝ) * 2 = na := by exact_mod_cast (show na / 2 * 2 = na by omega)
    linarith
  have e : Real.cos (Real.pi / na * m) = Real.sin (Real.pi / na * (m + na / 2 : Nat)) := by
    rw [← Real.sin_add_pi_div_two]
    congr 1
    push_cast [hh]
    field_simp
  rw [e] at h ⊢
  exact sin_far hn _ h

/-- The angles of the meshes are multiples of half a division. -/
theorem theta_eq (na s : Nat) : theta (realLibm 0) na * s = Real.pi / na * (2 * s : Nat) := by
  show 2 * Real.pi / na * s = _
  push_cast
  ring

theorem gamma_eq (na s : Nat) : gamma (realLibm 0) na * s = Real.pi / na * s := by
  show 2 * Real.pi / na / 2 * s = _
  ring

theorem trigs_far {na : Nat} {eps : ℝ} (hn : 0 < na) (h2 : na % 2 = 0) (he : eps ≤ 2 / na) : ∀ x ∈ trigs na, x ≠ 0 → eps ≤ |x| := by
  intro x hx h0
  obtain ⟨s, -, hs⟩ := List.mem_flatMap.1 hx
  rw [theta_eq, gamma_eq] at hs
  simp only [List.mem_cons, List.not_mem_nil, or_false] at hs
  rcases hs with rfl | rfl | rfl | rfl
  · exact he.trans (cos_far hn h2 _ h0)
  · exact he.trans (sin_far hn _ h0)
  · exact he.trans (cos_far hn h2 _ h0)
  · exact he.trans (sin_far hn _ h0)

/-! ### Coordinates -/

/-- The coordinates are within a bound. -/
def Near (b : ℝ) (p : ℝ × ℝ) : Prop := |p.1| ≤ b ∧ |p.2| ≤ b

theorem near_far {b half eps : ℝ} {p : ℝ × ℝ} (h : Near b p) (hb : b + eps ≤ half) : eps ≤ |p.1 + half| ∧ eps ≤ |p.2 + half| := by
  have h1 := (abs_le.1 h.1).1
  have h2 := (abs_le.1 h.2).1
  exact ⟨by linarith [le_abs_self (p.1 + half)], by linarith [le_abs_self (p.2 + half)]⟩

theorem near_polar {R b x : ℝ} (h0 : 0 ≤ R) (h : R ≤ b) : Near b (polar R (Real.cos x, Real.sin x)) := by
  unfold polar Near
  dsimp only
  rw [abs_mul, abs_mul, abs_of_nonneg h0]
  exact ⟨(mul_le_of_le_one_right h0 (Real.abs_cos_le_one x)).trans h, (mul_le_of_le_one_right h0 (Real.abs_sin_le_one x)).trans h⟩

theorem max_pos (x : ℝ) : 0 < max |Real.cos x| |Real.sin x| := by
  by_contra hn
  push Not at hn
  have h1 := (le_max_left _ _).trans hn
  have h2 := (le_max_right _ _).trans hn
  have c0 : Real.cos x = 0 := abs_eq_zero.1 (le_antisymm h1 (abs_nonneg _))
  have s0 : Real.sin x = 0 := abs_eq_zero.1 (le_antisymm h2 (abs_nonneg _))
  have := Real.sin_sq_add_cos_sq x
  rw [c0, s0] at this
  norm_num at this

/-- The boundary points are on the square. -/
theorem rbd_le {p : ℝ} (hp : 0 ≤ p) (x : ℝ) : 0 ≤ rbd p x ∧ |rbd p x * Real.cos x| ≤ p / 2 ∧ |rbd p x * Real.sin x| ≤ p / 2 := by
  have hm := max_pos x
  have h0 : 0 ≤ rbd p x := by unfold rbd; positivity
  refine ⟨h0, ?_, ?_⟩
  · rw [abs_mul, abs_of_nonneg h0]
    calc rbd p x * |Real.cos x| ≤ rbd p x * max |Real.cos x| |Real.sin x| := mul_le_mul_of_nonneg_left (le_max_left _ _) h0
      _ = p / 2 := by unfold rbd; field_simp
  · rw [abs_mul, abs_of_nonneg h0]
    calc rbd p x * |Real.sin x| ≤ rbd p x * max |Real.cos x| |Real.sin x| := mul_le_mul_of_nonneg_left (le_max_right _ _) h0
      _ = p / 2 := by unfold rbd; field_simp

/-- A point of the unit circle, projected on the square, is on its left side or at some distance from it. -/
theorem side_far {c s d : ℝ} (h1 : c ^ 2 + s ^ 2 = 1) (h2 : d ≤ 2) (hd : c ^ 2 - s ^ 2 ≠ 0 → d ≤ |c ^ 2 - s ^ 2|) :
    c / max |c| |s| = -1 ∨ d / 2 ≤ c / max |c| |s| + 1 := by
  by_cases h : |s| ≤ |c|
  · rw [max_eq_left h]
    have hc : c ≠ 0 := by
      rintro rfl
      rw [abs_zero] at h
      have : s = 0 := abs_eq_zero.1 (le_antisymm h (abs_nonneg _))
      rw [this] at h1
      norm_num at h1
    rcases lt_or_gt_of_ne hc with h0 | h0
    · left
      rw [abs_of_neg h0, div_neg, div_self hc]
    · right
      rw [abs_of_pos h0, div_self hc]
      linarith
  · push Not at h
    right
    rw [max_eq_right h.le]
    have hs : 0 < |s| := (abs_nonneg c).trans_lt h
    have hsq : c ^ 2 < s ^ 2 := sq_lt_sq.2 h
    have := hd (by linarith)
    rw [abs_of_neg (by linarith)] at this
    have a1 := (abs_lt.1 h).1
    have a2 := (abs_lt.1 h).2
    have a3 : |s| ^ 2 = s ^ 2 := sq_abs s
    have a4 : |s| ^ 2 ≤ 1 := by nlinarith [sq_nonneg c]
    have a5 : |s| ≤ 1 := by nlinarith
    rw [div_add_one hs.ne', le_div_iff₀ hs]
    nlinarith [mul_nonneg (by linarith : 0 ≤ c + |s|) (by linarith : 0 ≤ 1 - |s|), mul_nonneg (by linarith : 0 ≤ c + |s|) (by linarith : 0 ≤ |s| + c)]

theorem boundary_far {na : Nat} {p eps : ℝ} (hn : 0 < na) (h2 : na % 2 = 0) (hp : 0 < p) (he : eps ≤ p / (2 * na)) (m : Nat) :
    (rbd p (Real.pi / na * m) * Real.cos (Real.pi / na * m) + p / 2 ≠ 0 → eps ≤ |rbd p (Real.pi / na * m) * Real.cos (Real.pi / na * m) + p / 2|) ∧
    (rbd p (Real.pi / na * m) * Real.sin (Real.pi / na * m) + p / 2 ≠ 0 → eps ≤ |rbd p (Real.pi / na * m) * Real.sin (Real.pi / na * m) + p / 2|) := by
  have hn' : (0 : ℝ) < na := by exact_mod_cast hn
  have hna : (2 : ℝ) ≤ na := by exact_mod_cast (show 2 ≤ na by omega)
  have hd2 : 2 / (na : ℝ) ≤ 2 := by rw [div_le_iff₀ hn']; linarith
  have hcos : Real.cos (Real.pi / na * (2 * m : Nat)) = Real.cos (Real.pi / na * m) ^ 2 - Real.sin (Real.pi / na * m) ^ 2 := by
    rw [← Real.cos_two_mul']
    congr 1
    push_cast
    ring
  have hfar := cos_far hn h2 (2 * m)
  rw [hcos] at hfar
  have hone := Real.cos_sq_add_sin_sq (Real.pi / na * m)
  unfold rbd
  generalize Real.cos (Real.pi / na * m) = c at *
  generalize Real.sin (Real.pi / na * m) = s at *
  have key : ∀ c s : ℝ, c ^ 2 + s ^ 2 = 1 → (c ^ 2 - s ^ 2 ≠ 0 → 2 / (na : ℝ) ≤ |c ^ 2 - s ^ 2|) → p / 2 / max |c| |s| * c + p / 2 ≠ 0 →
      eps ≤ |p / 2 / max |c| |s| * c + p / 2| := by
    intro c s h1 hd h0
    have e : p / 2 / max |c| |s| * c + p / 2 = p / 2 * (c / max |c| |s| + 1) := by ring
    rw [e] at h0 ⊢
    rcases side_far h1 hd2 hd with h | h
    · rw [h] at h0; simp at h0
    · refine le_trans ?_ (le_abs_self _)
      refine he.trans ?_
      calc p / (2 * na) = p / 2 * (2 / na / 2) := by field_simp
        _ ≤ _ := mul_le_mul_of_nonneg_left h (by positivity)
  refine ⟨key c s hone hfar, ?_⟩
  rw [max_comm]
  refine key s c (by linarith) fun h => ?_
  have := hfar (fun h' => h (by linarith))
  rwa [abs_sub_comm] at this

/-! ### All points -/

section
variable {na : Nat} {p eps b : ℝ}

/-- The points in the circles are near enough. -/
theorem ring1_near (e : ℝ) (h0 : 0 ≤ e) (h : e ≤ b) : ∀ q ∈ ringPoints1 (realLibm 0) na e, Near b q := by
  intro q hq
  obtain ⟨s, -, rfl⟩ := List.mem_map.1 hq
  rw [snapTrig_zero]
  exact near_polar h0 h

theorem ring2_near (r e : ℝ) (hr0 : 0 ≤ r) (hr : r ≤ b) (he0 : 0 ≤ e) (he : e ≤ b) : ∀ q ∈ ringPoints2 (realLibm 0) na r e, Near b q := by
  intro q hq
  obtain ⟨s, -, rfl⟩ := List.mem_map.1 hq
  rw [snapTrig_zero]
  split
  · exact near_polar hr0 hr
  · exact near_polar he0 he

theorem between2_near (r0 r : ℝ) (h00 : 0 ≤ r0) (h0 : r0 ≤ b) (hr0 : 0 ≤ r) (hr : r ≤ b) : ∀ q ∈ betweenPoints2 (realLibm 0) na r0 r, Near b q := by
  intro q hq
  obtain ⟨s, -, rfl⟩ := List.mem_map.1 hq
  rw [snapTrig_zero]
  exact near_polar (by linarith) (by linarith)

theorem rings2_near : ∀ (rs es : List ℝ) (r0 : ℝ), 0 ≤ r0 → r0 ≤ b → (∀ r ∈ rs, 0 ≤ r ∧ r ≤ b) → (∀ e ∈ es, 0 ≤ e ∧ e ≤ b) →
    ∀ q ∈ rings2 (realLibm 0) na r0 rs es, Near b q := by
  intro rs
  induction rs with
  | nil => intro es r0 _ _ _ _ q hq; simp [rings2] at hq
  | cons r rs ih =>
    intro es r0 h00 h0 hr he q hq
    cases es with
    | nil => simp [rings2] at hq
    | cons e es =>
      have r1 := hr r (by simp)
      have e1 := he e (by simp)
      simp only [rings2, List.mem_append] at hq
      rcases hq with (hq | hq) | hq
      · exact between2_near r0 r h00 h0 r1.1 r1.2 q hq
      · exact ring2_near r e r1.1 r1.2 e1.1 e1.2 q hq
      · exact ih es r r1.1 r1.2 (fun x hx => hr x (by simp [hx])) (fun x hx => he x (by simp [hx])) q hq

theorem tri2_near (r0 : ℝ) (h00 : 0 ≤ r0) (h0 : r0 ≤ b) : ∀ q ∈ triPoints2 (realLibm 0) na r0, Near b q := by
  intro q hq
  obtain ⟨s, -, hq⟩ := List.mem_flatMap.1 hq
  dsimp only at hq
  have key : ∀ t : ℝ, 0 ≤ t → t ≤ 1 → Near b (t * r0 * (realLibm 0).cos (s * theta (realLibm 0) na), t * r0 * (realLibm 0).sin (s * theta (realLibm 0) na)) :=
    fun t ht0 ht1 => near_polar (R := t * r0) (by positivity) (by nlinarith)
  split at hq
  · rw [List.mem_singleton] at hq
    rw [hq]
    have := key (1 / 2) (by norm_num) (by norm_num)
    convert this using 2 <;> ring
  · simp only [List.mem_cons, List.not_mem_nil, or_false] at hq
    rcases hq with rfl | rfl | rfl
    · have := key (1 / 4) (by norm_num) (by norm_num)
      convert this using 2 <;> ring
    · have := key (1 / 2) (by norm_num) (by norm_num)
      convert this using 2 <;> ring
    · have := key (3 / 4) (by norm_num) (by norm_num)
      convert this using 2 <;> ring

/-- A coordinate that the shift does not change. -/
def Kept (eps half : ℝ) (q : ℝ × ℝ) : Prop := (q.1 + half ≠ 0 → eps ≤ |q.1 + half|) ∧ (q.2 + half ≠ 0 → eps ≤ |q.2 + half|)

theorem near_kept {q : ℝ × ℝ} (h : Near b q) (hb : b + eps ≤ p / 2) : Kept eps (p / 2) q :=
  ⟨fun _ => (near_far h hb).1, fun _ => (near_far h hb).2⟩

theorem points1_kept (hn : 0 < na) (h2 : na % 2 = 0) (hp : 0 < p) (he : eps ≤ p / (2 * na)) (hb0 : 0 ≤ b) (hb : b + eps ≤ p / 2) (eq : List ℝ)
    (heq : ∀ e ∈ eq, 0 ≤ e ∧ e ≤ b) : ∀ q ∈ points1 (realLibm 0) na p eq, Kept eps (p / 2) q := by
  have hhead : 0 ≤ eq.headD 0 ∧ eq.headD 0 ≤ b := by
    cases eq with
    | nil => exact ⟨le_rfl, hb0⟩
    | cons e es => exact heq e (by simp)
  intro q hq
  unfold points1 at hq
  simp only [List.mem_append, List.mem_singleton] at hq
  rcases hq with ((rfl | hq) | hq) | hq
  · exact near_kept (b := b) ⟨by simpa using hb0, by simpa using hb0⟩ hb
  · obtain ⟨s, -, rfl⟩ := List.mem_map.1 hq
    exact near_kept (near_polar (R := eq.headD 0 / 2) (b := b) (by linarith) (by linarith)) hb
  · obtain ⟨e, hm, hq⟩ := List.mem_flatMap.1 hq
    exact near_kept (ring1_near e (heq e hm).1 (heq e hm).2 q hq) hb
  · obtain ⟨s, -, rfl⟩ := List.mem_map.1 hq
    rw [snapTrig_zero, boundaryRadius_eq hp, theta_eq]
    exact boundary_far hn h2 hp he (2 * s)

theorem points2_kept (hn : 0 < na) (h2 : na % 2 = 0) (hp : 0 < p) (he0 : 0 ≤ eps) (he : eps ≤ p / (2 * na)) (hb0 : 0 ≤ b) (hb : b + 2 * eps ≤ p / 2) (rr eq : List ℝ)
    (hrr : ∀ r ∈ rr, 0 ≤ r ∧ r ≤ b) (heq : ∀ e ∈ eq, 0 ≤ e ∧ e ≤ b) : ∀ q ∈ points2 (realLibm 0) na p rr eq, Kept eps (p / 2) q := by
  have hb1 : b + eps ≤ p / 2 := by linarith
  have hhead : ∀ l : List ℝ, (∀ e ∈ l, 0 ≤ e ∧ e ≤ b) → 0 ≤ l.headD 0 ∧ l.headD 0 ≤ b := by
    intro l hl
    cases l with
    | nil => exact ⟨le_rfl, hb0⟩
    | cons e es => exact hl e (by simp)
  have hlast : 0 ≤ rr.getLastD 0 ∧ rr.getLastD 0 ≤ b := by
    rw [List.getLastD_eq_getLast?]
    cases h : rr.getLast? with
    | none => exact ⟨le_rfl, hb0⟩
    | some e => exact hrr e (List.mem_of_getLast? h)
  have r1 := hhead rr hrr
  have e1 := hhead eq heq
  intro q hq
  unfold points2 at hq
  simp only [List.mem_append, List.mem_singleton] at hq
  rcases hq with ((((rfl | hq) | hq) | hq) | hq) | hq
  · exact near_kept (b := b) ⟨by simpa using hb0, by simpa using hb0⟩ hb1
  · exact near_kept (tri2_near _ r1.1 r1.2 q hq) hb1
  · exact near_kept (ring2_near _ _ r1.1 r1.2 e1.1 e1.2 q hq) hb1
  · exact near_kept (rings2_near _ _ _ r1.1 r1.2 (fun r hr => hrr r (List.mem_of_mem_tail hr)) (fun e hm => heq e (List.mem_of_mem_tail hm)) q hq) hb1
  · obtain ⟨s, -, rfl⟩ := List.mem_map.1 hq
    dsimp only
    rw [snapTrig_zero, boundaryRadius_eq hp]
    obtain ⟨q0, q1, q2⟩ := rbd_le hp.le ((s : ℝ) * theta (realLibm 0) na)
    have hn2 := near_polar (x := (s : ℝ) * theta (realLibm 0) na) hlast.1 hlast.2
    unfold polar Near at hn2
    dsimp only at hn2
    have a1 := (abs_le.1 q1).1
    have a2 := (abs_le.1 q2).1
    have a3 := (abs_le.1 hn2.1).1
    have a4 := (abs_le.1 hn2.2).1
    refine ⟨fun _ => le_trans ?_ (le_abs_self _), fun _ => le_trans ?_ (le_abs_self _)⟩ <;> unfold polar <;> dsimp only <;> linarith
  · obtain ⟨s, -, rfl⟩ := List.mem_map.1 hq
    dsimp only
    rw [snapTrig_zero, boundaryRadius_eq hp, gamma_eq]
    exact boundary_far hn h2 hp he s

theorem shift_kept {L : List (ℝ × ℝ)} (h : ∀ q ∈ L, Kept eps (p / 2) q) : L.map (shift (realLibm eps) p) = L.map (shift (realLibm 0) p) := by
  refine shift_eps fun x hx => ?_
  obtain ⟨q, hq, hx⟩ := List.mem_flatMap.1 hx
  simp only [List.mem_cons, List.not_mem_nil, or_false] at hx
  rcases hx with rfl | rfl
  · exact (h q hq).1
  · exact (h q hq).2

end

/-- The tolerance is small for a pin: less than a quarter of a division of the side of the cell, smaller than the sine of half a division,
and the circles, enlarged by the factor `f`, stay two tolerances away from the sides. -/
structure Small (f eps pitch : ℝ) (radii : List ℝ) (na : Nat) : Prop where
  pos : 0 ≤ eps
  trig : eps ≤ 2 / na
  side : eps ≤ pitch / (2 * na)
  away : ∀ r ∈ radii, f * r + 2 * eps ≤ pitch / 2

theorem radiiLoop_nonneg : ∀ (as : List ℝ) (q : ℝ), ∀ x ∈ radiiLoop (realLibm 0) q as, 0 ≤ x := by
  intro as
  induction as with
  | nil => intro q x hx; simp [radiiLoop] at hx
  | cons a as ih =>
    intro q x hx
    rw [radiiLoop] at hx
    rcases List.mem_cons.1 hx with rfl | hx
    · exact Real.sqrt_nonneg _
    · exact ih _ x hx

/-- The rings of a drawn pin are within its circles. -/
theorem drawn_bound {radii : List ℝ} {rings : List ℤ} (h : Drawn radii rings) : ∃ R ∈ radii, ∀ x ∈ ringRadii (realLibm 0) (ringAreas (regionAreas (realLibm 0) radii none)
    (rings.map Int.toNat)), 0 ≤ x ∧ x ≤ R := by
  have hmax : ∃ R ∈ radii, ∀ r ∈ radii, r ≤ R := by
    have hn := h.some
    clear h
    induction radii with
    | nil => exact absurd rfl hn
    | cons r rs ih =>
      by_cases hrs : rs = []
      · subst hrs; exact ⟨r, by simp, by simp⟩
      · obtain ⟨R, hR, hle⟩ := ih hrs
        rcases le_total r R with h | h
        · exact ⟨R, by simp [hR], fun x hx => by rcases List.mem_cons.1 hx with rfl | hx; exacts [h, hle x hx]⟩
        · exact ⟨r, by simp, fun x hx => by rcases List.mem_cons.1 hx with rfl | hx; exacts [le_rfl, (hle x hx).trans h]⟩
  obtain ⟨R, hR, hle⟩ := hmax
  refine ⟨R, hR, fun x hx => ⟨?_, ?_⟩⟩
  · rw [ringRadii_loop] at hx
    exact radiiLoop_nonneg _ _ x hx
  · have hr : ∀ n ∈ rings.map Int.toNat, 0 < n := by
      intro n hn
      obtain ⟨z, hz, rfl⟩ := List.mem_map.1 hn
      have := h.rings z hz
      omega
    obtain ⟨h1, -⟩ := regions 0 radii (rings.map Int.toNat) 0 le_rfl (List.pairwise_cons.2 ⟨fun r hr => (h.pos r hr).le, h.order⟩)
      (by rw [List.length_map]; exact h.length) hr _ rfl
    rw [regionAreas_zero, ringRadii_loop] at hx
    obtain ⟨r, hr, hxr⟩ := h1 x hx
    exact hxr.trans (hle r hr)

/-- **C112**: with a small tolerance the mesh is the one without a tolerance; linear meshes. -/
theorem C112_tolerance_linear (eps pitch : ℝ) (radii : List ℝ) (rings : List ℤ) (h : Drawn radii rings) (na : Nat) (h8 : 8 ≤ na) (h2 : na % 2 = 0)
    (hs : Small (factor1 na) eps pitch radii na) :
    cylindricalMesh (realLibm eps) pitch radii rings na 1 = cylindricalMesh (realLibm 0) pitch radii rings na 1 := by
  have hf : 1 < factor1 na := (one_lt_factor2 h8).trans_le (factor2_le_factor1 h8)
  obtain ⟨R, hR, hx⟩ := drawn_bound h
  have hR0 := h.pos R hR
  have haw := hs.away R hR
  have he0 := hs.pos
  have hp : 0 < pitch := by nlinarith
  have ht := trigs_far (by omega) h2 hs.trig
  unfold cylindricalMesh
  simp only [regionAreas_eps, ringRadii_eps, eqRadii1_eps, Int.toNat_natCast, if_true, points1_eps ht]
  rw [shift_kept]
  rw [eqRadii1_map 0 (by omega) (sin1_pos h8)]
  refine points1_kept (b := factor1 na * R) (by omega) h2 hp hs.side (by positivity) (by linarith) _ fun e he => ?_
  obtain ⟨x, hxm, rfl⟩ := List.mem_map.1 he
  exact ⟨mul_nonneg (by linarith) (hx x hxm).1, mul_le_mul_of_nonneg_left (hx x hxm).2 (by linarith)⟩

/-- **C112**: with a small tolerance the mesh is the one without a tolerance; quadratic meshes. -/
theorem C112_tolerance_quadratic (eps pitch : ℝ) (radii : List ℝ) (rings : List ℤ) (h : Drawn radii rings) (na : Nat) (h8 : 8 ≤ na) (h2 : na % 2 = 0)
    (hs : Small (factor2 na) eps pitch radii na) :
    cylindricalMesh (realLibm eps) pitch radii rings na 2 = cylindricalMesh (realLibm 0) pitch radii rings na 2 := by
  have hf : 1 < factor2 na := one_lt_factor2 h8
  obtain ⟨R, hR, hx⟩ := drawn_bound h
  have hR0 := h.pos R hR
  have haw := hs.away R hR
  have he0 := hs.pos
  have hp : 0 < pitch := by nlinarith
  have ht := trigs_far (by omega) h2 hs.trig
  obtain ⟨a, as, ha, ha0⟩ : ∃ a as, ringAreas (regionAreas (realLibm 0) radii none) (rings.map Int.toNat) = a :: as ∧ 0 < a := by
    refine ringAreas_head h.pos h.length ?_
    have := drawn_rings h
    push Not at this
    exact this.1
  have hnn : ∀ x ∈ as, 0 ≤ x := by
    intro x hx
    refine ringAreas_nonneg (regionAreas (realLibm 0) radii none) (rings.map Int.toNat) (regionAreas_nonneg 0 radii h.pos h.order) x ?_
    rw [ha]
    exact List.mem_cons_of_mem _ hx
  unfold cylindricalMesh
  simp only [regionAreas_eps, ringRadii_eps, eqRadii2_eps, Int.toNat_natCast, points2_eps ht, if_neg (show ¬ (2 : ℤ) = 1 by decide)]
  rw [shift_kept]
  rw [ha] at hx ⊢
  rw [eqRadii2_map 0 (by omega) (sin2_pos h8) a as ha0 hnn]
  refine points2_kept (b := factor2 na * R) (by omega) h2 hp he0 hs.side (by positivity) (by linarith) _ _ (fun r hr => ?_) fun e he => ?_
  · exact ⟨(hx r hr).1, (hx r hr).2.trans (by nlinarith)⟩
  · obtain ⟨x, hxm, rfl⟩ := List.mem_map.1 he
    exact ⟨mul_nonneg (by linarith) (hx x hxm).1, mul_le_mul_of_nonneg_left (hx x hxm).2 (by linarith)⟩

/-- The tolerance of the program with single precision, one micrometer, is small for the pin of the C5G7 problem. -/
theorem c5g7_small (eps : ℝ) (h0 : 0 ≤ eps) (h : eps ≤ 1 / 10000) : Small (factor2 8) eps (126 / 100) [54 / 100, 62 / 100] 8 where
  pos := h0
  trig := by norm_num; linarith
  side := by norm_num; linarith
  away := by
    have := C112_factors.2.2.2
    simp only [List.mem_cons, List.not_mem_nil, or_false, forall_eq_or_imp, forall_eq]
    constructor <;> linarith

example (eps : ℝ) (h0 : 0 ≤ eps) (h : eps ≤ 1 / 10000) : cylindricalMesh (realLibm eps) (126 / 100) [54 / 100, 62 / 100] [3, 2] (8 : Nat) 2 =
    cylindricalMesh (realLibm 0) (126 / 100) [54 / 100, 62 / 100] [3, 2] (8 : Nat) 2 :=
  C112_tolerance_quadratic eps _ _ _ c5g7_drawn 8 le_rfl (by decide) (c5g7_small eps h0 h)

end Verif.PropsPinAccept
