import Verif.Lemmas.SveaConnected
import Mathlib.Tactic.IntervalCases

/-! The channel box is in one piece; what is in it (C119). -/

namespace Verif.SveaL

open Verif.Svea Verif.SveaSpec
open Verif.ProgramsSpec (dist2)

noncomputable section

/-! ### The outer part -/

theorem edge_cont (r : ℝ) : Continuous (edge r) := by
  unfold edge dent
  fun_prop

theorem dent_nonneg (x : ℝ) : 0 ≤ dent x := le_max_left _ _

theorem dent_le {x r : ℝ} (hr : 0 ≤ r) (h : 133 / 100 - r ≤ x) (h' : x ≤ width - 133 / 100 + r) : dent x ≤ r :=
  max_le hr (max_le (by linarith) (by linarith))

theorem edge_lt {x : ℝ} (h : 83 / 100 ≤ x) (h' : x ≤ width - 83 / 100) : edge (5 / 10) x < edge (64 / 100) x := by
  have h1 := dent_nonneg x
  have h2 : dent x ≤ 5 / 10 := dent_le (by norm_num) (by linarith) (by linarith)
  refine (Real.sqrt_lt_sqrt_iff_of_pos (by nlinarith)).2 (by nlinarith)

theorem edge_lt' {x : ℝ} (h : 7 / 10 ≤ x) (h' : x ≤ width - 83 / 100) : edge (5 / 10) x < edge (64 / 100) x := by
  have h1 := dent_nonneg x
  have h2 : dent x ≤ 63 / 100 := dent_le (by norm_num) (by linarith) (by linarith)
  refine (Real.sqrt_lt_sqrt_iff_of_pos (by nlinarith)).2 (by nlinarith)

theorem edge_mid {r x : ℝ} (hr : 0 ≤ r) (h : 133 / 100 ≤ x) (h' : x ≤ width - 133 / 100) : edge r x = r := by
  unfold edge
  rw [dent_mid h h']
  simpa using Real.sqrt_sq hr

theorem width_eq : width = 1561 / 100 := rfl

theorem rounded_iff (r : ℝ) (P : Pt) : Rounded r P ↔ 133 / 100 - r ≤ P.1 ∧ P.1 < width - 133 / 100 + r ∧ 133 / 100 - edge r P.1 ≤ P.2 ∧
    P.2 < width - 133 / 100 + edge r P.1 := Iff.rfl

theorem outer_connected : IsConnected outerSurf := by
  have hw := width_eq
  have c5 := edge_cont (5 / 10)
  have c6 := edge_cont (64 / 100)
  have n5 := edge_nonneg (5 / 10)
  have n6 := edge_nonneg (64 / 100)
  have k1 := band (f := fun x => 133 / 100 - edge (64 / 100) x) (g := fun x => width - 133 / 100 + edge (64 / 100) x) (by fun_prop) (by fun_prop)
    (a := 69 / 100) (b := 83 / 100) (by norm_num) (fun x _ _ => by linarith [n6 x])
  have k2 := band (f := fun x => 133 / 100 - edge (64 / 100) x) (g := fun x => 133 / 100 - edge (5 / 10) x) (by fun_prop) (by fun_prop)
    (a := 83 / 100) (b := width - 83 / 100) (by rw [hw]; norm_num) (fun x h h' => by linarith [edge_lt h h'.le])
  have k3 := band (f := fun x => width - 133 / 100 + edge (5 / 10) x) (g := fun x => width - 133 / 100 + edge (64 / 100) x) (by fun_prop) (by fun_prop)
    (a := 83 / 100) (b := width - 83 / 100) (by rw [hw]; norm_num) (fun x h h' => by linarith [edge_lt h h'.le])
  have k4 := band (f := fun x => 133 / 100 - edge (64 / 100) x) (g := fun x => width - 133 / 100 + edge (64 / 100) x) (by fun_prop) (by fun_prop)
    (a := width - 83 / 100) (b := width - 69 / 100) (by linarith) (fun x _ _ => by linarith [n6 x])
  have j1 := glue k1 k2 (p := (83 / 100, 133 / 100 - edge (64 / 100) (83 / 100)))
    (limit_mem (f := fun s => (s, 133 / 100 - edge (64 / 100) s)) (by fun_prop) (a := 7 / 10) (by norm_num) (fun s h h' => ⟨by dsimp only; linarith, h', le_refl _, by
      dsimp only; linarith [n6 s]⟩))
    ⟨le_refl _, by dsimp only; linarith, le_refl _, by dsimp only; linarith [edge_lt (x := 83 / 100) (le_refl _) (by linarith)]⟩
  have j2 := glue j1 k3 (p := (83 / 100, width - 133 / 100 + edge (5 / 10) (83 / 100)))
    (closure_mono Set.subset_union_left
      (limit_mem (f := fun s => (s, width - 133 / 100 + edge (5 / 10) s)) (by fun_prop) (a := 7 / 10) (by norm_num) (fun s h h' => ⟨by dsimp only; linarith, h', by
        dsimp only; linarith [n6 s, n5 s], by dsimp only; linarith [edge_lt' h (by linarith : s ≤ width - 83 / 100)]⟩)))
    ⟨le_refl _, by dsimp only; linarith, le_refl _, by dsimp only; linarith [edge_lt (x := 83 / 100) (le_refl _) (by linarith)]⟩
  have j3 := glue j2 k4 (p := (width - 83 / 100, 133 / 100 - edge (64 / 100) (width - 83 / 100)))
    (closure_mono (Set.subset_union_right.trans Set.subset_union_left)
      (limit_mem (f := fun s => (s, 133 / 100 - edge (64 / 100) s)) (by fun_prop) (a := 83 / 100) (by linarith) (fun s h h' => ⟨h, h', le_refl _, by
        dsimp only; linarith [edge_lt h h'.le]⟩)))
    ⟨le_refl _, by dsimp only; linarith, le_refl _, by dsimp only; linarith [n6 (width - 83 / 100)]⟩
  convert j3 using 1
  ext P
  rw [outer_in, rounded_iff, rounded_iff]
  simp only [Set.mem_union, Set.mem_ofPred_eq]
  have e5 := n5 P.1
  have e6 := n6 P.1
  constructor
  · rintro ⟨⟨h1, h2, h3, h4⟩, h5⟩
    rcases lt_or_ge P.1 (83 / 100) with r1 | r1
    · exact Or.inl (Or.inl (Or.inl ⟨by linarith, r1, h3, h4⟩))
    rcases lt_or_ge P.1 (width - 83 / 100) with r2 | r2
    · rcases lt_or_ge P.2 (133 / 100 - edge (5 / 10) P.1) with r3 | r3
      · exact Or.inl (Or.inl (Or.inr ⟨r1, r2, h3, r3⟩))
      · refine Or.inl (Or.inr ⟨r1, r2, ?_, h4⟩)
        by_contra h
        exact h5 ⟨by linarith, by linarith, r3, not_le.1 h⟩
    · exact Or.inr ⟨r2, by linarith, h3, h4⟩
  · rintro (((⟨h1, h2, h3, h4⟩ | ⟨h1, h2, h3, h4⟩) | ⟨h1, h2, h3, h4⟩) | ⟨h1, h2, h3, h4⟩)
    · exact ⟨⟨by linarith, by linarith, h3, h4⟩, fun h => by linarith [h.1]⟩
    · exact ⟨⟨by linarith, by linarith, h3, by linarith⟩, fun h => by linarith [h.2.2.1]⟩
    · exact ⟨⟨by linarith, by linarith, by linarith, h4⟩, fun h => by linarith [h.2.2.2]⟩
    · exact ⟨⟨by linarith, by linarith, h3, h4⟩, fun h => by linarith [h.2.1]⟩

/-! ### All of it -/

/-- The last fuse. -/
def boxSheet : Set Pt := (outerSurf ∪ crossRing) ∪ (wingSheet ∪ turned (1 / 2 * (((0 : ℕ) : ℝ) + 1) * Real.pi) wingSheet ∪
  turned (1 / 2 * (((1 : ℕ) : ℝ) + 1) * Real.pi) wingSheet ∪ turned (1 / 2 * (((2 : ℕ) : ℝ) + 1) * Real.pi) wingSheet)

theorem box_in (P : Pt) : P ∈ boxSheet ↔ SveaSpec.Box P := by
  unfold boxSheet SveaSpec.Box Cross Turned
  simp only [Set.mem_union]
  rw [outer_in, crossRing_in, wingSheet_in, wing1_in, wing2_in, wing3_in]
  tauto

theorem wing_start : Wing (-(6975 / 1000)) 0 := by
  have hD := D0_bounds
  refine ⟨Or.inl ⟨le_refl _, by norm_num, by norm_num, by norm_num, ?_⟩, fun h => ?_⟩
  · rw [diamond_iff]
    intro h
    linarith [h.1]
  · have := h.1; norm_num at this

theorem box_sheet_connected : IsConnected boxSheet := by
  have hw := width_eq
  have hD := D0_bounds
  have hD1 := D1_bounds
  have e5 : edge (5 / 10) (width / 2) = 5 / 10 := edge_mid (by norm_num) (by linarith) (by linarith)
  have e6 : edge (64 / 100) (width / 2) = 64 / 100 := edge_mid (by norm_num) (by linarith) (by linarith)
  have n6 := edge_nonneg (64 / 100)
  have j0 := glue outer_connected wing_connected (p := (83 / 100, width / 2))
    (limit_mem (f := fun s => (s, width / 2)) (by fun_prop) (a := 7 / 10) (by norm_num) (fun s h h' => (outer_in _).2
      ⟨⟨by dsimp only; linarith, by dsimp only; linarith, by show 133 / 100 - edge (64 / 100) s ≤ width / 2; linarith [n6 s], by
        show width / 2 < width - 133 / 100 + edge (64 / 100) s; linarith [n6 s]⟩, fun k => by have := k.1; dsimp only at this; linarith⟩))
    ((wingSheet_in _).2 (by
      have : (83 / 100 - width / 2, width / 2 - width / 2) = ((-(6975 / 1000), 0) : Pt) := by rw [hw]; norm_num
      rw [Prod.mk.injEq] at this
      dsimp only
      rw [this.1, this.2]; exact wing_start))
  have j1 := glue j0 (turn_connected (1 / 2 * (((0 : ℕ) : ℝ) + 1) * Real.pi) wing_connected) (p := (width / 2, 83 / 100))
    (closure_mono Set.subset_union_left (limit_mem (f := fun s => (width / 2, s)) (by fun_prop) (a := 7 / 10) (by norm_num) (fun s h h' => (outer_in _).2
      ⟨⟨by dsimp only; linarith, by dsimp only; linarith, by show 133 / 100 - edge (64 / 100) (width / 2) ≤ s; rw [e6]; linarith, by
        show s < width - 133 / 100 + edge (64 / 100) (width / 2); rw [e6]; linarith⟩, fun k => by
          have : 133 / 100 - edge (5 / 10) (width / 2) ≤ s := k.2.2.1
          rw [e5] at this; linarith⟩)))
    ((wing1_in _).2 (by
      have : (83 / 100 - width / 2, -(width / 2 - width / 2)) = ((-(6975 / 1000), 0) : Pt) := by rw [hw]; norm_num
      rw [Prod.mk.injEq] at this
      dsimp only
      rw [this.1, this.2]; exact wing_start))
  have j2 := glue j1 (turn_connected (1 / 2 * (((1 : ℕ) : ℝ) + 1) * Real.pi) wing_connected) (p := (width - 83 / 100, width / 2))
    (subset_closure (Or.inl (Or.inl ((outer_in _).2
      ⟨⟨by dsimp only; linarith, by dsimp only; linarith, by show 133 / 100 - edge (64 / 100) (width - 83 / 100) ≤ width / 2; linarith [n6 (width - 83 / 100)], by
        show width / 2 < width - 133 / 100 + edge (64 / 100) (width - 83 / 100); linarith [n6 (width - 83 / 100)]⟩, fun k => by
          have := k.2.1; dsimp only at this; linarith⟩))))
    ((wing2_in _).2 (by
      have : (-(width - 83 / 100 - width / 2), -(width / 2 - width / 2)) = ((-(6975 / 1000), 0) : Pt) := by rw [hw]; norm_num
      rw [Prod.mk.injEq] at this
      dsimp only
      rw [this.1, this.2]; exact wing_start))
  have j3 := glue j2 (turn_connected (1 / 2 * (((2 : ℕ) : ℝ) + 1) * Real.pi) wing_connected) (p := (width / 2, width - 83 / 100))
    (subset_closure (Or.inl (Or.inl (Or.inl ((outer_in _).2
      ⟨⟨by dsimp only; linarith, by dsimp only; linarith, by show 133 / 100 - edge (64 / 100) (width / 2) ≤ width - 83 / 100; rw [e6]; linarith, by
        show width - 83 / 100 < width - 133 / 100 + edge (64 / 100) (width / 2); rw [e6]; linarith⟩, fun k => by
          have : width - 83 / 100 < width - 133 / 100 + edge (5 / 10) (width / 2) := k.2.2.2
          rw [e5] at this; linarith⟩)))))
    ((wing3_in _).2 (by
      have : (-(width - 83 / 100 - width / 2), (width / 2 - width / 2)) = ((-(6975 / 1000), 0) : Pt) := by rw [hw]; norm_num
      rw [Prod.mk.injEq] at this
      dsimp only
      rw [this.1, this.2]; exact wing_start))
  have j4 := glue crossRing_connected j3 (p := (width / 2 - 7625 / 10000 * Real.sqrt 2, width / 2))
    (limit_mem (f := fun s => (width / 2 - s, width / 2)) (by fun_prop) (a := 106 / 100) (b := 7625 / 10000 * Real.sqrt 2) (by linarith)
      (fun s h h' => (crossRing_in _).2 (by
        have e : width / 2 - s - width / 2 = -s := by ring
        have e' : width / 2 - width / 2 = 0 := by ring
        dsimp only
        rw [e, e', diamond_iff, diamond_iff]
        exact ⟨⟨by linarith, by linarith, by linarith, by linarith⟩, fun k => by linarith [k.1]⟩)))
    (Or.inl (Or.inl (Or.inl (Or.inr ((wingSheet_in _).2 (by
      have e : width / 2 - 7625 / 10000 * Real.sqrt 2 - width / 2 = -(7625 / 10000 * Real.sqrt 2) := by ring
      have e' : width / 2 - width / 2 = 0 := by ring
      dsimp only
      rw [e, e']
      refine ⟨Or.inl ⟨by linarith, by linarith, by norm_num, by norm_num, ?_⟩, fun k => by linarith [k.2.1]⟩
      rw [diamond_iff]
      intro k
      linarith [k.2.2.2]))))))
  convert j4 using 1
  unfold boxSheet
  ext P
  simp only [Set.mem_union]
  tauto

/-! ### Pins -/

theorem fuelAt_lt {i j : Nat} {f : String} (h : fuelAt i j = some f) : i < 10 ∧ j < 10 ∧ (i < 4 ∨ 5 < i ∨ j < 4 ∨ 5 < j) := by
  have hi : i < 10 := by
    by_contra hi
    unfold fuelAt at h
    rw [List.getElem?_eq_none (by simpa [figure] using hi)] at h
    cases h
  have hj : j < 10 := by
    by_contra hj
    unfold fuelAt at h
    rw [List.getElem?_eq_getElem (l := figure) (by simpa [figure] using hi)] at h
    have hl : ∀ row ∈ figure, row.length = 10 := by decide
    have := hl figure[i] (List.getElem_mem _)
    rw [Option.bind_some, List.getElem?_eq_none (by omega)] at h
    cases h
  refine ⟨hi, hj, ?_⟩
  by_contra hc
  have h4 : (i = 4 ∨ i = 5) ∧ (j = 4 ∨ j = 5) := by omega
  rcases h4 with ⟨rfl | rfl, rfl | rfl⟩ <;> simp [fuelAt, figure, fuelName] at h

theorem spot_place {i : Nat} (h : i < 10) : spot i = place i := by
  unfold spot place pinPitch waterGap boxThickness sla width
  by_cases h5 : i < 5
  · rw [if_pos h5, if_neg (by omega)]; ring
  · rw [if_neg h5, if_pos (by omega)]; ring

theorem spot_bounds {i : Nat} (h : i < 10) : 148 / 100 ≤ spot i ∧ spot i ≤ width - 148 / 100 ∧ 1125 / 1000 ≤ |spot i - width / 2| ∧
    (i < 4 ∨ 5 < i → 2425 / 1000 ≤ |spot i - width / 2|) := by
  unfold spot width
  interval_cases i <;> norm_num [abs_le, le_abs]

theorem spot_apart {i j : Nat} (hi : i < 10) (hj : j < 10) (h : i ≠ j) : 13 / 10 ≤ |spot i - spot j| := by
  unfold spot width
  interval_cases i <;> interval_cases j <;> first | exact absurd rfl h | norm_num [le_abs]

theorem near {P Q : Pt} (h : dist2 P Q ≤ (492 / 1000) ^ 2) : |P.1 - Q.1| ≤ 492 / 1000 ∧ |P.2 - Q.2| ≤ 492 / 1000 := by
  unfold dist2 at h
  constructor <;> refine abs_le_of_sq_le_sq (by nlinarith [sq_nonneg (P.1 - Q.1), sq_nonneg (P.2 - Q.2)]) (by norm_num)

theorem pins_apart {i j i' j' : Nat} {f f' : String} {P : Pt} (h : fuelAt i j = some f) (h' : fuelAt i' j' = some f')
    (hd : dist2 P (spot j, spot i) ≤ (492 / 1000) ^ 2) (hd' : dist2 P (spot j', spot i') ≤ (492 / 1000) ^ 2) : i = i' ∧ j = j' := by
  obtain ⟨hi, hj, -⟩ := fuelAt_lt h
  obtain ⟨hi', hj', -⟩ := fuelAt_lt h'
  have n1 := near hd
  have n2 := near hd'
  constructor
  · by_contra hne
    have h1 := spot_apart hi hi' hne
    have h2 := abs_sub_abs_le_abs_sub (spot i - P.2) (spot i' - P.2)
    have h3 : |spot i - spot i'| ≤ |P.2 - spot i| + |P.2 - spot i'| := by
      rw [show spot i - spot i' = (P.2 - spot i') - (P.2 - spot i) by ring]
      refine (abs_sub _ _).trans (by linarith)
    have := n1.2; have := n2.2
    dsimp only at *
    linarith
  · by_contra hne
    have h1 := spot_apart hj hj' hne
    have h3 : |spot j - spot j'| ≤ |P.1 - spot j| + |P.1 - spot j'| := by
      rw [show spot j - spot j' = (P.1 - spot j') - (P.1 - spot j) by ring]
      refine (abs_sub _ _).trans (by linarith)
    have := n1.1; have := n2.1
    dsimp only at *
    linarith

/-- The coordinates of the wings and of the water in them. -/
theorem wing_small {u v : ℝ} (h : Wing u v) : |v| ≤ 9 / 100 := by
  rw [abs_le]
  rcases h.1 with h | h
  · exact ⟨by linarith [h.2.2.1], by linarith [h.2.2.2.1]⟩
  · exact ⟨by linarith [h.2.2.1], by linarith [h.2.2.2]⟩

theorem pin_rounded {i j : Nat} {f : String} {P : Pt} (h : fuelAt i j = some f) (hd : dist2 P (spot j, spot i) ≤ (492 / 1000) ^ 2) : Rounded (5 / 10) P := by
  obtain ⟨hi, hj, -⟩ := fuelAt_lt h
  obtain ⟨n1, n2⟩ := near hd
  dsimp only at n1 n2
  obtain ⟨a1, a2, -, -⟩ := spot_bounds hi
  obtain ⟨b1, b2, -, -⟩ := spot_bounds hj
  refine (rounded_iff _ _).2 ?_
  rw [abs_le] at n1 n2
  have hdent : dent P.1 ≤ |P.1 - spot j| := by
    refine max_le (abs_nonneg _) (max_le ?_ ?_)
    · rw [← abs_neg]; exact le_trans (by linarith) (le_abs_self _)
    · exact le_trans (by linarith) (le_abs_self _)
  have h0 := dent_nonneg P.1
  have hds : dent P.1 ^ 2 ≤ (P.1 - spot j) ^ 2 := by rw [← sq_abs (P.1 - spot j)]; exact pow_le_pow_left₀ h0 hdent 2
  unfold dist2 at hd
  dsimp only at hd
  have key : |P.2 - spot i| ≤ edge (5 / 10) P.1 := by
    refine Real.abs_le_sqrt ?_
    nlinarith
  rw [abs_le] at key
  exact ⟨by linarith, by linarith, by linarith, by linarith⟩

theorem pin_box {i j : Nat} {f : String} {P : Pt} (h : fuelAt i j = some f) (hd : dist2 P (spot j, spot i) ≤ (492 / 1000) ^ 2) : ¬ SveaSpec.Box P := by
  obtain ⟨hi, hj, hc⟩ := fuelAt_lt h
  obtain ⟨n1, n2⟩ := near hd
  dsimp only at n1 n2
  obtain ⟨a1, a2, a3, a4⟩ := spot_bounds hi
  obtain ⟨b1, b2, b3, b4⟩ := spot_bounds hj
  have hD := D0_bounds
  have hD1 := D1_bounds
  have hu : |spot j - width / 2| - 492 / 1000 ≤ |P.1 - width / 2| := by
    have := abs_sub_abs_le_abs_sub (spot j - width / 2) (P.1 - width / 2)
    rw [show spot j - width / 2 - (P.1 - width / 2) = -(P.1 - spot j) by ring, abs_neg] at this
    linarith
  have hv : |spot i - width / 2| - 492 / 1000 ≤ |P.2 - width / 2| := by
    have := abs_sub_abs_le_abs_sub (spot i - width / 2) (P.2 - width / 2)
    rw [show spot i - width / 2 - (P.2 - width / 2) = -(P.2 - spot i) by ring, abs_neg] at this
    linarith
  rintro (⟨-, hr⟩ | (⟨hr, -⟩ | hr))
  · exact hr (pin_rounded h hd)
  · obtain ⟨s1, s2⟩ := diamond_small hr
    rcases hc with hc | hc | hc | hc
    · linarith [a4 (Or.inl hc)]
    · linarith [a4 (Or.inr hc)]
    · linarith [b4 (Or.inl hc)]
    · linarith [b4 (Or.inr hc)]
  · rcases hr with hr | hr | hr | hr
    · linarith [wing_small hr]
    · have := wing_small hr
      rw [abs_neg] at this
      linarith
    · have := wing_small hr
      rw [abs_neg] at this
      linarith
    · linarith [wing_small hr]

end

end Verif.SveaL
