import Verif.Lemmas.SveaDress

/-! The water in the cross of the SVEA assembly, and the materials after the overlay (C119). -/

namespace Verif.SveaL

open Verif.XSLib (Res)
open Verif.Gmsh (Gm DimTag)
open Verif.GmshSpec
open Verif.Overlay (Name)
open Verif.CoarseGrid (Fresh)
open Verif.OverlayGroupsSpec (material)
open Verif.Pins (Occ)
open Verif.ProgramsL (Has)
open Verif.Vera1 (Single addPins mat)
open Verif.Vera1Spec (name PinShows)
open Verif.ProgramsSpec Verif.Scene Verif.SceneSpec Verif.SceneL Verif.SingleL
open Verif.Svea Verif.SveaSpec

set_option linter.unusedSectionVars false

noncomputable section

/-! ### Water -/

theorem wing_left {u v : ℝ} (h : Wing u v) : u < 83 / 100 := by
  rcases h.1 with h | h
  · exact h.2.1
  · linarith [h.2.1]

theorem hole_wing {u v : ℝ} (h : Hole u v) : ¬ Turned Wing u v := by
  obtain ⟨h1, h2, h3, h4⟩ := id h
  rintro (k | k | k | k)
  · exact k.2 h
  · have := wing_small k
    rw [abs_le] at this
    linarith
  · linarith [wing_left k]
  · have := wing_small k
    rw [abs_le] at this
    linarith

theorem turned_turn (S : ℝ → ℝ → Prop) (u v : ℝ) : Turned S v (-u) ↔ Turned S u v := by
  unfold Turned
  rw [neg_neg]
  tauto

theorem turned_hole {u v : ℝ} (h : Turned Hole u v) : ¬ Turned Wing u v := by
  rcases h with h | h | h | h
  · exact hole_wing h
  · rw [← turned_turn]; exact hole_wing h
  · rw [← turned_turn, ← turned_turn]; exact hole_wing h
  · rw [← turned_turn, ← turned_turn, ← turned_turn, neg_neg]; exact hole_wing h

theorem diamond_turn {u v : ℝ} (h : Diamond (7425 / 10000) u v) : Diamond (7625 / 10000) u v ∧ Diamond (7625 / 10000) v (-u) ∧
    Diamond (7625 / 10000) (-u) (-v) ∧ Diamond (7625 / 10000) (-v) u := by
  have := D0_bounds
  have := D1_bounds
  rw [diamond_iff] at h
  obtain ⟨h1, h2, h3, h4⟩ := h
  refine ⟨?_, ?_, ?_, ?_⟩ <;> rw [diamond_iff] <;> refine ⟨?_, ?_, ?_, ?_⟩ <;> linarith

theorem wing_not {u v : ℝ} (h : Diamond (7625 / 10000) u v) : ¬ Wing u v := by
  have := D0_bounds
  rintro ⟨k | k, -⟩
  · exact k.2.2.2.2 h
  · have := (diamond_small h).1
    rw [abs_le] at this
    linarith [k.2.1]

theorem diamond_wing {u v : ℝ} (h : Diamond (7425 / 10000) u v) : ¬ Turned Wing u v := by
  obtain ⟨h1, h2, h3, h4⟩ := diamond_turn h
  rintro (k | k | k | k)
  · exact wing_not h1 k
  · exact wing_not h2 k
  · exact wing_not h3 k
  · exact wing_not h4 k

/-- The sizes. -/
theorem hole_size {u v : ℝ} (h : Turned Hole u v) : (286 / 100 ≤ |u| ∨ 286 / 100 ≤ |v|) ∧ |u| ≤ 62 / 10 ∧ |v| ≤ 62 / 10 := by
  simp only [le_abs, abs_le]
  rcases h with ⟨h1, h2, h3, h4⟩ | ⟨h1, h2, h3, h4⟩ | ⟨h1, h2, h3, h4⟩ | ⟨h1, h2, h3, h4⟩
  · exact ⟨Or.inl (Or.inr (by linarith)), ⟨by linarith, by linarith⟩, ⟨by linarith, by linarith⟩⟩
  · exact ⟨Or.inr (Or.inr (by linarith)), ⟨by linarith, by linarith⟩, ⟨by linarith, by linarith⟩⟩
  · exact ⟨Or.inl (Or.inl (by linarith)), ⟨by linarith, by linarith⟩, ⟨by linarith, by linarith⟩⟩
  · exact ⟨Or.inr (Or.inl (by linarith)), ⟨by linarith, by linarith⟩, ⟨by linarith, by linarith⟩⟩

theorem diamond_hole {u v h : ℝ} (hh : h * Real.sqrt 2 < 2) (hd : Diamond h u v) : ¬ Turned Hole u v := by
  intro h
  have h1 := (hole_size h).1
  have h2 := diamond_small hd
  rcases h1 with h1 | h1 <;> linarith [h2.1, h2.2]

theorem middle_rounded {P : Pt} (h1 : |P.1 - width / 2| ≤ 62 / 10) (h2 : |P.2 - width / 2| ≤ 62 / 10) : Rounded (5 / 10) P := by
  have hw := width_eq
  rw [abs_le] at h1 h2
  rw [rounded_iff, edge_mid (by norm_num) (by linarith) (by linarith)]
  exact ⟨by linarith, by linarith, by linarith, by linarith⟩

/-- The water is inside the box, and not in its walls. -/
theorem water_in {P : Pt} (h : Water P) : Rounded (5 / 10) P ∧ ¬ SveaSpec.Box P := by
  have hD := D0_bounds
  have hD1 := D1_bounds
  rcases h with h | h
  · have h2 := diamond_small h
    have hr := middle_rounded (P := P) (h2.1.trans (by linarith)) (h2.2.trans (by linarith))
    refine ⟨hr, ?_⟩
    rintro (k | k | k)
    · exact k.2 hr
    · exact k.2 h
    · exact diamond_wing h k
  · have h2 := hole_size h
    have hr := middle_rounded (P := P) h2.2.1 h2.2.2
    refine ⟨hr, ?_⟩
    rintro (k | k | k)
    · exact k.2 hr
    · exact diamond_hole (by linarith) k.1 h
    · exact turned_hole h k

theorem result_in (P : Pt) : P ∈ coolantSurf \ boxSheet ↔ Inside P ∨ Water P := by
  rw [Set.mem_sdiff, coolant_in, box_in]
  constructor
  · rintro ⟨h1, h2⟩
    by_cases h : Water P
    · exact Or.inr h
    · exact Or.inl ⟨h1, h2, h⟩
  · rintro (h | h)
    · exact ⟨h.1, h.2.1⟩
    · exact water_in h

/-- A point between four pins. -/
def corner : Pt := (213 / 100, 213 / 100)

theorem corner_inside : Inside corner := by
  have hD := D0_bounds
  have hD1 := D1_bounds
  have hr : Rounded (5 / 10) corner := middle_rounded (by unfold corner width; norm_num [abs_le]) (by unfold corner width; norm_num [abs_le])
  have e1 : corner.1 - width / 2 = -(5675 / 1000) := by unfold corner width; norm_num
  have e2 : corner.2 - width / 2 = -(5675 / 1000) := by unfold corner width; norm_num
  refine ⟨hr, ?_, ?_⟩
  · rintro (k | k | k)
    · exact k.2 hr
    · have := (diamond_small k.1).1
      rw [e1, abs_le] at this
      linarith
    · rw [e1, e2] at k
      rcases k with k | k | k | k <;> have := wing_small k <;> rw [abs_le] at this <;> linarith
  · rintro (k | k)
    · have := (diamond_small k).1
      rw [e1, abs_le] at this
      linarith
    · rw [e1, e2] at k
      rcases k with k | k | k | k <;> obtain ⟨k1, k2, k3, k4⟩ := k <;> linarith

theorem corner_pins {i j : Nat} {f : String} (h : fuelAt i j = some f) : (492 / 1000) ^ 2 < dist2 corner (spot j, spot i) := by
  obtain ⟨-, hj, -⟩ := fuelAt_lt h
  have key : (5 / 10 : ℝ) ^ 2 ≤ (213 / 100 - spot j) ^ 2 := by
    unfold spot width
    clear h
    interval_cases j <;> norm_num
  unfold dist2 corner
  dsimp only
  nlinarith [sq_nonneg (213 / 100 - spot i)]

theorem result_apart : ¬ IsConnected (coolantSurf \ boxSheet) := by
  intro h
  have hw := width_eq
  have l1 (x : ℝ) : IsOpen {P : Pt | x < P.1 - width / 2} := isOpen_lt (by fun_prop) (by fun_prop)
  have l2 (x : ℝ) : IsOpen {P : Pt | P.1 - width / 2 < x} := isOpen_lt (by fun_prop) (by fun_prop)
  have l3 (x : ℝ) : IsOpen {P : Pt | x < P.2 - width / 2} := isOpen_lt (by fun_prop) (by fun_prop)
  have l4 (x : ℝ) : IsOpen {P : Pt | P.2 - width / 2 < x} := isOpen_lt (by fun_prop) (by fun_prop)
  have o1 : IsOpen {P : Pt | -(613 / 100) < P.1 - width / 2 ∧ P.1 - width / 2 < -(284 / 100) ∧ -(7 / 100) < P.2 - width / 2 ∧ P.2 - width / 2 < 7 / 100} := by
    exact (l1 _).inter ((l2 _).inter ((l3 _).inter (l4 _)))
  have o2 : IsOpen {P : Pt | P.1 - width / 2 < -(6115 / 1000) ∨ -(285 / 100) < P.1 - width / 2 ∨ P.2 - width / 2 < -(55 / 1000) ∨ 55 / 1000 < P.2 - width / 2} := by
    exact (l2 _).union ((l1 _).union ((l4 _).union (l3 _)))
  obtain ⟨P, hP, hU, hV⟩ := h.2 _ _ o1 o2 (by
    intro P _
    by_cases hc : P.1 - width / 2 < -(6115 / 1000) ∨ -(285 / 100) < P.1 - width / 2 ∨ P.2 - width / 2 < -(55 / 1000) ∨ 55 / 1000 < P.2 - width / 2
    · exact Or.inr hc
    · push Not at hc
      obtain ⟨a, b, c, d⟩ := hc
      exact Or.inl ⟨by linarith, by linarith, by linarith, by linarith⟩)
    ⟨(width / 2 - 4, width / 2), (result_in _).2 (Or.inr (Or.inr (Or.inl ⟨by dsimp only; linarith, by dsimp only; linarith, by dsimp only; linarith,
      by dsimp only; linarith⟩))), ⟨by dsimp only; linarith, by dsimp only; linarith, by dsimp only; linarith, by dsimp only; linarith⟩⟩
    ⟨corner, (result_in _).2 (Or.inl corner_inside), Or.inr (Or.inr (Or.inl (by unfold corner; dsimp only; linarith)))⟩
  obtain ⟨a, b, c, d⟩ := hU
  have hW : Wing (P.1 - width / 2) (P.2 - width / 2) := by
    refine ⟨Or.inr ⟨by linarith, by linarith, by linarith, by linarith⟩, ?_⟩
    rintro ⟨k1, k2, k3, k4⟩
    have hV' : P.1 - width / 2 < -(6115 / 1000) ∨ -(285 / 100) < P.1 - width / 2 ∨ P.2 - width / 2 < -(55 / 1000) ∨ 55 / 1000 < P.2 - width / 2 := hV
    rcases hV' with k | k | k | k <;> linarith
  exact hP.2 ((box_in P).2 (Or.inr (Or.inr (Or.inl hW))))

/-! ### Pieces -/

/-- The coolant in a quarter of the box. -/
def quarter (s t : Prop) : Set Pt := {P | Inside P ∧ (P.1 - width / 2 < 0 ↔ s) ∧ (P.2 - width / 2 < 0 ↔ t)}
def hole0 : Set Pt := {P | Hole (P.1 - width / 2) (P.2 - width / 2)}
def hole1 : Set Pt := {P | Hole (P.2 - width / 2) (-(P.1 - width / 2))}
def hole2 : Set Pt := {P | Hole (-(P.1 - width / 2)) (-(P.2 - width / 2))}
def hole3 : Set Pt := {P | Hole (-(P.2 - width / 2)) (P.1 - width / 2)}
def heart : Set Pt := {P | Diamond (7425 / 10000) (P.1 - width / 2) (P.2 - width / 2)}

def quarters : List (Set Pt) := [quarter True True, quarter False True, quarter True False, quarter False False]
def waters : List (Set Pt) := [hole0, hole1, hole2, hole3, heart]

theorem quarters_in (P : Pt) : (∃ S ∈ quarters, P ∈ S) ↔ Inside P := by
  constructor
  · rintro ⟨S, hS, hP⟩
    simp only [quarters, List.mem_cons, List.not_mem_nil, or_false] at hS
    rcases hS with rfl | rfl | rfl | rfl <;> exact hP.1
  · intro h
    by_cases h1 : P.1 - width / 2 < 0 <;> by_cases h2 : P.2 - width / 2 < 0
    · exact ⟨quarter True True, by simp [quarters], h, by tauto, by tauto⟩
    · exact ⟨quarter True False, by simp [quarters], h, by tauto, by tauto⟩
    · exact ⟨quarter False True, by simp [quarters], h, by tauto, by tauto⟩
    · exact ⟨quarter False False, by simp [quarters], h, by tauto, by tauto⟩

theorem waters_in (P : Pt) : (∃ S ∈ waters, P ∈ S) ↔ Water P := by
  simp only [waters, List.mem_cons, List.not_mem_nil, or_false, exists_eq_or_imp, exists_eq_left]
  unfold Water Turned hole0 hole1 hole2 hole3 heart
  simp only [Set.mem_ofPred_eq]
  tauto

theorem quarters_apart : quarters.Pairwise fun A B => Disjoint A B := by
  have key : ∀ s t s' t' : Prop, ¬ ((s ↔ s') ∧ (t ↔ t')) → Disjoint (quarter s t) (quarter s' t') := by
    intro s t s' t' hne
    rw [Set.disjoint_left]
    rintro P ⟨-, h1, h2⟩ ⟨-, h3, h4⟩
    exact hne ⟨h1.symm.trans h3, h2.symm.trans h4⟩
  unfold quarters
  simp only [List.pairwise_cons, List.mem_cons, List.not_mem_nil, or_false, forall_eq_or_imp, forall_eq]
  refine ⟨⟨key _ _ _ _ ?_, key _ _ _ _ ?_, key _ _ _ _ ?_⟩, ⟨key _ _ _ _ ?_, key _ _ _ _ ?_⟩, key _ _ _ _ ?_, ?_, ?_⟩ <;> simp

theorem waters_apart : waters.Pairwise fun A B => Disjoint A B := by
  have hD1 := D1_bounds
  have hh : ∀ P, P ∈ heart → ¬ Turned Hole (P.1 - width / 2) (P.2 - width / 2) := fun P hP => diamond_hole (by linarith) hP
  unfold waters
  simp only [List.pairwise_cons, List.mem_cons, List.not_mem_nil, or_false, forall_eq_or_imp, forall_eq]
  have d01 : Disjoint hole0 hole1 := Set.disjoint_left.2 fun P ⟨a1, a2, a3, a4⟩ ⟨b1, b2, b3, b4⟩ => by linarith
  have d02 : Disjoint hole0 hole2 := Set.disjoint_left.2 fun P ⟨a1, a2, a3, a4⟩ ⟨b1, b2, b3, b4⟩ => by linarith
  have d03 : Disjoint hole0 hole3 := Set.disjoint_left.2 fun P ⟨a1, a2, a3, a4⟩ ⟨b1, b2, b3, b4⟩ => by linarith
  have d12 : Disjoint hole1 hole2 := Set.disjoint_left.2 fun P ⟨a1, a2, a3, a4⟩ ⟨b1, b2, b3, b4⟩ => by linarith
  have d13 : Disjoint hole1 hole3 := Set.disjoint_left.2 fun P ⟨a1, a2, a3, a4⟩ ⟨b1, b2, b3, b4⟩ => by linarith
  have d23 : Disjoint hole2 hole3 := Set.disjoint_left.2 fun P ⟨a1, a2, a3, a4⟩ ⟨b1, b2, b3, b4⟩ => by linarith
  refine ⟨⟨d01, d02, d03, ?_⟩, ⟨d12, d13, ?_⟩, ⟨d23, ?_⟩, ?_, ?_, ?_⟩
  · exact Set.disjoint_left.2 fun P a b => hh P b (Or.inl a)
  · exact Set.disjoint_left.2 fun P a b => hh P b (Or.inr (Or.inl a))
  · exact Set.disjoint_left.2 fun P a b => hh P b (Or.inr (Or.inr (Or.inl a)))
  · exact Set.disjoint_left.2 fun P a b => hh P b (Or.inr (Or.inr (Or.inr a)))
  · simp
  · exact List.Pairwise.nil

theorem apart_both {A B : Set Pt} (hA : A ∈ quarters) (hB : B ∈ waters) : Disjoint A B := by
  rw [Set.disjoint_left]
  intro P h1 h2
  exact ((quarters_in P).1 ⟨A, hA, h1⟩).2.2 ((waters_in P).1 ⟨B, hB, h2⟩)

theorem pieces_in (P : Pt) : P ∈ coolantSurf \ boxSheet ↔ ∃ S ∈ quarters ++ waters, P ∈ S := by
  rw [result_in, ← quarters_in, ← waters_in]
  simp only [List.mem_append, or_and_right, exists_or]

/-! ### The program -/

variable {M C : Type}

/-- The program up to the booleans. -/
theorem starts (clos : DimTag → List DimTag) (hself : ∀ e, (2, e) ∈ clos (2, e)) (hother : ∀ e e', (2, e) ∈ clos (2, e') → e = e')
    (sort : List ℝ → List ℝ) (hsort : ∀ l, IsStdSort (fun a b => decide (a < b)) l (sort l)) (eps : ℝ) (he : 0 < eps) (n : Nat) (hn : 0 < n)
    (hn2 : n * n ≤ 100000) (hle : eps ≤ width / n) (s : Mpact.Model ℝ M) (hs : Fresh s) (col : String → C) (blue : DimTag → C) :
    Starts clos sort eps col blue s n fun o cs => (∀ t ∈ (canvasOf o).tags, t < (canvasOf o).next) ∧ ∀ box c out, Final (canvasOf o) box c out → 8 ≤ out.length →
      Ends clos col o cs box c out fun g reg => GridCells (width, width) n n g reg ∧ ∀ P : Pt, 0 ≤ P.1 → P.1 < width → 0 ≤ P.2 → P.2 < width →
        (∀ i j f, fuelAt i j = some f → dist2 P (spot j, spot i) ≤ (424 / 1000) ^ 2 → MaterialAt g reg P (name f)) ∧
        (∀ i j f, fuelAt i j = some f → (424 / 1000) ^ 2 < dist2 P (spot j, spot i) → dist2 P (spot j, spot i) ≤ (492 / 1000) ^ 2 → MaterialAt g reg P (name "Clad")) ∧
        (SveaSpec.Box P → MaterialAt g reg P (name "Clad")) ∧
        ((∀ i j f, fuelAt i j = some f → (492 / 1000) ^ 2 < dist2 P (spot j, spot i)) → ¬ SveaSpec.Box P →
          ((∃ t ∈ out.take 4, P ∈ c.shape t) → MaterialAt g reg P (name "Coolant")) ∧ (¬ (∃ t ∈ out.take 4, P ∈ c.shape t) → MaterialAt g reg P (name "Moderator"))) := by
  obtain ⟨pins, p1, p2⟩ := pin_list col
  have hfine : ∀ p ∈ pins, Fine p := by
    intro p hp
    obtain ⟨i, j, f, -, rfl⟩ := (p2 p).1 hp
    exact pin_fine col i j f
  obtain ⟨o, o1, o2, -, -, o5⟩ := all_pins clos hself hother [] pins (Programs.start blue : Occ ℝ C) (start_on blue) hfine
  have hdom : (domain : ℝ × ℝ) = (width, width) := by unfold domain; rw [bw_eq]
  obtain ⟨m, cs, c1, c2⟩ := grid_points (C := C) clos sort hsort eps he s hs (domain : ℝ × ℝ) n n hn hn hn2 (by rw [hdom]; exact hle) (by rw [hdom]; exact hle)
  obtain ⟨r1, r2, r3, r4⟩ := grid_rects sort hsort eps he s hs (domain : ℝ × ℝ) n n hn hn hn2 (by rw [hdom]; exact hle) (by rw [hdom]; exact hle) m cs c1
  have hhas : ∀ P x, Has o P x ↔ ∃ i j f, fuelAt i j = some f ∧ ((x = name f ∧ dist2 P (spot j, spot i) ≤ (424 / 1000) ^ 2) ∨
      (x = name "Clad" ∧ (424 / 1000) ^ 2 < dist2 P (spot j, spot i) ∧ dist2 P (spot j, spot i) ≤ (492 / 1000) ^ 2)) := by
    intro P x
    rw [o5]
    constructor
    · rintro (⟨R, hR, _⟩ | ⟨p, hp, h⟩)
      · cases hR
      · obtain ⟨i, j, f, hf, rfl⟩ := (p2 p).1 hp
        exact ⟨i, j, f, hf, (pin_shows col i j f P x).1 h⟩
    · rintro ⟨i, j, f, hf, h⟩
      exact Or.inr ⟨_, (p2 _).2 ⟨i, j, f, hf, rfl⟩, (pin_shows col i j f P x).2 h⟩
  have hnames : ∀ x e, In o.gm 2 (material x) e → ∃ f ∈ "Clad" :: fuels, x = name f := by
    intro x e h
    rcases pins_names clos hself hother [] pins _ o (start_on blue) hfine o1 2 _ e h with ⟨g, hg, _⟩ | ⟨p, hp, mm, hm, hx⟩
    · cases hg
    · obtain ⟨i, j, f, hf, rfl⟩ := (p2 p).1 hp
      simp only [pin, List.mem_cons, List.not_mem_nil, or_false] at hm
      rcases hm with rfl | rfl
      · exact ⟨f, List.mem_cons_of_mem _ (fuel_names hf), ProgramsL.material_inj hx⟩
      · exact ⟨"Clad", by simp, ProgramsL.material_inj hx⟩
  refine ⟨pins, o, m, cs, p1, o1, c1, ?_, ?_⟩
  · intro t ht
    obtain ⟨R, hR, rfl⟩ := List.mem_map.1 ht
    exact o2.below R hR
  intro box c out hf h8
  obtain ⟨b, S, L, b1, b2, b3, b4, b5, b6, b7, b8⟩ := dress_ok clos col o o2 hnames box c out hf h8
  refine ⟨b, S, b1, b2, fun map all reg F => ?_⟩
  obtain ⟨g, gone, g1, g2, g3⟩ := c2 S b3 c.shape map all reg F (fill col)
  rw [hdom] at g3
  refine ⟨g, gone, g1, g3, ?_⟩
  intro P q1 q2 q3 q4
  have hfill : (fill col).1 = name "Moderator" := rfl
  have hrank := lay_ranked clos S b3 c.shape cs r1 r2 r3 map all reg F (fill col) (L ++ [name "Coolant"]) b4 b5 g gone g1 P
    (r4 P q1 (by rw [hdom]; exact q2) q3 (by rw [hdom]; exact q4))
  have hplain := g2 P q1 (by rw [hdom]; exact q2) q3 (by rw [hdom]; exact q4)
  rw [hfill] at hrank hplain
  have s1 : ∀ x ∈ L, [x, name "Coolant"].Sublist ((L ++ [name "Coolant"]) ++ [name "Moderator"]) := fun x hx =>
    ((List.singleton_sublist.2 hx).append (List.Sublist.refl [name "Coolant"])).trans (List.sublist_append_left _ _)
  have s2 : ∀ x ∈ L ++ [name "Coolant"], [x, name "Moderator"].Sublist ((L ++ [name "Coolant"]) ++ [name "Moderator"]) := fun x hx =>
    (List.singleton_sublist.2 hx).append (List.Sublist.refl [name "Moderator"])
  have hcut : ∀ t ∈ out, P ∈ c.shape t → ¬ SveaSpec.Box P := fun t ht hP hB => ((hf.points P).2 ⟨t, ht, hP⟩).2 ((box_in P).2 hB)
  have hclear : (∀ i j f, fuelAt i j = some f → (492 / 1000) ^ 2 < dist2 P (spot j, spot i)) → ∀ x, ¬ Has o P x := by
    intro h x hx
    obtain ⟨i, j, f, hf, k⟩ := (hhas P x).1 hx
    have h1 := h i j f hf
    have b1 : ((424 / 1000 : ℝ)) ^ 2 ≤ (492 / 1000) ^ 2 := by norm_num
    rcases k with ⟨-, k⟩ | ⟨-, -, k⟩ <;> linarith
  have b492 : ((424 / 1000 : ℝ)) ^ 2 ≤ (492 / 1000) ^ 2 := by norm_num
  have hpin : ∀ i j f x, fuelAt i j = some f → dist2 P (spot j, spot i) ≤ (492 / 1000) ^ 2 → Has o P x → (∀ y, Has o P y → y = x) → MaterialAt g reg P x := by
    intro i j f x hf hd hx hy
    refine hrank x ((b8 P x).2 (Or.inl hx)) fun y hly => ?_
    rcases (b8 P y).1 hly with h | ⟨rfl, h⟩ | ⟨rfl, -⟩ | ⟨rfl, -⟩
    · exact Or.inl (hy y h)
    · exact absurd ((box_in P).1 h) (pin_box hf hd)
    · exact Or.inr (s1 x (b6 P x hx))
    · exact Or.inr (s2 x (List.mem_append_left _ (b6 P x hx)))
  refine ⟨?_, ?_, ?_, ?_⟩
  · intro i j f hf hd
    refine hpin i j f _ hf (hd.trans b492) ((hhas _ _).2 ⟨i, j, f, hf, Or.inl ⟨rfl, hd⟩⟩) fun y hy => ?_
    obtain ⟨i', j', f', hf', h⟩ := (hhas _ _).1 hy
    have hd' : dist2 P (spot j', spot i') ≤ (492 / 1000) ^ 2 := by
      rcases h with ⟨-, h⟩ | ⟨-, -, h⟩
      · exact h.trans b492
      · exact h
    obtain ⟨rfl, rfl⟩ := pins_apart hf hf' (hd.trans b492) hd'
    rw [hf] at hf'; cases hf'
    rcases h with ⟨h, -⟩ | ⟨-, h, -⟩
    · exact h
    · exact absurd h (not_lt.2 hd)
  · intro i j f hf h1 h2
    refine hpin i j f _ hf h2 ((hhas _ _).2 ⟨i, j, f, hf, Or.inr ⟨rfl, h1, h2⟩⟩) fun y hy => ?_
    obtain ⟨i', j', f', hf', h⟩ := (hhas _ _).1 hy
    have hd' : dist2 P (spot j', spot i') ≤ (492 / 1000) ^ 2 := by
      rcases h with ⟨-, h⟩ | ⟨-, -, h⟩
      · exact h.trans b492
      · exact h
    obtain ⟨rfl, rfl⟩ := pins_apart hf hf' h2 hd'
    rcases h with ⟨-, h⟩ | ⟨h, -, -⟩
    · exact absurd h (not_le.2 h1)
    · exact h
  · intro hB
    refine hplain _ (fun y hy => ?_) (Or.inl ((b8 _ _).2 (Or.inr (Or.inl ⟨rfl, (box_in P).2 hB⟩))))
    rcases (b8 P y).1 hy with h | ⟨rfl, h⟩ | ⟨rfl, t, ht, h⟩ | ⟨rfl, t, ht, h⟩
    · exfalso
      obtain ⟨i, j, f, hf, k⟩ := (hhas P y).1 h
      refine pin_box hf ?_ hB
      rcases k with ⟨-, k⟩ | ⟨-, -, k⟩
      · exact k.trans b492
      · exact k
    · rfl
    · exact absurd hB (hcut t (List.mem_of_mem_take ht) h)
    · exact absurd hB (hcut t (List.mem_of_mem_drop (List.mem_of_mem_take ht)) h)
  · intro hc hB
    have hno := hclear hc
    constructor
    · intro h
      refine hrank _ ((b8 _ _).2 (Or.inr (Or.inr (Or.inl ⟨rfl, h⟩)))) fun y hy => ?_
      rcases (b8 P y).1 hy with h | ⟨rfl, h⟩ | ⟨rfl, -⟩ | ⟨rfl, -⟩
      · exact absurd h (hno y)
      · exact absurd ((box_in P).1 h) hB
      · exact Or.inl rfl
      · exact Or.inr (s2 _ (by simp))
    · intro h
      refine hplain _ (fun y hy => ?_) (Or.inr rfl)
      rcases (b8 P y).1 hy with h' | ⟨rfl, h'⟩ | ⟨rfl, h'⟩ | ⟨rfl, -⟩
      · exact absurd h' (hno y)
      · exact absurd ((box_in P).1 h') hB
      · exact absurd h' h
      · rfl

end

end Verif.SveaL
