import Verif.Lemmas.SveaWater
import Verif.Props.Fnr

/-!
# The plane model of the SVEA assembly

C119: the program svea_2d_variable_grid.cpp makes the assembly: pins, channel box, water cross and coolant.
-/

namespace Verif.SveaP

open Verif (IsStdSort)
open Verif.Gmsh (Gm DimTag)
open Verif.CoarseGrid (Fresh)
open Verif.Vera1Spec (name)
open Verif.ProgramsSpec Verif.Scene Verif.SceneSpec Verif.SveaL Verif.SveaSpec
open Verif.Svea (makeChannelBox)

variable {M C : Type}

/-- **C119**: if the kernel numbers the surfaces that the last cut leaves as the program expects, the coolant first and the water after it, then
the program ends without an error, whatever else the kernel answers; each point has the one material of the assembly, and the coarse cells are
those of the grid. -/
theorem C119_assembly_partial (clos : DimTag → List DimTag) (hself : ∀ e, (2, e) ∈ clos (2, e)) (hother : ∀ e e', (2, e) ∈ clos (2, e') → e = e')
    (sort : List ℝ → List ℝ) (hsort : ∀ l, IsStdSort (fun a b => decide (a < b)) l (sort l)) (eps : ℝ) (he : 0 < eps) (n : Nat) (hn : 0 < n)
    (hn2 : n * n ≤ 100000) (hle : eps ≤ width / n) (s : Mpact.Model ℝ M) (hs : Fresh s) (col : String → C) (blue : DimTag → C) :
    Starts clos sort eps col blue s n fun o cs => Always (fun r => Ordered r.2.1 r.2.2 →
      Ends clos col o cs r.1 r.2.1 r.2.2 fun g reg => Assembly (MaterialAt g reg) ∧ GridCells (width, width) n n g reg) (makeChannelBox (canvasOf o)) := by
  obtain ⟨pins, o, m, cs, h1, h2, h3, h4, h5⟩ := starts clos hself hother sort hsort eps he n hn hn2 hle s hs col blue
  refine ⟨pins, o, m, cs, h1, h2, h3, ?_⟩
  refine always_mono _ ?_ (make_final _ h4)
  rintro ⟨box, c, out⟩ hf ⟨o1, o2, o3⟩
  obtain ⟨b, S, b1, b2, b3⟩ := h5 box c out hf o1
  refine ⟨b, S, b1, b2, fun map all reg F => ?_⟩
  obtain ⟨g, gone, g1, g2, g3⟩ := b3 map all reg F
  refine ⟨g, gone, g1, ?_, g2⟩
  intro P p1 p2 p3 p4
  obtain ⟨k1, k2, k3, k4⟩ := g3 P p1 p2 p3 p4
  refine ⟨k1, k2, k3, fun hc => ⟨fun hi => ?_, fun hi hB => ?_⟩⟩
  · refine (k4 hc hi.2.1).1 ?_
    obtain ⟨t, ht, hP⟩ := (hf.points P).1 ((result_in P).2 (Or.inl hi))
    refine ⟨t, ?_, hP⟩
    rw [← List.take_append_drop 4 out] at ht
    rcases List.mem_append.1 ht with ht | ht
    · exact ht
    · exact absurd (o3 t ht P hP) hi.2.2
  · refine (k4 hc hB).2 ?_
    rintro ⟨t, ht, hP⟩
    rcases (result_in P).1 ((hf.points P).2 ⟨t, List.mem_of_mem_take ht, hP⟩) with h | h
    · exact hi h
    · exact o2 t ht P hP h

/-- Whatever the order of the surfaces, if there are eight: the pins, the box and the water outside it are as they should be, and each other point
is coolant or moderator. -/
theorem C119_frame (clos : DimTag → List DimTag) (hself : ∀ e, (2, e) ∈ clos (2, e)) (hother : ∀ e e', (2, e) ∈ clos (2, e') → e = e')
    (sort : List ℝ → List ℝ) (hsort : ∀ l, IsStdSort (fun a b => decide (a < b)) l (sort l)) (eps : ℝ) (he : 0 < eps) (n : Nat) (hn : 0 < n)
    (hn2 : n * n ≤ 100000) (hle : eps ≤ width / n) (s : Mpact.Model ℝ M) (hs : Fresh s) (col : String → C) (blue : DimTag → C) :
    Starts clos sort eps col blue s n fun o cs => Always (fun r => 8 ≤ r.2.2.length →
      Ends clos col o cs r.1 r.2.1 r.2.2 fun g reg => Frame (MaterialAt g reg) ∧ GridCells (width, width) n n g reg) (makeChannelBox (canvasOf o)) := by
  obtain ⟨pins, o, m, cs, h1, h2, h3, h4, h5⟩ := starts clos hself hother sort hsort eps he n hn hn2 hle s hs col blue
  refine ⟨pins, o, m, cs, h1, h2, h3, ?_⟩
  refine always_mono _ ?_ (make_final _ h4)
  rintro ⟨box, c, out⟩ hf o1
  obtain ⟨b, S, b1, b2, b3⟩ := h5 box c out hf o1
  refine ⟨b, S, b1, b2, fun map all reg F => ?_⟩
  obtain ⟨g, gone, g1, g2, g3⟩ := b3 map all reg F
  refine ⟨g, gone, g1, ?_, g2⟩
  intro P p1 p2 p3 p4
  obtain ⟨k1, k2, k3, k4⟩ := g3 P p1 p2 p3 p4
  refine ⟨k1, k2, k3, fun hR hB => ?_, fun _ hc hB => ?_⟩
  · refine (k4 (fun i j f hf => ?_) hB).2 ?_
    · by_contra h
      exact hR (pin_rounded hf (not_lt.1 h))
    · rintro ⟨t, ht, hP⟩
      exact hR ((coolant_in P).1 ((hf.points P).2 ⟨t, List.mem_of_mem_take ht, hP⟩).1)
  · by_cases h : ∃ t ∈ out.take 4, P ∈ c.shape t
    · exact Or.inl ((k4 hc hB).1 h)
    · exact Or.inr ((k4 hc hB).2 h)

/-- The kernel can number the surfaces as the program expects: the coolant in four surfaces, and the water in five. -/
theorem C119_order (clos : DimTag → List DimTag) (hself : ∀ e, (2, e) ∈ clos (2, e)) (hother : ∀ e e', (2, e) ∈ clos (2, e') → e = e')
    (sort : List ℝ → List ℝ) (hsort : ∀ l, IsStdSort (fun a b => decide (a < b)) l (sort l)) (eps : ℝ) (he : 0 < eps) (n : Nat) (hn : 0 < n)
    (hn2 : n * n ≤ 100000) (hle : eps ≤ width / n) (s : Mpact.Model ℝ M) (hs : Fresh s) (col : String → C) (blue : DimTag → C) :
    Starts clos sort eps col blue s n fun o _ => ∃ box c out, Possible (box, c, out) (makeChannelBox (canvasOf o)) ∧ Ordered c out ∧ out.length = 9 := by
  obtain ⟨pins, o, m, cs, h1, h2, h3, h4, h5⟩ := starts clos hself hother sort hsort eps he n hn hn2 hle s hs col blue
  refine ⟨pins, o, m, cs, h1, h2, h3, ?_⟩
  obtain ⟨box, c, out, p1, -, p3⟩ := can_final (canvasOf o) h4 (quarters ++ waters) pieces_in
    (List.pairwise_append.2 ⟨quarters_apart, waters_apart, fun A hA B hB => apart_both hA hB⟩) result_apart
  have hlen : out.length = 9 := by
    have := congrArg List.length p3
    simpa [quarters, waters] using this
  refine ⟨box, c, out, p1, ⟨by omega, ?_, ?_⟩, hlen⟩
  · intro t ht P hP
    have h6 : c.shape t ∈ (out.take 4).map c.shape := List.mem_map.2 ⟨t, ht, rfl⟩
    rw [List.map_take, p3] at h6
    exact ((quarters_in P).1 ⟨_, h6, hP⟩).2.2
  · intro t ht P hP
    have h6 : c.shape t ∈ (out.drop 4).map c.shape := List.mem_map.2 ⟨t, ht, rfl⟩
    rw [List.map_drop, p3] at h6
    exact (waters_in P).1 ⟨_, h6, hP⟩

/-- **The program relies on an order that nothing fixes**: the kernel may number the water before the coolant.  Then the coolant between the pins,
for example at (2.13, 2.13), becomes moderator. -/
theorem C119_order_fails (clos : DimTag → List DimTag) (hself : ∀ e, (2, e) ∈ clos (2, e)) (hother : ∀ e e', (2, e) ∈ clos (2, e') → e = e')
    (sort : List ℝ → List ℝ) (hsort : ∀ l, IsStdSort (fun a b => decide (a < b)) l (sort l)) (eps : ℝ) (he : 0 < eps) (n : Nat) (hn : 0 < n)
    (hn2 : n * n ≤ 100000) (hle : eps ≤ width / n) (s : Mpact.Model ℝ M) (hs : Fresh s) (col : String → C) (blue : DimTag → C) :
    Starts clos sort eps col blue s n fun o cs => ∃ box c out, Possible (box, c, out) (makeChannelBox (canvasOf o)) ∧ out.length = 9 ∧
      Ends clos col o cs box c out fun g reg => ¬ Assembly (MaterialAt g reg) ∧ Inside (213 / 100, 213 / 100) ∧
        MaterialAt g reg (213 / 100, 213 / 100) (name "Moderator") := by
  obtain ⟨pins, o, m, cs, h1, h2, h3, h4, h5⟩ := starts clos hself hother sort hsort eps he n hn hn2 hle s hs col blue
  refine ⟨pins, o, m, cs, h1, h2, h3, ?_⟩
  obtain ⟨box, c, out, p1, p2, p3⟩ := can_final (canvasOf o) h4 (waters ++ quarters) (fun P => by
      rw [pieces_in]
      simp only [List.mem_append, or_comm])
    (List.pairwise_append.2 ⟨waters_apart, quarters_apart, fun A hA B hB => (apart_both hB hA).symm⟩) result_apart
  have hlen : out.length = 9 := by
    have := congrArg List.length p3
    simpa [quarters, waters] using this
  refine ⟨box, c, out, p1, hlen, ?_⟩
  obtain ⟨b, S, b1, b2, b3⟩ := h5 box c out p2 (by omega)
  refine ⟨b, S, b1, b2, fun map all reg F => ?_⟩
  obtain ⟨g, gone, g1, g2, g3⟩ := b3 map all reg F
  have hw := width_eq
  have hcorner := corner_inside
  have hmod : MaterialAt g reg (213 / 100, 213 / 100) (name "Moderator") := by
    refine ((g3 (213 / 100, 213 / 100) (by norm_num) (by rw [hw]; norm_num) (by norm_num) (by rw [hw]; norm_num)).2.2.2 (fun i j f hf => corner_pins hf)
      hcorner.2.1).2 ?_
    rintro ⟨t, ht, hP⟩
    have h6 : c.shape t ∈ (out.take 4).map c.shape := List.mem_map.2 ⟨t, ht, rfl⟩
    rw [List.map_take, p3] at h6
    exact hcorner.2.2 ((waters_in _).1 ⟨_, List.mem_of_mem_take (i := 4) (by simpa [waters] using h6), hP⟩)
  refine ⟨g, gone, g1, fun hA => ?_, hcorner, hmod⟩
  have h7 := ((hA (213 / 100, 213 / 100) (by norm_num) (by rw [hw]; norm_num) (by norm_num) (by rw [hw]; norm_num)).2.2.2 (fun i j f hf => corner_pins hf)).1 hcorner
  exact absurd ((hmod _).1 ((h7 _).2 rfl)) (by decide)

/-- The hypotheses can be met. -/
example : Starts (fun e => [e]) FnrP.sortR (1 / 10 ^ 7) (fun n => n) (fun _ => "") (Mpact.Model.empty ℝ Unit) 6 fun o cs =>
    ∃ box c out map all reg, Possible (box, c, out) (makeChannelBox (canvasOf o)) ∧ Ordered c out ∧ ∃ b S, Svea.sortOut box c out = some b ∧
      Svea.dress (fun e => [e]) (fun n => n) o.gm b = .ok S ∧ FragmentsOf S.tags c.shape cs map all reg := by
  have hle : (1 / 10 ^ 7 : ℝ) ≤ width / (6 : ℕ) := by unfold width; norm_num
  obtain ⟨pins, o, m, cs, h1, h2, h3, box, c, out, h4, h5, -⟩ := C119_order (fun e => [e]) (by simp) (by simp) FnrP.sortR FnrP.sortR_ok (1 / 10 ^ 7) (by norm_num) 6
    (by norm_num) (by norm_num) hle (Mpact.Model.empty ℝ Unit) ⟨rfl, rfl, rfl, rfl, rfl⟩ (fun n => n) (fun _ => "")
  obtain ⟨pins', o', m', cs', k1, k2, k3, k4⟩ := C119_assembly_partial (fun e => [e]) (by simp) (by simp) FnrP.sortR FnrP.sortR_ok (1 / 10 ^ 7) (by norm_num) 6
    (by norm_num) (by norm_num) hle (Mpact.Model.empty ℝ Unit) ⟨rfl, rfl, rfl, rfl, rfl⟩ (fun n => n) (fun _ => "")
  rw [h1] at k1; cases k1
  rw [h2] at k2; cases k2
  rw [h3] at k3; cases k3
  obtain ⟨b, S, b1, b2, -⟩ := possible_always _ _ k4 h4 h5
  obtain ⟨map, all, reg, F⟩ := NuscaleP.C114_fragments S.tags c.shape cs
  exact ⟨pins, o, m, cs, h1, h2, h3, box, c, out, map, all, reg, h4, h5, b, S, b1, b2, F⟩

end Verif.SveaP
