import Verif.Lemmas.SinglePins
import Verif.Props.Nuscale

/-!
# The pin cell of VERA problem 1A

C118: the programs vera_1a.cpp and vera_1a_nogap.cpp make the pin cell of the benchmark.
-/

namespace Verif.Vera1P

open Verif (IsStdSort)
open Verif.XSLib (Res)
open Verif.Gmsh (Gm DimTag)
open Verif.Overlay (Name Cut)
open Verif.CoarseGrid (Fresh)
open Verif.Pins (Occ)
open Verif.ProgramsSpec Verif.Scene Verif.SceneSpec Verif.SceneL Verif.SingleL Verif.Vera1 Verif.Vera1Spec

set_option linter.unusedSectionVars false
variable {K C M : Type} [Field K] [LinearOrder K] [IsStrictOrderedRing K]

theorem fine (col : String → C) (gap : Bool) : ∀ p ∈ (pins col gap : List (Single K C)), Fine p := by
  intro p hp
  simp only [pins, List.mem_singleton] at hp
  subst hp
  cases gap
  · refine ⟨by simp [radii], rfl, ?_, ?_⟩ <;> simp only [radii] <;> norm_num
  · refine ⟨by simp [radii], rfl, ?_, ?_⟩ <;> simp only [radii] <;> norm_num

/-- The material of the pin at the square `D` of the distance from the middle. -/
theorem shows_iff (col : String → C) (gap : Bool) (P : K × K) (x : Name) :
    (∃ p ∈ (pins col gap : List (Single K C)), PinShows p P x) ↔
      (x = name "Fuel" ∧ dist2 P (63 / 100, 63 / 100) ≤ (4096 / 10000) ^ 2) ∨
      (x = name (if gap then "Gap" else "Clad") ∧ (4096 / 10000) ^ 2 < dist2 P (63 / 100, 63 / 100) ∧ dist2 P (63 / 100, 63 / 100) ≤ (418 / 1000) ^ 2) ∨
      (x = name "Clad" ∧ (418 / 1000) ^ 2 < dist2 P (63 / 100, 63 / 100) ∧ dist2 P (63 / 100, 63 / 100) ≤ (475 / 1000) ^ 2) := by
  have hmid : ((pitch / 2, pitch / 2) : K × K) = (63 / 100, 63 / 100) := by unfold pitch; norm_num
  have b1 : ((4096 / 10000 : K)) ^ 2 ≤ (418 / 1000) ^ 2 := by norm_num
  have b2 : ((418 / 1000 : K)) ^ 2 ≤ (475 / 1000) ^ 2 := by norm_num
  simp only [pins, List.mem_singleton, exists_eq_left, PinShows, hmid]
  generalize dist2 P (63 / 100, 63 / 100) = D
  cases gap
  · simp only [radii, mats, mat, Bool.false_eq_true, if_false]
    constructor
    · rintro ⟨k, r, c, h1, h2, h3, h4⟩
      rcases k with _ | _ | k
      · cases h1; cases h2
        exact Or.inl ⟨rfl, h3⟩
      · cases h1; cases h2
        have h5 := h4 _ rfl
        rcases le_or_gt D ((418 / 1000) ^ 2) with h | h
        · exact Or.inr (Or.inl ⟨rfl, h5, h⟩)
        · exact Or.inr (Or.inr ⟨rfl, h, h3⟩)
      · cases h1
    · rintro (⟨rfl, h⟩ | ⟨rfl, h, h'⟩ | ⟨rfl, h, h'⟩)
      · exact ⟨0, _, _, rfl, rfl, h, fun r' h => by cases h⟩
      · exact ⟨1, _, _, rfl, rfl, h'.trans b2, fun r' h'' => by cases h''; exact h⟩
      · exact ⟨1, _, _, rfl, rfl, h', fun r' h'' => by cases h''; exact b1.trans_lt h⟩
  · simp only [radii, mats, mat, if_true]
    constructor
    · rintro ⟨k, r, c, h1, h2, h3, h4⟩
      rcases k with _ | _ | _ | k
      · cases h1; cases h2
        exact Or.inl ⟨rfl, h3⟩
      · cases h1; cases h2
        exact Or.inr (Or.inl ⟨rfl, h4 _ rfl, h3⟩)
      · cases h1; cases h2
        exact Or.inr (Or.inr ⟨rfl, h4 _ rfl, h3⟩)
      · cases h1
    · rintro (⟨rfl, h⟩ | ⟨rfl, h, h'⟩ | ⟨rfl, h, h'⟩)
      · exact ⟨0, _, _, rfl, rfl, h, fun r' h => by cases h⟩
      · exact ⟨1, _, _, rfl, rfl, h', fun r' h'' => by cases h''; exact h⟩
      · exact ⟨2, _, _, rfl, rfl, h', fun r' h'' => by cases h''; exact h⟩

/-- **C118**: both programs end without an error, whatever fragments the kernel finds; each point of the cell has the one material of the
benchmark, and the cell is the one coarse cell. -/
theorem C118_cell (gap : Bool) (clos : DimTag → List DimTag) (hself : ∀ e, (2, e) ∈ clos (2, e)) (hother : ∀ e e', (2, e) ∈ clos (2, e') → e = e')
    (sort : List K → List K) (hsort : ∀ l, IsStdSort (fun a b => decide (a < b)) l (sort l)) (eps : K) (he : 0 < eps) (hle : eps ≤ 126 / 100)
    (s : Mpact.Model K M) (hs : Fresh s) (col : String → C) (blue : DimTag → C) :
    Makes clos sort eps col blue gap s fun g reg => Cell gap (MaterialAt g reg) ∧ GridCells (126 / 100, 126 / 100) 1 1 g reg := by
  obtain ⟨o, o1, o2, o3, -, o5⟩ := all_pins clos hself hother [] (pins col gap) (Programs.start blue : Occ K C) (start_on blue) (fine col gap)
  obtain ⟨m, cs, c1, c2⟩ := grid_points (C := C) clos sort hsort eps he s hs (domain : K × K) 1 1 (by norm_num) (by norm_num) (by norm_num)
    (by simpa [domain, pitch] using hle) (by simpa [domain, pitch] using hle)
  refine ⟨o, m, cs, o1, c1, fun map all reg F => ?_⟩
  have hd := drawn_of [] o o2 (Or.inr (o3 (Or.inl (by simp [pins]))))
  obtain ⟨g, gone, g1, g2, g3⟩ := c2 (ofOcc [] o) hd (ringSet o) map all reg F (fill col)
  have hno : ∀ P x, ¬ ProgramsL.Has (Programs.start blue : Occ K C) P x := by rintro P x ⟨R, hR, _⟩; cases hR
  have hlies1 : ∀ P x, Lies (ofOcc [] o) (ringSet o) P x ↔ ∃ p ∈ (pins col gap : List (Single K C)), PinShows p P x := fun P x => by
    have h := lies_of [] (fun _ => ∅) o o2 P x
    rw [shapeOn_nil, o5] at h
    refine h.trans ?_
    constructor
    · rintro (⟨e, he, -⟩ | h | h)
      · cases he
      · exact absurd h (hno P x)
      · exact h
    · exact fun h => Or.inr (Or.inr h)
  have hlies := fun P x => (hlies1 P x).trans (shows_iff col gap P x)
  refine ⟨g, gone, g1, ?_, g3⟩
  intro P p1 p2 p3 p4 D
  have key := g2 P p1 p2 p3 p4
  have hD : D = dist2 P (63 / 100, 63 / 100) := rfl
  have b1 : ((4096 / 10000 : K)) ^ 2 ≤ (418 / 1000) ^ 2 := by norm_num
  have b2 : ((418 / 1000 : K)) ^ 2 ≤ (475 / 1000) ^ 2 := by norm_num
  refine ⟨fun h => ?_, fun h h' => ?_, fun h h' => ?_, fun h => ?_⟩
  · refine key _ (fun y hy => ?_) (Or.inl ((hlies _ _).2 (Or.inl ⟨rfl, h⟩)))
    rcases (hlies _ _).1 hy with ⟨rfl, -⟩ | ⟨-, h1, -⟩ | ⟨-, h1, -⟩
    · rfl
    · exact absurd h1 (not_lt.2 h)
    · exact absurd h1 (not_lt.2 (h.trans b1))
  · refine key _ (fun y hy => ?_) (Or.inl ((hlies _ _).2 (Or.inr (Or.inl ⟨rfl, h, h'⟩))))
    rcases (hlies _ _).1 hy with ⟨-, h1⟩ | ⟨rfl, h1, -⟩ | ⟨-, h1, -⟩
    · exact absurd h1 (not_le.2 h)
    · rfl
    · exact absurd h1 (not_lt.2 h')
  · refine key _ (fun y hy => ?_) (Or.inl ((hlies _ _).2 (Or.inr (Or.inr ⟨rfl, h, h'⟩))))
    rcases (hlies _ _).1 hy with ⟨-, h1⟩ | ⟨-, -, h1⟩ | ⟨rfl, -, -⟩
    · exact absurd h1 (not_le.2 (b1.trans_lt h))
    · exact absurd h1 (not_le.2 h)
    · rfl
  · refine key _ (fun y hy => ?_) (Or.inr rfl)
    rcases (hlies _ _).1 hy with ⟨-, h1⟩ | ⟨-, -, h1⟩ | ⟨-, -, h1⟩
    · exact absurd h1 (not_le.2 ((b1.trans b2).trans_lt h))
    · exact absurd h1 (not_le.2 (b2.trans_lt h))
    · exact absurd h1 (not_le.2 h)

/-- A kernel, a sort and a grid as in the theorem exist. -/
example : ∃ o m cs map all reg, addPins (fun e => [e]) (pins (fun n => n) true) (Programs.start fun _ => "") = .ok o ∧
    gridCuts CoarseGrid.sortQ (1 / 10 ^ 7) CoarseGrid.none_ domain 1 1 = .ok (m, cs) ∧ FragmentsOf (ofOcc [] o).tags (ringSet o) cs map all reg ∧
    ∃ g gone, Scene.lay (fun e => [e]) (ofOcc [] o) cs map all (fill fun n => n) = .ok (g, gone) ∧ Cell true (MaterialAt g reg) := by
  obtain ⟨o, m, cs, h1, h2, h3⟩ := C118_cell (K := ℚ) true (fun e => [e]) (by simp) (by simp) CoarseGrid.sortQ CoarseGrid.sortQ_ok (1 / 10 ^ 7) (by norm_num)
    (by norm_num) CoarseGrid.none_ CoarseGrid.fresh (fun n => n) (fun _ => "")
  obtain ⟨map, all, reg, F⟩ := NuscaleP.C114_fragments (ofOcc [] o).tags (ringSet o) cs
  obtain ⟨g, gone, g1, g2, -⟩ := h3 map all reg F
  exact ⟨o, m, cs, map, all, reg, h1, h2, F, g, gone, g1, g2⟩

/-- The masses of the nuclides of the fuel, the clad and the water add up to the densities that are set, to one part in 5000. -/
theorem C118_densities : ∀ m ∈ [fuel, clad, water], |massDensity m - m.density| ≤ m.density / 5000 := by
  decide +kernel

/-- No nuclide is given twice.  The fuel is UO2 with an enrichment of 3.1 percent by weight, with the U234 and U236 that go with it; the
moderator is water with 1300 ppm of boron that has its natural isotopes; the clad is Zircaloy-4. -/
theorem C118_compositions :
    (∀ m ∈ [fuel, clad, water], m.zaid.Nodup ∧ ∀ z ∈ m.zaid, (Phys.massOf z).isSome) ∧
    |atoms fuel (element 8) - 2 * atoms fuel (element 92)| ≤ atoms fuel (element 8) / 10 ^ 5 ∧
    |share fuel (· == 92235) / share fuel (element 92) - 0.031| ≤ 0.00001 ∧
    |share fuel (· == 92234) / share fuel (element 92) - 0.0002635| ≤ 0.000001 ∧
    |share fuel (· == 92236) / share fuel (· == 92235) - 0.0046| ≤ 0.00005 ∧
    (∀ z ∈ fuel.zaid, element 92 z ∨ z = 8016) ∧
    atoms water (element 1) = 2 * atoms water (element 8) ∧
    |share water (element 5) - 0.0013| ≤ 0.000001 ∧
    |atoms water (· == 5010) / atoms water (element 5) - 0.199| ≤ 0.0001 ∧
    |share clad (element 40) - 0.9823| ≤ 0.0001 ∧ |share clad (element 50) - 0.0145| ≤ 0.0001 ∧ |share clad (element 26) - 0.0021| ≤ 0.0001 ∧
    |share clad (element 24) - 0.0010| ≤ 0.0001 ∧ |share clad (element 72) - 0.0001| ≤ 0.00001 := by
  decide +kernel

/-- The clad has all the natural isotopes of its elements, and no others, each with its natural abundance to one part in 10^5. -/
theorem C118_isotopes :
    clad.zaid = natural.map Prod.fst ∧
    ∀ p ∈ natural, |atoms clad (· == p.1) / atoms clad (element (p.1 / 1000)) - p.2| ≤ p.2 / 10 ^ 5 := by
  decide +kernel

/-- **The helium in the gap has not the density that is quoted**: it has ten times as much. -/
theorem C118_helium_fails : massDensity helium = 10 * quoted ∧ massDensity helium ≠ quoted := by
  decide +kernel

end Verif.Vera1P
