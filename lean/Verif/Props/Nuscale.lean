import Verif.Lemmas.Nuscale
import Verif.Lemmas.LatticeText

/-!
# The plane model of the NuScale core

C114: on every grid of coarse cells, the program makes the specified quarter core within its vessel.
-/

set_option linter.unusedSectionVars false

namespace Verif.NuscaleP

open Verif (IsStdSort)
open Verif.XSLib (Res)
open Verif.Gmsh (Gm DimTag)
open Verif.Overlay (Name Cut)
open Verif.GmshSpec
open Verif.PinsSpec
open Verif.Pins (Occ)
open Verif.Programs
open Verif.ProgramsSpec
open Verif.ProgramsP
open Verif.OverlayGroupsSpec (material)
open Verif.CoarseGrid (Fresh)
open Verif.LatticeText (tableOf idAt_tableOf good_tableOf)
open Verif.Info (Col)
open Verif.Scene
open Verif.SceneSpec
open Verif.SceneL
open Verif.Nuscale
open Verif.NuscaleSpec
open Verif.NuscaleL
open Verif.ReopenL (Bytes)

variable {K C M : Type} [Field K] [LinearOrder K] [IsStrictOrderedRing K]

/-! ### The pins -/

/-- The id of a pin. -/
def idOf : Rod → Nat
  | .tube => 0
  | .plain => 1
  | .edge => 2
  | .gad => 3

/-- The fuels of an assembly in the order of the ids. -/
def fuels : Asm → List String
  | .a01 => ["U175"]
  | .a04 => ["U200"]
  | .a05 => ["U260", "U208", "G260"]
  | .a06 => ["U350", "U280", "G350"]
  | .a07 => ["U365", "U292"]
  | .a08 => ["U375", "U300"]

/-- The ids of an assembly. -/
def table (a : Asm) : List (List ℤ) := tableOf 17 17 fun i j => idOf (rod gads a (away i) (away j))

theorem eq01 : Bench.lattice text01 = some (table .a01) := LatticeText.lattice_eq (by decide +kernel)

theorem eq05 : Bench.lattice text05 = some (table .a05) := LatticeText.lattice_eq (by decide +kernel)

theorem eq07 : Bench.lattice text07 = some (table .a07) := LatticeText.lattice_eq (by decide +kernel)

theorem table04 : table .a01 = table .a04 := by decide +kernel

theorem table06 : table .a05 = table .a06 := by decide +kernel

theorem table08 : table .a07 = table .a08 := by decide +kernel

theorem away_mirror {j : Nat} (h : j < 17) : away (17 - 1 - j) = away j := by unfold away; split <;> split <;> omega

/-- The assemblies in the order of the calls. -/
def asm : List (Asm × Nat × Nat) :=
  [(.a01, 0, 0), (.a01, 1, 0), (.a01, 1, 1), (.a01, 0, 1), (.a04, 2, 0), (.a04, 0, 2), (.a05, 2, 1), (.a05, 1, 2), (.a06, 3, 0), (.a06, 0, 3),
   (.a07, 2, 2), (.a08, 3, 1), (.a08, 1, 3)]

theorem asm_iff (a : Asm) (c r : Nat) : asmAt c r = some a ↔ (a, c, r) ∈ asm := by
  constructor
  · intro h
    have hr : r < 4 := by
      by_contra hr
      unfold asmAt at h
      rw [List.getElem?_eq_none (by simp; omega)] at h
      cases h
    have hc : c < 4 := by
      by_contra hc
      unfold asmAt at h
      interval_cases r <;> simp only [List.getElem?_cons_zero, List.getElem?_cons_succ, Option.bind_some] at h <;>
        rw [List.getElem?_eq_none (by simp; omega)] at h <;> cases h
    interval_cases r <;> interval_cases c <;> cases a <;> first | decide | (revert h; decide)
  · intro h
    have : ∀ q ∈ asm, asmAt q.2.1 q.2.2 = some q.1 := by decide
    exact this _ h

/-- A call by the kind and the place of the assembly. -/
def call (col : String → Col) (noGap : Bool) (q : Asm × Nat × Nat) : Placement K Col :=
  place col noGap (fuels q.1) (table q.1) (left q.2.1) (left q.2.2)

theorem left0 : (-17 * pinPitch / 2 : K) = left 0 := by unfold pinPitch left; rw [if_pos rfl]; norm_num

theorem left1 : (asyPitch / 2 : K) = left 1 := by unfold asyPitch left; rw [if_neg (by decide)]; norm_num

theorem left1' : (1 / 2 * asyPitch : K) = left 1 := by unfold asyPitch left; rw [if_neg (by decide)]; norm_num

theorem left2 : (3 / 2 * asyPitch : K) = left 2 := by unfold asyPitch left; rw [if_neg (by decide)]; norm_num

theorem left3 : (5 / 2 * asyPitch : K) = left 3 := by unfold asyPitch left; rw [if_neg (by decide)]; norm_num

theorem placements_eq (col : String → Col) (noGap : Bool) :
    (placements col noGap : Option (List (Placement K Col))) = some (asm.map (call col noGap)) := by
  unfold placements
  rw [eq01, eq05, eq07, left0, left1, left1', left2, left3]
  have f0 : fuel 0 = "U175" := rfl
  have f1 : fuel 1 = "U200" := rfl
  have f2 : fuel 2 = "U208" := rfl
  have f3 : fuel 3 = "U260" := rfl
  have f4 : fuel 4 = "U280" := rfl
  have f5 : fuel 5 = "U292" := rfl
  have f6 : fuel 6 = "U300" := rfl
  have f7 : fuel 7 = "U350" := rfl
  have f8 : fuel 8 = "U365" := rfl
  have f9 : fuel 9 = "U375" := rfl
  simp only [asm, List.map_cons, List.map_nil, call, fuels, ← table04, ← table06, ← table08, f0, f1, f2, f3, f4, f5, f6, f7, f8, f9,
    Option.bind_eq_bind, Option.bind_some]

theorem cutouts_eq : (cutouts : List (K × K)) = asm.map fun q => (left q.2.1, left q.2.2) := by
  unfold cutouts
  rw [left0, left1, left1', left2, left3]
  rfl

theorem rod_id (a : Asm) (u v : Nat) : idOf (rod gads a u v) ≤ (fuels a).length := by
  unfold rod
  split
  · exact Nat.zero_le _
  · split
    · rename_i h
      cases a <;> first | decide | exact absurd rfl h.2.1 | exact absurd rfl h.2.2
    · split
      · rename_i h
        cases a <;> first | decide | simp [gads] at h
      · cases a <;> decide

/-- The pins as they are built. -/
theorem pin_of (col : String → Col) (noGap : Bool) (a : Asm) (R : Rod) (h : idOf R ≤ (fuels a).length) :
    (radii noGap (fuels a).length : List (List K))[idOf R]? = some ((layers noGap a R).map (·.1)) ∧
      (mats col noGap (fuels a))[idOf R]? = some ((layers (K := K) noGap a R).map fun q => mat col q.2) := by
  cases R <;> cases a <;> cases noGap <;> first | exact ⟨rfl, rfl⟩ | (exfalso; revert h; decide)

theorem look_layers (col : String → Col) (l : List (K × String)) (D : K) :
    (look (l.map (·.1)) (l.map fun q => mat col q.2) D).getD (fill col).1 = name (layerAt l D) := by
  induction l with
  | nil => rfl
  | cons q l ih =>
    obtain ⟨r, n⟩ := q
    simp only [List.map_cons, look, layerAt]
    split
    · rfl
    · exact ih

theorem call_good (eps : K) (hp : eps ≤ 126 / 100) (col : String → Col) (noGap : Bool) (q : Asm × Nat × Nat) : Good eps (call col noGap q : Placement K Col) := by
  refine good_tableOf eps _ 17 17 (fun i j => idOf (rod gads q.1 (away i) (away j))) rfl (by decide) (by decide) ?_ ?_ ⟨hp, hp⟩
  · intro i _ j _
    show idOf _ < (radii noGap (fuels q.1).length : List (List K)).length
    have := rod_id q.1 (away i) (away j)
    unfold radii
    rw [List.length_cons, List.length_replicate]
    omega
  · obtain ⟨a, c, r⟩ := q
    cases a <;> cases noGap <;> simp [call, place, radii, mats, fuels, List.replicate]

theorem call_inside (col : String → Col) (noGap : Bool) (q : Asm × Nat × Nat) : Inside (call col noGap q : Placement K Col) := by
  have hr : ∀ rad ∈ (call col noGap q : Placement K Col).radii, rad = [57150 / 100000, 61214 / 100000] ∨
      rad = [405765 / 1000000, 47498 / 100000] ∨ rad = [405765 / 1000000, 41402 / 100000, 47498 / 100000] := by
    intro rad h
    rcases List.mem_cons.1 h with h | h
    · exact Or.inl h
    · have := List.eq_of_mem_replicate h
      cases noGap
      · exact Or.inr (Or.inr this)
      · exact Or.inr (Or.inl this)
  refine ⟨?_, ?_, ?_⟩
  · intro rad h
    rcases hr rad h with rfl | rfl | rfl <;> simp
  · intro rad h
    rcases hr rad h with rfl | rfl | rfl <;> simp <;> norm_num
  · intro rad h
    have e : (call col noGap q : Placement K Col).pitch = (126 / 100, 126 / 100) := rfl
    rw [e]
    rcases hr rad h with rfl | rfl | rfl <;> simp <;> norm_num

theorem idAt_call (col : String → Col) (noGap : Bool) (q : Asm × Nat × Nat) (i j : Nat) :
    idAt (call col noGap q : Placement K Col).ids.reverse i j =
      if i < 17 ∧ j < 17 then some ((idOf (rod gads q.1 (away i) (away j)) : Nat) : ℤ) else none := by
  show idAt (tableOf 17 17 _).reverse i j = _
  rw [idAt_tableOf]
  by_cases h : i < 17 ∧ j < 17
  · rw [if_pos h, if_pos h, away_mirror h.2]
  · rw [if_neg h, if_neg h]

theorem inCell_iff (col : String → Col) (noGap : Bool) (q : Asm × Nat × Nat) (i j : Nat) (hi : i < 17) (hj : j < 17) (P : K × K) :
    InCell (call col noGap q : Placement K Col) i j P ↔ InPin left q.2.1 q.2.2 i j P := by
  unfold InCell InPin call place middle pinPitch
  dsimp only
  constructor
  · rintro ⟨h1, h2, h3, h4⟩
    refine ⟨hi, hj, ?_, ?_, ?_, ?_⟩ <;> linarith
  · rintro ⟨-, -, h1, h2, h3, h4⟩
    refine ⟨?_, ?_, ?_, ?_⟩ <;> linarith

theorem centre_eq (col : String → Col) (noGap : Bool) (q : Asm × Nat × Nat) (i j : Nat) :
    centre (call col noGap q : Placement K Col) i j = middle left q.2.1 q.2.2 i j := by
  unfold centre call place middle pinPitch
  dsimp only

/-- A pin cell is in the square of the pins of its assembly. -/
theorem pin_in_square {lf : Nat → K} {c r i j : Nat} {P : K × K} (h : InPin lf c r i j P) :
    (lf c ≤ P.1 ∧ P.1 < lf c + 2142 / 100) ∧ (lf r ≤ P.2 ∧ P.2 < lf r + 2142 / 100) := by
  obtain ⟨hi, hj, h1, h2, h3, h4⟩ := h
  have hi' : (i : K) + 1 ≤ 17 := by exact_mod_cast hi
  have hi0 : (0 : K) ≤ i := Nat.cast_nonneg _
  have hj' : (j : K) + 1 ≤ 17 := by exact_mod_cast hj
  have hj0 : (0 : K) ≤ j := Nat.cast_nonneg _
  unfold middle at h1 h2 h3 h4
  dsimp only at h1 h2 h3 h4
  refine ⟨⟨?_, ?_⟩, ?_, ?_⟩ <;> linarith

theorem left_step {c c' : Nat} (h : c < c') : left c + 2142 / 100 ≤ (left c' : K) := by
  have h1 : (c : K) + 1 ≤ c' := by exact_mod_cast h
  have h0 : (0 : K) ≤ c := Nat.cast_nonneg _
  unfold left
  rw [if_neg (show ¬ c' = 0 by omega)]
  split
  · have : (1 : K) ≤ c' := by linarith
    nlinarith
  · nlinarith

/-- The squares of the pins are apart. -/
theorem square_unique {x : K} {c c' : Nat} (h1 : left c ≤ x) (h2 : x < left c + 2142 / 100) (h3 : left c' ≤ x) (h4 : x < left c' + 2142 / 100) :
    c = c' := by
  rcases lt_trichotomy c c' with h | h | h
  · have := left_step (K := K) h; linarith
  · exact h
  · have := left_step (K := K) h; linarith

/-! ### The reflector -/

theorem tools_iff (P : K × K) : (∀ T ∈ tools, P ∉ T) ↔ ¬ Opening P := by
  have hh : ∀ h ∈ holes, h ∈ upperHoles ∨ (h.2.1, h.1, h.2.2) ∈ upperHoles := by decide +kernel
  have hu : ∀ h ∈ upperHoles, h ∈ holes ∧ (h.2.1, h.1, h.2.2) ∈ holes := by decide +kernel
  rw [← not_iff_not, not_not]
  push Not
  refine Iff.symm ?_
  constructor
  · rintro (⟨c, r, a, ha, h⟩ | ⟨h, hm, h1 | h1⟩)
    · refine ⟨squareSet (left c, left r), ?_, h⟩
      refine List.mem_append_left _ ?_
      rw [cutouts_eq, List.map_map]
      exact List.mem_map.2 ⟨(a, c, r), (asm_iff a c r).1 ha, rfl⟩
    · exact ⟨diskSet h, List.mem_append_right _ (List.mem_map.2 ⟨h, (hu h hm).1, rfl⟩), h1⟩
    · refine ⟨diskSet (h.2.1, h.1, h.2.2), List.mem_append_right _ (List.mem_map.2 ⟨_, (hu h hm).2, rfl⟩), ?_⟩
      unfold InHole at h1
      show _ ≤ _
      dsimp only at h1 ⊢
      linarith
  · rintro ⟨T, hT, hP⟩
    rcases List.mem_append.1 hT with hT | hT
    · rw [cutouts_eq, List.map_map] at hT
      obtain ⟨⟨a, c, r⟩, hq, rfl⟩ := List.mem_map.1 hT
      exact Or.inl ⟨c, r, a, (asm_iff a c r).2 hq, hP⟩
    · obtain ⟨h, hm, rfl⟩ := List.mem_map.1 hT
      rcases hh h hm with h1 | h1
      · exact Or.inr ⟨h, h1, Or.inl hP⟩
      · refine Or.inr ⟨_, h1, Or.inr ?_⟩
        have hP : _ ≤ _ := hP
        unfold InHole
        dsimp only at hP ⊢
        linarith

/-- The water of the vessel outside the reflector. -/
def Annulus (P : K × K) : Prop :=
  ((9368 / 100) ^ 2 < P.1 ^ 2 + P.2 ^ 2 ∧ P.1 ^ 2 + P.2 ^ 2 ≤ (9398 / 100) ^ 2) ∨
  ((9906 / 100) ^ 2 < P.1 ^ 2 + P.2 ^ 2 ∧ P.1 ^ 2 + P.2 ^ 2 ≤ (13462 / 100) ^ 2)

theorem vessel_iff (x : Name) (P : K × K) : VesselLies x P ↔ (x = name "SS304" ∧ Steel P) ∨ (x = name "Water" ∧ Annulus P) := by
  constructor
  · rintro ⟨k, r, n, h1, h2, rfl, h3, h4, h5⟩
    have hk : k < 5 := (List.getElem?_eq_some_iff.1 h2).1
    interval_cases k <;> cases h1 <;> cases h2
    · exact Or.inl ⟨rfl, Or.inl ⟨h3, (tools_iff P).1 (h5 rfl)⟩⟩
    · exact Or.inr ⟨rfl, Or.inl ⟨h4 _ rfl, h3⟩⟩
    · exact Or.inl ⟨rfl, Or.inr (Or.inl ⟨h4 _ rfl, h3⟩)⟩
    · exact Or.inr ⟨rfl, Or.inr ⟨h4 _ rfl, h3⟩⟩
    · exact Or.inl ⟨rfl, Or.inr (Or.inr ⟨h4 _ rfl, h3⟩)⟩
  · rintro (⟨rfl, h | h | h⟩ | ⟨rfl, h | h⟩)
    · refine ⟨0, _, _, rfl, rfl, rfl, h.1, ?_, fun _ => (tools_iff P).2 h.2⟩
      intro r' hr
      cases hr
    · exact ⟨2, _, _, rfl, rfl, rfl, h.2, fun r' hr => by cases hr; exact h.1, fun h => by cases h⟩
    · exact ⟨4, _, _, rfl, rfl, rfl, h.2, fun r' hr => by cases hr; exact h.1, fun h => by cases h⟩
    · exact ⟨1, _, _, rfl, rfl, rfl, h.2, fun r' hr => by cases hr; exact h.1, fun h => by cases h⟩
    · exact ⟨3, _, _, rfl, rfl, rfl, h.2, fun r' hr => by cases hr; exact h.1, fun h => by cases h⟩

theorem steel_not_annulus {P : K × K} (h : Steel P) : ¬ Annulus P := by
  intro h'
  rcases h with h | h | h <;> rcases h' with h' | h' <;> linarith [h.1, h.2, h'.1, h'.2]

theorem sq_bound {x m : K} (h0 : 0 ≤ x) (h : x < m) : x ^ 2 ≤ m ^ 2 := by nlinarith

/-- Nothing of the vessel is where pins are. -/
theorem pin_free {c r i j : Nat} {a : Asm} (ha : asmAt c r = some a) {P : K × K} (hD : InDomain P) (h : InPin left c r i j P) :
    ¬ Steel P ∧ ¬ Annulus P := by
  obtain ⟨⟨s1, s2⟩, s3, s4⟩ := pin_in_square h
  obtain ⟨d1, -, d2, -⟩ := hD
  have hop : Opening P := Or.inl ⟨c, r, a, ha, s1, by linarith, s3, by linarith⟩
  have b1 := sq_bound d1 s2
  have b2 := sq_bound d2 s4
  have hfar : P.1 ^ 2 + P.2 ^ 2 ≤ (9368 / 100 : K) ^ 2 := by
    have hq := (asm_iff a c r).1 ha
    simp only [asm, List.mem_cons, List.not_mem_nil, or_false, Prod.mk.injEq] at hq
    rcases hq with h | h | h | h | h | h | h | h | h | h | h | h | h <;> obtain ⟨-, rfl, rfl⟩ := h <;> norm_num [left] at b1 b2 ⊢ <;> linarith
  constructor
  · rintro (h | h | h)
    · exact h.2 hop
    · have := h.1; norm_num at this hfar; linarith
    · have := h.1; norm_num at this hfar; linarith
  · rintro (h | h) <;> have := h.1 <;> norm_num at this hfar <;> linarith

/-! ### The program -/

theorem core_eq {clos : DimTag → List DimTag} {sort : List K → List K} {eps : K} {col : String → Col} {noGap : Bool} {gm : Gm Name Col}
    {ents : List DimTag} {o1 o2 : Occ K Col} {pls : List (Placement K Col)} (h1 : reopen gm ents = .ok o1) (h2 : placements col noGap = some pls)
    (h3 : addAll clos sort eps pls o1 = .ok o2) : core clos sort eps col noGap gm ents = .ok o2 := by
  unfold core
  rw [h1, h2]
  exact h3

/-- **C114.**  On every grid of at most 100000 coarse cells that are not smaller than the tolerance, whatever the kernel answers to the cut
of the reflector and to the fragment, the program comes to the end of the overlay without an error: the vessel is drawn, cut, written with
its groups and read again, the thirteen lattices are added, and the model is then the specified quarter core in its vessel, with the equal
rectangles of the grid as coarse cells.  What is missing is in `C114_pitch_fails` and `C114_gad_fails`. -/
theorem C114_nuscale_partial (noGap : Bool) (clos : DimTag → List DimTag) (hself : ∀ e, (2, e) ∈ clos (2, e))
    (hother : ∀ e e', (2, e) ∈ clos (2, e') → e = e')
    (sort : List K → List K) (hsort : ∀ l, IsStdSort (fun a b => decide (a < b)) l (sort l)) (eps : K) (he : 0 < eps) (hp : eps ≤ 126 / 100)
    (col : String → Col) (hcol : ∀ n, Bytes (col n)) (s : Mpact.Model K M) (hs : Fresh s) (n : Nat) (hn : 0 < n) (hn2 : n * n ≤ 100000)
    (hw : eps ≤ (14994 / 100) / n) :
    Makes clos sort eps col noGap s n fun g reg => Core noGap (MaterialAt g reg) ∧ GridCells (14994 / 100, 14994 / 100) n n g reg := by
  obtain ⟨o, v1, V⟩ := vessel_ok (K := K) clos hself hother col hcol
  have hdom : (domain : K × K) = (14994 / 100, 14994 / 100) := by unfold domain; norm_num
  obtain ⟨m, cs, g1, g2⟩ := grid_points (C := Col) clos sort hsort eps he s hs (14994 / 100, 14994 / 100) n n hn hn hn2 hw hw
  refine ⟨o, _, 1, v1, rfl, fun map ents shape H => ?_⟩
  obtain ⟨gm, c1, c2, c3, c4, c5⟩ := carve_ok clos col hcol o V map ents shape H
  obtain ⟨R, hR, hRt⟩ : ∃ R ∈ o.rings, R.tag = 2 := ⟨_, (V.rings _).2 ⟨1, _, rfl, rfl⟩, rfl⟩
  obtain ⟨o1, r1, r2, r3, r4, r5⟩ := reopen_ok gm ents shape c2 c3 c4 ⟨2, (H.surfs 2).2 (Or.inr ⟨R, hR, by rw [hRt]; decide, hRt⟩)⟩
  have hgood : ∀ pl ∈ (asm.map (call col noGap) : List (Placement K Col)), Good eps pl := by
    intro pl hpl
    obtain ⟨q, -, rfl⟩ := List.mem_map.1 hpl
    exact call_good eps hp col noGap q
  have hin : ∀ pl ∈ (asm.map (call col noGap) : List (Placement K Col)), Inside pl := by
    intro pl hpl
    obtain ⟨q, -, rfl⟩ := List.mem_map.1 hpl
    exact call_inside col noGap q
  have hkind : ∀ q ∈ asm, ∀ q' ∈ asm, q.2 = q'.2 → q = q' := by decide +kernel
  have hsym : ∀ a ∈ (asm.map (call col noGap) : List (Placement K Col)), ∀ b ∈ (asm.map (call col noGap) : List (Placement K Col)), a ≠ b →
      ∀ P i j i' j', (idAt a.ids.reverse i j).isSome → (idAt b.ids.reverse i' j').isSome → InCell a i j P → ¬ InCell b i' j' P := by
    intro a ha b hb hab P i j i' j' h1 h2 h3 h4
    obtain ⟨q, hq, rfl⟩ := List.mem_map.1 ha
    obtain ⟨q', hq', rfl⟩ := List.mem_map.1 hb
    rw [idAt_call] at h1 h2
    split at h1
    · split at h2
      · rename_i q1 q2
        have u1 := pin_in_square ((inCell_iff col noGap q i j q1.1 q1.2 P).1 h3)
        have u2 := pin_in_square ((inCell_iff col noGap q' i' j' q2.1 q2.2 P).1 h4)
        exact hab (congrArg _ (hkind q hq q' hq' (Prod.ext (square_unique u1.1.1 u1.1.2 u2.1.1 u2.1.2) (square_unique u1.2.1 u1.2.2 u2.2.1 u2.2.2))))
      · cases h2
    · cases h1
  obtain ⟨o2, b1, b2, b3⟩ := on_base clos hself hother sort hsort eps he (base ents) (renumbered ents shape) (asm.map (call col noGap)) o1 r2 r3 r4 hgood
  refine ⟨gm, o2, c1, ?_, m, cs, by rw [hdom]; exact g1, fun map' all reg F => ?_⟩
  · exact core_eq r1 (placements_eq col noGap) b1
  obtain ⟨g, gone, l1, l2, l3⟩ := g2 _ b2 _ map' all reg F (fill col)
  refine ⟨g, gone, l1, ⟨?_, ?_⟩, l3⟩
  · intro P hD c r a ha i j hP
    obtain ⟨n1, n2⟩ := pin_free ha hD hP
    obtain ⟨hi, hj, -⟩ := id hP
    obtain ⟨e1, e2⟩ := pin_of (K := K) col noGap a (rod gads a (away i) (away j)) (rod_id _ _ _)
    have hiff := point_in he _ hgood hin hsym _ (List.mem_map.2 ⟨(a, c, r), (asm_iff a c r).1 ha, rfl⟩) i j
      (idOf (rod gads a (away i) (away j))) _ _ (by rw [idAt_call, if_pos ⟨hi, hj⟩]) e1 e2 P ((inCell_iff col noGap (a, c, r) i j hi hj P).2 hP)
    rw [centre_eq] at hiff
    have hlies : ∀ y, Lies (ofOcc (base ents) o2) (shapeOn (base ents) (renumbered ents shape) o2) P y ↔ look ((layers noGap a (rod gads a (away i) (away j))).map (·.1))
        ((layers (K := K) noGap a (rod gads a (away i) (away j))).map fun q => mat col q.2) (dist2 P (middle left c r i j)) = some y := by
      intro y
      rw [b3, r5, c5, vessel_iff, hiff y]
      constructor
      · rintro ((h | h) | h)
        · exact absurd h.2 n1
        · exact absurd h.2 n2
        · exact h
      · exact Or.inr
    have hl := look_layers col (layers noGap a (rod gads a (away i) (away j))) (dist2 P (middle left c r i j))
    show MaterialAt g reg P (name (layerAt (layers noGap a (rod gads a (away i) (away j))) (dist2 P (middle left c r i j))))
    rw [← hl]
    refine l2 P hD.1 hD.2.1 hD.2.2.1 hD.2.2.2 _ ?_ ?_
    · intro y hy
      rw [(hlies y).1 hy]
      rfl
    · cases hlk : look ((layers noGap a (rod gads a (away i) (away j))).map (·.1))
        ((layers (K := K) noGap a (rod gads a (away i) (away j))).map fun q => mat col q.2) (dist2 P (middle left c r i j)) with
      | none => exact Or.inr rfl
      | some x => exact Or.inl ((hlies x).2 hlk)
  · intro P hD hno
    have hlies : ∀ y, Lies (ofOcc (base ents) o2) (shapeOn (base ents) (renumbered ents shape) o2) P y ↔
        (y = name "SS304" ∧ Steel P) ∨ (y = name "Water" ∧ Annulus P) := by
      intro y
      rw [b3, r5, c5, vessel_iff]
      constructor
      · rintro (h | ⟨q, hq, i', j', p', k, rad', r, ms', c, s1, s2, s3, s4, s5, s6, s7⟩)
        · exact h
        · exfalso
          have hmem' := List.mem_of_getElem? s2
          have hrm := List.mem_of_getElem? s4
          obtain ⟨k1, k2⟩ := (hin q hq).small rad' hmem' r hrm
          have hcell := ring_inCell q i' j' P r ((hin q hq).pos rad' hmem' r hrm) k1 k2 s6
          obtain ⟨⟨a, c, r⟩, hq', rfl⟩ := List.mem_map.1 hq
          rw [idAt_call] at s1
          split at s1
          · rename_i q1
            exact hno c r a ((asm_iff a c r).2 hq') i' j' ((inCell_iff col noGap (a, c, r) i' j' q1.1 q1.2 P).1 hcell)
          · cases s1
      · exact Or.inl
    constructor
    · intro hS
      refine l2 P hD.1 hD.2.1 hD.2.2.1 hD.2.2.2 _ ?_ (Or.inl ((hlies _).2 (Or.inl ⟨rfl, hS⟩)))
      intro y hy
      rcases (hlies y).1 hy with h | h
      · exact h.1
      · exact absurd h.2 (steel_not_annulus hS)
    · intro hS
      refine l2 P hD.1 hD.2.1 hD.2.2.1 hD.2.2.2 _ ?_ (Or.inr rfl)
      intro y hy
      rcases (hlies y).1 hy with h | h
      · exact absurd h.2 hS
      · exact h.1

/-- The program as it stands, on 119 by 119 coarse cells. -/
example : Makes (fun e => [e]) CoarseGrid.sortQ (1 / 10 ^ 7) (fun _ => (0, 0, 255, 255)) true CoarseGrid.none_ (cells : Nat) fun g reg =>
    Core true (MaterialAt g reg) ∧ GridCells (14994 / 100, 14994 / 100) cells cells g reg :=
  C114_nuscale_partial true (fun e => [e]) (by simp) (by simp) CoarseGrid.sortQ CoarseGrid.sortQ_ok (1 / 10 ^ 7) (by norm_num) (by norm_num)
    (fun _ => (0, 0, 255, 255)) (by intro n; unfold Bytes; decide) CoarseGrid.none_ CoarseGrid.fresh cells (by decide) (by decide) (by norm_num [cells])

theorem Makes.mono {clos : DimTag → List DimTag} {sort : List K → List K} {eps : K} {col : String → Col} {noGap : Bool} {s : Mpact.Model K M} {n : ℤ}
    {Q Q' : Gm Name Col → (ℤ → Set (K × K)) → Prop} (h : Makes clos sort eps col noGap s n Q) (hQ : ∀ g reg, Q g reg → Q' g reg) :
    Makes clos sort eps col noGap s n Q' := by
  obtain ⟨o, out, t, h1, h2, h3⟩ := h
  refine ⟨o, out, t, h1, h2, fun map ents shape H => ?_⟩
  obtain ⟨gm, o', h4, h5, m, cs, h6, h7⟩ := h3 map ents shape H
  refine ⟨gm, o', h4, h5, m, cs, h6, fun map' all reg F => ?_⟩
  obtain ⟨g, gone, h8, h9⟩ := h7 map' all reg F
  exact ⟨g, gone, h8, hQ g reg h9⟩

/-- The middle pin of the second assembly, as far as the assembly pitch says. -/
theorem not_pitched (noGap : Bool) (mat : K × K → Name → Prop) (hone : ∀ P x y, mat P x → mat P y → x = y) (h : Core noGap mat) :
    ¬ Pins gads pitchedLeft noGap mat := by
  intro hp
  have hD : InDomain ((2150364 / 100000 + 126 / 100 + 4 / 10, 0) : K × K) := by
    refine ⟨?_, ?_, ?_, ?_⟩ <;> norm_num
  have h1 := hp _ hD 1 0 .a01 rfl 9 8 (by
    refine ⟨by decide, by decide, ?_, ?_, ?_, ?_⟩ <;> norm_num [middle, pitchedLeft])
  have h2 := h.1 _ hD 1 0 .a01 rfl 9 8 (by
    refine ⟨by decide, by decide, ?_, ?_, ?_, ?_⟩ <;> norm_num [middle, left])
  have hr : rod gads .a01 (away 9) (away 8) = .plain := by decide
  rw [hr] at h1 h2
  have e1 : layerAt (layers noGap .a01 .plain) ((((2150364 / 100000 + 126 / 100 + 4 / 10, 0) : K × K).1 - (middle pitchedLeft 1 0 9 8 : K × K).1) ^ 2 +
      (((2150364 / 100000 + 126 / 100 + 4 / 10, 0) : K × K).2 - (middle pitchedLeft 1 0 9 8 : K × K).2) ^ 2) = "U175" := by
    cases noGap <;> norm_num [layers, layerAt, middle, pitchedLeft, fuelOf]
  have e2 : layerAt (layers noGap .a01 .plain) ((((2150364 / 100000 + 126 / 100 + 4 / 10, 0) : K × K).1 - (middle left 1 0 9 8 : K × K).1) ^ 2 +
      (((2150364 / 100000 + 126 / 100 + 4 / 10, 0) : K × K).2 - (middle left 1 0 9 8 : K × K).2) ^ 2) = "M5" := by
    cases noGap <;> norm_num [layers, layerAt, middle, left, fuelOf]
  rw [e1] at h1
  rw [e2] at h2
  have := hone _ _ _ h1 h2
  revert this
  decide

/-- The pin five places right of and four places above the middle of the assembly A06. -/
theorem not_documented (noGap : Bool) (mat : K × K → Name → Prop) (hone : ∀ P x y, mat P x → mat P y → x = y) (h : Core noGap mat) :
    ¬ Pins documentedGads left noGap mat := by
  intro hp
  have hD : InDomain (middle left 3 0 13 12 : K × K) := by
    refine ⟨?_, ?_, ?_, ?_⟩ <;> norm_num [middle, left]
  have hin : InPin left 3 0 13 12 (middle left 3 0 13 12 : K × K) := by
    refine ⟨by decide, by decide, ?_, ?_, ?_, ?_⟩ <;> norm_num [middle, left]
  have h1 := hp _ hD 3 0 .a06 rfl 13 12 hin
  have h2 := h.1 _ hD 3 0 .a06 rfl 13 12 hin
  have hr : rod documentedGads .a06 (away 13) (away 12) = .gad := by decide
  have hr' : rod gads .a06 (away 13) (away 12) = .plain := by decide
  rw [hr, sub_self, sub_self] at h1
  rw [hr', sub_self, sub_self] at h2
  have e1 : layerAt (layers noGap .a06 .gad) ((0 : K) ^ 2 + 0 ^ 2) = "G350" := by
    cases noGap <;> norm_num [layers, layerAt, fuelOf]
  have e2 : layerAt (layers noGap .a06 .plain) ((0 : K) ^ 2 + 0 ^ 2) = "U350" := by
    cases noGap <;> norm_num [layers, layerAt, fuelOf]
  rw [e1] at h1
  rw [e2] at h2
  have := hone _ _ _ h1 h2
  revert this
  decide

/-- **C114 fails** for the assembly pitch: the assemblies beside the middle one are not at a multiple of it.  0.4 cm right of where the middle
pin but one of the second assembly should be there is clad and not fuel. -/
theorem C114_pitch_fails (noGap : Bool) (clos : DimTag → List DimTag) (hself : ∀ e, (2, e) ∈ clos (2, e))
    (hother : ∀ e e', (2, e) ∈ clos (2, e') → e = e')
    (sort : List K → List K) (hsort : ∀ l, IsStdSort (fun a b => decide (a < b)) l (sort l)) (eps : K) (he : 0 < eps) (hp : eps ≤ 126 / 100)
    (col : String → Col) (hcol : ∀ n, Bytes (col n)) (s : Mpact.Model K M) (hs : Fresh s) (n : Nat) (hn : 0 < n) (hn2 : n * n ≤ 100000)
    (hw : eps ≤ (14994 / 100) / n) :
    Makes clos sort eps col noGap s n fun g reg => ¬ Pins gads pitchedLeft noGap (MaterialAt g reg) :=
  Makes.mono (C114_nuscale_partial noGap clos hself hother sort hsort eps he hp col hcol s hs n hn hn2 hw) fun _ _ h =>
    not_pitched noGap _ (fun _ x _ hx hy => (hy x).1 ((hx x).2 rfl)) h.1

/-- **C114 fails** for the pins with gadolinia of A06: the program uses the lattice of A05, which has them at other places. -/
theorem C114_gad_fails (noGap : Bool) (clos : DimTag → List DimTag) (hself : ∀ e, (2, e) ∈ clos (2, e))
    (hother : ∀ e e', (2, e) ∈ clos (2, e') → e = e')
    (sort : List K → List K) (hsort : ∀ l, IsStdSort (fun a b => decide (a < b)) l (sort l)) (eps : K) (he : 0 < eps) (hp : eps ≤ 126 / 100)
    (col : String → Col) (hcol : ∀ n, Bytes (col n)) (s : Mpact.Model K M) (hs : Fresh s) (n : Nat) (hn : 0 < n) (hn2 : n * n ≤ 100000)
    (hw : eps ≤ (14994 / 100) / n) :
    Makes clos sort eps col noGap s n fun g reg => ¬ Pins documentedGads left noGap (MaterialAt g reg) :=
  Makes.mono (C114_nuscale_partial noGap clos hself hother sort hsort eps he hp col hcol s hs n hn hn2 hw) fun _ _ h =>
    not_documented noGap _ (fun _ x _ hx hy => (hy x).1 ((hx x).2 rfl)) h.1

/-! ### The assumptions on the kernel can be met -/

/-- Whatever the surfaces and their points are, they have fragments. -/
theorem C114_fragments (tags : List ℤ) (shape : ℤ → Set (K × K)) (cs : List (Cut K)) : ∃ map all reg, FragmentsOf tags shape cs map all reg := by
  classical
  let n := tags.length + cs.length
  let S : Nat → Set (K × K) := fun k =>
    if h : k < tags.length then shape tags[k] else
    if h : k - tags.length < cs.length then rectSet cs[k - tags.length] else ∅
  let map : List (List DimTag) := (List.range n).map fun k =>
    ((List.range (2 ^ n)).filter fun c => c.testBit k).map fun c : Nat => ((2, (c : ℤ)) : DimTag)
  let all : List ℤ := (List.range (2 ^ n)).map fun c : Nat => (c : ℤ)
  let reg : ℤ → Set (K × K) := fun e => {P | ∀ k < n, (P ∈ S k ↔ e.toNat.testBit k = true)}
  have key : ∀ k < n, ∀ l, map[k]? = some l → S k = {P | ∃ c ∈ l, P ∈ reg c.2} := by
    intro k hk l hl
    have hl : (((List.range (2 ^ n)).filter fun c => c.testBit k).map fun c : Nat => ((2, (c : ℤ)) : DimTag)) = l := by
      simpa [map, List.getElem?_map, List.getElem?_range hk] using hl
    ext P
    constructor
    · intro hP
      let f : Fin n → Bool := fun i => decide (P ∈ S i)
      refine ⟨(2, (Nat.ofBits f : ℤ)), ?_, ?_⟩
      · rw [← hl]
        refine List.mem_map.2 ⟨Nat.ofBits f, ?_, rfl⟩
        rw [List.mem_filter, List.mem_range]
        refine ⟨Nat.ofBits_lt_two_pow f, ?_⟩
        rw [Nat.testBit_ofBits_lt f k hk]
        simpa [f] using hP
      · intro i hi
        show P ∈ S i ↔ ((Nat.ofBits f : ℤ).toNat).testBit i = true
        rw [Int.toNat_natCast, Nat.testBit_ofBits_lt f i hi]
        simp [f]
    · rintro ⟨c, hc, hP⟩
      rw [← hl] at hc
      obtain ⟨a, ha, rfl⟩ := List.mem_map.1 hc
      rw [List.mem_filter] at ha
      exact (hP k hk).2 (by simpa using ha.2)
  have hmem : ∀ c ∈ map.flatten, ∃ a : Nat, a < 2 ^ n ∧ c.2 = a := by
    intro c hc
    obtain ⟨l, hl, hc⟩ := List.mem_flatten.1 hc
    obtain ⟨k, -, rfl⟩ := List.mem_map.1 hl
    obtain ⟨a, ha, rfl⟩ := List.mem_map.1 hc
    exact ⟨a, List.mem_range.1 (List.mem_filter.1 ha).1, rfl⟩
  refine ⟨map, all, reg, ?_, ?_, ?_, ?_, ?_, ?_⟩
  · simp [map, n]
  · intro i e l hi hl
    obtain ⟨hlt, rfl⟩ := List.getElem?_eq_some_iff.1 hi
    rw [← key i (by omega) l hl]
    simp only [S, dif_pos hlt]
  · intro i c l hi hl
    obtain ⟨hlt, rfl⟩ := List.getElem?_eq_some_iff.1 hi
    rw [← key _ (by omega) l hl]
    simp only [S]
    rw [dif_neg (by omega), dif_pos (by omega)]
    simp
  · intro a ha b hb hne
    obtain ⟨x, hx, hax⟩ := hmem a ha
    obtain ⟨y, hy, hby⟩ := hmem b hb
    rw [Set.disjoint_left]
    intro P hP hP'
    apply hne
    rw [hax, hby]
    congr 1
    apply Nat.eq_of_testBit_eq
    intro k
    by_cases hk : k < n
    · have h1 := hP k hk
      have h2 := hP' k hk
      rw [hax, Int.toNat_natCast] at h1
      rw [hby, Int.toNat_natCast] at h2
      rw [Bool.eq_iff_iff, ← h1, ← h2]
    · rw [Nat.testBit_lt_two_pow (lt_of_lt_of_le hx (Nat.pow_le_pow_right (by omega) (by omega))),
        Nat.testBit_lt_two_pow (lt_of_lt_of_le hy (Nat.pow_le_pow_right (by omega) (by omega)))]
  · rw [List.pairwise_map]
    exact List.pairwise_lt_range.imp fun h => by exact_mod_cast h
  · intro c hc
    obtain ⟨a, ha, hca⟩ := hmem c hc
    rw [hca]
    exact List.mem_map.2 ⟨a, List.mem_range.2 ha, rfl⟩

/-- The vessel has a cut: its reflector without the tools as one piece. -/
theorem C114_cutting (clos : DimTag → List DimTag) (hself : ∀ e, (2, e) ∈ clos (2, e)) (hother : ∀ e e', (2, e) ∈ clos (2, e') → e = e')
    (col : String → Col) (hcol : ∀ n, Bytes (col n)) : ∃ o out t, vessel clos col = .ok (o, out) ∧ out[0]? = some t ∧
      ∃ map ents shape, Cutting (K := K) o t tools map ents shape := by
  classical
  obtain ⟨o, v1, V⟩ := vessel_ok (K := K) clos hself hother col hcol
  have htag : ∀ R ∈ o.rings, R.tag ∈ [1, 2, 3, 4, 5] := by
    intro R hR
    obtain ⟨k, r, hr, rfl⟩ := (V.rings R).1 hR
    have hk : k < 5 := (List.getElem?_eq_some_iff.1 hr).1
    show (1 : ℤ) + k ∈ [1, 2, 3, 4, 5]
    clear hr
    interval_cases k <;> decide
  have hhave : ∀ e ∈ [(2 : ℤ), 3, 4, 5], ∃ R ∈ o.rings, R.tag ≠ 1 ∧ R.tag = e := by
    have : ∀ k : Nat, 0 < k → k < 5 → ∃ R ∈ o.rings, R.tag ≠ 1 ∧ R.tag = 1 + k := by
      intro k h0 hk
      have : k < (vesselRadii (K := K)).length := hk
      exact ⟨_, (V.rings _).2 ⟨k, _, List.getElem?_eq_getElem this, rfl⟩, by show (1 : ℤ) + k ≠ 1; omega, rfl⟩
    intro e he
    simp only [List.mem_cons, List.not_mem_nil, or_false] at he
    rcases he with rfl | rfl | rfl | rfl
    · exact this 1 (by omega) (by omega)
    · exact this 2 (by omega) (by omega)
    · exact this 3 (by omega) (by omega)
    · exact this 4 (by omega) (by omega)
  refine ⟨o, _, 1, v1, rfl, [(2, 1)] :: List.replicate (tools (K := K)).length [], [(2, 1), (2, 2), (2, 3), (2, 4), (2, 5)],
    fun e => if e = 1 then {P | P ∈ ringSet o 1 ∧ ∀ T ∈ tools, P ∉ T} else ringSet o e, ?_, ?_, ?_, ?_, ?_, ?_, ?_⟩
  · rw [List.length_cons, List.length_replicate]; omega
  · intro l hl
    cases hl
    ext P
    simp
  · intro R hR hne
    exact if_neg hne
  · intro e
    constructor
    · intro h
      simp only [List.mem_cons, List.not_mem_nil, or_false, Prod.mk.injEq, true_and] at h
      rcases h with rfl | h
      · exact Or.inl ⟨_, rfl, (2, 1), by simp, rfl⟩
      · exact Or.inr (hhave e (by simpa using h))
    · rintro (⟨l, hl, c, hc, rfl⟩ | ⟨R, hR, -, rfl⟩)
      · cases hl
        simp only [List.mem_singleton] at hc
        rw [hc]; decide
      · have := htag R hR
        simp only [List.mem_cons, List.not_mem_nil, or_false, Prod.mk.injEq, true_and] at this ⊢
        exact this
  · decide
  · decide
  · decide

end Verif.NuscaleP
