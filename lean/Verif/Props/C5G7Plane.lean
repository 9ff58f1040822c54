import Verif.Props.C5G7PlaneSpec
import Verif.Props.LatticePrograms
import Verif.Lemmas.LatticeText
import Verif.Model.C5G7Plane

/-!
# The plane C5G7 model

C108: on every grid of coarse cells, the program makes the benchmark.
-/

set_option linter.unusedSectionVars false

namespace Verif.C5G7P

open Verif (IsStdSort)
open Verif.Gmsh (Gm DimTag)
open Verif.Overlay (Name Cut)
open Verif.PinsSpec
open Verif.Programs
open Verif.ProgramsSpec
open Verif.ProgramsP
open Verif.CoarseGrid (Fresh)
open Verif.C5G7
open Verif.C5G7Spec

variable {K C M : Type} [Field K] [LinearOrder K] [IsStrictOrderedRing K]

/-- The id of a pin, by its material. -/
def idOf (n : String) : Nat := XSValid.c5g7Names.idxOf n

/-- The ids of an assembly, row by row. -/
def table (s : Square) : List (List ℤ) :=
  (List.range 17).map fun j => (List.range 17).map fun i => ((idOf (pin s (away i) (away j)) : Nat) : ℤ)

theorem uo2_eq : Bench.lattice uo2Text = some (table .uo2) := LatticeText.lattice_eq (by decide +kernel)

theorem mox_eq : Bench.lattice moxText = some (table .mox) := LatticeText.lattice_eq (by decide +kernel)

theorem away_le {i : Nat} (h : i < 17) : away i < 9 := by unfold away; split <;> omega

theorem away_mirror {j : Nat} (h : j < 17) : away (16 - j) = away j := by unfold away; split <;> split <;> omega

/-- The pins of an assembly are known. -/
theorem pin_known (s : Square) (hs : s ≠ .water) {u v : Nat} (hu : u < 9) (hv : v < 9) :
    idOf (pin s u v) < 6 ∧ XSValid.c5g7Names.getD (idOf (pin s u v)) "" = pin s u v := by
  have h : ∀ u < 9, ∀ v < 9, (idOf (pin .uo2 u v) < 6 ∧ XSValid.c5g7Names.getD (idOf (pin .uo2 u v)) "" = pin .uo2 u v) ∧
      idOf (pin .mox u v) < 6 ∧ XSValid.c5g7Names.getD (idOf (pin .mox u v)) "" = pin .mox u v := by decide +kernel
  cases s with
  | uo2 => exact (h u hu v hv).1
  | mox => exact (h u hu v hv).2
  | water => exact absurd rfl hs

theorem idAt_table (s : Square) (i j : Nat) :
    idAt (table s).reverse i j = if i < 17 ∧ j < 17 then some ((idOf (pin s (away i) (away j)) : Nat) : ℤ) else none := by
  unfold idAt
  by_cases hj : j < 17
  · have hlen : (table s).length = 17 := by simp [table]
    rw [List.getElem?_reverse (by omega), hlen]
    unfold table
    rw [List.getElem?_map, List.getElem?_range (by omega)]
    simp only [Option.map_some, Option.bind_some]
    by_cases hi : i < 17
    · rw [List.getElem?_map, List.getElem?_range hi, if_pos ⟨hi, hj⟩, Option.map_some, show 17 - 1 - j = 16 - j by omega, away_mirror hj]
    · rw [if_neg (fun h => hi h.1), List.getElem?_eq_none (by simp; omega)]
  · rw [List.getElem?_eq_none (by simp [table]; omega), if_neg (fun h => hj h.2)]
    rfl

theorem place_good (eps : K) (hp : eps ≤ 126 / 100) (col : Nat → C) (s : Square) (hs : s ≠ .water) (x y : Nat) :
    Good eps (place col (table s) x y : Placement K C) := by
  refine ⟨?_, ⟨17, by decide, ?_⟩, ?_, ?_, hp, hp⟩
  · show table s ≠ []
    intro h
    have := congrArg List.length h
    simp [table] at this
  · intro row hrow
    obtain ⟨j, -, rfl⟩ := List.mem_map.1 (show row ∈ table s from hrow)
    simp
  · intro row hrow id hid
    obtain ⟨j, hj, rfl⟩ := List.mem_map.1 (show row ∈ table s from hrow)
    obtain ⟨i, hi, rfl⟩ := List.mem_map.1 hid
    have := (pin_known s hs (away_le (List.mem_range.1 hi)) (away_le (List.mem_range.1 hj))).1
    refine ⟨by positivity, ?_⟩
    show _ < ((List.replicate 6 [(54 / 100 : K)]).length : ℤ)
    rw [List.length_replicate]
    exact_mod_cast this
  · show List.Forall₂ _ (List.replicate 6 [(54 / 100 : K)]) _
    simp [place, List.replicate]

theorem place_inside (col : Nat → C) (ids : List (List ℤ)) (x y : Nat) : Inside (place col ids x y : Placement K C) := by
  have h : ∀ rad ∈ (place col ids x y : Placement K C).radii, rad = [54 / 100] := fun rad hr => List.eq_of_mem_replicate hr
  refine ⟨?_, ?_, ?_⟩
  · intro rad hr r hm
    rw [h rad hr, List.mem_singleton] at hm
    rw [hm]; norm_num
  · intro rad hr
    rw [h rad hr]
    exact List.pairwise_singleton _ _
  · intro rad hr r hm
    rw [h rad hr, List.mem_singleton] at hm
    rw [hm]
    constructor <;> (dsimp only [place]; norm_num)

theorem inCell_iff (col : Nat → C) (ids : List (List ℤ)) (x y i j : Nat) (P : K × K) :
    InCell (place col ids x y) i j P ↔ In ((x : K) * (2142 / 100)) (126 / 100) i P.1 ∧ In ((y : K) * (2142 / 100)) (126 / 100) j P.2 := by
  unfold InCell In place side
  dsimp only
  rw [mul_comm (2142 / 100 : K) x, mul_comm (2142 / 100 : K) y, and_assoc]

/-- A pin cell is in the square of its assembly. -/
theorem pin_in_square {c i : Nat} (hi : i < 17) {x : K} (h : In ((c : K) * (2142 / 100)) (126 / 100) i x) : In 0 (2142 / 100) c x := by
  have h1 : (i : K) + 1 ≤ 17 := by exact_mod_cast hi
  have h0 : (0 : K) ≤ i := Nat.cast_nonneg _
  obtain ⟨a, b⟩ := h
  constructor <;> linarith

theorem In_unique {a w x : K} (hw : 0 < w) {i i' : Nat} (h : In a w i x) (h' : In a w i' x) : i = i' := cell_unique hw h.1 h.2 h'.1 h'.2

/-- The four assemblies. -/
def asm : List (Square × Nat × Nat) := [(.uo2, 0, 2), (.uo2, 1, 1), (.mox, 0, 1), (.mox, 1, 2)]

theorem placements_eq (col : Nat → C) :
    (placements col : Option (List (Placement K C))) = some (asm.map fun q => place col (table q.1) q.2.1 q.2.2) := by
  unfold placements
  rw [uo2_eq, mox_eq]
  rfl

/-- **C108.**  The texts of the lattices are well formed, and on every grid of at most 100000 coarse cells that are not smaller than the
tolerance the program comes to the end of the overlay without an error, whatever fragments the kernel finds; the model is then the C5G7
benchmark, and the coarse cells are the equal rectangles of the grid. -/
theorem C108_c5g7 (clos : DimTag → List DimTag) (hself : ∀ e, (2, e) ∈ clos (2, e)) (hother : ∀ e e', (2, e) ∈ clos (2, e') → e = e')
    (sort : List K → List K) (hsort : ∀ l, IsStdSort (fun a b => decide (a < b)) l (sort l)) (eps : K) (he : 0 < eps) (hp : eps ≤ 126 / 100)
    (color : DimTag → C) (col : Nat → C) (s : Mpact.Model K M) (hs : Fresh s) (n : Nat) (hn : 0 < n) (hn2 : n * n ≤ 100000)
    (hw : eps ≤ (3 * (2142 / 100)) / n) :
    ∃ pls, placements col = some pls ∧
      Yields clos sort eps color pls s domain n n (fill col) fun g reg =>
        Benchmark (MaterialAt g reg) ∧ GridCells (3 * (2142 / 100), 3 * (2142 / 100)) n n g reg := by
  have hsq : ∀ q ∈ asm, q.1 ≠ .water ∧ q.1 = square q.2.1 (2 - q.2.2) ∧ q.2.1 < 3 ∧ q.2.2 < 3 := by decide
  refine ⟨_, placements_eq col, ?_⟩
  have hinf : (fill col).1 = name "Moderator" := rfl
  have main := C107_lattices clos hself hother sort hsort eps he color (asm.map fun q => place col (table q.1) q.2.1 q.2.2) (by
      intro pl hpl
      obtain ⟨q, hq, rfl⟩ := List.mem_map.1 hpl
      exact place_good eps hp col q.1 (hsq q hq).1 _ _) (by
      intro pl hpl
      obtain ⟨q, hq, rfl⟩ := List.mem_map.1 hpl
      exact place_inside col _ _ _) (by
      rw [List.pairwise_map]
      have hne : asm.Pairwise fun a b => a.2 ≠ b.2 := by decide
      refine hne.imp ?_
      intro a b hab P i j i' j' h1 h2 h3 h4
      dsimp only [place] at h1 h2
      rw [idAt_table] at h1 h2
      split at h1
      · split at h2
        · rename_i q1 q2
          rw [inCell_iff] at h3 h4
          refine hab (Prod.ext ?_ ?_)
          · exact In_unique (by norm_num) (pin_in_square q1.1 h3.1) (pin_in_square q2.1 h4.1)
          · exact In_unique (by norm_num) (pin_in_square q1.2 h3.2) (pin_in_square q2.2 h4.2)
        · cases h2
      · cases h1) (by
      refine ⟨_, List.mem_map.2 ⟨(.uo2, 0, 2), by decide, rfl⟩, 0, 0, 0, 0, 54 / 100, ?_, [54 / 100], rfl, rfl⟩
      show idAt (table .uo2).reverse 0 0 = _
      rw [idAt_table]
      decide +kernel) s hs domain n n hn hn hn2 hw hw (fill col)
  refine Yields.mono main ?_
  rintro g reg ⟨h1, h2⟩
  refine ⟨?_, h2⟩
  intro P c hc r hr hx hy
  have hc' : (c : K) + 1 ≤ 3 := by exact_mod_cast hc
  have hr' : (r : K) + 1 ≤ 3 := by exact_mod_cast hr
  have hc0 : (0 : K) ≤ c := Nat.cast_nonneg _
  have hr0 : (0 : K) ≤ r := Nat.cast_nonneg _
  obtain ⟨m1, m2⟩ := h1 P (by linarith [hx.1]) (by dsimp only [domain, side]; linarith [hx.2]) (by linarith [hy.1])
    (by dsimp only [domain, side]; linarith [hy.2])
  constructor
  · intro hwt
    rw [← hinf]
    refine m2 ?_
    intro pl hpl i j hid hin
    obtain ⟨q, hq, rfl⟩ := List.mem_map.1 hpl
    dsimp only [place] at hid
    rw [idAt_table] at hid
    split at hid
    · rename_i q1
      rw [inCell_iff] at hin
      have e1 := In_unique (by norm_num) (pin_in_square q1.1 hin.1) hx
      have e2 := In_unique (by norm_num) (pin_in_square q1.2 hin.2) hy
      obtain ⟨w1, w2, -⟩ := hsq q hq
      rw [e1, e2, hwt] at w2
      exact w1 w2
    · cases hid
  · intro hwt i hi j hj hix hjy
    have hex : ∀ c < 3, ∀ r < 3, (square c (2 - r) = .water ∨ (square c (2 - r), c, r) ∈ asm) := by decide
    have hmem := (hex c hc r hr).resolve_left hwt
    obtain ⟨k1, k2⟩ := pin_known (square c (2 - r)) hwt (away_le hi) (away_le hj)
    have := m1 _ (List.mem_map.2 ⟨_, hmem, rfl⟩) i j (idOf (pin (square c (2 - r)) (away i) (away j))) [54 / 100]
      [mat col (idOf (pin (square c (2 - r)) (away i) (away j)))] (by
        show idAt (table _).reverse i j = _
        rw [idAt_table, if_pos ⟨hi, hj⟩]) (by
        show (List.replicate 6 [(54 / 100 : K)])[_]? = _
        rw [List.getElem?_replicate, if_pos k1]) (by
        generalize idOf (pin (square c (2 - r)) (away i) (away j)) = k at k1
        dsimp only [place]
        interval_cases k <;> rfl) ((inCell_iff col _ _ _ _ _ P).2 ⟨hix, hjy⟩)
    convert this using 1
    have hd : dist2 P (centre (place col (table (square c (2 - r))) c r : Placement K C) i j) =
        (P.1 - (c * (2142 / 100) + (i + 1 / 2) * (126 / 100))) ^ 2 + (P.2 - (r * (2142 / 100) + (j + 1 / 2) * (126 / 100))) ^ 2 := by
      unfold dist2 centre place side
      dsimp only
      rw [mul_comm (2142 / 100 : K) c, mul_comm (2142 / 100 : K) r]
    rw [hd, hinf]
    unfold look
    split
    · show name _ = MFiles.str (XSValid.c5g7Names.getD _ "")
      rw [k2]
      rfl
    · rfl

/-- The grid of 51 by 51 coarse cells of c5g7_2d_advanced_mesh.cpp. -/
example : ∃ pls : List (Placement ℚ Nat), placements id = some pls ∧
    Yields (fun e => [e]) CoarseGrid.sortQ (1 / 10 ^ 7) (fun _ => 0) pls CoarseGrid.none_ domain (51 : Nat) (51 : Nat) (fill id) fun g reg =>
      Benchmark (MaterialAt g reg) ∧ GridCells (3 * (2142 / 100), 3 * (2142 / 100)) 51 51 g reg :=
  C108_c5g7 (fun e => [e]) (by simp) (by simp) CoarseGrid.sortQ CoarseGrid.sortQ_ok (1 / 10 ^ 7) (by norm_num) (by norm_num) (fun _ => 0) id
    CoarseGrid.none_ CoarseGrid.fresh 51 (by decide) (by decide) (by norm_num)

end Verif.C5G7P
