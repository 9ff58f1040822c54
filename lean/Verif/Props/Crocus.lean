import Verif.Props.CrocusSpec
import Verif.Props.LatticePrograms
import Verif.Lemmas.LatticeText
import Verif.Model.Crocus

/-!
# The plane CROCUS model

C109: on every grid of coarse cells, the program makes the specified core, and the rods of the two lattices do not touch although the
lattices overlap.
-/

set_option linter.unusedSectionVars false

namespace Verif.CrocusP

open Verif (IsStdSort)
open Verif.Gmsh (Gm DimTag)
open Verif.Overlay (Name Cut)
open Verif.PinsSpec
open Verif.Programs
open Verif.ProgramsSpec
open Verif.ProgramsP
open Verif.CoarseGrid (Fresh)
open Verif.LatticeText (tableOf idAt_tableOf good_tableOf)
open Verif.Crocus
open Verif.CrocusSpec

variable {K C M : Type} [Field K] [LinearOrder K] [IsStrictOrderedRing K]

def uo2Table : List (List ℤ) := tableOf 22 22 fun i j => if uo2At i j then 1 else 0

def metalTable : List (List ℤ) := tableOf 20 20 fun i j => if metalAt i j then 1 else 0

theorem uo2_eq : Bench.lattice uo2Text = some uo2Table := LatticeText.lattice_eq (by decide +kernel)

theorem metal_eq : Bench.lattice umetalText = some metalTable := LatticeText.lattice_eq (by decide +kernel)

/-! ### The rods of the two lattices do not touch -/

def uo2List : List (Nat × Nat) := ((List.range 22).flatMap fun j => (List.range 22).map fun i => (i, j)).filter fun p => uo2At p.1 p.2

def metalList : List (Nat × Nat) := ((List.range 20).flatMap fun j => (List.range 20).map fun i => (i, j)).filter fun p => metalAt p.1 p.2

/-- The distance of two places in a direction, in units of 5 micrometres. -/
def gap (a b : Nat) : Nat := (a * 3674 + 55423 - (b * 5834 + 38577)) + (b * 5834 + 38577 - (a * 3674 + 55423))

theorem far_nat : uo2List.all (fun p => metalList.all fun q => decide (5195 ^ 2 < gap p.1 q.1 ^ 2 + gap p.2 q.2 ^ 2)) = true := by
  decide +kernel

/-- **C109.**  The core has 336 oxide rods and 178 metal rods. -/
theorem C109_counts : uo2List.length = 336 ∧ metalList.length = 178 := by decide +kernel

theorem mem_places {n : Nat} {f : Nat → Nat → Bool} {i j : Nat} (hi : i < n) (hj : j < n) (h : f i j = true) :
    (i, j) ∈ ((List.range n).flatMap fun j => (List.range n).map fun i => (i, j)).filter fun p => f p.1 p.2 := by
  rw [List.mem_filter, List.mem_flatMap]
  exact ⟨⟨j, List.mem_range.2 hj, List.mem_map.2 ⟨i, List.mem_range.2 hi, rfl⟩⟩, h⟩

theorem sq_gap (a b : Nat) : ((gap a b : Nat) : K) ^ 2 = ((a : K) * 3674 + 55423 - (b * 5834 + 38577)) ^ 2 := by
  have h : ∀ x y : Nat, (((x - y) + (y - x) : Nat) : K) ^ 2 = ((x : K) - y) ^ 2 := by
    intro x y
    rcases le_total x y with h | h
    · rw [Nat.sub_eq_zero_of_le h, Nat.zero_add, Nat.cast_sub h]; ring
    · rw [Nat.sub_eq_zero_of_le h, Nat.add_zero, Nat.cast_sub h]
  unfold gap
  rw [h]
  push_cast
  ring

/-- Two discs with a common point have middles not farther apart than the sum of the radii. -/
theorem discs {x y a b c d r s : K} (hr : 0 ≤ r) (hs : 0 ≤ s) (h1 : (x - a) ^ 2 + (y - b) ^ 2 ≤ r ^ 2) (h2 : (x - c) ^ 2 + (y - d) ^ 2 ≤ s ^ 2) :
    (a - c) ^ 2 + (b - d) ^ 2 ≤ (r + s) ^ 2 := by
  have h3 : ((x - a) * (x - c) + (y - b) * (y - d)) ^ 2 ≤ (r * s) ^ 2 := by
    have e1 : ((x - a) * (x - c) + (y - b) * (y - d)) ^ 2 ≤ ((x - a) ^ 2 + (y - b) ^ 2) * ((x - c) ^ 2 + (y - d) ^ 2) := by
      nlinarith [sq_nonneg ((x - a) * (y - d) - (y - b) * (x - c))]
    refine e1.trans ?_
    rw [mul_pow]
    exact mul_le_mul h1 h2 (by positivity) (by positivity)
  have h4 := (abs_le.1 (abs_le_of_sq_le_sq h3 (mul_nonneg hr hs))).1
  nlinarith

/-- **C109.**  No point is in rods of both lattices; there is more than 1 cm between them. -/
theorem C109_apart (P Q : K × K) (i j i' j' : Nat) (h1 : InUO2 i j P) (h2 : InMetal i' j' Q) : 1 < (P.1 - Q.1) ^ 2 + (P.2 - Q.2) ^ 2 := by
  obtain ⟨a1, a2, a3, a4⟩ := h1
  obtain ⟨b1, b2, b3, b4⟩ := h2
  by_contra hle
  have hle : (Q.1 - P.1) ^ 2 + (Q.2 - P.2) ^ 2 ≤ 1 ^ 2 := by
    have := not_lt.1 hle
    nlinarith
  have hfar := List.all_eq_true.1 (List.all_eq_true.1 far_nat (i, j) (mem_places a1 a2 a3)) (i', j') (mem_places b1 b2 b3)
  have hfar : ((5195 ^ 2 : Nat) : K) < ((gap i i' ^ 2 + gap j j' ^ 2 : Nat) : K) := by exact_mod_cast of_decide_eq_true hfar
  rw [Nat.cast_add, Nat.cast_pow (gap i i'), Nat.cast_pow (gap j j'), sq_gap, sq_gap] at hfar
  push_cast at hfar
  unfold off2 at a4 b4
  push_cast at a4 b4
  have d1 := discs (x := P.1) (y := P.2) (r := 1) (s := 63 / 100) (by norm_num) (by norm_num) (by
    calc (P.1 - Q.1) ^ 2 + (P.2 - Q.2) ^ 2 = (Q.1 - P.1) ^ 2 + (Q.2 - P.2) ^ 2 := by ring
      _ ≤ 1 ^ 2 := hle) a4
  have d2 := discs (x := Q.1) (y := Q.2) (by norm_num) (by norm_num) d1 b4
  nlinarith

/-! ### What the lattices show -/

theorem place_inside (ids : List (List ℤ)) (w f c : K) (fuel cl : Name × C) (h0 : 0 < f) (h1 : f ≤ c) (h2 : c < w) :
    Inside (place ids w f c fuel cl) := by
  have h : ∀ rad ∈ (place ids w f c fuel cl).radii, rad = [] ∨ rad = [f / 2, c / 2] := by
    intro rad hr
    simpa [place] using hr
  refine ⟨?_, ?_, ?_⟩
  · intro rad hr r hm
    rcases h rad hr with rfl | rfl
    · cases hm
    · simp at hm
      rcases hm with rfl | rfl <;> linarith
  · intro rad hr
    rcases h rad hr with rfl | rfl
    · exact List.Pairwise.nil
    · simp; linarith
  · intro rad hr r hm
    rcases h rad hr with rfl | rfl
    · cases hm
    · simp at hm
      dsimp only [place]
      rcases hm with rfl | rfl <;> constructor <;> linarith

/-- A lattice of rods at the places of `at_`, rows from the top. -/
def rods (n : Nat) (at_ : Nat → Nat → Bool) : List (List ℤ) := tableOf n n fun i j => if at_ i j then 1 else 0

theorem rods_good (eps : K) (n : Nat) (hn : 0 < n) (at_ : Nat → Nat → Bool) (w f c : K) (fuel cl : Name × C) (hw : eps ≤ w) :
    Good eps (place (rods n at_) w f c fuel cl) := by
  refine good_tableOf eps _ n n _ rfl hn hn ?_ ?_ ⟨hw, hw⟩
  · intro i _ j _
    show _ < 2
    split <;> omega
  · simp [place]

theorem centre_off2 (n : Nat) (at_ : Nat → Nat → Bool) (w f c : K) (fuel cl : Name × C) (i j : Nat) (hj : j < n + 1) (P : K × K) :
    dist2 P (centre (place (rods (n + 1) at_) w f c fuel cl) i j) = off2 n w i (n - j) P := by
  unfold dist2 centre off2 place rods
  dsimp only
  rw [LatticeText.tableOf_length, Nat.cast_sub (by omega)]
  have : (center : K) = 5834 / 100 := by unfold center; norm_num
  rw [this]
  push_cast
  congr 2 <;> ring

/-- The rods that a lattice shows at a point. -/
theorem shows_rod (n : Nat) (at_ : Nat → Nat → Bool) (w f c : K) (fuel cl : Name × C) (h0 : 0 < f) (h1 : f ≤ c) (P : K × K) (y : Name)
    (h : Shows (place (rods (n + 1) at_) w f c fuel cl) P y) :
    ∃ i j, i < n + 1 ∧ j < n + 1 ∧ at_ i j ∧ off2 n w i j P ≤ (c / 2) ^ 2 := by
  obtain ⟨i, j, p, k, rad, r, ms, cc, s1, s2, s3, s4, s5, s6, s7⟩ := h
  have s1 : idAt (rods (n + 1) at_).reverse i j = some (p : ℤ) := s1
  unfold rods at s1
  rw [idAt_tableOf] at s1
  split at s1
  · rename_i hij
    refine ⟨i, n - j, hij.1, by omega, ?_, ?_⟩
    · by_contra hne
      rw [show n + 1 - 1 - j = n - j by omega, if_neg hne] at s1
      have hp : p = 0 := by
        have := Option.some.inj s1
        exact_mod_cast this.symm
      subst hp
      have : rad = [] := (Option.some.inj s2).symm
      rw [this] at s4
      cases s4
    · rw [← centre_off2 n at_ w f c fuel cl i j hij.2]
      refine s6.trans ?_
      have hr : 0 < r ∧ r ≤ c / 2 := by
        have hrm := List.mem_of_getElem? s4
        have hmem := List.mem_of_getElem? s2
        have : rad = [] ∨ rad = [f / 2, c / 2] := by simpa [place] using hmem
        rcases this with rfl | rfl
        · cases hrm
        · simp at hrm
          rcases hrm with rfl | rfl <;> constructor <;> linarith
      exact pow_le_pow_left₀ hr.1.le hr.2 2
  · cases s1

/-- What is shown in a rod. -/
theorem in_rod {eps : K} (he : 0 < eps) (n : Nat) (at_ : Nat → Nat → Bool) (w f c : K) (fuel cl : Name × C) (hw : eps ≤ w) (h0 : 0 < f)
    (h1 : f ≤ c) (h2 : c < w) (P : K × K) (i j : Nat) (hi : i < n + 1) (hj : j < n + 1) (hat : at_ i j) (hP : off2 n w i j P ≤ (c / 2) ^ 2)
    (y : Name) : Shows (place (rods (n + 1) at_) w f c fuel cl) P y ↔ y = if off2 n w i j P ≤ (f / 2) ^ 2 then fuel.1 else cl.1 := by
  have hc := centre_off2 n at_ w f c fuel cl i (n - j) (by omega) P
  rw [show n - (n - j) = j by omega] at hc
  have hcell : InCell (place (rods (n + 1) at_) w f c fuel cl) i (n - j) P :=
    ring_inCell _ i (n - j) P (c / 2) (by linarith) (by dsimp only [place]; linarith) (by dsimp only [place]; linarith) (by rw [hc]; exact hP)
  rw [shows_iff he _ (rods_good eps (n + 1) (by omega) at_ w f c fuel cl hw) (place_inside _ w f c fuel cl h0 h1 h2) i (n - j) 1 [f / 2, c / 2]
    [fuel, cl] (by
      show idAt (rods (n + 1) at_).reverse i (n - j) = _
      unfold rods
      rw [idAt_tableOf, if_pos ⟨hi, by omega⟩, show n + 1 - 1 - (n - j) = j by omega, if_pos hat]) rfl rfl P hcell y, hc]
  unfold look
  split
  · constructor
    · intro h; exact (Option.some.inj h).symm
    · intro h; rw [h]
  · unfold look
    rw [if_pos hP]
    constructor
    · intro h; exact (Option.some.inj h).symm
    · intro h; rw [h]

theorem placements_eq (col : Nat → C) : (placements col : Option (List (Placement K C))) =
    some [place (rods 22 uo2At) (1837 / 1000) (1052 / 1000) (1260 / 1000) (uo2 col) (clad col),
      place (rods 20 metalAt) (2917 / 1000) (1700 / 1000) (1935 / 1000) (umetal col) (clad col)] := by
  unfold placements
  rw [uo2_eq, metal_eq]
  rfl

/-- **C109.**  The texts of the lattices are well formed, and on every grid of at most 100000 coarse cells that are not smaller than the
tolerance the program comes to the end of the overlay without an error, whatever fragments the kernel finds; the model is then the
specified core, and the coarse cells are the equal rectangles of the grid. -/
theorem C109_crocus (clos : DimTag → List DimTag) (hself : ∀ e, (2, e) ∈ clos (2, e)) (hother : ∀ e e', (2, e) ∈ clos (2, e') → e = e')
    (sort : List K → List K) (hsort : ∀ l, IsStdSort (fun a b => decide (a < b)) l (sort l)) (eps : K) (he : 0 < eps) (hp : eps ≤ 1837 / 1000)
    (color : DimTag → C) (col : Nat → C) (s : Mpact.Model K M) (hs : Fresh s) (n : Nat) (hn : 0 < n) (hn2 : n * n ≤ 100000)
    (hw : eps ≤ (11668 / 100) / n) :
    ∃ pls, placements col = some pls ∧
      Yields clos sort eps color pls s domain n n (water col) fun g reg =>
        Core (MaterialAt g reg) ∧ GridCells (11668 / 100, 11668 / 100) n n g reg := by
  refine ⟨_, placements_eq col, ?_⟩
  have hdom : (domain : K × K) = (11668 / 100, 11668 / 100) := by
    have : (2 * center : K) = 11668 / 100 := by unfold center; norm_num
    unfold domain
    rw [this]
  rw [hdom]
  have hu : ∀ i j (P : K × K), InUO2 i j P ↔ i < 21 + 1 ∧ j < 21 + 1 ∧ uo2At i j ∧ off2 21 (1837 / 1000) i j P ≤ (1260 / 1000 / 2) ^ 2 := by
    intro i j P
    unfold InUO2
    norm_num
  have hm : ∀ i j (P : K × K), InMetal i j P ↔ i < 19 + 1 ∧ j < 19 + 1 ∧ metalAt i j ∧ off2 19 (2917 / 1000) i j P ≤ (1935 / 1000 / 2) ^ 2 := by
    intro i j P
    unfold InMetal
    norm_num
  have main := C107_points clos hself hother sort hsort eps he color
    [place (rods 22 uo2At) (1837 / 1000) (1052 / 1000) (1260 / 1000) (uo2 col) (clad col),
      place (rods 20 metalAt) (2917 / 1000) (1700 / 1000) (1935 / 1000) (umetal col) (clad col)] (by
      intro pl hpl
      simp only [List.mem_cons, List.not_mem_nil, or_false] at hpl
      rcases hpl with rfl | rfl
      · exact rods_good eps 22 (by decide) _ _ _ _ _ _ hp
      · exact rods_good eps 20 (by decide) _ _ _ _ _ _ (hp.trans (by norm_num)))
    ⟨_, List.mem_cons_self, 8, 0, 1, 0, 1052 / 1000 / 2, (by
      show idAt (rods 22 uo2At).reverse 8 0 = _
      decide +kernel), _, rfl, rfl⟩ s hs (11668 / 100, 11668 / 100) n n hn hn hn2 hw hw (water col)
  refine Yields.mono main ?_
  rintro g reg ⟨h1, h2⟩
  refine ⟨?_, h2⟩
  intro P p1 p2 p3 p4
  have h1 := h1 P p1 p2 p3 p4
  simp only [List.mem_cons, List.not_mem_nil, or_false, exists_eq_or_imp, exists_eq_left] at h1
  have sep : ∀ i j i' j', InUO2 i j P → InMetal i' j' P → False := by
    intro i j i' j' a b
    have := C109_apart P P i j i' j' a b
    simp at this
    linarith
  have onU : ∀ y, Shows (place (rods 22 uo2At) (1837 / 1000) (1052 / 1000) (1260 / 1000) (uo2 col) (clad col)) P y → ∃ i j, InUO2 i j P := by
    intro y hy
    obtain ⟨i, j, h⟩ := shows_rod 21 uo2At _ _ _ _ _ (by norm_num) (by norm_num) P y hy
    exact ⟨i, j, (hu i j P).2 h⟩
  have onM : ∀ y, Shows (place (rods 20 metalAt) (2917 / 1000) (1700 / 1000) (1935 / 1000) (umetal col) (clad col)) P y →
      ∃ i j, InMetal i j P := by
    intro y hy
    obtain ⟨i, j, h⟩ := shows_rod 19 metalAt _ _ _ _ _ (by norm_num) (by norm_num) P y hy
    exact ⟨i, j, (hm i j P).2 h⟩
  refine ⟨?_, ?_, ?_⟩
  · intro i j hin
    obtain ⟨q1, q2, q3, q4⟩ := (hu i j P).1 hin
    have iff := in_rod he 21 uo2At (1837 / 1000) (1052 / 1000) (1260 / 1000) (uo2 col) (clad col) hp (by norm_num) (by norm_num) (by norm_num) P i j
      q1 q2 q3 q4
    have e : name (if off2 21 (1837 / 1000) i j P ≤ (526 / 1000) ^ 2 then "UO2" else "Clad") =
        if off2 21 (1837 / 1000) i j P ≤ (1052 / 1000 / 2) ^ 2 then (uo2 col).1 else (clad col).1 := by
      rw [show (526 / 1000 : K) = 1052 / 1000 / 2 by norm_num]
      split <;> rfl
    rw [e]
    refine h1 _ ?_ (Or.inl (Or.inl ((iff _).2 rfl)))
    rintro y (hy | hy)
    · exact (iff y).1 hy
    · obtain ⟨i', j', h'⟩ := onM y hy
      exact (sep i j i' j' hin h').elim
  · intro i j hin
    obtain ⟨q1, q2, q3, q4⟩ := (hm i j P).1 hin
    have iff := in_rod he 19 metalAt (2917 / 1000) (1700 / 1000) (1935 / 1000) (umetal col) (clad col) (hp.trans (by norm_num)) (by norm_num)
      (by norm_num) (by norm_num) P i j q1 q2 q3 q4
    have e : name (if off2 19 (2917 / 1000) i j P ≤ (85 / 100) ^ 2 then "Umetal" else "Clad") =
        if off2 19 (2917 / 1000) i j P ≤ (1700 / 1000 / 2) ^ 2 then (umetal col).1 else (clad col).1 := by
      rw [show (85 / 100 : K) = 1700 / 1000 / 2 by norm_num]
      split <;> rfl
    rw [e]
    refine h1 _ ?_ (Or.inl (Or.inr ((iff _).2 rfl)))
    rintro y (hy | hy)
    · obtain ⟨i', j', h'⟩ := onU y hy
      exact (sep i' j' i j h' hin).elim
    · exact (iff y).1 hy
  · intro hno
    refine h1 _ ?_ (Or.inr rfl)
    rintro y (hy | hy)
    · obtain ⟨i', j', h'⟩ := onU y hy
      exact absurd h' (hno i' j').1
    · obtain ⟨i', j', h'⟩ := onM y hy
      exact absurd h' (hno i' j').2

/-- The grid of 64 by 64 coarse cells of crocus_2d_advanced_mesh.cpp. -/
example : ∃ pls : List (Placement ℚ Nat), placements id = some pls ∧
    Yields (fun e => [e]) CoarseGrid.sortQ (1 / 10 ^ 7) (fun _ => 0) pls CoarseGrid.none_ domain (64 : Nat) (64 : Nat) (water id) fun g reg =>
      Core (MaterialAt g reg) ∧ GridCells (11668 / 100, 11668 / 100) 64 64 g reg :=
  C109_crocus (fun e => [e]) (by simp) (by simp) CoarseGrid.sortQ CoarseGrid.sortQ_ok (1 / 10 ^ 7) (by norm_num) (by norm_num) (fun _ => 0) id
    CoarseGrid.none_ CoarseGrid.fresh 64 (by decide) (by decide) (by norm_num)

/-- A point in an oxide rod, and one in a metal rod. -/
example : InUO2 10 10 ((5834 / 100 - 9 / 10, 5834 / 100 + 9 / 10) : ℚ × ℚ) ∧ InMetal 9 0 ((5834 / 100 - 1, 5834 / 100 + 277 / 10) : ℚ × ℚ) := by
  refine ⟨⟨by decide, by decide, by decide, ?_⟩, ⟨by decide, by decide, by decide, ?_⟩⟩ <;> norm_num [off2]

end Verif.CrocusP
