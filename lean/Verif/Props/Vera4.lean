import Verif.Props.Vera4Spec
import Verif.Props.LatticePrograms
import Verif.Lemmas.LatticeText
import Verif.Model.Vera4

/-!
# The plane models of VERA problem 4

C110: on every grid of coarse cells, the programs make the specified quarter core.
-/

set_option linter.unusedSectionVars false

namespace Verif.Vera4P

open Verif (IsStdSort)
open Verif.Gmsh (Gm DimTag)
open Verif.Overlay (Name Cut)
open Verif.PinsSpec
open Verif.Programs
open Verif.ProgramsSpec
open Verif.ProgramsP
open Verif.CoarseGrid (Fresh)
open Verif.LatticeText (tableOf idAt_tableOf good_tableOf)
open Verif.Vera4
open Verif.Vera4Spec

variable {K C M : Type} [Field K] [LinearOrder K] [IsStrictOrderedRing K]

/-- The id of a pin. -/
def idOf : Rod → Nat
  | .fuel2110 => 0
  | .tube => 1
  | .instrument => 2
  | .fuel2619 => 3
  | .pyrex => 4
  | .aic => 5

/-- The ids of an assembly. -/
def table (rodded : Bool) (c r : Nat) : List (List ℤ) := tableOf 17 17 fun i j => idOf (rod rodded c r (away i) (away j))

theorem eq2110 : Bench.lattice text2110 = some (table false 1 0) := LatticeText.lattice_eq (by decide +kernel)

theorem eq2619 : Bench.lattice text2619 = some (table false 0 0) := LatticeText.lattice_eq (by decide +kernel)

theorem eqAic : Bench.lattice textAic = some (table true 0 1) := LatticeText.lattice_eq (by decide +kernel)

theorem away_mirror {j : Nat} (h : j < 17) : away (17 - 1 - j) = away j := by unfold away; split <;> split <;> omega

/-- The assemblies in the order of the calls. -/
def asm : List (Nat × Nat) := [(1, 0), (0, 0), (1, 1), (0, 1)]

/-- A call by the place of the assembly. -/
def call (col : String → C) (rodded : Bool) (q : Nat × Nat) : Placement K C :=
  place col rodded (table rodded q.1 q.2) (q.1 * (2150 / 100) - 1071 / 100) (q.2 * (2150 / 100) + 4 / 100)

theorem placements_eq (col : String → C) (rodded : Bool) :
    (placements col rodded : Option (List (Placement K C))) = some (asm.map (call col rodded)) := by
  have e1 : (side / 2 + gap : K) = ((1 : Nat) : K) * (2150 / 100) - 1071 / 100 := by unfold side gap; norm_num
  have e2 : (-side / 2 + gap : K) = ((0 : Nat) : K) * (2150 / 100) - 1071 / 100 := by unfold side gap; norm_num
  have e3 : (gap : K) = ((0 : Nat) : K) * (2150 / 100) + 4 / 100 := by unfold gap; norm_num
  have e4 : (side + gap : K) = ((1 : Nat) : K) * (2150 / 100) + 4 / 100 := by unfold side gap; norm_num
  unfold placements
  rw [eq2110, eq2619, eqAic, e1, e2, e4, e3]
  cases rodded <;> rfl

theorem rod_known (rodded : Bool) (c r u v : Nat) : rodded = true ∨ rod rodded c r u v ≠ .aic := by
  cases rodded with
  | true => exact Or.inl rfl
  | false =>
    refine Or.inr ?_
    unfold rod
    split
    · decide
    · split
      · split
        · decide
        · simp
      · split <;> decide

/-- The pins as they are built. -/
theorem pin_of (col : String → C) (rodded : Bool) (R : Rod) (h : rodded = true ∨ R ≠ .aic) :
    (radii rodded : List (List K))[idOf R]? = some ((layers R).map (·.1)) ∧
      (mats col rodded)[idOf R]? = some ((layers (K := K) R).map fun q => mat col q.2) := by
  cases R <;> cases rodded <;> first | exact ⟨rfl, rfl⟩ | (rcases h with h | h <;> contradiction)

theorem radii_length (rodded : Bool) : (radii rodded : List (List K)).length = if rodded then 6 else 5 := by cases rodded <;> rfl

theorem idOf_lt (rodded : Bool) (R : Rod) (h : rodded = true ∨ R ≠ .aic) : idOf R < (radii rodded : List (List K)).length := by
  rw [radii_length]
  cases R <;> cases rodded <;> first | decide | (rcases h with h | h <;> contradiction)

theorem look_layers (col : String → C) (l : List (K × String)) (D : K) :
    (look (l.map (·.1)) (l.map fun q => mat col q.2) D).getD (fill col).1 = name (layerAt l D) := by
  induction l with
  | nil => rfl
  | cons q l ih =>
    obtain ⟨r, n⟩ := q
    simp only [List.map_cons, look, layerAt]
    split
    · rfl
    · exact ih

theorem call_good (eps : K) (hp : eps ≤ 126 / 100) (col : String → C) (rodded : Bool) (q : Nat × Nat) : Good eps (call col rodded q : Placement K C) := by
  refine good_tableOf eps _ 17 17 (fun i j => idOf (rod rodded q.1 q.2 (away i) (away j))) rfl (by decide) (by decide) ?_ ?_ ⟨hp, hp⟩
  · intro i _ j _
    exact idOf_lt rodded _ (rod_known rodded _ _ _ _)
  · cases rodded <;> simp [call, place, radii, mats]

theorem call_inside (col : String → C) (rodded : Bool) (q : Nat × Nat) : Inside (call col rodded q : Placement K C) := by
  refine ⟨?_, ?_, ?_⟩ <;> cases rodded <;> simp [call, place, radii] <;> norm_num

theorem idAt_call (col : String → C) (rodded : Bool) (q : Nat × Nat) (i j : Nat) :
    idAt (call col rodded q : Placement K C).ids.reverse i j =
      if i < 17 ∧ j < 17 then some ((idOf (rod rodded q.1 q.2 (away i) (away j)) : Nat) : ℤ) else none := by
  show idAt (tableOf 17 17 _).reverse i j = _
  rw [idAt_tableOf]
  by_cases h : i < 17 ∧ j < 17
  · rw [if_pos h, if_pos h, away_mirror h.2]
  · rw [if_neg h, if_neg h]

theorem inCell_iff (col : String → C) (rodded : Bool) (c r i j : Nat) (hc : c < 2) (hr : r < 2) (hi : i < 17) (hj : j < 17) (P : K × K) :
    InCell (call col rodded (c, r) : Placement K C) i j P ↔ InPin c r i j P := by
  unfold InCell InPin call place middle
  dsimp only
  constructor
  · rintro ⟨h1, h2, h3, h4⟩
    refine ⟨hc, hr, hi, hj, ?_, ?_, ?_, ?_⟩ <;> linarith
  · rintro ⟨-, -, -, -, h1, h2, h3, h4⟩
    refine ⟨?_, ?_, ?_, ?_⟩ <;> linarith

theorem centre_eq (col : String → C) (rodded : Bool) (c r i j : Nat) : centre (call col rodded (c, r) : Placement K C) i j = middle c r i j := by
  unfold centre call place middle
  dsimp only
  refine Prod.ext ?_ ?_ <;> dsimp only <;> ring

/-- A pin cell is in the square of its assembly. -/
theorem pin_in_square {c r i j : Nat} {P : K × K} (h : InPin c r i j P) :
    (-1075 / 100 + c * (2150 / 100) ≤ P.1 ∧ P.1 < -1075 / 100 + (c + 1) * (2150 / 100)) ∧
    (0 + r * (2150 / 100) ≤ P.2 ∧ P.2 < 0 + (r + 1) * (2150 / 100)) := by
  obtain ⟨-, -, hi, hj, h1, h2, h3, h4⟩ := h
  have hi' : (i : K) + 1 ≤ 17 := by exact_mod_cast hi
  have hi0 : (0 : K) ≤ i := Nat.cast_nonneg _
  have hj' : (j : K) + 1 ≤ 17 := by exact_mod_cast hj
  have hj0 : (0 : K) ≤ j := Nat.cast_nonneg _
  unfold middle at h1 h2 h3 h4
  dsimp only at h1 h2 h3 h4
  refine ⟨⟨?_, ?_⟩, ?_, ?_⟩ <;> linarith

/-- **C110.**  The texts of the lattices are well formed, and on every grid of at most 100000 coarse cells that are not smaller than the
tolerance the programs come to the end of the overlay without an error, whatever fragments the kernel finds; the model is then the
specified quarter core, and the coarse cells are the equal rectangles of the grid.  What is missing is `Tubes`: see `C110_tubes_fails`. -/
theorem C110_vera4_partial (rodded : Bool) (clos : DimTag → List DimTag) (hself : ∀ e, (2, e) ∈ clos (2, e))
    (hother : ∀ e e', (2, e) ∈ clos (2, e') → e = e')
    (sort : List K → List K) (hsort : ∀ l, IsStdSort (fun a b => decide (a < b)) l (sort l)) (eps : K) (he : 0 < eps) (hp : eps ≤ 126 / 100)
    (color : DimTag → C) (col : String → C) (s : Mpact.Model K M) (hs : Fresh s) (n : Nat) (hn : 0 < n) (hn2 : n * n ≤ 100000)
    (hw : eps ≤ (3225 / 100) / n) :
    ∃ pls, placements col rodded = some pls ∧
      Yields clos sort eps color pls s domain n n (fill col) fun g reg =>
        Core rodded (MaterialAt g reg) ∧ GridCells (3225 / 100, 3225 / 100) n n g reg := by
  refine ⟨_, placements_eq col rodded, ?_⟩
  have hdom : (domain : K × K) = (3225 / 100, 3225 / 100) := by
    have : (3 / 2 * side : K) = 3225 / 100 := by unfold side; norm_num
    unfold domain
    rw [this]
  rw [hdom]
  have hasm : ∀ q ∈ asm, q.1 < 2 ∧ q.2 < 2 := by decide
  have hall : ∀ c < 2, ∀ r < 2, (c, r) ∈ asm := by decide
  have main := C107_lattices clos hself hother sort hsort eps he color (asm.map (call col rodded)) (by
      intro pl hpl
      obtain ⟨q, hq, rfl⟩ := List.mem_map.1 hpl
      exact call_good eps hp col rodded q) (by
      intro pl hpl
      obtain ⟨q, hq, rfl⟩ := List.mem_map.1 hpl
      exact call_inside col rodded q) (by
      rw [List.pairwise_map]
      have hne : asm.Pairwise fun a b => a ≠ b := by decide
      refine List.Pairwise.imp_of_mem ?_ hne
      intro a b ha hb hab P i j i' j' h1 h2 h3 h4
      rw [idAt_call] at h1 h2
      split at h1
      · split at h2
        · rename_i q1 q2
          obtain ⟨a1, a2⟩ := hasm a ha
          obtain ⟨b1, b2⟩ := hasm b hb
          have u1 := pin_in_square ((inCell_iff col rodded a.1 a.2 i j a1 a2 q1.1 q1.2 P).1 h3)
          have u2 := pin_in_square ((inCell_iff col rodded b.1 b.2 i' j' b1 b2 q2.1 q2.2 P).1 h4)
          exact hab (Prod.ext (cell_unique (by norm_num) u1.1.1 u1.1.2 u2.1.1 u2.1.2) (cell_unique (by norm_num) u1.2.1 u1.2.2 u2.2.1 u2.2.2))
        · cases h2
      · cases h1) (by
      refine ⟨_, List.mem_map.2 ⟨(1, 0), by decide, rfl⟩, 0, 0, 0, 0, 4096 / 10000, ?_, [4096 / 10000, 475 / 1000], rfl, rfl⟩
      rw [idAt_call]
      cases rodded <;> decide +kernel) s hs (3225 / 100, 3225 / 100) n n hn hn hn2 hw hw (fill col)
  refine Yields.mono main ?_
  rintro g reg ⟨h1, h2⟩
  refine ⟨?_, h2⟩
  intro P p1 p2 p3 p4
  obtain ⟨m1, m2⟩ := h1 P p1 p2 p3 p4
  constructor
  · intro c r i j hin
    have hin' := hin
    obtain ⟨hc, hr, hi, hj, -⟩ := hin'
    obtain ⟨e1, e2⟩ := pin_of (K := K) col rodded (rod rodded c r (away i) (away j)) (rod_known rodded _ _ _ _)
    have := m1 _ (List.mem_map.2 ⟨(c, r), hall c hc r hr, rfl⟩) i j (idOf (rod rodded c r (away i) (away j))) _ _ (by
      rw [idAt_call, if_pos ⟨hi, hj⟩]) e1 e2 ((inCell_iff col rodded c r i j hc hr hi hj P).2 hin)
    rw [look_layers, centre_eq] at this
    exact this
  · intro hno
    refine m2 ?_
    intro pl hpl i j hid hin
    obtain ⟨q, hq, rfl⟩ := List.mem_map.1 hpl
    rw [idAt_call] at hid
    split at hid
    · rename_i q1
      obtain ⟨a1, a2⟩ := hasm q hq
      exact hno q.1 q.2 i j ((inCell_iff col rodded q.1 q.2 i j a1 a2 q1.1 q1.2 P).1 hin)
    · cases hid

/-- The rodded program on 25 by 25 coarse cells. -/
example : ∃ pls : List (Placement ℚ Nat), placements (fun _ => 0) true = some pls ∧
    Yields (fun e => [e]) CoarseGrid.sortQ (1 / 10 ^ 7) (fun _ => 0) pls CoarseGrid.none_ domain (25 : Nat) (25 : Nat) (fill fun _ => 0) fun g reg =>
      Core true (MaterialAt g reg) ∧ GridCells (3225 / 100, 3225 / 100) 25 25 g reg :=
  C110_vera4_partial true (fun e => [e]) (by simp) (by simp) CoarseGrid.sortQ CoarseGrid.sortQ_ok (1 / 10 ^ 7) (by norm_num) (by norm_num)
    (fun _ => 0) _ CoarseGrid.none_ CoarseGrid.fresh 25 (by decide) (by decide) (by norm_num)

/-- A point 0.58 cm from the middle of a control rod is in the moderator. -/
theorem no_tube (mat : K × K → Name → Prop) (hone : ∀ P x y, mat P x → mat P y → x = y) (h : Core true mat) : ¬ Tubes mat := by
  intro ht
  have hin : InPin 0 1 8 5 (((58 / 100 : K)), (2150 / 100 + 1075 / 100 - 3 * (126 / 100) : K)) := by
    refine ⟨by decide, by decide, by decide, by decide, ?_, ?_, ?_, ?_⟩ <;> norm_num [middle]
  have hd : ((58 / 100 : K) - (middle 0 1 8 5 : K × K).1) ^ 2 + ((2150 / 100 + 1075 / 100 - 3 * (126 / 100) : K) - (middle 0 1 8 5 : K × K).2) ^ 2 =
      (58 / 100) ^ 2 := by norm_num [middle]
  have h1 := ht _ (by norm_num) (by norm_num) (by norm_num) (by norm_num) 0 1 8 5 hin (by decide) (by rw [hd]; norm_num) (by rw [hd]; norm_num)
  have h2 := (h _ (by norm_num) (by norm_num) (by norm_num) (by norm_num)).1 0 1 8 5 hin
  have hr : rod true 0 1 (away 8) (away 5) = .aic := by decide
  rw [hr, hd] at h2
  have hl : layerAt (layers .aic) ((58 / 100 : K) ^ 2) = "Moderator" := by norm_num [layers, layerAt]
  rw [hl] at h2
  have := hone _ _ _ h1 h2
  revert this
  decide

/-- **C110 fails** for the guide tubes of the control rods: whatever the fragments, in the rodded model a point 0.58 cm from the middle of a
control rod is in the moderator, though the tube the rod stands in has clad there. -/
theorem C110_tubes_fails (clos : DimTag → List DimTag) (hself : ∀ e, (2, e) ∈ clos (2, e))
    (hother : ∀ e e', (2, e) ∈ clos (2, e') → e = e')
    (sort : List K → List K) (hsort : ∀ l, IsStdSort (fun a b => decide (a < b)) l (sort l)) (eps : K) (he : 0 < eps) (hp : eps ≤ 126 / 100)
    (color : DimTag → C) (col : String → C) (s : Mpact.Model K M) (hs : Fresh s) (n : Nat) (hn : 0 < n) (hn2 : n * n ≤ 100000)
    (hw : eps ≤ (3225 / 100) / n) :
    ∃ pls, placements col true = some pls ∧
      Yields clos sort eps color pls s domain n n (fill col) fun g reg => ¬ Tubes (MaterialAt g reg) := by
  obtain ⟨pls, h1, h2⟩ := C110_vera4_partial true clos hself hother sort hsort eps he hp color col s hs n hn hn2 hw
  refine ⟨pls, h1, Yields.mono h2 ?_⟩
  rintro g reg ⟨h, -⟩
  exact no_tube _ (fun P x y hx hy => (hy x).1 ((hx x).2 rfl)) h

end Verif.Vera4P
