import Verif.Props.Vera4ModularSpec
import Verif.Props.PinModular
import Verif.Props.Vera4
import Verif.Model.Vera4Modular

/-!
# The pin-modular model of VERA problem 4

C111: the model has the specified core.  It is not the core of the program with the variable grid.
-/

set_option linter.unusedSectionVars false

namespace Verif.Vera4MP

open Verif (IsStdSort)
open Verif.Gmsh (Gm DimTag)
open Verif.Overlay (Name Cut)
open Verif.ProgramsSpec (MaterialAt look dist2)
open Verif.Programs (Placement)
open Verif.CoarseGrid (Fresh)
open Verif.LatticeText (tableOf)
open Verif.ModularSpec
open Verif.Vera4Spec (Rod layers layerAt away name)
open Verif.Vera4P (idOf look_layers pin_of rod_known)
open Verif.Vera4 (radii mats fill)
open Verif.Vera4M
open Verif.Vera4MSpec

variable {K C M : Type} [Field K] [LinearOrder K] [IsStrictOrderedRing K]

/-- An assembly with lattice `k`. -/
def where_ (k : Nat) : Nat × Nat := if k = 0 then (1, 0) else if k = 1 then (0, 0) else (0, 1)

/-- The plan of the core. -/
def plan (col : String → C) : Plan K C where
  size := size
  nx := 17
  ny := 17
  A := 2
  B := 2
  L := 3
  radii := radii true
  mats := mats col true
  pin := fun k i j => idOf (rod (where_ k).1 (where_ k).2 (away i) (away j))
  lat := fun a b => if a = 0 ∧ b = 0 then 2 else if a = 1 ∧ b = 1 then 0 else 1

theorem eq2110 : Bench.lattice Vera4.text2110 = some (tableOf 17 17 fun i j => idOf (rod 1 0 (away i) (away j))) :=
  LatticeText.lattice_eq (by decide +kernel)

theorem eq2619 : Bench.lattice text2619 = some (tableOf 17 17 fun i j => idOf (rod 0 0 (away i) (away j))) :=
  LatticeText.lattice_eq (by decide +kernel)

theorem eqAic : Bench.lattice Vera4.textAic = some (tableOf 17 17 fun i j => idOf (rod 0 1 (away i) (away j))) :=
  LatticeText.lattice_eq (by decide +kernel)

theorem eqCore : Bench.lattice textCore = some (tableOf 2 2 fun a b => if a = 0 ∧ b = 0 then 2 else if a = 1 ∧ b = 1 then 0 else 1) :=
  LatticeText.lattice_eq (by decide +kernel)

/-- The calls in the order of the program. -/
def calls (col : String → C) : List (Placement K C) := [(plan col).call 1 0, (plan col).call 0 0, (plan col).call 1 1, (plan col).call 0 1]

theorem inputs_eq (col : String → C) : (inputs col : Option (List (Placement K C) × _ × _)) = some (calls col, (plan (K := K) col).lattices, rows 2 2 (plan (K := K) col).lat) := by
  unfold inputs
  rw [eq2110, eq2619, eqAic, eqCore]
  have e0 : (0 : K) = ((0 : Nat) : K) * (((17 : Nat) : K) * (126 / 100)) := by norm_num
  have e1 : (side : K) = ((1 : Nat) : K) * (((17 : Nat) : K) * (126 / 100)) := by unfold side; norm_num
  have c : ∀ a b, (plan (K := K) col).call a b = place col (tableOf 17 17 ((plan (K := K) col).pin ((plan (K := K) col).lat a (1 - b))))
      ((a : K) * (((17 : Nat) : K) * (126 / 100))) ((b : K) * (((17 : Nat) : K) * (126 / 100))) := fun a b => rfl
  show some (_, _, _) = _
  unfold calls
  rw [c, c, c, c, ← e0, ← e1]
  rfl

theorem used : ∀ p < 6, ∃ a < 2, ∃ b < 2, ∃ i < 17, ∃ j < 17, (plan (K := K) (fun _ => ())).pinAt a b i j = p := by
  intro p hp
  have : ∀ p < 6, ∃ a < 2, ∃ b < 2, ∃ i < 17, ∃ j < 17, (plan (K := ℚ) (fun _ => ())).pinAt a b i j = p := by decide +kernel
  exact this p hp

theorem sound (eps : K) (hp : eps ≤ 126 / 100) (col : String → C) : (plan (K := K) col).Sound eps where
  pos := ⟨Nat.succ_pos 16, Nat.succ_pos 16, Nat.succ_pos 1, Nat.succ_pos 1⟩
  known := by
    intro k hk i hi j hj
    exact Vera4P.idOf_lt true _ (Or.inl rfl)
  there := by
    have : ∀ a < 2, ∀ b < 2, (if a = 0 ∧ b = 0 then 2 else if a = 1 ∧ b = 1 then 0 else 1) < 3 := by decide
    exact this
  used := fun p hp' => used (K := K) p hp'
  size := ⟨hp, hp⟩
  mats := by simp [plan, radii, mats]
  some := ⟨_, List.mem_cons_self, by simp⟩
  up := by simp [plan, radii]
  order := by simp [plan, radii]; norm_num
  small := by simp [plan, radii, size]; norm_num
  count := by simp [plan, radii]

theorem inPin_iff (col : String → C) (c r i j : Nat) (P : K × K) : (plan col).InPin c r i j P ↔ InPin c r i j P := by
  unfold Plan.InPin InPin middle plan size
  dsimp only
  push_cast
  constructor
  · rintro ⟨h1, h2, h3, h4, h5, h6, h7, h8⟩
    refine ⟨h1, h2, h3, h4, ?_, ?_, ?_, ?_⟩ <;> linarith
  · rintro ⟨h1, h2, h3, h4, h5, h6, h7, h8⟩
    refine ⟨h1, h2, h3, h4, ?_, ?_, ?_, ?_⟩ <;> linarith

theorem pinAt_eq (col : String → C) {c r i j : Nat} (hc : c < 2) (hr : r < 2) (hj : j < 17) :
    (plan (K := K) col).pinAt c r i j = idOf (rod c r (away i) (away j)) := by
  show idOf (rod _ _ (away i) (away (17 - 1 - j))) = _
  rw [Vera4P.away_mirror hj]
  have : ∀ c < 2, ∀ r < 2, ∀ u v : Nat, rod (where_ ((plan (K := K) col).lat c (2 - 1 - r))).1 (where_ ((plan (K := K) col).lat c (2 - 1 - r))).2 u v = rod c r u v := by
    intro c hc r hr u v
    have hc' : c = 0 ∨ c = 1 := by omega
    have hr' : r = 0 ∨ r = 1 := by omega
    rcases hc' with rfl | rfl <;> rcases hr' with rfl | rfl <;> simp [plan, where_, rod, Vera4Spec.rod]
  exact congrArg idOf (this c hc r hr _ _)

/-- **C111.**  The texts are well formed, the program comes to the end of the overlay without an error, whatever fragments the kernel finds, and
the model then has the specified core. -/
theorem C111_vera4 (clos : DimTag → List DimTag) (hself : ∀ e, (2, e) ∈ clos (2, e)) (hother : ∀ e e', (2, e) ∈ clos (2, e') → e = e')
    (sort : List K → List K) (hsort : ∀ l, IsStdSort (fun a b => decide (a < b)) l (sort l)) (eps : K) (he : 0 < eps) (hp : eps ≤ 126 / 100)
    (color : DimTag → C) (col : String → C) (s : Mpact.Model K M) (hs : Fresh s) :
    ∃ pls lats core, inputs col = some (pls, lats, core) ∧
      Yields clos sort eps color pls s size 6 lats assemblies core (fill col) fun m g reg => Core (Seen m g reg) := by
  refine ⟨_, _, _, inputs_eq col, ?_⟩
  have main := ModularP.C111_modular clos hself hother sort hsort eps he color (plan col) (sound eps hp col) (calls col) (by
    intro pl
    have hall : ∀ a < 2, ∀ b < 2, (a, b) = (1, 0) ∨ (a, b) = (0, 0) ∨ (a, b) = (1, 1) ∨ (a, b) = (0, 1) := by decide
    constructor
    · intro h
      simp only [calls, List.mem_cons, List.not_mem_nil, or_false] at h
      rcases h with rfl | rfl | rfl | rfl
      · exact ⟨1, Nat.lt_succ_self 1, 0, Nat.succ_pos 1, rfl⟩
      · exact ⟨0, Nat.succ_pos 1, 0, Nat.succ_pos 1, rfl⟩
      · exact ⟨1, Nat.lt_succ_self 1, 1, Nat.lt_succ_self 1, rfl⟩
      · exact ⟨0, Nat.succ_pos 1, 1, Nat.lt_succ_self 1, rfl⟩
    · rintro ⟨a, ha, b, hb, rfl⟩
      rcases hall a ha b hb with h | h | h | h <;> cases h <;> simp [calls]) s hs (fill col)
  obtain ⟨o, m, cs, h1, h2⟩ := main
  refine ⟨o, m, cs, h1, ?_⟩
  intro map all reg F
  obtain ⟨g, gone, h3, h4, -, -⟩ := h2 map all reg F
  refine ⟨g, gone, h3, ?_⟩
  intro P p1 p2 p3 p4
  -- the pin of the point
  obtain ⟨ci, hci, ⟨x1, x2⟩, -⟩ := CoarseGrid.interval (w := (126 / 100 : K)) (by norm_num) 34 p1 (by norm_num; exact p2.trans_eq (by norm_num))
  obtain ⟨rj, hrj, ⟨y1, y2⟩, -⟩ := CoarseGrid.interval (w := (126 / 100 : K)) (by norm_num) 34 p3 (by norm_num; exact p4.trans_eq (by norm_num))
  have ec : ((ci / 17 : Nat) : K) * 17 + ((ci % 17 : Nat) : K) = ci := by exact_mod_cast Nat.div_add_mod' ci 17
  have er : ((rj / 17 : Nat) : K) * 17 + ((rj % 17 : Nat) : K) = rj := by exact_mod_cast Nat.div_add_mod' rj 17
  have hin : InPin (ci / 17) (rj / 17) (ci % 17) (rj % 17) P := by
    refine ⟨by omega, by omega, Nat.mod_lt _ (by decide), Nat.mod_lt _ (by decide), ?_, ?_, ?_, ?_⟩ <;> unfold middle <;> dsimp only <;>
      first | rw [ec] | rw [er]
    all_goals linarith
  refine ⟨_, _, _, _, hin, ?_⟩
  intro x
  have hid := pinAt_eq (K := K) col (i := ci % 17) hin.1 hin.2.1 hin.2.2.2.1
  obtain ⟨e1, e2⟩ := pin_of (K := K) col true (rod (ci / 17) (rj / 17) (away (ci % 17)) (away (rj % 17))) (Or.inl rfl)
  have := h4 (ci / 17) (rj / 17) (ci % 17) (rj % 17) _ _ P ((inPin_iff col _ _ _ _ P).2 hin) (by rw [hid]; exact e1) (by rw [hid]; exact e2) x
  rw [look_layers] at this
  exact this

/-- The program with the tolerance of double precision. -/
example : ∃ pls lats core, (inputs (fun _ => 0) : Option (List (Placement ℚ Nat) × _ × _)) = some (pls, lats, core) ∧
    Yields (fun e => [e]) CoarseGrid.sortQ (1 / 10 ^ 7) (fun _ => 0) pls CoarseGrid.none_ size 6 lats assemblies core (fill fun _ => 0) fun m g reg =>
      Core (Seen m g reg) :=
  C111_vera4 (fun e => [e]) (by simp) (by simp) CoarseGrid.sortQ CoarseGrid.sortQ_ok (1 / 10 ^ 7) (by norm_num) (by norm_num)
    (fun _ => 0) _ CoarseGrid.none_ CoarseGrid.fresh

/-- A point is in one pin. -/
theorem pin_unique {c r i j c' r' i' j' : Nat} {P : K × K} (h : InPin c r i j P) (h' : InPin c' r' i' j' P) : c = c' ∧ r = r' ∧ i = i' ∧ j = j' := by
  obtain ⟨-, -, h1, h2, h3, h4, h5, h6⟩ := h
  obtain ⟨-, -, k1, k2, k3, k4, k5, k6⟩ := h'
  have key : ∀ {a b : Nat} {x : K}, ((a : K) + 1 / 2) * (126 / 100) - 63 / 100 ≤ x → x < ((b : K) + 1 / 2) * (126 / 100) + 63 / 100 → a ≤ b := by
    intro a b x q1 q2
    have : (a : K) < ((b + 1 : Nat) : K) := by push_cast; linarith
    have := Nat.cast_lt.1 this
    omega
  have e1 := key (a := c * 17 + i) (b := c' * 17 + i') (by push_cast; exact h3) (by push_cast; exact k4)
  have e2 := key (a := c' * 17 + i') (b := c * 17 + i) (by push_cast; exact k3) (by push_cast; exact h4)
  have e3 := key (a := r * 17 + j) (b := r' * 17 + j') (by push_cast; exact h5) (by push_cast; exact k6)
  have e4 := key (a := r' * 17 + j') (b := r * 17 + j) (by push_cast; exact k5) (by push_cast; exact h6)
  omega

/-- Three pins from the middle of the assembly in the lower left corner, both ways, there is pyrex in one and an empty tube in the other. -/
theorem differ (mat mat' : K × K → Name → Prop) (h : Vera4Spec.Core true mat) (h' : Core mat') :
    ¬ SamePins mat mat' := by
  intro hs
  have hin : InPin 0 0 11 11 ((middle 0 0 11 11 : K × K) + (3 / 10, 0)) := by
    refine ⟨by decide, by decide, by decide, by decide, ?_, ?_, ?_, ?_⟩ <;> norm_num [middle]
  have hin' : Vera4Spec.InPin 0 0 11 11 ((Vera4Spec.middle 0 0 11 11 : K × K) + (3 / 10, 0)) := by
    refine ⟨by decide, by decide, by decide, by decide, ?_, ?_, ?_, ?_⟩ <;> norm_num [Vera4Spec.middle]
  have b1 : 0 ≤ ((Vera4Spec.middle 0 0 11 11 : K × K) + (3 / 10, 0)).1 := by norm_num [Vera4Spec.middle]
  have b2 : 0 ≤ ((Vera4Spec.middle 0 0 11 11 : K × K) + (3 / 10, 0)).2 := by norm_num [Vera4Spec.middle]
  have b3 : ((Vera4Spec.middle 0 0 11 11 : K × K) + (3 / 10, 0)).1 < 3225 / 100 := by norm_num [Vera4Spec.middle]
  have b4 : ((Vera4Spec.middle 0 0 11 11 : K × K) + (3 / 10, 0)).2 < 3225 / 100 := by norm_num [Vera4Spec.middle]
  have m1 := (h _ b1 b3 b2 b4).1 0 0 11 11 hin'
  obtain ⟨c, r, i, j, hin2, m2⟩ := h' ((middle 0 0 11 11 : K × K) + (3 / 10, 0)) (by norm_num [middle]) (by norm_num [middle]) (by norm_num [middle])
    (by norm_num [middle])
  obtain ⟨rfl, rfl, rfl, rfl⟩ := pin_unique hin hin2
  have m3 := (m2 _).1 ((hs 0 0 11 11 (3 / 10, 0) hin b1 b2 b3 b4 _).1 m1)
  have r1 : Vera4Spec.rod true 0 0 (away 11) (away 11) = .pyrex := by decide
  have r2 : rod 0 0 (away 11) (away 11) = .tube := by decide
  rw [r1, r2] at m3
  have l1 : layerAt (layers .pyrex) ((((Vera4Spec.middle 0 0 11 11 : K × K) + (3 / 10, 0)).1 - (Vera4Spec.middle 0 0 11 11 : K × K).1) ^ 2 +
      (((Vera4Spec.middle 0 0 11 11 : K × K) + (3 / 10, 0)).2 - (Vera4Spec.middle 0 0 11 11 : K × K).2) ^ 2) = "Pyrex" := by
    norm_num [layers, layerAt, Vera4Spec.middle]
  have l2 : layerAt (layers .tube) ((((middle 0 0 11 11 : K × K) + (3 / 10, 0)).1 - (middle 0 0 11 11 : K × K).1) ^ 2 +
      (((middle 0 0 11 11 : K × K) + (3 / 10, 0)).2 - (middle 0 0 11 11 : K × K).2) ^ 2) = "Moderator" := by
    norm_num [layers, layerAt, middle]
  rw [l1, l2] at m3
  revert m3
  decide

/-- **C111 fails** for the two programs of the rodded problem: whatever the fragments of the one and of the other, the models do not have the same
pins. -/
theorem C111_same_pins_fails (clos : DimTag → List DimTag) (hself : ∀ e, (2, e) ∈ clos (2, e)) (hother : ∀ e e', (2, e) ∈ clos (2, e') → e = e')
    (sort : List K → List K) (hsort : ∀ l, IsStdSort (fun a b => decide (a < b)) l (sort l)) (eps : K) (he : 0 < eps) (hp : eps ≤ 126 / 100)
    (color : DimTag → C) (col : String → C) (s : Mpact.Model K M) (hs : Fresh s) (n : Nat) (hn : 0 < n) (hn2 : n * n ≤ 100000)
    (hw : eps ≤ (3225 / 100) / n) :
    ∃ vls pls lats core, Vera4.placements col true = some vls ∧ inputs col = some (pls, lats, core) ∧
      ProgramsSpec.Yields clos sort eps color vls s Vera4.domain n n (fill col) fun g reg =>
        Yields clos sort eps color pls s size 6 lats assemblies core (fill col) fun m g' reg' =>
          ¬ SamePins (MaterialAt g reg) (Seen m g' reg') := by
  obtain ⟨vls, a1, a2⟩ := Vera4P.C110_vera4_partial true clos hself hother sort hsort eps he hp color col s hs n hn hn2 hw
  obtain ⟨pls, lats, core, b1, o, m, cs, b2, b3⟩ := C111_vera4 clos hself hother sort hsort eps he hp color col s hs
  refine ⟨vls, pls, lats, core, a1, b1, ProgramsP.Yields.mono a2 ?_⟩
  rintro g reg ⟨h, -⟩
  refine ⟨o, m, cs, b2, ?_⟩
  intro map all reg' F
  obtain ⟨g', gone, c1, c2⟩ := b3 map all reg' F
  exact ⟨g', gone, c1, differ _ _ h c2⟩

end Verif.Vera4MP
