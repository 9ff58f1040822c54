import Verif.Lemmas.Fnr
import Verif.Props.Nuscale

/-!
# The plane models of the Ford Nuclear Reactor

C117: on every grid of coarse cells, the programs make the specified core and the specified single element.
-/

namespace Verif.FnrP

open Verif (IsStdSort)
open Verif.XSLib (Res)
open Verif.Gmsh (Gm DimTag)
open Verif.GmshSpec
open Verif.Overlay (Name Cut)
open Verif.CoarseGrid (Fresh)
open Verif.ProgramsSpec Verif.Scene Verif.SceneSpec Verif.SceneL
open Verif.Fnr Verif.FnrSpec Verif.FnrL

variable {M C : Type}

/-! ### From the drawing to the materials -/

/-- The name of the material of a vector of tags. -/
def label : Ink → String
  | .alu => "Aluminum"
  | .heavy => "HeavyWater"
  | .fuel => "Fuel"
  | .borated => "BoratedSteel"
  | .steel => "Steel"

theorem makes_of (clos : DimTag → List DimTag) (sort : List ℝ → List ℝ) (hsort : ∀ l, IsStdSort (fun a b => decide (a < b)) l (sort l))
    (eps : ℝ) (he : 0 < eps) (s : Mpact.Model ℝ M) (hs : Fresh s) (ext : ℝ × ℝ) (nx ny : Nat) (hx : 0 < nx) (hy : 0 < ny) (hn : nx * ny ≤ 100000)
    (hw : eps ≤ ext.1 / nx) (hh : eps ≤ ext.2 / ny) (col : String → C) (blue : DimTag → C) (d : Draw) (groups : List (List ℤ × String))
    (hd : ∀ q ∈ groups, ∀ t ∈ q.1, 1 ≤ t ∧ t ≤ d.surfs.length) (hne : ∃ q ∈ groups, q.1 ≠ []) (hnd : (groups.map fun q => MFiles.str q.2).Nodup)
    (hlab : ∀ P x, (∃ q ∈ groups, x = MFiles.str q.2 ∧ ∃ t ∈ q.1, P ∈ shapeOf d t) ↔ ∃ m, x = MFiles.str (label m) ∧ Has d m P)
    (huniq : ∀ P m m', Has d m P → Has d m' P → m = m') :
    Makes clos sort eps col blue d groups s ext nx ny fun g reg =>
      (∀ P : ℝ × ℝ, 0 ≤ P.1 → P.1 < ext.1 → 0 ≤ P.2 → P.2 < ext.2 →
        (∀ m, Has d m P → MaterialAt g reg P (MFiles.str (label m))) ∧ ((∀ m, ¬ Has d m P) → MaterialAt g reg P (MFiles.str "Water"))) ∧
      GridCells ext nx ny g reg := by
  obtain ⟨S, s1, s2, -, s4⟩ := sheet_ok clos col blue groups d hd hne hnd
  obtain ⟨m, cs, c1, c2⟩ := grid_points (C := C) clos sort hsort eps he s hs ext nx ny hx hy hn hw hh
  refine ⟨S, m, cs, s1, c1, fun map all reg F => ?_⟩
  obtain ⟨g, gone, g1, g2, g3⟩ := c2 S s2 (shapeOf d) map all reg F (MFiles.str "Water", col "Water")
  refine ⟨g, gone, g1, fun P p1 p2 p3 p4 => ⟨?_, ?_⟩, g3⟩
  · intro m hm
    refine g2 P p1 p2 p3 p4 _ ?_ (Or.inl ((s4 P _).2 ((hlab P _).2 ⟨m, rfl, hm⟩)))
    intro y hy
    obtain ⟨m', rfl, hm'⟩ := (hlab P y).1 ((s4 P y).1 hy)
    rw [huniq P m' m hm' hm]
  · intro hno
    refine g2 P p1 p2 p3 p4 _ ?_ (Or.inr rfl)
    intro y hy
    obtain ⟨m', -, hm'⟩ := (hlab P y).1 ((s4 P y).1 hy)
    exact absurd hm' (hno m')

/-! ### The core -/

theorem core_once {P : ℝ × ℝ} {d : Draw} (h : ∀ m P, Has d m P ↔ Somewhere P (fun K u v => Of lowElem K m u v) ∨
    (m = .alu ∧ Tank 0 P ∧ ¬ Tank (inches (1 / 2)) P) ∨ (m = .heavy ∧ Tank (inches (1 / 2)) P)) (m m' : Ink) (h1 : Has d m P) (h2 : Has d m' P) : m = m' := by
  have left : ∀ m, Somewhere P (fun K u v => Of lowElem K m u v) → ∀ t, 0 ≤ t → ¬ Tank t P := by
    intro m hm t ht hT
    have := (core_bounds hm).2.1
    have := hT.1
    linarith
  have pos : 0 ≤ inches (1 / 2) := by unfold inches; norm_num
  rcases (h m P).1 h1 with a1 | ⟨rfl, a1, a2⟩ | ⟨rfl, a1⟩ <;> rcases (h m' P).1 h2 with b1 | ⟨rfl, b1, b2⟩ | ⟨rfl, b1⟩
  · exact once a1 b1
  · exact absurd b1 (left m a1 0 le_rfl)
  · exact absurd b1 (left m a1 _ pos)
  · exact absurd a1 (left m' b1 0 le_rfl)
  · rfl
  · exact absurd b1 a2
  · exact absurd a1 (left m' b1 _ pos)
  · exact absurd a1 b2
  · rfl

/-- **C117**: on every grid of `n` by `n` cells the program for the core ends without an error, each point of the domain of 100 cm by 100 cm
has the one material that is specified for it, and the coarse cells are the equal squares of the domain. -/
theorem C117_core (clos : DimTag → List DimTag) (sort : List ℝ → List ℝ) (hsort : ∀ l, IsStdSort (fun a b => decide (a < b)) l (sort l))
    (eps : ℝ) (he : 0 < eps) (s : Mpact.Model ℝ M) (hs : Fresh s) (n : Nat) (hn : 0 < n) (hnn : n * n ≤ 100000) (hle : eps ≤ 100 / n)
    (col : String → C) (blue : DimTag → C) :
    ∃ d, leuDraw = some d ∧ Makes clos sort eps col blue d (leuGroups d) s leuDomain n n fun g reg =>
      Core (MaterialAt g reg) ∧ GridCells (100, 100) n n g reg := by
  obtain ⟨d, d1, d2, d3⟩ := draw_ok
  refine ⟨d, d1, ?_⟩
  have hmem : ∀ q, q ∈ leuGroups d ↔ ∃ m, q = (tagsOf d m, label m) := by
    intro q
    constructor
    · intro hq
      simp only [leuGroups, List.mem_cons, List.not_mem_nil, or_false] at hq
      rcases hq with rfl | rfl | rfl | rfl | rfl
      · exact ⟨.alu, rfl⟩
      · exact ⟨.heavy, rfl⟩
      · exact ⟨.fuel, rfl⟩
      · exact ⟨.borated, rfl⟩
      · exact ⟨.steel, rfl⟩
    · rintro ⟨m, rfl⟩
      cases m <;> simp [leuGroups, tagsOf, label]
  have hin : ∃ P, Has d .heavy P := by
    refine ⟨(80, 50), (d3 _ _).2 (Or.inr (Or.inr ⟨rfl, ?_⟩))⟩
    unfold Tank corner inches
    norm_num
  have key := makes_of clos sort hsort eps he s hs leuDomain n n hn hn hnn hle hle col blue d (leuGroups d) (by
      intro q hq t ht
      obtain ⟨m, rfl⟩ := (hmem q).1 hq
      exact d2 m t ht) (by
      obtain ⟨P, t, ht, -⟩ := hin
      exact ⟨_, (hmem _).2 ⟨.heavy, rfl⟩, List.ne_nil_of_mem ht⟩) (by
      have : (leuGroups d).map (fun q => MFiles.str q.2) = ["Aluminum", "HeavyWater", "Fuel", "BoratedSteel", "Steel"].map MFiles.str := rfl
      rw [this]
      decide) (by
      intro P x
      constructor
      · rintro ⟨q, hq, rfl, t, ht, hP⟩
        obtain ⟨m, rfl⟩ := (hmem q).1 hq
        exact ⟨m, rfl, t, ht, hP⟩
      · rintro ⟨m, rfl, t, ht, hP⟩
        exact ⟨_, (hmem _).2 ⟨m, rfl⟩, rfl, t, ht, hP⟩) fun P m m' => core_once d3 m m'
  obtain ⟨S, mm, cs, k1, k2, k3⟩ := key
  refine ⟨S, mm, cs, k1, k2, fun map all reg F => ?_⟩
  obtain ⟨g, gone, g1, g2, g3⟩ := k3 map all reg F
  refine ⟨g, gone, g1, ?_, g3⟩
  intro P p1 p2 p3 p4
  obtain ⟨q1, q2⟩ := g2 P p1 p2 p3 p4
  have fuel : Fuel P ↔ Has d .fuel P := by
    rw [d3]
    constructor
    · rintro ⟨c, r, K, hK, h⟩
      exact Or.inl ⟨c, r, K, hK, Or.inr (Or.inl ⟨rfl, h⟩)⟩
    · rintro (⟨c, r, K, hK, ⟨h, -⟩ | ⟨-, h⟩ | ⟨h, -⟩ | ⟨h, -⟩⟩ | ⟨h, -⟩ | ⟨h, -⟩)
      · cases h
      · exact ⟨c, r, K, hK, h⟩
      · cases h
      · cases h
      · cases h
      · cases h
  have alu : Aluminum P ↔ Has d .alu P := by
    rw [d3]
    constructor
    · rintro (⟨c, r, K, hK, h⟩ | h)
      · exact Or.inl ⟨c, r, K, hK, Or.inl ⟨rfl, h⟩⟩
      · exact Or.inr (Or.inl ⟨rfl, h⟩)
    · rintro (⟨c, r, K, hK, ⟨-, h⟩ | ⟨h, -⟩ | ⟨h, -⟩ | ⟨h, -⟩⟩ | ⟨-, h⟩ | ⟨h, -⟩)
      · exact Or.inl ⟨c, r, K, hK, h⟩
      · cases h
      · cases h
      · cases h
      · exact Or.inr h
      · cases h
  have bor : BoratedSteel P ↔ Has d .borated P := by
    rw [d3]
    constructor
    · rintro ⟨c, r, K, hK, h⟩
      exact Or.inl ⟨c, r, K, hK, Or.inr (Or.inr (Or.inl ⟨rfl, h⟩))⟩
    · rintro (⟨c, r, K, hK, ⟨h, -⟩ | ⟨h, -⟩ | ⟨-, h⟩ | ⟨h, -⟩⟩ | ⟨h, -⟩ | ⟨h, -⟩)
      · cases h
      · cases h
      · exact ⟨c, r, K, hK, h⟩
      · cases h
      · cases h
      · cases h
  have ste : Steel P ↔ Has d .steel P := by
    rw [d3]
    constructor
    · rintro ⟨c, r, K, hK, h⟩
      exact Or.inl ⟨c, r, K, hK, Or.inr (Or.inr (Or.inr ⟨rfl, h⟩))⟩
    · rintro (⟨c, r, K, hK, ⟨h, -⟩ | ⟨h, -⟩ | ⟨h, -⟩ | ⟨-, h⟩⟩ | ⟨h, -⟩ | ⟨h, -⟩)
      · cases h
      · cases h
      · cases h
      · exact ⟨c, r, K, hK, h⟩
      · cases h
      · cases h
  have hea : HeavyWater P ↔ Has d .heavy P := by
    rw [d3]
    constructor
    · exact fun h => Or.inr (Or.inr ⟨rfl, h⟩)
    · rintro (⟨c, r, K, hK, ⟨h, -⟩ | ⟨h, -⟩ | ⟨h, -⟩ | ⟨h, -⟩⟩ | ⟨h, -⟩ | ⟨-, h⟩)
      · cases h
      · cases h
      · cases h
      · cases h
      · cases h
      · exact h
  rw [fuel, alu, bor, ste, hea]
  refine ⟨q1 .fuel, q1 .alu, q1 .borated, q1 .steel, q1 .heavy, fun a b c e f => q2 fun m => ?_⟩
  cases m
  · exact b
  · exact f
  · exact a
  · exact c
  · exact e

/-! ### The single element -/

theorem high_plate {k : Nat} {u v : ℝ} (h : Plate highElem k u v) : v - (dome u - dome (highElem.plate / 2)) < foot highElem 0 + k * (44958 / 100000) + 15748 / 100000 ∧
    foot highElem 0 + k * (44958 / 100000) ≤ v - (dome u - dome (highElem.plate / 2)) := by
  obtain ⟨-, -, h3, h4⟩ := h
  have e1 : foot highElem k = foot highElem 0 + k * (44958 / 100000) := by unfold foot inches; push_cast; ring
  have e2 : highElem.meat + 2 * highElem.clad = 15748 / 100000 := by rw [high_eq.2.2.1, high_eq.2.2.2]; norm_num
  rw [e1] at h3 h4
  rw [e2] at h4
  exact ⟨h4, h3⟩

theorem high_once {u v : ℝ} (m m' : Ink) (h : Of highElem .regular m u v) (h' : Of highElem .regular m' u v) : m = m' := by
  have split : ∀ m, Of highElem .regular m u v → (m = .alu ∧ Sides highElem u v) ∨ ∃ k, Plate highElem k u v ∧
      ((m = .alu ∧ ¬ Meat highElem k u v) ∨ (m = .fuel ∧ Meat highElem k u v)) := by
    rintro m (⟨rfl, h | ⟨k, hk, h1, h2⟩ | ⟨h | h, -⟩⟩ | ⟨rfl, k, hk, h⟩ | ⟨-, h, -⟩ | ⟨-, h, -⟩)
    · exact Or.inl ⟨rfl, h⟩
    · exact Or.inr ⟨k, h1, Or.inl ⟨rfl, h2⟩⟩
    · cases h
    · cases h
    · exact Or.inr ⟨k, meat_plate (Or.inr rfl) h, Or.inr ⟨rfl, h⟩⟩
    · cases h
    · cases h
  have mid : ∀ k, Plate highElem k u v → ¬ Sides highElem u v := by
    rintro k ⟨h1, h2, -, -⟩ ⟨h3 | h3, -⟩ <;> linarith
  rcases split m h with ⟨rfl, h1⟩ | ⟨k, h1, h2⟩ <;> rcases split m' h' with ⟨rfl, h1'⟩ | ⟨k', h1', h2'⟩
  · rfl
  · exact absurd h1 (mid k' h1')
  · exact absurd h1' (mid k h1)
  · have hk : k = k' := by
      obtain ⟨a, b⟩ := high_plate h1
      obtain ⟨a', b'⟩ := high_plate h1'
      have q1 : (k : ℝ) < k' + 1 := by linarith
      have q2 : (k' : ℝ) < k + 1 := by linarith
      have q1' : k < k' + 1 := by exact_mod_cast q1
      have q2' : k' < k + 1 := by exact_mod_cast q2
      omega
    subst hk
    rcases h2 with ⟨rfl, h2⟩ | ⟨rfl, h2⟩ <;> rcases h2' with ⟨rfl, h2'⟩ | ⟨rfl, h2'⟩
    · rfl
    · exact absurd h2' h2
    · exact absurd h2 h2'
    · rfl

/-- The number of rows: cells that are not flatter than wide, and as many as possible. -/
theorem C117_rows (nx : Nat) : (heuRows nx : ℝ) ≤ single.2 / single.1 * nx ∧ single.2 / single.1 * nx < heuRows nx + 1 := by
  have h0 : 0 ≤ single.2 / single.1 * nx := by
    refine mul_nonneg ?_ (Nat.cast_nonneg nx)
    unfold single inches
    norm_num
  exact ⟨Nat.floor_le h0, Nat.lt_floor_add_one _⟩

/-- **C117**: on every grid the program for the single element ends without an error, each point of the domain has the one material that is
specified for it, and the coarse cells are the equal rectangles of the domain. -/
theorem C117_single (clos : DimTag → List DimTag) (sort : List ℝ → List ℝ) (hsort : ∀ l, IsStdSort (fun a b => decide (a < b)) l (sort l))
    (eps : ℝ) (he : 0 < eps) (s : Mpact.Model ℝ M) (hs : Fresh s) (nx : Nat) (hn : 0 < nx) (hnn : nx * heuRows nx ≤ 100000) (hle : eps ≤ single.1 / nx)
    (col : String → C) (blue : DimTag → C) :
    Makes clos sort eps col blue heuDraw (heuGroups heuDraw) s heuDomain nx (heuRows nx) fun g reg =>
      Single (MaterialAt g reg) ∧ GridCells single nx (heuRows nx) g reg := by
  obtain ⟨d2, d3⟩ := heuDraw_ok
  obtain ⟨r1, r2⟩ := C117_rows nx
  have hs1 : 0 < single.1 := by unfold single inches; norm_num
  have hratio : 1 ≤ single.2 / single.1 := by
    rw [le_div_iff₀ hs1]
    unfold single inches
    norm_num
  have hnR : (0 : ℝ) < nx := by exact_mod_cast hn
  have hrows : 0 < heuRows nx := by
    rcases Nat.eq_zero_or_pos (heuRows nx) with h0 | h0
    · rw [h0] at r2
      have h1 : (1 : ℝ) ≤ nx := by exact_mod_cast hn
      have := mul_le_mul hratio h1 zero_le_one (by linarith)
      push_cast at r2
      linarith
    · exact h0
  have hrR : (0 : ℝ) < heuRows nx := by exact_mod_cast hrows
  have hle2 : eps ≤ single.2 / heuRows nx := by
    refine hle.trans ?_
    rw [div_le_div_iff₀ hnR hrR]
    have := mul_le_mul_of_nonneg_left r1 hs1.le
    have e : single.1 * (single.2 / single.1 * nx) = single.2 * nx := by field_simp
    linarith
  have other : ∀ m P, Has heuDraw m P → m = .alu ∨ m = .fuel := by
    intro m P h
    rcases (d3 m P).1 h with ⟨h, -⟩ | ⟨h, -⟩ | ⟨-, h, -⟩ | ⟨-, h, -⟩
    · exact Or.inl h
    · exact Or.inr h
    · cases h
    · cases h
  have hin : ∃ P, Has heuDraw .alu P := by
    refine ⟨(single.1 / 2 + highElem.plate / 2, (single.2 - inches (3189 / 1000)) / 2 + inches 1), (d3 _ _).2 (Or.inl ⟨rfl, Or.inl ⟨Or.inr ⟨?_, ?_⟩, ?_, ?_⟩⟩)⟩
    · show _ ≤ single.1 / 2 + highElem.plate / 2 - single.1 / 2
      linarith
    · show single.1 / 2 + highElem.plate / 2 - single.1 / 2 < _
      have : 0 < inches (189 / 1000) := by unfold inches; norm_num
      linarith
    · show _ ≤ (single.2 - inches (3189 / 1000)) / 2 + inches 1 - (single.2 - inches (3189 / 1000)) / 2
      rw [high_eq.2.1]
      unfold inches
      norm_num
    · show (single.2 - inches (3189 / 1000)) / 2 + inches 1 - (single.2 - inches (3189 / 1000)) / 2 < _
      rw [high_eq.2.1]
      unfold inches
      norm_num
  have key := makes_of clos sort hsort eps he s hs heuDomain nx (heuRows nx) hn hrows hnn hle hle2 col blue heuDraw (heuGroups heuDraw) (by
      intro q hq t ht
      simp only [heuGroups, List.mem_cons, List.not_mem_nil, or_false] at hq
      rcases hq with rfl | rfl
      · exact d2 .alu t ht
      · exact d2 .fuel t ht) (by
      obtain ⟨P, t, ht, -⟩ := hin
      exact ⟨_, List.mem_cons_self, List.ne_nil_of_mem ht⟩) (by
      have : (heuGroups heuDraw).map (fun q => MFiles.str q.2) = ["Aluminum", "Fuel"].map MFiles.str := rfl
      rw [this]
      decide) (by
      intro P x
      constructor
      · rintro ⟨q, hq, rfl, t, ht, hP⟩
        simp only [heuGroups, List.mem_cons, List.not_mem_nil, or_false] at hq
        rcases hq with rfl | rfl
        · exact ⟨.alu, rfl, t, ht, hP⟩
        · exact ⟨.fuel, rfl, t, ht, hP⟩
      · rintro ⟨m, rfl, h⟩
        obtain ⟨t, ht, hP⟩ := h
        rcases other m P ⟨t, ht, hP⟩ with rfl | rfl
        · exact ⟨(heuDraw.clad, "Aluminum"), List.mem_cons_self, rfl, t, ht, hP⟩
        · exact ⟨(heuDraw.fuel, "Fuel"), List.mem_cons_of_mem _ List.mem_cons_self, rfl, t, ht, hP⟩) fun P m m' h h' =>
        high_once m m' ((d3 m P).1 h) ((d3 m' P).1 h')
  obtain ⟨S, mm, cs, k1, k2, k3⟩ := key
  refine ⟨S, mm, cs, k1, k2, fun map all reg F => ?_⟩
  obtain ⟨g, gone, g1, g2, g3⟩ := k3 map all reg F
  refine ⟨g, gone, g1, ?_, g3⟩
  intro P p1 p2 p3 p4
  obtain ⟨q1, q2⟩ := g2 P p1 p2 p3 p4
  dsimp only
  have fuel : (∃ k < 18, Meat highElem k (inSingle P).1 (inSingle P).2) ↔ Has heuDraw .fuel P := by
    rw [d3]
    constructor
    · rintro ⟨k, hk, h⟩
      exact Or.inr (Or.inl ⟨rfl, k, hk, h⟩)
    · rintro (⟨h, -⟩ | ⟨-, k, hk, h⟩ | ⟨h, -⟩ | ⟨h, -⟩)
      · cases h
      · exact ⟨k, hk, h⟩
      · cases h
      · cases h
  have alu : (Sides highElem (inSingle P).1 (inSingle P).2 ∨ ∃ k < 18, Plate highElem k (inSingle P).1 (inSingle P).2 ∧
      ¬ Meat highElem k (inSingle P).1 (inSingle P).2) ↔ Has heuDraw .alu P := by
    rw [d3]
    constructor
    · rintro (h | ⟨k, hk, h⟩)
      · exact Or.inl ⟨rfl, Or.inl h⟩
      · exact Or.inl ⟨rfl, Or.inr (Or.inl ⟨k, hk, h⟩)⟩
    · rintro (⟨-, h | ⟨k, hk, h⟩ | ⟨h | h, -⟩⟩ | ⟨h, -⟩ | ⟨h, -⟩ | ⟨h, -⟩)
      · exact Or.inl h
      · exact Or.inr ⟨k, hk, h⟩
      · cases h
      · cases h
      · cases h
      · cases h
      · cases h
  rw [fuel, alu]
  refine ⟨q1 .fuel, q1 .alu, fun a b => q2 fun m hm => ?_⟩
  rcases other m P hm with rfl | rfl
  · exact b hm
  · exact a hm

/-! ### Nothing is cut off -/

/-- **C117**: the core and its tank are in the domain. -/
theorem C117_whole (P : ℝ × ℝ) (h : Fuel P ∨ Aluminum P ∨ BoratedSteel P ∨ Steel P ∨ HeavyWater P) : 0 < P.1 ∧ P.1 < 100 ∧ 0 < P.2 ∧ P.2 < 100 := by
  have core : ∀ m, Somewhere P (fun K u v => Of lowElem K m u v) → 0 < P.1 ∧ P.1 < 100 ∧ 0 < P.2 ∧ P.2 < 100 := by
    intro m hm
    obtain ⟨h1, h2, h3, h4⟩ := core_bounds hm
    unfold corner inches at *
    dsimp only at h1 h2 h3 h4
    exact ⟨by linarith, by linarith, by linarith, by linarith⟩
  have tank : ∀ t, 0 ≤ t → Tank t P → 0 < P.1 ∧ P.1 < 100 ∧ 0 < P.2 ∧ P.2 < 100 := by
    rintro t ht ⟨h1, h2, h3, h4⟩
    unfold corner inches at *
    dsimp only at h1 h2 h3 h4
    exact ⟨by linarith, by linarith, by linarith, by linarith⟩
  rcases h with ⟨c, r, K, hK, h⟩ | (⟨c, r, K, hK, h⟩ | ⟨h, -⟩) | ⟨c, r, K, hK, h⟩ | ⟨c, r, K, hK, h⟩ | h
  · exact core .fuel ⟨c, r, K, hK, Or.inr (Or.inl ⟨rfl, h⟩)⟩
  · exact core .alu ⟨c, r, K, hK, Or.inl ⟨rfl, h⟩⟩
  · exact tank 0 le_rfl h
  · exact core .borated ⟨c, r, K, hK, Or.inr (Or.inr (Or.inl ⟨rfl, h⟩))⟩
  · exact core .steel ⟨c, r, K, hK, Or.inr (Or.inr (Or.inr ⟨rfl, h⟩))⟩
  · exact tank _ (by unfold inches; norm_num) h

/-- **C117**: the single element is in its domain. -/
theorem C117_single_whole (P : ℝ × ℝ) (h : Sides highElem (inSingle P).1 (inSingle P).2 ∨ ∃ k < 18, Plate highElem k (inSingle P).1 (inSingle P).2) :
    0 < P.1 ∧ P.1 < single.1 ∧ 0 < P.2 ∧ P.2 < single.2 := by
  have e1 : (inSingle P).1 = P.1 - single.1 / 2 := rfl
  have e2 : (inSingle P).2 = P.2 - (single.2 - inches (3189 / 1000)) / 2 := rfl
  have s1 : single.1 = 105 / 100 * (3031 / 1000 * (254 / 100)) := rfl
  have s2 : single.2 = 11 / 10 * (3189 / 1000 * (254 / 100)) := rfl
  rw [e1, e2] at h
  rcases h with ⟨h1, h2, h3⟩ | ⟨k, hk, h⟩
  · rw [high_eq.2.1] at h2 h3
    rw [high_eq.1] at h1
    unfold inches at h1 h2 h3
    rw [s1] at h1 ⊢
    rw [s2] at h2 h3 ⊢
    rcases h1 with h1 | h1 <;> exact ⟨by linarith, by linarith, by linarith, by linarith⟩
  · obtain ⟨q1, q2⟩ := high_plate h
    obtain ⟨h1, h2, -, -⟩ := h
    obtain ⟨b1, b2⟩ := bulge_of (Or.inr rfl) (abs_le.2 ⟨h1, h2.le⟩)
    have hf : foot highElem 0 = 17018 / 100000 + 115 / 1000 * (254 / 100) / 2 - 14605 / 100000 := by
      unfold foot
      rw [high_eq.2.1]
      unfold inches
      norm_num
    have hk1 : (k : ℝ) ≤ 17 := by exact_mod_cast (by omega : k ≤ 17)
    have hk0 : (0 : ℝ) ≤ k := Nat.cast_nonneg k
    rw [hf] at q1 q2
    rw [high_eq.1] at h1 h2
    unfold inches at *
    rw [s1] at h1 h2 ⊢
    generalize dome (P.1 - single.1 / 2) - dome (highElem.plate / 2) = b at *
    rw [s2] at q1 q2 ⊢
    exact ⟨by linarith, by linarith, by linarith, by linarith⟩

/-! ### The meat -/

/-- **C117**: over and under the meat there is at least 96 percent of the thickness of the clad. -/
theorem C117_clad (E : Elem) (hE : E = lowElem ∨ E = highElem) (k : Nat) (u v : ℝ) (h : Meat E k u v) (δ : ℝ) (hδ : |δ| ≤ 96 / 100 * E.clad) :
    Plate E k u (v + δ) := by
  obtain ⟨h1, h2, h3⟩ := meat_within hE h
  obtain ⟨d1, d2⟩ := abs_le.1 hδ
  obtain ⟨u1, u2⟩ := abs_lt.1 h1
  exact ⟨u1.le, u2, by linarith, by linarith⟩

/-- **C117** in part: meat of the thickness of the flat plate is within the meat that is drawn. -/
theorem C117_meat_partial (E : Elem) (hE : E = lowElem ∨ E = highElem) (k : Nat) (u v : ℝ) (h : EvenMeat E k u v) : Meat E k u v := even_meat hE h

/-- **C117 fails**: the comment says that the meat is as thick as in a flat plate; in the middle of every plate it is at least one percent
thicker, on both sides. -/
theorem C117_meat_fails (E : Elem) (hE : E = lowElem ∨ E = highElem) (k : Nat) : ∃ v v', Meat E k 0 v ∧ Meat E k 0 v' ∧
    ¬ EvenMeat E k 0 v ∧ ¬ EvenMeat E k 0 v' ∧ v' - v = 101 / 100 * E.meat := by
  obtain ⟨-, -, b1, b2⟩ := lift_bounds hE
  have hm : 0 < E.meat ∧ E.meat < 1 := by
    rcases hE with rfl | rfl
    · rw [low_eq.2.2.1]; norm_num
    · rw [high_eq.2.2.1]; norm_num
  have hd : dome 0 = R := by unfold dome; rw [zero_pow two_ne_zero, sub_zero]; exact Real.sqrt_sq R_pos.le
  have hR := R_eq
  have hs := sin_pos
  refine ⟨hub E k + (R - 101 / 200 * E.meat), hub E k + (R + 101 / 200 * E.meat), ?_, ?_, ?_, ?_, by ring⟩
  · refine ⟨?_, ?_, ?_⟩
    · rw [abs_zero, zero_mul, add_sub_cancel_left]
      exact mul_nonneg (by linarith) hs.le
    · rw [arcThrough_eq, hd, add_sub_cancel_left]; linarith
    · rw [arcThrough_eq, hd, add_sub_cancel_left]; linarith
  · refine ⟨?_, ?_, ?_⟩
    · rw [abs_zero, zero_mul, add_sub_cancel_left]
      exact mul_nonneg (by linarith) hs.le
    · rw [arcThrough_eq, hd, add_sub_cancel_left]; linarith
    · rw [arcThrough_eq, hd, add_sub_cancel_left]; linarith
  · rintro ⟨-, h, -⟩
    rw [add_sub_cancel_left] at h
    nlinarith
  · rintro ⟨-, -, h⟩
    rw [add_sub_cancel_left] at h
    nlinarith

/-- **C117 fails**: the programs for the core call their fuel LEU, which has less than 20 percent of uranium 235; it has more than 93. -/
theorem C117_enrichment_fails : ∃ w, (235, w) ∈ uranium ∧ 93 / 100 * (uranium.map (·.2)).sum < w :=
  ⟨14061 / 100, by simp [uranium], by norm_num [uranium]⟩

/-- **C117 fails**: the fractions of the weight of the fuel do not add up to one, because the zinc of the alloy is left out. -/
theorem C117_weights_fails : fractions.sum = 1 - 1 / 1000 * (aluminumWeight / totalWeight) ∧ fractions.sum < 1 := by decide +kernel

/-! ### Concrete cases -/

/-- The middle of the meat of a plate of the element in column 3 and row 6. -/
example : Fuel (corner.1 + (3 + 1 / 2) * inches (3031 / 1000), corner.2 + 6 * inches (3189 / 1000) + (hub lowElem 7 + R)) := by
  refine ⟨3, 6, .regular, rfl, 7, by show 7 < 18; omega, ?_⟩
  obtain ⟨-, -, b1, b2⟩ := lift_bounds (E := lowElem) (Or.inl rfl)
  have hd : dome 0 = R := by unfold dome; rw [zero_pow two_ne_zero, sub_zero]; exact Real.sqrt_sq R_pos.le
  have hm := low_eq.2.2.1
  have e1 : (local_ 3 6 (corner.1 + (3 + 1 / 2) * inches (3031 / 1000), corner.2 + 6 * inches (3189 / 1000) + (hub lowElem 7 + R))).1 = 0 := by
    unfold local_; push_cast; ring
  have e2 : (local_ 3 6 (corner.1 + (3 + 1 / 2) * inches (3031 / 1000), corner.2 + 6 * inches (3189 / 1000) + (hub lowElem 7 + R))).2 = hub lowElem 7 + R := by
    unfold local_; push_cast; ring
  rw [e1, e2]
  refine ⟨?_, ?_, ?_⟩
  · rw [abs_zero, zero_mul, add_sub_cancel_left]
    exact mul_nonneg R_pos.le sin_pos.le
  · rw [arcThrough_eq, hd, add_sub_cancel_left]; rw [hm] at b1 ⊢; linarith
  · rw [arcThrough_eq, hd, add_sub_cancel_left]; rw [hm] at b2 ⊢; linarith

/-- The top plate of an element is above its cell. -/
example : ∃ v, Plate lowElem 17 0 v ∧ inches (3189 / 1000) + 1 / 10 < v := by
  have hd : dome 0 = R := by unfold dome; rw [zero_pow two_ne_zero, sub_zero]; exact Real.sqrt_sq R_pos.le
  have h3 := dome_sq (a := lowElem.plate / 2) (by rw [low_eq.1, R_eq, abs_of_pos (by norm_num)]; norm_num)
  have h4 := dome_nonneg (lowElem.plate / 2)
  refine ⟨foot lowElem 17 + (dome 0 - dome (lowElem.plate / 2)), ⟨?_, ?_, ?_, ?_⟩, ?_⟩
  · rw [low_eq.1]; norm_num
  · rw [low_eq.1]; norm_num
  · linarith
  · rw [thickness]; linarith
  · rw [foot_eq, hd, R_eq]
    rw [low_eq.1, R_eq] at h3
    rw [low_eq.1] at h4 ⊢
    unfold inches
    norm_num at h3 h4 ⊢
    nlinarith

/-- Sorting real numbers. -/
noncomputable def sortR (l : List ℝ) : List ℝ := l.insertionSort (· ≤ ·)

theorem sortR_ok (l : List ℝ) : IsStdSort (fun a b => decide (a < b)) l (sortR l) :=
  ⟨List.perm_insertionSort _ _, by
    have := List.pairwise_insertionSort (· ≤ ·) l
    simpa [sortR] using this⟩

/-- A grid of 20 by 20 cells, and an answer of the kernel. -/
example : ∃ d S m cs map all reg, leuDraw = some d ∧ sheet (fun e => [e]) (fun n => n) (fun _ => "") (leuGroups d) d = .ok S ∧
    gridCuts sortR (1 / 10 ^ 7) (Mpact.Model.empty ℝ Unit) leuDomain 20 20 = .ok (m, cs) ∧ FragmentsOf S.tags (shapeOf d) cs map all reg ∧
    ∃ g gone, lay (fun e => [e]) S cs map all (MFiles.str "Water", "Water") = .ok (g, gone) ∧ Core (MaterialAt g reg) := by
  obtain ⟨d, h1, S, m, cs, h2, h3, h4⟩ := C117_core (fun e => [e]) sortR sortR_ok (1 / 10 ^ 7) (by norm_num) (Mpact.Model.empty ℝ Unit) ⟨rfl, rfl, rfl, rfl, rfl⟩
    20 (by norm_num) (by norm_num) (by norm_num) (fun n => n) (fun _ => "")
  obtain ⟨map, all, reg, F⟩ := NuscaleP.C114_fragments S.tags (shapeOf d) cs
  obtain ⟨g, gone, g1, g2, -⟩ := h4 map all reg F
  exact ⟨d, S, m, cs, map, all, reg, h1, h2, h3, F, g, gone, g1, g2⟩

end Verif.FnrP
