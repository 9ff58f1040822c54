import Verif.Model.Grid
import Mathlib.Data.Rat.Floor
import Mathlib.Algebra.Order.Floor.Ring
import Mathlib.Tactic.Linarith
import Mathlib.Tactic.Ring
import Mathlib.Tactic.NormNum
import Mathlib.Tactic.FieldSimp
import Mathlib.Tactic.SplitIfs

/-!
# C36, C37: point location and range queries of a RegularGrid
-/

namespace Verif.Grid

variable {K : Type} [Field K] [LinearOrder K] [IsStrictOrderedRing K]

/-- Specification: `x` is in the half-open extent of cell `k` along one axis. -/
def InCell (g : Axis K) (k : ℤ) (x : K) : Prop := (g.cell k).1 ≤ x ∧ x < (g.cell k).2

/-- A usable axis (the constructor's `ASSERT`s, regular_grid.hpp 143-147). -/
structure Axis.Valid (g : Axis K) : Prop where
  dx : 0 < g.dx
  n : 1 ≤ g.n
  nmax : g.n ≤ 2147483647

theorem inCell_iff_div {g : Axis K} (h : 0 < g.dx) (k : ℤ) (x : K) :
    InCell g k x ↔ (k : K) ≤ (x - g.min) / g.dx ∧ (x - g.min) / g.dx < k + 1 := by
  unfold InCell Axis.cell
  rw [le_div_iff₀ h, div_lt_iff₀ h]
  constructor <;> rintro ⟨a, b⟩ <;> constructor <;> dsimp only at * <;> nlinarith

theorem inCell_iff [FloorRing K] {g : Axis K} (h : 0 < g.dx) (k : ℤ) (x : K) :
    InCell g k x ↔ ⌊(x - g.min) / g.dx⌋ = k := by
  rw [inCell_iff_div h, Int.floor_eq_iff]

theorem inside_iff [FloorRing K] {g : Axis K} (h : 0 < g.dx) (x : K) :
    (g.min ≤ x ∧ x < g.max) ↔ 0 ≤ ⌊(x - g.min) / g.dx⌋ ∧ ⌊(x - g.min) / g.dx⌋ < g.n := by
  unfold Axis.max Axis.extent
  rw [Int.floor_nonneg, Int.floor_lt, le_div_iff₀ h, div_lt_iff₀ h]
  constructor <;> rintro ⟨a, b⟩ <;> constructor <;> linarith

/-- The cells tile the axis: the first starts at the lower end, the last ends at the upper end, each
ends where the next starts, and every point of the half-open axis is in exactly one cell, points
outside in none. -/
theorem C36_tiling [FloorRing K] (g : Axis K) (hg : g.Valid) :
    (g.cell 0).1 = g.min ∧ (g.cell (g.n - 1)).2 = g.max ∧
    (∀ k, (g.cell k).2 = (g.cell (k + 1)).1) ∧
    (∀ x, (g.min ≤ x ∧ x < g.max) → ∃! k : ℤ, 0 ≤ k ∧ k < g.n ∧ InCell g k x) ∧
    (∀ x, ¬ (g.min ≤ x ∧ x < g.max) → ∀ k : ℤ, 0 ≤ k → k < g.n → ¬ InCell g k x) := by
  refine ⟨by simp [Axis.cell], ?_, ?_, ?_, ?_⟩
  · simp [Axis.cell, Axis.max, Axis.extent]; ring
  · intro k; simp [Axis.cell]; ring
  · intro x hx
    rw [inside_iff hg.dx] at hx
    exact ⟨_, ⟨hx.1, hx.2, (inCell_iff hg.dx _ _).2 rfl⟩, fun k hk => ((inCell_iff hg.dx _ _).1 hk.2.2).symm⟩
  · intro x hx k h0 h1 hk
    rw [inCell_iff hg.dx] at hk
    exact hx ((inside_iff hg.dx x).2 (by rw [hk]; exact ⟨h0, h1⟩))

/-- The centroid is the middle of the cell, strictly inside. -/
theorem C36_centroid (g : Axis K) (hg : g.Valid) (k : ℤ) :
    g.centroid k = ((g.cell k).1 + (g.cell k).2) / 2 ∧
      (g.cell k).1 < g.centroid k ∧ g.centroid k < (g.cell k).2 := by
  have := hg.dx
  refine ⟨?_, ?_, ?_⟩ <;> simp only [Axis.centroid, Axis.cell]
  · ring
  · linarith
  · linarith

theorem index_eq [FloorRing K] (g : Axis K) (hg : g.Valid) (x : K) :
    g.index x = if ⌊(x - g.min) / g.dx⌋ < -2147483648 ∨ 2147483647 < ⌊(x - g.min) / g.dx⌋ then none
      else if g.min ≤ x ∧ x < g.max then some ⌊(x - g.min) / g.dx⌋ else some (-1) := by
  have hn := hg.n
  simp only [inside_iff hg.dx]
  unfold Axis.index
  generalize ⌊(x - g.min) / g.dx⌋ = f
  by_cases h : -2147483648 ≤ f ∧ f ≤ 2147483647
  · rw [chk_some h.1 h.2, Option.bind_some, if_neg (by omega : ¬ (f < _ ∨ _ < f))]
    unfold clampInt
    split_ifs <;> first | rfl | omega | (congr 1; omega)
  · rw [chk_none h, Option.bind_none, if_pos (by omega)]

/-- `getCellIndexContaining` along one axis: a point inside gets its cell; a point outside gets `-1`,
unless it is 2³¹ or more cells away, where the conversion to `Int` is undefined. -/
theorem C36_index [FloorRing K] (g : Axis K) (hg : g.Valid) (x : K) :
    ((g.min ≤ x ∧ x < g.max) → ∃ k, g.index x = some k ∧ 0 ≤ k ∧ k < g.n ∧ InCell g k x ∧
      ∀ k' : ℤ, InCell g k' x → k' = k) ∧
    (¬ (g.min ≤ x ∧ x < g.max) → g.min - 2147483648 * g.dx ≤ x → x < g.min + 2147483648 * g.dx →
      g.index x = some (-1)) ∧
    (g.index x = none ↔ x < g.min - 2147483648 * g.dx ∨ g.min + 2147483648 * g.dx ≤ x) := by
  have hd := hg.dx
  have hm := hg.nmax
  have hn := hg.n
  have conv : (⌊(x - g.min) / g.dx⌋ < -2147483648 ∨ 2147483647 < ⌊(x - g.min) / g.dx⌋) ↔
      (x < g.min - 2147483648 * g.dx ∨ g.min + 2147483648 * g.dx ≤ x) := by
    rw [Int.floor_lt, show (2147483647 < ⌊(x - g.min) / g.dx⌋) ↔ (2147483648 ≤ ⌊(x - g.min) / g.dx⌋) by omega,
      Int.le_floor, div_lt_iff₀ hd, le_div_iff₀ hd]
    push_cast
    constructor <;> rintro (h | h) <;> first | (left; linarith) | (right; linarith)
  rw [index_eq g hg]
  refine ⟨?_, ?_, ?_⟩
  · intro hx
    have hb := (inside_iff hd x).1 hx
    rw [if_neg (by omega), if_pos hx]
    exact ⟨_, rfl, hb.1, hb.2, (inCell_iff hd _ _).2 rfl, fun k' hk' => ((inCell_iff hd _ _).1 hk').symm⟩
  · intro hx h0 h1
    rw [if_neg (by rw [conv, not_or]; exact ⟨not_lt.2 h0, not_le.2 h1⟩), if_neg hx]
  · rw [← conv]
    split_ifs with h h'
    · exact ⟨fun _ => h, fun _ => rfl⟩
    · exact ⟨fun e => (by cases e), fun e => absurd e h⟩
    · exact ⟨fun e => (by cases e), fun e => absurd e h⟩

/-- In any dimension: for a point inside the grid, the result has one index per axis and is the only
cell whose half-open box contains the point. -/
theorem C36_cell [FloorRing K] (g : List (Axis K)) (hg : ∀ a ∈ g, a.Valid) (p : List K)
    (hp : List.Forall₂ (fun (a : Axis K) x => a.min ≤ x ∧ x < a.max) g p) :
    ∃ idx, getCellIndexContaining g p = some idx ∧ idx.length = g.length ∧
      (∀ (d : Nat) (a : Axis K) (x : K) (k : ℤ), g[d]? = some a → p[d]? = some x → idx[d]? = some k →
        0 ≤ k ∧ k < a.n ∧ InCell a k x) ∧
      ∀ idx' : List ℤ, idx'.length = g.length →
        (∀ (d : Nat) (a : Axis K) (x : K) (k : ℤ), g[d]? = some a → p[d]? = some x → idx'[d]? = some k →
          InCell a k x) → idx' = idx := by
  unfold getCellIndexContaining
  induction hp with
  | nil => exact ⟨[], rfl, rfl, by simp, fun idx' h _ => List.length_eq_zero_iff.1 h⟩
  | @cons a x as xs h hr ih =>
    obtain ⟨is, e, l, p1, p2⟩ := ih fun b hb => hg b (List.mem_cons_of_mem _ hb)
    obtain ⟨k, ek, k0, k1, kc, ku⟩ := (C36_index a (hg a (List.mem_cons_self ..)) x).1 h
    refine ⟨k :: is, ?_, by simp [l], ?_, ?_⟩
    · rw [List.zipWith_cons_cons, List.mapM_cons, id, ek, e]; rfl
    · intro d b y j hb hy hj
      cases d with
      | zero =>
        simp only [List.getElem?_cons_zero, Option.some.injEq] at hb hy hj
        subst hb hy hj; exact ⟨k0, k1, kc⟩
      | succ d => exact p1 d b y j (by simpa using hb) (by simpa using hy) (by simpa using hj)
    · intro idx' hl hc
      cases idx' with
      | nil => simp at hl
      | cons k' is' =>
        rw [ku k' (hc 0 a x k' rfl rfl rfl),
          p2 is' (by simpa using hl) fun d b y j hb hy hj => hc (d + 1) b y j (by simpa using hb)
            (by simpa using hy) (by simpa using hj)]

/-- `getCellIndicesIntersecting` along one axis, for an interval `[lo, hi]`: either the pair `(-1, -1)` and no cell
meets the interval, or the range of exactly the cells that do. -/
theorem C37_range [FloorRing K] (g : Axis K) (hg : g.Valid) (lo hi : K) (hlh : lo ≤ hi)
    (h0 : g.min - 2147483648 * g.dx ≤ lo) (h1 : hi < g.min + 2147483648 * g.dx) :
    (g.range lo hi = some (-1, -1) ∧
      ∀ k : ℤ, 0 ≤ k → k < g.n → ¬ ∃ x, lo ≤ x ∧ x ≤ hi ∧ InCell g k x) ∨
    (∃ k0 k1 : ℤ, g.range lo hi = some (k0, k1) ∧ 0 ≤ k0 ∧ k0 ≤ k1 ∧ k1 < g.n ∧
      ∀ k : ℤ, 0 ≤ k → k < g.n → ((k0 ≤ k ∧ k ≤ k1) ↔ ∃ x, lo ≤ x ∧ x ≤ hi ∧ InCell g k x)) := by
  have hd := hg.dx
  have hn := hg.n
  have hmono : ⌊(lo - g.min) / g.dx⌋ ≤ ⌊(hi - g.min) / g.dx⌋ :=
    Int.floor_le_floor (div_le_div_of_nonneg_right (by linarith) hd.le)
  have b0 : -2147483648 ≤ ⌊(lo - g.min) / g.dx⌋ := by
    rw [Int.le_floor, le_div_iff₀ hd]; push_cast; linarith
  have b1 : ⌊(hi - g.min) / g.dx⌋ < 2147483648 := by
    rw [Int.floor_lt, div_lt_iff₀ hd]; push_cast; linarith
  -- a cell meets the interval iff its index is between the two floors
  have meets : ∀ k : ℤ, (∃ x, lo ≤ x ∧ x ≤ hi ∧ InCell g k x) ↔
      ⌊(lo - g.min) / g.dx⌋ ≤ k ∧ k ≤ ⌊(hi - g.min) / g.dx⌋ := by
    intro k
    constructor
    · rintro ⟨x, hx0, hx1, hc⟩
      rw [inCell_iff hd] at hc
      rw [← hc]
      exact ⟨Int.floor_le_floor (div_le_div_of_nonneg_right (by linarith) hd.le),
        Int.floor_le_floor (div_le_div_of_nonneg_right (by linarith) hd.le)⟩
    · rintro ⟨ha, hb⟩
      by_cases hk : ⌊(lo - g.min) / g.dx⌋ = k
      · exact ⟨lo, le_rfl, hlh, (inCell_iff hd _ _).2 hk⟩
      · have hlt : ⌊(lo - g.min) / g.dx⌋ < k := lt_of_le_of_ne ha hk
        rw [Int.floor_lt, div_lt_iff₀ hd] at hlt
        rw [Int.le_floor, le_div_iff₀ hd] at hb
        refine ⟨g.min + g.dx * k, by linarith, by linarith, ?_⟩
        unfold InCell Axis.cell
        dsimp only
        exact ⟨le_rfl, by linarith⟩
  unfold Axis.range
  simp only [meets]
  generalize ⌊(lo - g.min) / g.dx⌋ = r0 at *
  generalize ⌊(hi - g.min) / g.dx⌋ = r1 at *
  rw [chk_some b0 (by omega), Option.bind_some, chk_some (by omega) (by omega), Option.bind_some]
  by_cases h : g.n - 1 < r0 ∨ r1 < 0
  · rw [if_pos h]
    exact Or.inl ⟨rfl, fun k _ _ => by omega⟩
  · rw [if_neg h]
    refine Or.inr ⟨_, _, rfl, ?_⟩
    unfold clampInt
    split_ifs <;> refine ⟨by omega, by omega, by omega, fun k _ _ => by omega⟩

/-- Outside that range of coordinates the conversion to `Int` is undefined. -/
theorem C37_undefined [FloorRing K] (g : Axis K) (hg : g.Valid) (lo hi : K) (hlh : lo ≤ hi) :
    g.range lo hi = none ↔ lo < g.min - 2147483648 * g.dx ∨ g.min + 2147483648 * g.dx ≤ hi := by
  constructor
  · intro h
    by_contra hc
    rw [not_or, not_lt, not_le] at hc
    rcases C37_range g hg lo hi hlh hc.1 hc.2 with ⟨e, -⟩ | ⟨k0, k1, e, -⟩ <;> rw [e] at h <;> cases h
  · have hd := hg.dx
    have hmono : ⌊(lo - g.min) / g.dx⌋ ≤ ⌊(hi - g.min) / g.dx⌋ :=
      Int.floor_le_floor (div_le_div_of_nonneg_right (by linarith) hd.le)
    rintro (h | h)
    · have : ⌊(lo - g.min) / g.dx⌋ < -2147483648 := by
        rw [Int.floor_lt, div_lt_iff₀ hd]; push_cast; linarith
      unfold Axis.range
      rw [chk_none (by omega), Option.bind_none]
    · have : 2147483648 ≤ ⌊(hi - g.min) / g.dx⌋ := by
        rw [Int.le_floor, le_div_iff₀ hd]; push_cast; linarith
      unfold Axis.range
      cases chk ⌊(lo - g.min) / g.dx⌋ with
      | none => rfl
      | some r => rw [Option.bind_some, chk_none (by omega), Option.bind_none]

/-- A grid of 4 cells of width 1/2 from 1; the point 2 (a cell boundary) and the interval [0, 2]. -/
example : (⟨1, 1/2, 4⟩ : Axis ℚ).Valid ∧ (⟨1, 1/2, 4⟩ : Axis ℚ).index 2 = some 2 ∧
    (⟨1, 1/2, 4⟩ : Axis ℚ).range 0 2 = some (0, 2) := by
  refine ⟨⟨by norm_num, by norm_num, by norm_num⟩, ?_, ?_⟩
  · have : ⌊((2 : ℚ) - 1) / (1 / 2)⌋ = 2 := by norm_num
    simp only [Axis.index, this]; rfl
  · have h0 : ⌊((0 : ℚ) - 1) / (1 / 2)⌋ = -2 := by norm_num
    have h1 : ⌊((2 : ℚ) - 1) / (1 / 2)⌋ = 2 := by norm_num
    simp only [Axis.range, h0, h1]; rfl

end Verif.Grid
