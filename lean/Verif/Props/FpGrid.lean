import Verif.Lemmas.FpGrid
import Mathlib.Data.Rat.Floor

/-! C125: locating points and boxes in a regular grid in floating-point arithmetic. -/

set_option linter.unusedSectionVars false

namespace Verif.FpGridP

open Verif.Fp
open Verif.Grid (Axis clampInt)

variable {K : Type} [Field K] [LinearOrder K] [IsStrictOrderedRing K] [FloorRing K] {p : ℕ} (R : Rounding K p)

theorem index_cases {g : Axis K} {x : K} {r : ℤ} (h : gridIndex R g x = some r) :
    (r = -1 ∧ (g.n - 1 < gridFloor R g x ∨ gridFloor R g x < 0)) ∨ (r = gridFloor R g x ∧ 0 ≤ r ∧ r < g.n) := by
  unfold gridIndex at h
  obtain ⟨f, hf, h⟩ := Option.bind_eq_some_iff.1 h
  rw [chk_eq hf] at *
  split at h
  · next c => exact .inl ⟨(Option.some.inj h).symm, c⟩
  · next c =>
    push Not at c
    have := (Option.some.inj h).symm
    rw [clampInt, if_neg (by omega), if_neg (by omega)] at this
    exact .inr ⟨this, by omega, by omega⟩

theorem index_eq {g : Axis K} {x : K} {i : ℤ} (hn : g.n ≤ 2147483647) (h : gridFloor R g x = i) (h0 : 0 ≤ i) (h1 : i < g.n) : gridIndex R g x = some i := by
  unfold gridIndex
  rw [h, chk, if_pos (by omega)]
  simp only [Option.bind_some]
  rw [if_neg (by omega), clampInt, if_neg (by omega), if_neg (by omega)]

/-- The conversion to `Int` is defined for points within `2 ^ 30` cells of the lower end. -/
theorem C125_defined (hp : 2 ≤ p) {g : Axis K} (d0 : 0 < g.dx) (hd : IsFp p g.dx) {x : K} (h : |x - g.min| ≤ 2 ^ 30 * g.dx) : ∃ r, gridIndex R g x = some r := by
  have hp1 : 1 ≤ p := by omega
  obtain ⟨h1, h2⟩ := abs_le.1 h
  have f1 : IsFp p (2 ^ 30 * g.dx) := by simpa [mul_comm] using hd.scale (30 : ℤ)
  have y1 := R.le_of_le h2 f1
  have y2 := R.ge_of_ge h1 f1.neg
  have f2 : IsFp p ((2 : K) ^ 30) := by simpa using isFp_pow (K := K) hp1 (30 : ℤ)
  have q1 := R.le_of_le ((div_le_iff₀ d0).2 y1) f2
  have q2 := R.ge_of_ge (x := R.rnd (x - g.min) / g.dx) (y := -2 ^ 30) ((le_div_iff₀ d0).2 (by linarith)) f2.neg
  have a : gridFloor R g x ≤ 2 ^ 30 := by
    refine Int.floor_le_iff.2 ?_
    push_cast
    linarith
  have b : -2 ^ 30 ≤ gridFloor R g x := by
    refine Int.le_floor.2 ?_
    push_cast
    linarith
  unfold gridIndex
  rw [chk, if_pos (by omega)]
  simp only [Option.bind_some]
  split <;> exact ⟨_, rfl⟩

/-- At the lower end the decision is exact: points below it are in no cell. -/
theorem C125_lower (hp : 2 ≤ p) {g : Axis K} (d0 : 0 < g.dx) {x : K} {r : ℤ} (h : gridIndex R g x = some r) (hx : x < g.min) : r = -1 := by
  rcases index_cases R h with ⟨a, -⟩ | ⟨a, b, -⟩
  · exact a
  · have := (floor_neg R (by omega) g d0).2 hx
    omega

/-- The cell found is that of the exact calculation up to a relative error of the distance from the lower end. -/
theorem C125_near (hp : 2 ≤ p) {g : Axis K} (d0 : 0 < g.dx) {x : K} {r : ℤ} (h : gridIndex R g x = some r) (hr : r ≠ -1) :
    0 ≤ r ∧ r < g.n ∧ g.min ≤ x ∧ (r : K) * g.dx ≤ (x - g.min) * (1 + 3 / 2 ^ p) ∧ (x - g.min) * (1 - 2 / 2 ^ p) < ((r : K) + 1) * g.dx := by
  rcases index_cases R h with ⟨a, -⟩ | ⟨a, b, c⟩
  · exact absurd a hr
  · have hx : g.min ≤ x := by
      by_contra q
      push Not at q
      have := (floor_neg R (by omega) g d0).2 q
      omega
    obtain ⟨q1, q2⟩ := quot_near R hp g d0 hx
    have l := Int.floor_le (R.rnd (R.rnd (x - g.min) / g.dx))
    have u := Int.lt_floor_add_one (R.rnd (R.rnd (x - g.min) / g.dx))
    unfold gridFloor at a
    rw [← a] at l u
    have l' := l.trans q2
    have u' := q1.trans_lt u
    rw [div_mul_eq_mul_div] at l' u'
    exact ⟨b, c, hx, (le_div_iff₀ d0).1 l', (div_lt_iff₀ d0).1 u'⟩

/-- A point that is not below the lower end is in no cell only if it is at the upper end or above, up to the same relative error. -/
theorem C125_outside (hp : 2 ≤ p) {g : Axis K} (d0 : 0 < g.dx) {x : K} (h : gridIndex R g x = some (-1)) (hx : g.min ≤ x) :
    (g.n : K) * g.dx ≤ (x - g.min) * (1 + 3 / 2 ^ p) := by
  rcases index_cases R h with ⟨-, a⟩ | ⟨-, b, -⟩
  · have nn : ¬ gridFloor R g x < 0 := by rw [floor_neg R (by omega) g d0]; exact not_lt.2 hx
    have a' : g.n ≤ gridFloor R g x := by omega
    have := (Int.le_floor.1 a').trans (quot_near R hp g d0 hx).2
    rw [div_mul_eq_mul_div] at this
    exact (le_div_iff₀ d0).1 this
  · omega

/-- Points in a cell and away from its ends are located in it. -/
theorem C125_locate (hp : 2 ≤ p) {g : Axis K} (d0 : 0 < g.dx) (hn : g.n ≤ 2147483647) {x : K} {i : ℤ} (i0 : 0 ≤ i) (hi : i < g.n)
    (h1 : (i : K) * g.dx ≤ (x - g.min) * (1 - 2 / 2 ^ p)) (h2 : (x - g.min) * (1 + 3 / 2 ^ p) < ((i : K) + 1) * g.dx) : gridIndex R g x = some i := by
  have u4 : (2 : K) / 2 ^ p < 1 := by
    rw [div_lt_one (by positivity)]
    calc (2 : K) < 2 ^ 2 := by norm_num
      _ ≤ 2 ^ p := pow_le_pow_right₀ (by norm_num) hp
  have hx : g.min ≤ x := by
    by_contra q
    push Not at q
    have : (0 : K) ≤ i * g.dx := mul_nonneg (by exact_mod_cast i0) d0.le
    have := mul_neg_of_neg_of_pos (sub_neg.2 q) (sub_pos.2 u4)
    linarith
  obtain ⟨q1, q2⟩ := quot_near R hp g d0 hx
  rw [div_mul_eq_mul_div] at q1 q2
  refine index_eq R hn ?_ i0 hi
  refine Int.floor_eq_iff.2 ⟨((le_div_iff₀ d0).2 h1).trans q1, q2.trans_lt ((div_lt_iff₀ d0).2 h2)⟩

/-- If the distance from the lower end and the ends of a cell (relative to the lower end) are numbers of the format, the decision is exact. -/
theorem C125_exact (hp : 1 ≤ p) {g : Axis K} (d0 : 0 < g.dx) (hn : g.n ≤ 2147483647) {x : K} (hx : IsFp p (x - g.min)) {i : ℕ} (hi : (i : ℤ) < g.n)
    (hip : i + 1 ≤ 2 ^ p) (h1 : IsFp p ((i : K) * g.dx)) (h2 : IsFp p (((i : K) + 1) * g.dx)) :
    gridIndex R g x = some (i : ℤ) ↔ (i : K) * g.dx ≤ x - g.min ∧ x - g.min < ((i : K) + 1) * g.dx := by
  have q1 := quot_exact R hp (i := i) (by omega) hx d0 h1
  have q2 := quot_exact R hp (i := i + 1) hip hx d0 (by push_cast; exact h2)
  push_cast at q2
  have key : gridFloor R g x = i ↔ (i : K) * g.dx ≤ x - g.min ∧ x - g.min < ((i : K) + 1) * g.dx := by
    unfold gridFloor
    rw [R.id hx, Int.floor_eq_iff, Int.cast_natCast, q1, ← not_le, q2, not_le]
  constructor
  · intro h
    rcases index_cases R h with ⟨a, -⟩ | ⟨a, -, -⟩
    · omega
    · exact key.1 a.symm
  · intro h
    exact index_eq R hn (key.2 h) (by omega) hi

/-- The order of points is the order of their cells. -/
theorem C125_monotone {g : Axis K} (d0 : 0 < g.dx) {x y : K} (h : x ≤ y) {a b : ℤ} (ha : gridIndex R g x = some a) (hb : gridIndex R g y = some b)
    (ha' : a ≠ -1) (hb' : b ≠ -1) : a ≤ b := by
  have m := floor_mono R g d0 h
  rcases index_cases R ha with ⟨c, -⟩ | ⟨c, -, -⟩
  · exact absurd c ha'
  · rcases index_cases R hb with ⟨e, -⟩ | ⟨e, -, -⟩
    · exact absurd e hb'
    · omega

theorem range_cases {g : Axis K} {lo hi : K} {a b : ℤ} (h : gridRange R g lo hi = some (a, b)) :
    (a = -1 ∧ b = -1 ∧ (g.n - 1 < gridFloor R g lo ∨ gridFloor R g hi < 0)) ∨
    (gridFloor R g lo < g.n ∧ 0 ≤ gridFloor R g hi ∧ a = clampInt (gridFloor R g lo) 0 (g.n - 1) ∧ b = clampInt (gridFloor R g hi) 0 (g.n - 1)) := by
  unfold gridRange at h
  obtain ⟨f, hf, h⟩ := Option.bind_eq_some_iff.1 h
  obtain ⟨f', hf', h⟩ := Option.bind_eq_some_iff.1 h
  rw [chk_eq hf, chk_eq hf']
  split at h
  · next c =>
    obtain ⟨h1, h2⟩ := Prod.mk.inj (Option.some.inj h)
    exact .inl ⟨h1.symm, h2.symm, c⟩
  · next c =>
    push Not at c
    obtain ⟨h1, h2⟩ := Prod.mk.inj (Option.some.inj h)
    exact .inr ⟨by omega, c.2, h1.symm, h2.symm⟩

/-- The cells that meet a box are none or a range in order. -/
theorem C125_range {g : Axis K} (d0 : 0 < g.dx) (n0 : 0 < g.n) {lo hi : K} (h : lo ≤ hi) {a b : ℤ} (hr : gridRange R g lo hi = some (a, b)) :
    (a = -1 ∧ b = -1) ∨ (0 ≤ a ∧ a ≤ b ∧ b < g.n) := by
  have m := floor_mono R g d0 h
  rcases range_cases R hr with ⟨c, e, -⟩ | ⟨c, e, rfl, rfl⟩
  · exact .inl ⟨c, e⟩
  · right
    unfold clampInt
    split_ifs <;> omega

/-- The cell of each point of the box is in the range: the two searches never disagree. -/
theorem C125_range_covers {g : Axis K} (d0 : 0 < g.dx) {lo hi x : K} (h1 : lo ≤ x) (h2 : x ≤ hi) {a b i : ℤ} (hr : gridRange R g lo hi = some (a, b))
    (hx : gridIndex R g x = some i) (hi' : i ≠ -1) : a ≠ -1 ∧ a ≤ i ∧ i ≤ b := by
  have m1 := floor_mono R g d0 h1
  have m2 := floor_mono R g d0 h2
  rcases index_cases R hx with ⟨c, -⟩ | ⟨rfl, c, c'⟩
  · exact absurd c hi'
  · rcases range_cases R hr with ⟨-, -, e | e⟩ | ⟨e, e', rfl, rfl⟩
    · omega
    · omega
    · unfold clampInt
      split_ifs <;> omega

/-- The ends of a cell. -/
theorem C125_cell (hp : 2 ≤ p) (fused : Bool) {g : Axis K} (d0 : 0 < g.dx) {i : ℕ} (hi : i ≤ 2 ^ p) :
    |(gridCell R fused g i).1 - (g.min + i * g.dx)| ≤ 3 / 2 ^ p * (|g.min| + i * g.dx) ∧
    |(gridCell R fused g i).2 - (g.min + (i + 1) * g.dx)| ≤ 5 / 2 ^ p * (|g.min| + (i + 1) * g.dx) := by
  have hp1 : 1 ≤ p := by omega
  have e := mulAdd_error R hp1 fused (a := g.min) (b := g.dx) (c := (i : K))
  have i0 : (0 : K) ≤ i := Nat.cast_nonneg i
  rw [abs_of_nonneg (mul_nonneg d0.le i0), mul_comm g.dx] at e
  unfold gridCell
  dsimp only
  rw [Int.cast_natCast, R.id (isFp_nat hp1 hi)]
  refine ⟨e, ?_⟩
  have r := rel_u R hp1 (mulAdd R fused g.min g.dx i + g.dx)
  have u4 : (1 : K) / 2 ^ p ≤ 1 / 4 := by
    refine one_div_le_one_div_of_le (by norm_num) ?_
    calc (4 : K) = 2 ^ 2 := by norm_num
      _ ≤ 2 ^ p := pow_le_pow_right₀ (by norm_num) hp
  have hu : (0 : K) < 1 / 2 ^ p := by positivity
  rw [show (3 : K) / 2 ^ p = 3 * (1 / 2 ^ p) by ring] at e
  rw [show (5 : K) / 2 ^ p = 5 * (1 / 2 ^ p) by ring]
  generalize R.rnd (mulAdd R fused g.min g.dx i + g.dx) = s at *
  generalize mulAdd R fused g.min g.dx i = m at *
  generalize (1 : K) / 2 ^ p = u at *
  have g0 := abs_nonneg g.min
  have id0 : 0 ≤ (i : K) * g.dx := mul_nonneg i0 d0.le
  have t1 := abs_add_le (s - (m + g.dx)) (m - (g.min + i * g.dx))
  rw [show s - (m + g.dx) + (m - (g.min + i * g.dx)) = s - (g.min + (i + 1) * g.dx) by ring] at t1
  have t2 := abs_add_le (m - (g.min + i * g.dx)) (g.min + (i + 1) * g.dx)
  rw [show m - (g.min + i * g.dx) + (g.min + (i + 1) * g.dx) = m + g.dx by ring] at t2
  have t3 := abs_add_le g.min ((i + 1) * g.dx)
  rw [abs_of_nonneg (by linarith : 0 ≤ ((i : K) + 1) * g.dx)] at t3
  generalize hA : |g.min| + (i + 1) * g.dx = A at *
  have hB : |g.min| + i * g.dx ≤ A := by linarith
  have A0 : 0 ≤ A := by linarith
  have e2 : |m - (g.min + i * g.dx)| ≤ 3 * u * A := e.trans (mul_le_mul_of_nonneg_left hB (by linarith))
  have e3 : 3 * u * A ≤ A := by nlinarith
  have e4 : u * |m + g.dx| ≤ u * (2 * A) := mul_le_mul_of_nonneg_left (by linarith) hu.le
  linarith

/-- Neighbouring cells meet up to a relative error. -/
theorem C125_neighbours (hp : 2 ≤ p) (fused : Bool) {g : Axis K} (d0 : 0 < g.dx) {i : ℕ} (hi : i + 1 ≤ 2 ^ p) :
    |(gridCell R fused g (i + 1 : ℕ)).1 - (gridCell R fused g i).2| ≤ 8 / 2 ^ p * (|g.min| + (i + 1) * g.dx) := by
  have a := (C125_cell R hp fused d0 (i := i) (by omega)).2
  have b := (C125_cell R hp fused d0 (i := i + 1) hi).1
  push_cast at b ⊢
  rw [abs_sub_comm] at a
  have t := abs_add_le ((gridCell R fused g (i + 1)).1 - (g.min + (i + 1) * g.dx)) ((g.min + (i + 1) * g.dx) - (gridCell R fused g i).2)
  rw [sub_add_sub_cancel] at t
  refine t.trans ((add_le_add b a).trans (le_of_eq (by ring)))

/-- The ends of the cells are in order, and no cell is inverted. -/
theorem C125_cell_order (fused : Bool) {g : Axis K} (d0 : 0 < g.dx) (hm : IsFp p g.min) {i j : ℤ} (h : i ≤ j) :
    (gridCell R fused g i).1 ≤ (gridCell R fused g j).1 ∧ (gridCell R fused g i).2 ≤ (gridCell R fused g j).2 ∧
    (gridCell R fused g i).1 ≤ (gridCell R fused g i).2 ∧ (0 ≤ i → g.min ≤ (gridCell R fused g i).1) := by
  have m := mulAdd_mono R fused (a := g.min) d0.le (R.mono (by exact_mod_cast h : (i : K) ≤ j))
  have f : IsFp p (mulAdd R fused g.min g.dx (R.rnd (i : K))) := by unfold mulAdd; split <;> exact R.mem _
  refine ⟨m, R.mono (by linarith), R.ge_of_ge (le_add_of_nonneg_right d0.le) f, fun i0 => ?_⟩
  have c0 : 0 ≤ R.rnd (i : K) := R.ge_of_ge (by exact_mod_cast i0) isFp_zero
  have := mul_nonneg d0.le c0
  show _ ≤ mulAdd R fused g.min g.dx (R.rnd (i : K))
  unfold mulAdd
  split
  · exact R.ge_of_ge (by linarith) hm
  · exact R.ge_of_ge (by linarith [R.ge_of_ge this isFp_zero]) hm

/-- If the rounding errors are small against the spacing, the centroid of each cell is located in the cell. -/
theorem C125_centroid (hp : 2 ≤ p) (fused : Bool) {g : Axis K} (d0 : 0 < g.dx) (hn : g.n ≤ 2147483647) (hs : 16 / 2 ^ p * (|g.min| + g.n * g.dx) ≤ g.dx)
    {i : ℤ} (i0 : 0 ≤ i) (hi : i < g.n) : gridIndex R g (gridCentroid R fused g i) = some i := by
  have hp1 : 1 ≤ p := by omega
  have hu : (0 : K) < 1 / 2 ^ p := by positivity
  have hP : (0 : K) < 2 ^ p := by positivity
  have iK : (0 : K) ≤ i := by exact_mod_cast i0
  have nK : (i : K) + 1 ≤ g.n := by exact_mod_cast hi
  have g0 := abs_nonneg g.min
  have n16 : 16 * (g.n : K) ≤ 2 ^ p := by
    have h1 : 16 / 2 ^ p * (g.n * g.dx) ≤ 1 * g.dx := by
      refine le_trans (mul_le_mul_of_nonneg_left (by linarith) (by positivity)) (hs.trans (one_mul _).ge)
    rw [← mul_assoc] at h1
    have := le_of_mul_le_mul_right h1 d0
    rw [div_mul_eq_mul_div, div_le_one hP] at this
    exact this
  have n16' : 16 * g.n ≤ 2 ^ p := by exact_mod_cast n16
  have fi : R.rnd (i : K) = i := by
    obtain ⟨k, rfl⟩ := Int.eq_ofNat_of_zero_le i0
    rw [Int.cast_natCast]
    refine R.id (isFp_nat hp1 ?_)
    have : (16 * k : ℤ) ≤ ((2 ^ p : ℕ) : ℤ) := by push_cast; omega
    omega
  have fh : R.rnd ((i : K) + 1 / 2) = i + 1 / 2 := by
    refine R.id ?_
    rw [show (i : K) + 1 / 2 = ((2 * i + 1 : ℤ) : K) * 2 ^ (-1 : ℤ) by push_cast; rw [zpow_neg_one]; ring]
    refine isFp_int hp1 ?_ _
    rw [abs_of_nonneg (by omega)]; omega
  have e := mulAdd_error R hp1 fused (a := g.min) (b := g.dx) (c := (i : K) + 1 / 2)
  rw [abs_of_nonneg (by positivity : 0 ≤ g.dx * ((i : K) + 1 / 2))] at e
  have hc : gridCentroid R fused g i = mulAdd R fused g.min g.dx ((i : K) + 1 / 2) := by unfold gridCentroid; rw [fi, fh]
  rw [hc]
  generalize mulAdd R fused g.min g.dx ((i : K) + 1 / 2) = c at *
  rw [show (3 : K) / 2 ^ p = 3 * (1 / 2 ^ p) by ring] at e
  rw [show (16 : K) / 2 ^ p = 16 * (1 / 2 ^ p) by ring] at hs
  obtain ⟨e1, e2⟩ := abs_le.1 e
  have hA : |g.min| + g.dx * (i + 1 / 2) ≤ |g.min| + g.n * g.dx := by nlinarith
  have hB := mul_le_mul_of_nonneg_left hA (by positivity : (0 : K) ≤ 3 * (1 / 2 ^ p))
  have hC : (c - g.min) * (1 / 2 ^ p) ≤ 1 / 16 * g.dx := by
    have h1 : c - g.min ≤ |g.min| + g.n * g.dx := by
      have : g.dx * (i + 1 / 2) + 1 / 2 * g.dx ≤ g.n * g.dx := by nlinarith
      linarith
    have := mul_le_mul_of_nonneg_right h1 hu.le
    linarith
  refine C125_locate R hp d0 hn i0 hi ?_ ?_
  · rw [show (c - g.min) * (1 - 2 / 2 ^ p) = (c - g.min) - 2 * ((c - g.min) * (1 / 2 ^ p)) by ring]
    nlinarith
  · rw [show (c - g.min) * (1 + 3 / 2 ^ p) = (c - g.min) + 3 * ((c - g.min) * (1 / 2 ^ p)) by ring]
    nlinarith

/-! ## Where the floating-point grid differs from the exact one -/

/-- The upper end of the grid, and of the last box: the boxes do not leave the bounding box of the grid by more than the errors. -/
theorem C125_maximum (hp : 2 ≤ p) (fused : Bool) {g : Axis K} (d0 : 0 < g.dx) {n : ℕ} (hn : g.n = n) (hn' : n ≤ 2 ^ p) :
    |gridMax R fused g - (g.min + n * g.dx)| ≤ 3 / 2 ^ p * (|g.min| + n * g.dx) ∧
    (IsFp p g.min → g.min ≤ gridMax R fused g) ∧
    gridMax R fused g = (gridCell R fused g n).1 ∧
    (0 < n → |(gridCell R fused g (n - 1 : ℕ)).2 - gridMax R fused g| ≤ 8 / 2 ^ p * (|g.min| + n * g.dx)) := by
  have e : gridMax R fused g = (gridCell R fused g n).1 := by
    unfold gridMax gridCell
    rw [hn]
  refine ⟨?_, fun hm => ?_, e, fun n0 => ?_⟩
  · rw [e]
    exact (C125_cell R hp fused d0 hn').1
  · rw [e]
    exact (C125_cell_order R fused d0 hm le_rfl).2.2.2 (by positivity)
  · obtain ⟨m, rfl⟩ : ∃ m, n = m + 1 := ⟨n - 1, by omega⟩
    rw [e, abs_sub_comm]
    have := C125_neighbours R hp fused d0 (i := m) hn'
    push_cast at this ⊢
    simpa using this

/-- A grid of double precision at the origin with spacing 0.01. -/
def hundredth (n : ℤ) : Axis ℚ := ⟨0, rne 53 (1 / 100), n⟩

/-- A grid of double precision at the origin with spacing 0.05. -/
def twentieth (n : ℤ) : Axis ℚ := ⟨0, rne 53 (1 / 20), n⟩

/-- A point strictly inside the box of the last of six cells is located in no cell. -/
theorem C125_inside_fails : ∃ x : ℚ, IsFp 53 x ∧ ∀ fused, (gridCell (ieee ℚ 53 (by norm_num)) fused (hundredth 6) 5).1 < x ∧
    x < (gridCell (ieee ℚ 53 (by norm_num)) fused (hundredth 6) 5).2 ∧ gridIndex (ieee ℚ 53 (by norm_num)) (hundredth 6) x = some (-1) := by
  refine ⟨1080863910568919 / 18014398509481984, ⟨1080863910568919, -54, by norm_num, by norm_num⟩, fun fused => ?_⟩
  cases fused <;> decide +kernel

/-- A point strictly inside the bounding box of the grid is located in no cell. -/
theorem C125_bounding_box_fails : ∃ x : ℚ, IsFp 53 x ∧ 0 < x ∧ (∀ fused, x < gridMax (ieee ℚ 53 (by norm_num)) fused (twentieth 17)) ∧
    gridIndex (ieee ℚ 53 (by norm_num)) (twentieth 17) x = some (-1) := by
  refine ⟨7656119366529843 / 9007199254740992, ⟨7656119366529843, -53, by norm_num, by norm_num⟩, by norm_num, fun fused => ?_, by decide +kernel⟩
  cases fused <;> decide +kernel

/-- The lower end of a cell is located in the cell before. -/
theorem C125_corner_fails : ∀ fused, gridIndex (ieee ℚ 53 (by norm_num)) (hundredth 100) (gridCell (ieee ℚ 53 (by norm_num)) fused (hundredth 100) 29).1 = some 28 := by
  intro fused
  cases fused <;> decide +kernel

/-- Neighbouring boxes overlap or do not touch. -/
theorem C125_neighbours_fails : ∀ fused,
    (gridCell (ieee ℚ 53 (by norm_num)) fused (hundredth 100) 6).1 < (gridCell (ieee ℚ 53 (by norm_num)) fused (hundredth 100) 5).2 ∧
    (gridCell (ieee ℚ 53 (by norm_num)) fused (hundredth 100) 6).2 < (gridCell (ieee ℚ 53 (by norm_num)) fused (hundredth 100) 7).1 := by
  intro fused
  cases fused <;> decide +kernel

/-- The hypotheses are met by IEEE arithmetic and a spacing that is not exact; and by a spacing with exact multiples. -/
example : 0 < (hundredth 100).dx ∧ (hundredth 100).dx ≠ 1 / 100 ∧ IsFp 53 (hundredth 100).dx ∧ IsFp 53 (hundredth 100).min ∧
    16 / 2 ^ 53 * (|(hundredth 100).min| + (hundredth 100).n * (hundredth 100).dx) ≤ (hundredth 100).dx ∧
    gridIndex (ieee ℚ 53 (by norm_num)) (hundredth 100) (rne 53 (37 / 1000)) = some 3 ∧
    gridRange (ieee ℚ 53 (by norm_num)) (hundredth 100) (rne 53 (37 / 1000)) 5 = some (3, 99) := by
  refine ⟨by decide +kernel, by decide +kernel, (ieee ℚ 53 (by norm_num)).mem _, isFp_zero, by decide +kernel, by decide +kernel, by decide +kernel⟩

example : IsFp 53 ((3 : ℕ) * (3 / 4 : ℚ)) ∧ IsFp 53 (((3 : ℕ) + 1) * (3 / 4 : ℚ)) ∧ IsFp 53 (9 / 4 - 0 : ℚ) ∧
    gridIndex (ieee ℚ 53 (by norm_num)) ⟨0, 3 / 4, 5⟩ (9 / 4) = some 3 :=
  ⟨⟨9, -2, by norm_num, by norm_num⟩, ⟨3, 0, by norm_num, by norm_num⟩, ⟨9, -2, by norm_num, by norm_num⟩, by decide +kernel⟩

end Verif.FpGridP
