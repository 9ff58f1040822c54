import Verif.Lemmas.FpRect
import Verif.Props.RectGrid
import Mathlib.Data.Rat.Floor

/-!
# C138 rectilinear grids in floating point
-/

set_option linter.unusedSectionVars false

namespace Verif.Fp

open Verif.Grid (rectCell rectNumCells)

variable {K : Type} [Field K] [LinearOrder K] [IsStrictOrderedRing K] [FloorRing K] {p : ℕ} (R : Rounding K p)

/-- The lattice `ids` has columns of widths `W` and, from the bottom, rows of heights `H`, up to `δ`. -/
structure IsLattice (δ : K) (dxdy : List (K × K)) (ids : List (List ℕ)) (W H : List K) : Prop where
  rows : ids.length = H.length
  cols : ∀ row ∈ ids, row.length = W.length
  size : ∀ (j : ℕ) (row : List ℕ) (h : K), ids.reverse[j]? = some row → H[j]? = some h → ∀ (i id : ℕ) (w : K), row[i]? = some id → W[i]? = some w →
    ∃ d : K × K, dxdy[id]? = some d ∧ |d.1 - w| ≤ δ ∧ |d.2 - h| ≤ δ

theorem next_place (hp : 1 ≤ p) {eps δ : K} (e0 : 0 < eps) (δ0 : 0 ≤ δ) {W : List K} (hW : ∀ w ∈ W, 3 / 2 * eps ≤ w)
    (hs : 4 * (W.length * (δ + 2 / 2 ^ p * W.sum)) ≤ eps) {i : ℕ} {w d : K} (hi : W[i]? = some w) (hd : |d - w| ≤ δ) (x : K)
    (hx : |x - place W i| ≤ i * (δ + 2 / 2 ^ p * W.sum)) : |R.rnd (x + d) - place W (i + 1)| ≤ (i + 1 : ℕ) * (δ + 2 / 2 ^ p * W.sum) := by
  have W0 : ∀ w ∈ W, 0 ≤ w := fun w hw => le_trans (by linarith) (hW w hw)
  have il : i < W.length := (List.getElem?_eq_some_iff.1 hi).1
  have T0 : 0 ≤ W.sum := List.sum_nonneg W0
  have wT : 3 / 2 * eps ≤ W.sum := (hW w (List.mem_of_getElem? hi)).trans (List.single_le_sum W0 _ (List.mem_of_getElem? hi))
  have s0 : 0 ≤ δ + 2 / 2 ^ p * W.sum := add_nonneg δ0 (mul_nonneg (by positivity) T0)
  have m : ((i + 1 : ℕ) : K) * (δ + 2 / 2 ^ p * W.sum) ≤ W.length * (δ + 2 / 2 ^ p * W.sum) := mul_le_mul_of_nonneg_right (by exact_mod_cast il) s0
  have u0 : 0 ≤ 2 / 2 ^ p * W.sum := mul_nonneg (by positivity) T0
  have e := place_succ hi
  have st := place_step (R := R) hp hx hd (T := W.sum) (by rw [← e]; exact place_nonneg W0 _) (by rw [← e]; exact place_le W0 _)
    (by push_cast at m; linarith)
  rw [← e] at st
  push_cast
  linarith

/-- A lattice whose widths and heights agree up to `δ`: if the errors of a whole row stay below a quarter of the tolerance of the constructor, then there is one
column for each width and one row for each height, the divisions increase strictly from 0, each is at its place up to these errors, and the cells tile the
domain. -/
theorem C138_ids (hp : 1 ≤ p) {eps δ : K} (fe : IsFp p eps) (e0 : 0 < eps) (δ0 : 0 ≤ δ) {dxdy : List (K × K)} {ids : List (List ℕ)} {W H : List K}
    (hW : W ≠ []) (hH : H ≠ []) (hWe : ∀ w ∈ W, 3 / 2 * eps ≤ w) (hHe : ∀ h ∈ H, 3 / 2 * eps ≤ h)
    (sW : 4 * (W.length * (δ + 2 / 2 ^ p * W.sum)) ≤ eps) (sH : 4 * (H.length * (δ + 2 / 2 ^ p * H.sum)) ≤ eps) (hl : IsLattice δ dxdy ids W H) :
    (∃ xs ys, IsIdGrid R eps dxdy ids xs ys) ∧ ∀ xs ys, IsIdGrid R eps dxdy ids xs ys →
      rectNumCells [xs, ys] = [(W.length : ℤ), (H.length : ℤ)] ∧ xs.Pairwise (· < ·) ∧ ys.Pairwise (· < ·) ∧ xs.head? = some 0 ∧ ys.head? = some 0 ∧
      (∀ i x, xs[i]? = some x → |x - (W.take i).sum| ≤ i * (δ + 2 / 2 ^ p * W.sum)) ∧
      (∀ j y, ys[j]? = some y → |y - (H.take j).sum| ≤ j * (δ + 2 / 2 ^ p * H.sum)) := by
  have s0 : ∀ L : List K, (∀ w ∈ L, 3 / 2 * eps ≤ w) → 0 ≤ δ + 2 / 2 ^ p * L.sum := fun L hL =>
    add_nonneg δ0 (mul_nonneg (by positivity) (List.sum_nonneg fun w hw => le_trans (by linarith) (hL w hw)))
  obtain ⟨h1, h2⟩ := grid_places (R := R) (eps := eps) (dxdy := dxdy) (ids := ids) (NX := fun i v => |v - place W i| ≤ i * (δ + 2 / 2 ^ p * W.sum))
    (NY := fun i v => |v - place H i| ≤ i * (δ + 2 / 2 ^ p * H.sum)) (List.length_pos_iff.2 hW) (List.length_pos_iff.2 hH) hl.rows hl.cols
    (places_near fe e0 (s0 W hWe) sW hWe) (places_near fe e0 (s0 H hHe) sH hHe) (by simp [place]) (by simp [place]) (by
      intro j row hj i id hi
      have jl : j < H.length := by
        have := (List.getElem?_eq_some_iff.1 hj).1
        rw [List.length_reverse] at this
        rw [← hl.rows]; exact this
      have il : i < W.length := by
        have := (List.getElem?_eq_some_iff.1 hi).1
        rwa [hl.cols row (List.mem_reverse.1 (List.mem_of_getElem? hj))] at this
      obtain ⟨d, d1, d2, d3⟩ := hl.size j row _ hj (List.getElem?_eq_getElem jl) i id _ hi (List.getElem?_eq_getElem il)
      exact ⟨d, d1, next_place R hp e0 δ0 hWe sW (List.getElem?_eq_getElem il) d2, next_place R hp e0 δ0 hHe sH (List.getElem?_eq_getElem jl) d3⟩)
  refine ⟨h1, fun xs ys h => ?_⟩
  obtain ⟨x1, y1, x2, y2, x3, y3⟩ := h2 xs ys h
  have head : ∀ (l W : List K) (n : ℕ) (s : K), l.length = n + 1 → (∀ (i : ℕ) (d : K), l[i]? = some d → |d - place W i| ≤ i * s) → l.head? = some 0 := by
    intro l W n s hl hd
    cases l with
    | nil => simp at hl
    | cons a l =>
      have := hd 0 a rfl
      rw [place_zero, sub_zero, Nat.cast_zero, zero_mul, abs_nonpos_iff] at this
      rw [this]
      rfl
  refine ⟨?_, x2, y2, head xs W _ _ x1 x3, head ys H _ _ y1 y3, x3, y3⟩
  simp [rectNumCells, x1, y1]

/-- Every point from the first to the last division is in exactly one cell, whatever rounding did to the divisions: location by comparison is exact. -/
theorem C138_tiling (hp : 1 ≤ p) {eps δ : K} (fe : IsFp p eps) (e0 : 0 < eps) (δ0 : 0 ≤ δ) {dxdy : List (K × K)} {ids : List (List ℕ)} {W H : List K}
    (hW : W ≠ []) (hH : H ≠ []) (hWe : ∀ w ∈ W, 3 / 2 * eps ≤ w) (hHe : ∀ h ∈ H, 3 / 2 * eps ≤ h)
    (sW : 4 * (W.length * (δ + 2 / 2 ^ p * W.sum)) ≤ eps) (sH : 4 * (H.length * (δ + 2 / 2 ^ p * H.sum)) ≤ eps) (hl : IsLattice δ dxdy ids W H)
    {xs ys : List K} (hg : IsIdGrid R eps dxdy ids xs ys) {X Y : K} (hX : xs.getLast? = some X) (hY : ys.getLast? = some Y) {x y : K} (x0 : 0 ≤ x) (x1 : x < X)
    (y0 : 0 ≤ y) (y1 : y < Y) :
    ∃! ij : ℕ × ℕ, (∃ c, rectCell xs ij.1 = some c ∧ c.1 ≤ x ∧ x < c.2) ∧ ∃ c, rectCell ys ij.2 = some c ∧ c.1 ≤ y ∧ y < c.2 := by
  obtain ⟨-, px, py, hx, hy, -, -⟩ := (C138_ids R hp fe e0 δ0 hW hH hWe hHe sW sH hl).2 xs ys hg
  obtain ⟨-, -, tx, -⟩ := Verif.Grid.C38_tiling xs px 0 X hx hX
  obtain ⟨-, -, ty, -⟩ := Verif.Grid.C38_tiling ys py 0 Y hy hY
  obtain ⟨i, hi, ui⟩ := tx x x0 x1
  obtain ⟨j, hj, uj⟩ := ty y y0 y1
  refine ⟨(i, j), ⟨hi, hj⟩, ?_⟩
  rintro ⟨i', j'⟩ ⟨h1, h2⟩
  rw [Prod.mk.injEq]
  exact ⟨ui i' h1, uj j' h2⟩

/-! ### Equal widths -/

/-- The rounded places of widths, one addition after the other. -/
def cum (x : K) : List K → List K
  | [] => [x]
  | w :: W => x :: cum (R.rnd (x + w)) W

theorem cum_length (W : List K) : ∀ x, (cum R x W).length = W.length + 1 := by
  induction W with
  | nil => intro x; rfl
  | cons w W ih => intro x; simp [cum, ih]

theorem cum_zero (W : List K) (x : K) : (cum R x W)[0]? = some x := by cases W <;> rfl

theorem cum_succ : ∀ (W : List K) (x : K) (i : ℕ) (w y : K), W[i]? = some w → (cum R x W)[i]? = some y → (cum R x W)[i + 1]? = some (R.rnd (y + w))
  | [], _, _, _, _, h, _ => by simp at h
  | v :: W, x, 0, w, y, h, g => by
    simp only [List.getElem?_cons_zero, Option.some.injEq] at h
    simp only [cum, List.getElem?_cons_zero, Option.some.injEq] at g
    subst h g
    rw [cum, List.getElem?_cons_succ, cum_zero]
  | v :: W, x, i + 1, w, y, h, g => by
    rw [List.getElem?_cons_succ] at h
    rw [cum, List.getElem?_cons_succ] at g ⊢
    exact cum_succ W _ i w y h g

/-- The rounded places are near the exact ones and grow by at least `eps`. -/
theorem cum_spec (hp : 1 ≤ p) {eps : K} (e0 : 0 < eps) {W : List K} (hW : ∀ w ∈ W, 2 * eps ≤ w) (hT : 2 * W.sum ≤ 2 ^ p * eps) (hn : 2 * W.length ≤ 2 ^ p) :
    ∀ i ≤ W.length, ∃ y, (cum R 0 W)[i]? = some y ∧ |y - place W i| ≤ i * (2 / 2 ^ p * W.sum) ∧
      ∀ z, (cum R 0 W)[i + 1]? = some z → y + eps ≤ z := by
  have W0 : ∀ w ∈ W, 0 ≤ w := fun w hw => le_trans (by linarith) (hW w hw)
  have T0 : 0 ≤ W.sum := List.sum_nonneg W0
  have q0 : (0 : K) < 2 ^ p := by positivity
  have u0 : 0 ≤ 2 / 2 ^ p * W.sum := mul_nonneg (by positivity) T0
  have bnd : ∀ i < W.length, ((i : K) + 1) * (2 / 2 ^ p * W.sum) ≤ W.sum := by
    intro i hi
    have h1 : 2 * ((i : K) + 1) ≤ 2 ^ p := by
      have : 2 * (i + 1) ≤ 2 ^ p := by omega
      exact_mod_cast this
    have h2 : ((i : K) + 1) * (2 / 2 ^ p) ≤ 1 := by
      rw [mul_div_assoc', div_le_one q0]; linarith
    calc ((i : K) + 1) * (2 / 2 ^ p * W.sum) = ((i : K) + 1) * (2 / 2 ^ p) * W.sum := by ring
      _ ≤ 1 * W.sum := mul_le_mul_of_nonneg_right h2 T0
      _ = W.sum := one_mul _
  have near : ∀ i ≤ W.length, ∃ y, (cum R 0 W)[i]? = some y ∧ |y - place W i| ≤ i * (2 / 2 ^ p * W.sum) := by
    intro i
    induction i with
    | zero => intro _; exact ⟨0, cum_zero R W 0, by simp [place]⟩
    | succ i ih =>
      intro hi
      obtain ⟨y, h1, h2⟩ := ih (by omega)
      have hw := List.getElem?_eq_getElem (by omega : i < W.length)
      refine ⟨_, cum_succ R W 0 i _ y hw h1, ?_⟩
      have e := place_succ hw
      have b := bnd i (by omega)
      have st := place_step (R := R) hp h2 (d := W[i]) (w := W[i]) (δ := 0) (by simp) (T := W.sum) (by rw [← e]; exact place_nonneg W0 _)
        (by rw [← e]; exact place_le W0 _) (by linarith)
      rw [← e] at st
      push_cast
      linarith
  intro i hi
  obtain ⟨y, h1, h2⟩ := near i hi
  refine ⟨y, h1, h2, fun z hz => ?_⟩
  have il : i < W.length := by
    have := (List.getElem?_eq_some_iff.1 hz).1
    rw [cum_length] at this
    omega
  have hw := List.getElem?_eq_getElem il
  rw [cum_succ R W 0 i _ y hw h1, Option.some.injEq] at hz
  subst hz
  have r := rel_u R hp (y + W[i])
  have e := place_succ hw
  have pl := place_le W0 (i + 1)
  have pn := place_nonneg W0 i
  have wi := hW _ (List.getElem_mem il)
  have b := bnd i il
  have : |y + W[i]| ≤ 2 * W.sum := by
    rw [e] at pl
    obtain ⟨a1, a2⟩ := abs_le.1 h2
    rw [abs_le]
    constructor <;> linarith
  have h3 := mul_le_mul_of_nonneg_left this (by positivity : (0 : K) ≤ 1 / 2 ^ p)
  have h4 : (1 : K) / 2 ^ p * (2 * W.sum) ≤ eps := by
    rw [one_div, inv_mul_le_iff₀ q0]
    exact hT
  obtain ⟨r1, -⟩ := abs_le.1 r
  linarith

/-- If the widths of a column are the same number in every row, nothing has to be merged and much less is needed: the divisions are the rounded places, in
single precision for domains of up to eight metres. -/
theorem C138_equal (hp : 1 ≤ p) {eps : K} (fe : IsFp p eps) (e0 : 0 < eps) {dxdy : List (K × K)} {ids : List (List ℕ)} {W H : List K}
    (hW : W ≠ []) (hH : H ≠ []) (hWe : ∀ w ∈ W, 2 * eps ≤ w) (hHe : ∀ h ∈ H, 2 * eps ≤ h) (tW : 2 * W.sum ≤ 2 ^ p * eps) (tH : 2 * H.sum ≤ 2 ^ p * eps)
    (nW : 2 * W.length ≤ 2 ^ p) (nH : 2 * H.length ≤ 2 ^ p) (hl : IsLattice 0 dxdy ids W H) :
    (∃ xs ys, IsIdGrid R eps dxdy ids xs ys) ∧ ∀ xs ys, IsIdGrid R eps dxdy ids xs ys →
      xs = cum R 0 W ∧ ys = cum R 0 H ∧ rectNumCells [xs, ys] = [(W.length : ℤ), (H.length : ℤ)] ∧ xs.Pairwise (· < ·) ∧ ys.Pairwise (· < ·) ∧
      (∀ i x, xs[i]? = some x → |x - (W.take i).sum| ≤ i * (2 / 2 ^ p * W.sum)) ∧
      (∀ j y, ys[j]? = some y → |y - (H.take j).sum| ≤ j * (2 / 2 ^ p * H.sum)) := by
  have gap : ∀ L : List K, (∀ w ∈ L, 2 * eps ≤ w) → 2 * L.sum ≤ 2 ^ p * eps → 2 * L.length ≤ 2 ^ p → ∀ i j, i < j → j ≤ L.length → ∀ y z,
      (cum R 0 L)[i]? = some y → (cum R 0 L)[j]? = some z → y + eps ≤ z := by
    intro L hL tL nL i j hij
    induction j with
    | zero => omega
    | succ j ih =>
      intro hj y z hy hz
      obtain ⟨w, h1, -, h3⟩ := cum_spec R hp e0 hL tL nL j (by omega)
      have a := h3 z hz
      rcases Nat.lt_or_ge i j with c | c
      · have := ih c (by omega) y w hy h1
        linarith
      · obtain rfl : i = j := by omega
        rw [h1, Option.some.injEq] at hy
        rw [← hy]; exact a
  have pl : ∀ L : List K, (∀ w ∈ L, 2 * eps ≤ w) → 2 * L.sum ≤ 2 ^ p * eps → 2 * L.length ≤ 2 ^ p →
      Places R eps L.length fun i v => (cum R 0 L)[i]? = some v := by
    intro L hL tL nL
    refine ⟨?_, ?_⟩
    · intro i hi v w h1 h2
      rw [h1, Option.some.injEq] at h2
      subst h2
      rw [sub_self, R.zero, abs_zero]
      exact e0
    · intro i j hij hj v w h1 h2
      have d := gap L hL tL nL i j hij hj v w h1 h2
      refine ⟨by linarith, ?_, ?_⟩
      · refine R.abs_ge_of ?_ fe
        rw [abs_sub_comm, abs_of_pos (by linarith)]
        linarith
      · refine R.abs_ge_of ?_ fe
        rw [abs_of_pos (by linarith)]
        linarith
  obtain ⟨h1, h2⟩ := grid_places (R := R) (eps := eps) (dxdy := dxdy) (ids := ids) (NX := fun i v => (cum R 0 W)[i]? = some v)
    (NY := fun i v => (cum R 0 H)[i]? = some v) (List.length_pos_iff.2 hW) (List.length_pos_iff.2 hH) hl.rows hl.cols
    (pl W hWe tW nW) (pl H hHe tH nH) (cum_zero R W 0) (cum_zero R H 0) (by
      intro j row hj i id hi
      have jl : j < H.length := by
        have := (List.getElem?_eq_some_iff.1 hj).1
        rw [List.length_reverse] at this
        rw [← hl.rows]; exact this
      have il : i < W.length := by
        have := (List.getElem?_eq_some_iff.1 hi).1
        rwa [hl.cols row (List.mem_reverse.1 (List.mem_of_getElem? hj))] at this
      obtain ⟨d, d1, d2, d3⟩ := hl.size j row _ hj (List.getElem?_eq_getElem jl) i id _ hi (List.getElem?_eq_getElem il)
      rw [abs_nonpos_iff, sub_eq_zero] at d2 d3
      refine ⟨d, d1, fun x hx => ?_, fun y hy => ?_⟩
      · rw [d2]; exact cum_succ R W 0 i _ x (List.getElem?_eq_getElem il) hx
      · rw [d3]; exact cum_succ R H 0 j _ y (List.getElem?_eq_getElem jl) hy)
  refine ⟨h1, fun xs ys h => ?_⟩
  obtain ⟨x1, y1, x2, y2, x3, y3⟩ := h2 xs ys h
  have eq : ∀ (l L : List K), l.length = L.length + 1 → (∀ (i : ℕ) (d : K), l[i]? = some d → (cum R 0 L)[i]? = some d) → l = cum R 0 L := by
    intro l L hl hd
    refine List.ext_getElem (by rw [hl, cum_length]) fun i h1 h2 => ?_
    have := hd i _ (List.getElem?_eq_getElem h1)
    rw [List.getElem?_eq_getElem h2, Option.some.injEq] at this
    exact this.symm
  have err : ∀ L : List K, (∀ w ∈ L, 2 * eps ≤ w) → 2 * L.sum ≤ 2 ^ p * eps → 2 * L.length ≤ 2 ^ p → ∀ i x, (cum R 0 L)[i]? = some x →
      |x - (L.take i).sum| ≤ i * (2 / 2 ^ p * L.sum) := by
    intro L hL tL nL i x hx
    have il := (List.getElem?_eq_some_iff.1 hx).1
    rw [cum_length] at il
    obtain ⟨y, e1, e2, -⟩ := cum_spec R hp e0 hL tL nL i (by omega)
    rw [hx, Option.some.injEq] at e1
    subst e1
    exact e2
  exact ⟨eq xs W x1 x3, eq ys H y1 y3, by simp [rectNumCells, x1, y1], x2, y2, fun i x hx => err W hWe tW nW i x (x3 i x hx),
    fun j y hy => err H hHe tH nH j y (y3 j y hy)⟩

/-! ### Where it fails -/

/-- `epsDistance<double>()`, config 1e-7. -/
def epsD : ℚ := (ieee ℚ 53 (by norm_num)).rnd (1 / 10 ^ 7)

/-- `epsDistance<float>()`, 1e-4. -/
def epsS : ℚ := (ieee ℚ 24 (by norm_num)).rnd (1 / 10 ^ 4)

/-- The widths of two rows differ by less than the tolerance, but the sums do not: the lattice has two columns, the grid three. -/
theorem C138_drift_fails : |(1 : ℚ) - (1 + 1 / 2 ^ 24)| < epsD ∧
    ∀ xs ys, IsIdGrid (ieee ℚ 53 (by norm_num)) epsD [(1, 1), (1 + 1 / 2 ^ 24, 1)] [[1, 1], [0, 0]] xs ys → rectNumCells [xs, ys] = [3, 2] := by
  refine ⟨by decide +kernel, ?_⟩
  rintro xs ys ⟨b, hb, hx, hy⟩
  have e : gridBoxes (ieee ℚ 53 (by norm_num)) [(1, 1), (1 + 1 / 2 ^ 24, 1)] [[1, 1], [0, 0]] =
      some [((0, 1), (0, 1)), ((1, 2), (0, 1)), ((0, 1 + 1 / 2 ^ 24), (1, 2)), ((1 + 1 / 2 ^ 24, 2 + 1 / 2 ^ 23), (1, 2))] := by decide +kernel
  rw [e, Option.some.injEq] at hb
  subst hb
  have dx : boxDivs (ieee ℚ 53 (by norm_num)) epsD [((0 : ℚ), (1 : ℚ)), (1, 2), (0, 1 + 1 / 2 ^ 24), (1 + 1 / 2 ^ 24, 2 + 1 / 2 ^ 23)] = [0, 1, 2, 2 + 1 / 2 ^ 23] := by decide +kernel
  have dy : boxDivs (ieee ℚ 53 (by norm_num)) epsD [((0 : ℚ), (1 : ℚ)), (0, 1), (1, 2), (1, 2)] = [0, 1, 2] := by decide +kernel
  have lx := hx.perm.length_eq
  have ly := hy.perm.length_eq
  simp only [List.map_cons, List.map_nil] at lx ly
  rw [dx] at lx
  rw [dy] at ly
  simp only [rectNumCells, List.map_cons, List.map_nil, lx, ly]
  rfl

/-- Far from the origin a column is lost: in single precision, a column of width 3.7e-4 after one of 8192. -/
theorem C138_far_fails : epsS < 3 / 2 ^ 13 ∧
    ∀ xs ys, IsIdGrid (ieee ℚ 24 (by norm_num)) epsS [(8192, 1), (3 / 2 ^ 13, 1)] [[0, 1]] xs ys → rectNumCells [xs, ys] = [1, 1] := by
  refine ⟨by decide +kernel, ?_⟩
  rintro xs ys ⟨b, hb, hx, hy⟩
  have e : gridBoxes (ieee ℚ 24 (by norm_num)) [(8192, 1), (3 / 2 ^ 13, 1)] [[0, 1]] = some [((0, 8192), (0, 1)), ((8192, 8192), (0, 1))] := by decide +kernel
  rw [e, Option.some.injEq] at hb
  subst hb
  have dx : boxDivs (ieee ℚ 24 (by norm_num)) epsS [((0 : ℚ), (8192 : ℚ)), (8192, 8192)] = [0, 8192] := by decide +kernel
  have dy : boxDivs (ieee ℚ 24 (by norm_num)) epsS [((0 : ℚ), (1 : ℚ)), (0, 1)] = [0, 1] := by decide +kernel
  have lx := hx.perm.length_eq
  have ly := hy.perm.length_eq
  simp only [List.map_cons, List.map_nil] at lx ly
  rw [dx] at lx
  rw [dy] at ly
  simp only [rectNumCells, List.map_cons, List.map_nil, lx, ly]
  rfl

/-! ### Examples -/

/-- Two kinds of pins with pitches 1.26 and 1.26 + 1e-10 in two rows of two, in double precision. -/
example : ∀ xs ys, IsIdGrid (ieee ℚ 53 (by norm_num)) epsD [(126 / 100, 126 / 100), (126 / 100 + 1 / 10 ^ 10, 126 / 100)] [[0, 1], [1, 0]] xs ys →
    rectNumCells [xs, ys] = [2, 2] := by
  intro xs ys h
  have e0 : 0 < epsD := by decide +kernel
  have := (C138_ids (ieee ℚ 53 (by norm_num)) (by norm_num) (eps := epsD) (δ := 1 / 10 ^ 10) ((ieee ℚ 53 (by norm_num)).mem _) e0 (by norm_num)
    (dxdy := [(126 / 100, 126 / 100), (126 / 100 + 1 / 10 ^ 10, 126 / 100)]) (ids := [[0, 1], [1, 0]]) (W := [126 / 100, 126 / 100]) (H := [126 / 100, 126 / 100])
    (by simp) (by simp) (by decide +kernel) (by decide +kernel) (by decide +kernel) (by decide +kernel)
    ⟨rfl, by decide, by
      intro j row h' hj hh i id w hi hw
      have hr : row = [1, 0] ∨ row = [0, 1] := by
        have := List.mem_of_getElem? hj
        simpa using this
      have hh' : h' = 126 / 100 := by
        have := List.mem_of_getElem? hh
        simpa using this
      have hw' : w = 126 / 100 := by
        have := List.mem_of_getElem? hw
        simpa using this
      have hid : id = 0 ∨ id = 1 := by
        have := List.mem_of_getElem? hi
        rcases hr with rfl | rfl <;> simp at this <;> tauto
      subst hh' hw'
      rcases hid with rfl | rfl
      · exact ⟨_, rfl, by norm_num, by norm_num⟩
      · exact ⟨_, rfl, by norm_num, by norm_num⟩⟩).2 xs ys h
  exact this.1

/-- Equal widths in single precision. -/
example : ∃ xs ys, IsIdGrid (ieee ℚ 24 (by norm_num)) epsS [(1 / 3, 1 / 3)] [[0, 0, 0]] xs ys ∧ rectNumCells [xs, ys] = [3, 1] := by
  have e0 : 0 < epsS := by decide +kernel
  obtain ⟨⟨xs, ys, h⟩, g⟩ := C138_equal (ieee ℚ 24 (by norm_num)) (by norm_num) (eps := epsS) ((ieee ℚ 24 (by norm_num)).mem _) e0
    (dxdy := [(1 / 3, 1 / 3)]) (ids := [[0, 0, 0]]) (W := [1 / 3, 1 / 3, 1 / 3]) (H := [1 / 3])
    (by simp) (by simp) (by decide +kernel) (by decide +kernel) (by decide +kernel) (by decide +kernel) (by decide) (by decide)
    ⟨rfl, by decide, by
      intro j row h' hj hh i id w hi hw
      have hr : row = [0, 0, 0] := by
        have := List.mem_of_getElem? hj
        simpa using this
      have hh' : h' = 1 / 3 := by
        have := List.mem_of_getElem? hh
        simpa using this
      have hw' : w = 1 / 3 := by
        have := List.mem_of_getElem? hw
        simpa using this
      have hid : id = 0 := by
        have := List.mem_of_getElem? hi
        subst hr
        simpa using this
      subst hh' hw' hid
      exact ⟨_, rfl, by norm_num, by norm_num⟩⟩
  exact ⟨xs, ys, h, (g xs ys h).2.2.1⟩

end Verif.Fp
