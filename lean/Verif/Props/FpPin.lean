import Verif.Model.FpPin
import Verif.Props.RectPin
import Verif.Lemmas.FpNorm
import Verif.Lemmas.FpXSec
import Mathlib.Data.Rat.Floor

/-!
# C141: rectangular pin meshes in floating point
-/

namespace Verif.PropsFpPin

open Verif Verif.Pin Verif.Conform Verif.Fp Verif.FpPin Verif.PropsRectPin

set_option linter.unusedSectionVars false

variable {K : Type} [Field K] [LinearOrder K] [IsStrictOrderedRing K] [FloorRing K] {p : ℕ} (R : Rounding K p)

/-- `x 0`, ..., `x n` divide an edge of length `e` into `n` parts: they start at zero, increase, and are where they should be up to two roundings. -/
structure Divides (p n : ℕ) (e : K) (x : ℕ → K) : Prop where
  start : x 0 = 0
  step : ∀ i < n, x i < x (i + 1)
  near : ∀ i ≤ n, |x i - i * (e / n)| ≤ ((1 + 1 / 2 ^ p) ^ 2 - 1) * (i * (e / n))

theorem place_eq (hp : 1 ≤ p) {n i : ℕ} (hn : n ≤ 2 ^ p) (hi : i ≤ n) (e : K) : place R n e i = R.rnd (i * R.rnd (e / n)) := by
  unfold place
  rw [R.id (isFp_nat hp hn), R.id (isFp_nat hp (hi.trans hn))]

theorem place_divides (hp : 1 ≤ p) {n : ℕ} (n0 : 0 < n) (hn : 2 * n ≤ 2 ^ p) {e : K} (e0 : 0 < e) : Divides p n e (place R n e) := by
  have hn' : n ≤ 2 ^ p := by omega
  have q0 : (0 : K) < n := by exact_mod_cast n0
  have d0 : 0 < R.rnd (e / n) := R.pos hp (by positivity)
  have u0 : (0 : K) < 1 / 2 ^ p := by positivity
  refine ⟨?_, ?_, ?_⟩
  · rw [place_eq R hp hn' (Nat.zero_le _)]
    simp [R.zero]
  · intro i hi
    rw [place_eq R hp hn' hi.le, place_eq R hp hn' hi]
    generalize R.rnd (e / n) = d at d0
    have a := (abs_le.1 (rel_u R hp ((i : K) * d))).2
    have b := (abs_le.1 (rel_u R hp (((i + 1 : ℕ) : K) * d))).1
    rw [abs_of_nonneg (by positivity)] at a b
    push_cast at b ⊢
    have h1 : (1 : K) / 2 ^ p * (2 * i + 1) < 1 := by
      rw [div_mul_eq_mul_div, one_mul, div_lt_one (by positivity)]
      have : 2 * i + 1 < 2 ^ p := by omega
      exact_mod_cast this
    nlinarith [mul_lt_mul_of_pos_right h1 d0]
  · intro i hi
    rw [place_eq R hp hn' hi]
    have x0 : 0 ≤ (i : K) * (e / n) := by positivity
    have o1 : Off (1 / 2 ^ p) (0 + 1) (e / n) (R.rnd (e / n)) := Off.rnd R hp (by positivity) (Off.refl _ _)
    have o2 := Off.rnd R hp x0 (Off.mul (unit_nonneg p) (unit_le p) (by positivity) (by positivity) (Off.refl (1 / 2 ^ p) (i : K)) o1)
    exact Off.abs_le (unit_nonneg p) (unit_le p) x0 o2

theorem Divides.mono {n : ℕ} {e : K} {x : ℕ → K} (h : Divides p n e x) {i j : ℕ} (hij : i ≤ j) (hj : j ≤ n) : x i ≤ x j := by
  induction j, hij using Nat.le_induction with
  | base => exact le_rfl
  | succ j hij ih => exact (ih (by omega)).trans (h.step j (by omega)).le

theorem Divides.slot {n : ℕ} {e : K} {x : ℕ → K} (h : Divides p n e x) (n0 : 0 < n) {z : K} (z0 : 0 ≤ z) (z1 : z ≤ x n) : ∃ i < n, x i ≤ z ∧ z ≤ x (i + 1) := by
  have key : ∀ m ≤ n, 0 < m → z ≤ x m → ∃ i < m, x i ≤ z ∧ z ≤ x (i + 1) := by
    intro m
    induction m with
    | zero => intro _ h; omega
    | succ m ih =>
      intro hm _ hz
      by_cases hx : x m ≤ z
      · exact ⟨m, by omega, hx, hz⟩
      · have m0 : 0 < m := by
          rcases Nat.eq_zero_or_pos m with rfl | h0
          · rw [h.start] at hx; exact absurd z0 hx
          · exact h0
        obtain ⟨i, hi, hh⟩ := ih (by omega) m0 (not_le.1 hx).le
        exact ⟨i, by omega, hh⟩
  exact key n le_rfl n0 z1

theorem vertsFp_at {ext : K × K} {nx ny x y : Nat} (hx : x ≤ nx) (hy : y ≤ ny) :
    (rectVertsFp R ext nx ny)[V nx x y]? = some (place R nx ext.1 x, place R ny ext.2 y) := by
  unfold rectVertsFp V
  generalize hN : ny + 1 = N
  have hy' : y < N := by omega
  clear hN hy
  induction N with
  | zero => omega
  | succ N ih =>
    have hlen : ((List.range N).flatMap fun j : Nat => (List.range (nx + 1)).map fun i : Nat => (place R nx ext.1 i, place R ny ext.2 j)).length = N * (nx + 1) :=
      PinTopo.flatMap_len (m := nx + 1) _ fun i => by simp
    rw [List.range_succ (n := N), List.flatMap_append, List.flatMap_singleton]
    by_cases hjn : y = N
    · subst hjn
      rw [List.getElem?_append_right (by rw [hlen]; omega), hlen, Nat.add_sub_cancel_left, List.getElem?_map, List.getElem?_range (by omega), Option.map_some]
    · have : y * (nx + 1) + x < N * (nx + 1) := by
        have : (y + 1) * (nx + 1) ≤ N * (nx + 1) := Nat.mul_le_mul_right _ (by omega)
        rw [Nat.succ_mul] at this
        omega
      rw [List.getElem?_append_left (by rw [hlen]; exact this)]
      exact ih (by omega)

theorem rectangularMeshFp_data {ext : K × K} {nx ny : ℤ} {mesh : Mesh K} (h : rectangularMeshFp R ext nx ny = some (some mesh)) :
    0 < ext.1 ∧ 0 < ext.2 ∧ 0 < nx.toNat ∧ 0 < ny.toNat ∧ mesh = ⟨rectVertsFp R ext nx.toNat ny.toNat, rectFaces nx.toNat ny.toNat⟩ := by
  unfold rectangularMeshFp at h
  split at h
  · simp at h
  rename_i h1
  split at h
  · simp at h
  rename_i h2
  split at h
  · simp at h
  push Not at h1 h2
  cases h
  exact ⟨h1.1, h1.2, by omega, by omega, rfl⟩

/-- The same arguments are accepted, rejected and undefined as in exact arithmetic. -/
theorem C141_accepts (ext : K × K) (nx ny : ℤ) :
    (rectangularMeshFp R ext nx ny = some none ↔ rectangularMesh ext nx ny = some none) ∧ (rectangularMeshFp R ext nx ny = none ↔ rectangularMesh ext nx ny = none) := by
  unfold rectangularMeshFp rectangularMesh
  dsimp only
  split
  · simp
  · split
    · simp
    · split <;> simp

/-- The faces are the boxes, row by row, between divisions of the two edges. -/
theorem C141_boxes (hp : 1 ≤ p) (ext : K × K) (nx ny : ℤ) (mesh : Mesh K) (h : rectangularMeshFp R ext nx ny = some (some mesh)) (hx : 2 * nx ≤ 2 ^ p) (hy : 2 * ny ≤ 2 ^ p) :
    ∃ x y : ℕ → K, Divides p nx.toNat ext.1 x ∧ Divides p ny.toNat ext.2 y ∧ (mesh.faces.length : ℤ) = nx * ny ∧
      (∀ v ∈ mesh.verts, ∃ i j : ℕ, (i : ℤ) ≤ nx ∧ (j : ℤ) ≤ ny ∧ v = (x i, y j)) ∧
      ∀ i j : ℕ, (i : ℤ) < nx → (j : ℤ) < ny → ∃ f, mesh.faces[j * nx.toNat + i]? = some f ∧ IsBox mesh f (x i) (y j) (x (i + 1)) (y (j + 1)) := by
  obtain ⟨h1, h2, h3, h4, rfl⟩ := rectangularMeshFp_data R h
  have hx' : 2 * nx.toNat ≤ 2 ^ p := by zify; rw [Int.toNat_of_nonneg (by omega)]; exact hx
  have hy' : 2 * ny.toNat ≤ 2 ^ p := by zify; rw [Int.toNat_of_nonneg (by omega)]; exact hy
  refine ⟨_, _, place_divides R hp h3 hx' h1, place_divides R hp h4 hy' h2, ?_, ?_, ?_⟩
  · dsimp only
    rw [Mpact.rectFaces_length]
    push_cast
    rw [Int.toNat_of_nonneg (by omega), Int.toNat_of_nonneg (by omega)]
  · intro v hv
    obtain ⟨j, hj, hv⟩ := List.mem_flatMap.1 hv
    obtain ⟨i, hi, rfl⟩ := List.mem_map.1 hv
    rw [List.mem_range] at hi hj
    exact ⟨i, j, by omega, by omega, rfl⟩
  · intro i j hi hj
    refine ⟨_, rectFaces_at (by omega) (by omega), ?_⟩
    unfold IsBox cell
    simp only [List.map_cons, List.map_nil]
    rw [vertsFp_at R (by omega) (by omega), vertsFp_at R (by omega) (by omega), vertsFp_at R (by omega) (by omega), vertsFp_at R (by omega) (by omega)]

/-- The mesh is as large as the pin up to two roundings, and exactly as large if the numbers of faces are powers of two. -/
theorem C141_extent {n : ℕ} {e : K} {x : ℕ → K} (n0 : 0 < n) (h : Divides p n e x) :
    |x n - e| ≤ ((1 + 1 / 2 ^ p) ^ 2 - 1) * e := by
  have := h.near n le_rfl
  have q0 : (n : K) ≠ 0 := by exact_mod_cast n0.ne'
  rwa [mul_div_cancel₀ _ q0] at this

theorem C141_power (hp : 1 ≤ p) (ext : K × K) (k l : ℕ) (mesh : Mesh K) (h : rectangularMeshFp R ext (2 ^ k : ℕ) (2 ^ l : ℕ) = some (some mesh)) (hk : 2 ^ k ≤ 2 ^ p) (hl : 2 ^ l ≤ 2 ^ p)
    (f1 : IsFp p ext.1) (f2 : IsFp p ext.2) (i j : ℕ) (hi : i ≤ 2 ^ k) (hj : j ≤ 2 ^ l) (e1 : IsFp p (i * ext.1)) (e2 : IsFp p (j * ext.2)) :
    mesh.verts[j * (2 ^ k + 1) + i]? = some (i * (ext.1 / 2 ^ k), j * (ext.2 / 2 ^ l)) := by
  obtain ⟨h1, h2, h3, h4, rfl⟩ := rectangularMeshFp_data R h
  have key : ∀ (k i : ℕ) (e : K), 2 ^ k ≤ 2 ^ p → i ≤ 2 ^ k → IsFp p e → IsFp p (i * e) → place R (2 ^ k) e i = i * (e / 2 ^ k) := by
    intro k i e hk hi fe fi
    rw [place_eq R hp hk hi]
    have sc : ∀ y : K, y / ((2 ^ k : ℕ) : K) = y * 2 ^ (-(k : ℤ)) := by
      intro y
      rw [zpow_neg, zpow_natCast, div_eq_mul_inv]
      push_cast
      rfl
    rw [sc, R.id (fe.scale _), ← mul_assoc, R.id (fi.scale _), ← sc]
    push_cast
    ring
  have := vertsFp_at R (ext := ext) (nx := 2 ^ k) (ny := 2 ^ l) hi hj
  rw [key k i _ hk hi f1 e1, key l j _ hl hj f2 e2] at this
  exact this

/-- Every point between the ends of the divisions is in a face, and inside at most one. -/
theorem C141_tiling {nx ny : ℕ} {e f : K} {x y : ℕ → K} (nx0 : 0 < nx) (ny0 : 0 < ny) (hx : Divides p nx e x) (hy : Divides p ny f y) (a b : K) :
    ((0 ≤ a ∧ a ≤ x nx ∧ 0 ≤ b ∧ b ≤ y ny) ↔ ∃ i < nx, ∃ j < ny, x i ≤ a ∧ a ≤ x (i + 1) ∧ y j ≤ b ∧ b ≤ y (j + 1)) ∧
    ∀ i < nx, ∀ j < ny, ∀ i' < nx, ∀ j' < ny, x i < a → a < x (i + 1) → y j < b → b < y (j + 1) → x i' < a → a < x (i' + 1) → y j' < b → b < y (j' + 1) → i = i' ∧ j = j' := by
  constructor
  · constructor
    · rintro ⟨h1, h2, h3, h4⟩
      obtain ⟨i, hi, g1, g2⟩ := hx.slot nx0 h1 h2
      obtain ⟨j, hj, g3, g4⟩ := hy.slot ny0 h3 h4
      exact ⟨i, hi, j, hj, g1, g2, g3, g4⟩
    · rintro ⟨i, hi, j, hj, g1, g2, g3, g4⟩
      have := hx.mono (Nat.zero_le i) hi.le
      have := hy.mono (Nat.zero_le j) hj.le
      rw [hx.start] at *
      rw [hy.start] at *
      exact ⟨by linarith, g2.trans (hx.mono hi le_rfl), by linarith, g4.trans (hy.mono hj le_rfl)⟩
  · have key : ∀ {n : ℕ} {e : K} {x : ℕ → K}, Divides p n e x → ∀ {a : K} {i j : ℕ}, i < n → j < n → x i < a → a < x (j + 1) → i ≤ j := by
      intro n e x h a i j hi hj h1 h2
      by_contra hc
      have := h.mono (show j + 1 ≤ i by omega) hi.le
      linarith
    intro i hi j hj i' hi' j' hj' a1 a2 a3 a4 b1 b2 b3 b4
    exact ⟨le_antisymm (key hx hi hi' a1 b2) (key hx hi' hi b1 a2), le_antisymm (key hy hj hj' a3 b4) (key hy hj' hj b3 a4)⟩

theorem sum_flatMap (l : List ℕ) (f : ℕ → List K) : (l.flatMap f).sum = (l.map fun j => (f j).sum).sum := by
  induction l with
  | nil => rfl
  | cons j l ih => rw [List.flatMap_cons, List.sum_append, ih, List.map_cons, List.sum_cons]

theorem sum_steps (n : ℕ) (x : ℕ → K) (c : K) : ((List.range n).map fun i => (x (i + 1) - x i) * c).sum = (x n - x 0) * c := by
  induction n with
  | zero => simp
  | succ n ih => rw [List.range_succ, List.map_append, List.sum_append, ih]; simp; ring

/-- The areas of the faces, exactly computed, are positive and add up to the area of the pin up to four roundings. -/
theorem C141_area (hp : 1 ≤ p) (ext : K × K) (nx ny : ℤ) (mesh : Mesh K) (h : rectangularMeshFp R ext nx ny = some (some mesh)) (hx : 2 * nx ≤ 2 ^ p) (hy : 2 * ny ≤ 2 ^ p) :
    ∃ as : List K, mesh.faces.mapM (faceArea mesh) = some as ∧ (∀ a ∈ as, 0 < a) ∧ |as.sum - ext.1 * ext.2| ≤ ((1 + 1 / 2 ^ p) ^ 4 - 1) * (ext.1 * ext.2) := by
  obtain ⟨x, y, dx, dy, -, -, hb⟩ := C141_boxes R hp ext nx ny mesh h hx hy
  obtain ⟨h1, h2, h3, h4, hm⟩ := rectangularMeshFp_data R h
  have hf : mesh.faces = (List.range ny.toNat).flatMap fun j => (List.range nx.toNat).map fun i => cell nx.toNat i j := by
    rw [hm]
    show rectFaces _ _ = _
    unfold rectFaces
    simp only [cell_eq]
  have ha : ∀ i < nx.toNat, ∀ j < ny.toNat, faceArea mesh (cell nx.toNat i j) = some ((x (i + 1) - x i) * (y (j + 1) - y j)) := by
    intro i hi j hj
    obtain ⟨f, g1, g2⟩ := hb i j (by omega) (by omega)
    have : f = cell nx.toNat i j := by
      have := rectFaces_at hi hj
      rw [hm] at g1
      dsimp only at g1
      rw [this] at g1
      exact (Option.some.inj g1).symm
    subst this
    unfold faceArea
    unfold IsBox at g2
    rw [g2]
    dsimp only
    rw [Option.some.injEq]
    ring
  have hmap : ∀ (l : List (List ℕ)) (g : List ℕ → K), (∀ f ∈ l, faceArea mesh f = some (g f)) → l.mapM (faceArea mesh) = some (l.map g) := by
    intro l g hl
    induction l with
    | nil => rfl
    | cons f l ih =>
      rw [List.mapM_cons, hl f (by simp), ih fun g hg => hl g (by simp [hg])]
      rfl
  have hmem : ∀ f ∈ mesh.faces, ∃ i < nx.toNat, ∃ j < ny.toNat, f = cell nx.toNat i j := by
    intro f hf'
    rw [hf] at hf'
    obtain ⟨j, hj, hf'⟩ := List.mem_flatMap.1 hf'
    obtain ⟨i, hi, rfl⟩ := List.mem_map.1 hf'
    exact ⟨i, List.mem_range.1 hi, j, List.mem_range.1 hj, rfl⟩
  refine ⟨mesh.faces.map fun f => (faceArea mesh f).getD 0, hmap _ _ ?_, ?_, ?_⟩
  · intro f hf'
    obtain ⟨i, hi, j, hj, rfl⟩ := hmem f hf'
    rw [ha i hi j hj]
    rfl
  · intro a ha'
    obtain ⟨f, hf', rfl⟩ := List.mem_map.1 ha'
    obtain ⟨i, hi, j, hj, rfl⟩ := hmem f hf'
    rw [ha i hi j hj]
    exact mul_pos (sub_pos.2 (dx.step i hi)) (sub_pos.2 (dy.step j hj))
  · have hs : (mesh.faces.map fun f => (faceArea mesh f).getD 0).sum = x nx.toNat * y ny.toNat := by
      rw [hf, List.map_flatMap, sum_flatMap]
      have : ∀ j ∈ List.range ny.toNat, (((List.range nx.toNat).map fun i => cell nx.toNat i j).map fun f => (faceArea mesh f).getD 0).sum = (y (j + 1) - y j) * x nx.toNat := by
        intro j hj
        rw [List.map_map]
        have e : (List.range nx.toNat).map ((fun f => (faceArea mesh f).getD 0) ∘ fun i => cell nx.toNat i j) = (List.range nx.toNat).map fun i => (x (i + 1) - x i) * (y (j + 1) - y j) := by
          refine List.map_congr_left fun i hi => ?_
          show (faceArea mesh (cell nx.toNat i j)).getD 0 = _
          rw [ha i (List.mem_range.1 hi) j (List.mem_range.1 hj)]
          rfl
        rw [e, sum_steps, dx.start]
        ring
      rw [List.map_congr_left this, sum_steps, dy.start]
      ring
    rw [hs]
    have a1 := abs_le.1 (C141_extent h3 dx)
    have a2 := abs_le.1 (C141_extent h4 dy)
    have u0 : (0 : K) ≤ 1 / 2 ^ p := unit_nonneg p
    have u1 : (1 : K) / 2 ^ p ≤ 1 := unit_le p
    generalize (1 : K) / 2 ^ p = u at *
    set t := (1 + u) ^ 2 - 1 with ht
    have t0 : 0 ≤ t := by rw [ht]; nlinarith
    have e4 : (1 + u) ^ 4 - 1 = 2 * t + t ^ 2 := by rw [ht]; ring
    rw [e4]
    have X0 : 0 ≤ x nx.toNat := dx.start ▸ dx.mono (Nat.zero_le _) le_rfl
    have Y0 : 0 ≤ y ny.toNat := dy.start ▸ dy.mono (Nat.zero_le _) le_rfl
    have e : x nx.toNat * y ny.toNat - ext.1 * ext.2 = (x nx.toNat - ext.1) * ext.2 + ext.1 * (y ny.toNat - ext.2) + (x nx.toNat - ext.1) * (y ny.toNat - ext.2) := by ring
    rw [e]
    have b1 : |x nx.toNat - ext.1| ≤ t * ext.1 := abs_le.2 a1
    have b2 : |y ny.toNat - ext.2| ≤ t * ext.2 := abs_le.2 a2
    refine (abs_add_le _ _).trans ?_
    refine (add_le_add_left (abs_add_le _ _) _).trans ?_
    rw [abs_mul, abs_mul, abs_mul, abs_of_pos h1, abs_of_pos h2]
    have := mul_le_mul b1 b2 (abs_nonneg _) (by positivity)
    nlinarith [mul_le_mul_of_nonneg_right b1 h2.le, mul_le_mul_of_nonneg_left b2 h1.le]

/-! ### Where it fails -/

/-- A pin of width 1.26 with nine columns: the mesh is wider than the pin; one of width 7 with 55 columns: narrower. -/
theorem C141_extent_fails : rne 53 (126 / 100 : ℚ) < place (ieee ℚ 53 (by norm_num)) 9 (rne 53 (126 / 100)) 9 ∧ place (ieee ℚ 53 (by norm_num)) 55 7 55 < (7 : ℚ) := by
  constructor <;> decide +kernel

/-- In single precision with 2^24 + 4 columns two divisions coincide: there are faces without extent. -/
theorem C141_many_fails : place (ieee ℚ 24 (by norm_num)) (2 ^ 24 + 4) 1 (2 ^ 24) = place (ieee ℚ 24 (by norm_num)) (2 ^ 24 + 4) (1 : ℚ) (2 ^ 24 + 1) := by
  decide +kernel

/-! ### Examples -/

/-- Five by five faces. -/
example (R : Rounding ℚ 53) : ∃ mesh, rectangularMeshFp R (5 / 4, 5 / 4) 5 5 = some (some mesh) ∧
    ∃ as : List ℚ, mesh.faces.mapM (faceArea mesh) = some as ∧ (∀ a ∈ as, 0 < a) ∧ |as.sum - 5 / 4 * (5 / 4)| ≤ ((1 + 1 / 2 ^ 53) ^ 4 - 1) * (5 / 4 * (5 / 4)) := by
  obtain ⟨mesh, h⟩ : ∃ mesh, rectangularMeshFp R (5 / 4, 5 / 4) 5 5 = some (some mesh) := by
    unfold rectangularMeshFp
    rw [if_neg (by norm_num), if_neg (by decide), if_neg (by decide)]
    exact ⟨_, rfl⟩
  exact ⟨mesh, h, C141_area R (by norm_num) (5 / 4, 5 / 4) 5 5 mesh h (by norm_num) (by norm_num)⟩

/-- Four columns: the divisions are exact. -/
example (R : Rounding ℚ 53) (mesh : Mesh ℚ) (h : rectangularMeshFp R (5 / 4, 5 / 4) (2 ^ 2 : ℕ) (2 ^ 2 : ℕ) = some (some mesh)) : mesh.verts[4 * (2 ^ 2 + 1) + 4]? = some (5 / 4, 5 / 4) := by
  have f5 : IsFp 53 (5 / 4 : ℚ) := ⟨5, -2, by norm_num, by norm_num⟩
  have f20 : IsFp 53 (((4 : ℕ) : ℚ) * (5 / 4)) := ⟨5, 0, by norm_num, by norm_num⟩
  have := C141_power R (by norm_num) (5 / 4, 5 / 4) 2 2 mesh h (by norm_num) (by norm_num) f5 f5 4 4 (by norm_num) (by norm_num) f20 f20
  rw [this]
  norm_num

end Verif.PropsFpPin
