import Verif.Model.FpLocate
import Verif.Props.FpGeom
import Verif.Props.FpPin

/-! C152: finding the face of a point in floating-point arithmetic. -/

set_option linter.unusedSectionVars false

namespace Verif.FpLocateP

open Verif.Fp Verif.Pin Verif.FpPin Verif.PropsFpPin Verif.PropsRectPin
open Verif.FpGeomP (OnGrid)
open Verif.FpSpec

variable {K : Type} [Field K] [LinearOrder K] [IsStrictOrderedRing K] [FloorRing K] {p : ℕ} (R : Rounding K p)

/-! ### The statement -/

/-- The corners of a face are these points. -/
def Corners (mesh : Mesh K) (f : List ℕ) (vs : List (P2 K)) : Prop := f.map (fun v => mesh.verts[v]?) = vs.map some

/-- The edges of a polygon, from each corner to the next. -/
def edges (vs : List (P2 K)) : List (P2 K × P2 K) := vs.zip (vs.rotate 1)

/-- All faces are triangles or quadrilaterals with corners among the vertices. -/
def Sound (mesh : Mesh K) : Prop := ∀ f ∈ mesh.faces, ∃ vs, Corners mesh f vs ∧ (vs.length = 3 ∨ vs.length = 4)

/-- The point is to the left of each edge, or on it. -/
def Within (mesh : Mesh K) (q : P2 K) (f : List ℕ) : Prop := ∃ vs, Corners mesh f vs ∧ ∀ e ∈ edges vs, 0 ≤ turn e.1 e.2 q

/-- The answer `k` is the number of the first face with the property, and -1 if there is none. -/
def FirstFace (fs : List (List ℕ)) (P : List ℕ → Prop) (k : ℤ) : Prop :=
  (k = -1 ∧ ∀ f ∈ fs, ¬P f) ∨ ∃ i : ℕ, k = i ∧ (∃ f, fs[i]? = some f ∧ P f) ∧ ∀ j < i, ∀ f, fs[j]? = some f → ¬P f

/-- How far the computed side of an edge may be off. -/
def margin (p : ℕ) (a b q : P2 K) : K := 6 / 2 ^ p * (|b.1 - a.1| * |q.2 - a.2| + |b.2 - a.2| * |q.1 - a.1|)

/-! ### The loop -/

theorem mapM_corners {mesh : Mesh K} {f : List ℕ} {vs : List (P2 K)} (h : Corners mesh f vs) : (f.mapM fun v => mesh.verts[v]?) = some vs := by
  unfold Corners at h
  induction f generalizing vs with
  | nil =>
    cases vs with
    | nil => rfl
    | cons a l => simp at h
  | cons v f ih =>
    cases vs with
    | nil => simp at h
    | cons a l =>
      simp only [List.map_cons, List.cons.injEq] at h
      rw [List.mapM_cons, h.1, ih h.2]
      rfl

theorem corners_unique {mesh : Mesh K} {f : List ℕ} {vs ws : List (P2 K)} (h : Corners mesh f vs) (g : Corners mesh f ws) : vs = ws :=
  Option.some.inj ((mapM_corners h).symm.trans (mapM_corners g))

theorem contains_edges {vs : List (P2 K)} (h : vs.length = 3 ∨ vs.length = 4) (q : P2 K) :
    ∃ b, faceContains R vs q = some b ∧ (b = true ↔ ∀ e ∈ edges vs, areCCW R e.1 e.2 q = true) := by
  rcases h with h | h
  · obtain ⟨a, b, c, rfl⟩ := List.length_eq_three.1 h
    refine ⟨_, rfl, ?_⟩
    simp [triContains, edges, List.rotate, and_assoc]
  · match vs, h with
    | [a, b, c, d], _ =>
      refine ⟨_, rfl, ?_⟩
      simp [quadContains, edges, List.rotate, and_assoc]

/-- The loop finds the first face all whose edges accept the point. -/
theorem locateFrom_first {mesh : Mesh K} {q : P2 K} {P : List ℕ → Prop} (fs : List (List ℕ)) (i : ℕ)
    (h : ∀ f ∈ fs, ∃ vs, Corners mesh f vs ∧ (vs.length = 3 ∨ vs.length = 4) ∧ (P f ↔ ∀ e ∈ edges vs, areCCW R e.1 e.2 q = true)) :
    (locateFrom R mesh q i fs = some (-1) ∧ ∀ f ∈ fs, ¬P f) ∨
      ∃ j : ℕ, locateFrom R mesh q i fs = some ((i + j : ℕ) : ℤ) ∧ (∃ f, fs[j]? = some f ∧ P f) ∧ ∀ j' < j, ∀ f, fs[j']? = some f → ¬P f := by
  induction fs generalizing i with
  | nil => exact Or.inl ⟨rfl, by simp⟩
  | cons f fs ih =>
    obtain ⟨vs, c, l, e⟩ := h f (by simp)
    obtain ⟨b, hb, hb2⟩ := contains_edges R l q
    unfold locateFrom
    rw [mapM_corners c, Option.bind_some, hb]
    by_cases hP : P f
    · have : b = true := hb2.2 (e.1 hP)
      subst this
      exact Or.inr ⟨0, rfl, ⟨f, rfl, hP⟩, by simp⟩
    · have : b = false := by
        cases b
        · rfl
        · exact absurd (e.2 (hb2.1 rfl)) hP
      subst this
      rcases ih (i + 1) (fun g hg => h g (by simp [hg])) with ⟨a1, a2⟩ | ⟨j, a1, a2, a3⟩
      · left
        refine ⟨a1, ?_⟩
        intro g hg
        rcases List.mem_cons.1 hg with rfl | hg
        · exact hP
        · exact a2 g hg
      · right
        refine ⟨j + 1, ?_, by simpa using a2, ?_⟩
        · dsimp only
          rw [a1]
          congr 2
          omega
        · intro j' hj' g hg
          cases j' with
          | zero =>
            simp only [List.getElem?_cons_zero, Option.some.injEq] at hg
            exact hg ▸ hP
          | succ j' => exact a3 j' (by omega) g (by simpa using hg)

theorem locate_first {mesh : Mesh K} {q : P2 K} {P : List ℕ → Prop}
    (h : ∀ f ∈ mesh.faces, ∃ vs, Corners mesh f vs ∧ (vs.length = 3 ∨ vs.length = 4) ∧ (P f ↔ ∀ e ∈ edges vs, areCCW R e.1 e.2 q = true)) :
    ∃ k, locate R mesh q = some k ∧ FirstFace mesh.faces P k := by
  rcases locateFrom_first R mesh.faces 0 h with ⟨a, b⟩ | ⟨j, a, b, c⟩
  · exact ⟨_, a, Or.inl ⟨rfl, b⟩⟩
  · exact ⟨_, a, Or.inr ⟨j, by simp, b, c⟩⟩

/-! ### Points of a grid -/

theorem corner_mem {mesh : Mesh K} {f : List ℕ} {vs : List (P2 K)} (h : Corners mesh f vs) : ∀ v ∈ vs, v ∈ mesh.verts := by
  intro v hv
  have : some v ∈ f.map (fun v => mesh.verts[v]?) := by rw [h]; exact List.mem_map.2 ⟨v, hv, rfl⟩
  obtain ⟨i, -, hi⟩ := List.mem_map.1 this
  exact List.mem_of_getElem? hi

theorem edge_mem {vs : List (P2 K)} {e : P2 K × P2 K} (h : e ∈ edges vs) : e.1 ∈ vs ∧ e.2 ∈ vs := by
  have := List.of_mem_zip (a := e.1) (b := e.2) h
  exact ⟨this.1, List.mem_rotate.1 this.2⟩

theorem ccw_grid (hp : 2 ≤ p) {k : ℤ} {a b q : P2 K} (ha : OnGrid K p k a) (hb : OnGrid K p k b) (hq : OnGrid K p k q) : areCCW R a b q = true ↔ 0 ≤ turn a b q := by
  obtain ⟨a1, a2, ha1, ha2, rfl⟩ := ha
  obtain ⟨b1, b2, hb1, hb2, rfl⟩ := hb
  obtain ⟨q1, q2, hq1, hq2, rfl⟩ := hq
  have hp1 : 1 ≤ p := by omega
  exact FpGeomP.C121_orientation_partial R hp (grid_diff hp1 hb1 ha1) (grid_diff hp1 hb2 ha2) (grid_diff hp1 hq1 ha1) (grid_diff hp1 hq2 ha2)

/-- **C152**: if the vertices and the point are on a grid, then the answer is the first face that contains the point, and -1 if no face does. -/
theorem C152_grid_partial (hp : 2 ≤ p) {k : ℤ} {mesh : Mesh K} (hm : Sound mesh) (hv : ∀ v ∈ mesh.verts, OnGrid K p k v) {q : P2 K} (hq : OnGrid K p k q) :
    ∃ n, locate R mesh q = some n ∧ FirstFace mesh.faces (Within mesh q) n := by
  refine locate_first R fun f hf => ?_
  obtain ⟨vs, c, l⟩ := hm f hf
  refine ⟨vs, c, l, ?_⟩
  have E : ∀ e ∈ edges vs, (areCCW R e.1 e.2 q = true ↔ 0 ≤ turn e.1 e.2 q) := fun e he =>
    ccw_grid R hp (hv _ (corner_mem c _ (edge_mem he).1)) (hv _ (corner_mem c _ (edge_mem he).2)) hq
  constructor
  · rintro ⟨ws, d, h⟩ e he
    rw [corners_unique d c] at h
    exact (E e he).2 (h e he)
  · intro h
    exact ⟨vs, c, fun e he => (E e he).1 (h e he)⟩

/-! ### Any points -/

/-- **C152**: for any mesh and any point, the face that is found has the point to the left of each of its edges up to the margin, and no face before it has it there by more than
the margin; if none is found, then no face has. -/
theorem C152_margin (hp : 5 ≤ p) {mesh : Mesh K} (hm : Sound mesh) (q : P2 K) :
    ∃ k, locate R mesh q = some k ∧
      ((k = -1 ∧ ∀ f ∈ mesh.faces, ∀ vs, Corners mesh f vs → ∃ e ∈ edges vs, turn e.1 e.2 q < margin p e.1 e.2 q) ∨
        ∃ i : ℕ, k = i ∧ (∃ f vs, mesh.faces[i]? = some f ∧ Corners mesh f vs ∧ ∀ e ∈ edges vs, -margin p e.1 e.2 q ≤ turn e.1 e.2 q) ∧
          ∀ j < i, ∀ f vs, mesh.faces[j]? = some f → Corners mesh f vs → ∃ e ∈ edges vs, turn e.1 e.2 q < margin p e.1 e.2 q) := by
  obtain ⟨k, hk, hf⟩ := locate_first R (mesh := mesh) (q := q) (P := fun f => ∃ vs, Corners mesh f vs ∧ ∀ e ∈ edges vs, areCCW R e.1 e.2 q = true) (by
    intro f hf
    obtain ⟨vs, c, l⟩ := hm f hf
    refine ⟨vs, c, l, ?_, fun h => ⟨vs, c, h⟩⟩
    rintro ⟨ws, d, h⟩
    rwa [corners_unique d c] at h)
  have up : ∀ a b : P2 K, areCCW R a b q = true → -margin p a b q ≤ turn a b q := by
    intro a b h
    unfold areCCW at h
    rw [decide_eq_true_iff] at h
    have := (abs_le.1 (FpGeomP.C121_error R hp a b q)).2
    unfold margin
    linarith
  have down : ∀ f vs, Corners mesh f vs → (¬∃ vs, Corners mesh f vs ∧ ∀ e ∈ edges vs, areCCW R e.1 e.2 q = true) → ∃ e ∈ edges vs, turn e.1 e.2 q < margin p e.1 e.2 q := by
    intro f vs c h
    by_contra hn
    push Not at hn
    refine h ⟨vs, c, fun e he => ?_⟩
    have h1 := hn e he
    by_contra h2
    unfold areCCW at h2
    rw [decide_eq_true_iff, not_le] at h2
    have := (abs_le.1 (FpGeomP.C121_error R hp e.1 e.2 q)).1
    unfold margin at h1
    linarith
  refine ⟨k, hk, ?_⟩
  rcases hf with ⟨a, b⟩ | ⟨i, a, ⟨f, b, vs, c, d⟩, e⟩
  · exact Or.inl ⟨a, fun f hf vs c => down f vs c (b f hf)⟩
  · exact Or.inr ⟨i, a, ⟨f, vs, b, c, fun e he => up _ _ (d e he)⟩, fun j hj f vs hf c => down f vs c (e j hj f hf)⟩

/-! ### Edges along the axes -/

theorem rnd_nonneg (hp : 1 ≤ p) (x : K) : 0 ≤ R.rnd x ↔ 0 ≤ x := by
  constructor
  · intro h
    by_contra hn
    push Not at hn
    have := R.pos hp (neg_pos.2 hn)
    have e := rel_u R hp x
    rw [abs_of_neg hn] at e
    have u1 : (1 : K) / 2 ^ p < 1 := by
      rw [div_lt_one (by positivity)]
      exact one_lt_pow₀ (by norm_num) (by omega)
    have := (abs_le.1 e).2
    nlinarith
  · intro h
    rcases h.lt_or_eq with h | h
    · exact (R.pos hp h).le
    · rw [← h, R.zero]

theorem rnd_nonpos (hp : 1 ≤ p) (x : K) : R.rnd x ≤ 0 ↔ x ≤ 0 := by
  constructor
  · intro h
    by_contra hn
    exact absurd (R.pos hp (not_le.1 hn)) (not_lt.2 h)
  · intro h
    by_contra hn
    push Not at hn
    have h1 := (rnd_nonneg R hp x).1 hn.le
    have : x = 0 := le_antisymm h h1
    rw [this, R.zero] at hn
    exact lt_irrefl _ hn

theorem rnd_neg' (hp : 1 ≤ p) {x : K} (h : x < 0) : R.rnd x < 0 := by
  by_contra hn
  exact absurd ((rnd_nonneg R hp x).1 (not_lt.1 hn)) (not_le.2 h)

theorem pos_mul {a b : K} (h : 0 < a) : (0 ≤ a * b ↔ 0 ≤ b) ∧ (a * b ≤ 0 ↔ b ≤ 0) :=
  ⟨⟨fun k => by by_contra c; push Not at c; nlinarith, fun k => by positivity⟩, ⟨fun k => by by_contra c; push Not at c; nlinarith, fun k => by nlinarith⟩⟩

theorem neg_mul' {a b : K} (h : a < 0) : (0 ≤ a * b ↔ b ≤ 0) ∧ (a * b ≤ 0 ↔ 0 ≤ b) :=
  ⟨⟨fun k => by by_contra c; push Not at c; nlinarith, fun k => by nlinarith⟩, ⟨fun k => by by_contra c; push Not at c; nlinarith, fun k => by nlinarith⟩⟩

/-- **C152**: along an axis the side of an edge is exact, for all points and all edges. -/
theorem C152_axis (hp : 2 ≤ p) {a b : P2 K} (h : a.1 = b.1 ∨ a.2 = b.2) (q : P2 K) : areCCW R a b q = true ↔ 0 ≤ turn a b q := by
  have hp1 : 1 ≤ p := by omega
  have s := FpGeomP.C120_sign R hp (R.mem (b.1 - a.1)) (R.mem (b.2 - a.2)) (R.mem (q.1 - a.1)) (R.mem (q.2 - a.2))
  unfold areCCW cross sub turn
  rw [decide_eq_true_iff]
  dsimp only
  rw [← not_lt, s.2.2, not_lt]
  have key : ∀ x y : K, 0 ≤ R.rnd x * R.rnd y ↔ 0 ≤ x * y := by
    intro x y
    rcases lt_trichotomy x 0 with hx | hx | hx
    · have := rnd_neg' R hp1 hx
      rw [(neg_mul' this).1, (neg_mul' hx).1, rnd_nonpos R hp1]
    · rw [hx, R.zero]; simp
    · have := R.pos hp1 hx
      rw [(pos_mul this).1, (pos_mul hx).1, rnd_nonneg R hp1]
  have keyn : ∀ x y : K, 0 ≤ -(R.rnd x * R.rnd y) ↔ 0 ≤ -(x * y) := by
    intro x y
    rw [neg_nonneg, neg_nonneg]
    rcases lt_trichotomy x 0 with hx | hx | hx
    · have := rnd_neg' R hp1 hx
      rw [(neg_mul' this).2, (neg_mul' hx).2, rnd_nonneg R hp1]
    · rw [hx, R.zero]; simp
    · have := R.pos hp1 hx
      rw [(pos_mul this).2, (pos_mul hx).2, rnd_nonpos R hp1]
  rcases h with h | h
  · rw [h, sub_self, R.zero, zero_mul, zero_mul, zero_sub, zero_sub]
    exact keyn _ _
  · rw [h, sub_self, R.zero, zero_mul, zero_mul, sub_zero, sub_zero]
    exact key _ _

/-- **C152**: a rectangle contains exactly the points between its sides, in any precision and for any numbers. -/
theorem C152_rectangle (hp : 2 ≤ p) {x0 y0 x1 y1 : K} (hx : x0 < x1) (hy : y0 < y1) (q : P2 K) :
    quadContains R (x0, y0) (x1, y0) (x1, y1) (x0, y1) q = true ↔ (x0 ≤ q.1 ∧ q.1 ≤ x1) ∧ y0 ≤ q.2 ∧ q.2 ≤ y1 := by
  unfold quadContains
  rw [Bool.and_eq_true, Bool.and_eq_true, Bool.and_eq_true, C152_axis R hp (a := (x0, y0)) (b := (x1, y0)) (Or.inr rfl),
    C152_axis R hp (a := (x1, y0)) (b := (x1, y1)) (Or.inl rfl), C152_axis R hp (a := (x1, y1)) (b := (x0, y1)) (Or.inr rfl),
    C152_axis R hp (a := (x0, y1)) (b := (x0, y0)) (Or.inl rfl)]
  unfold turn
  dsimp only
  have dx : 0 < x1 - x0 := by linarith
  have dy : 0 < y1 - y0 := by linarith
  constructor
  · rintro ⟨⟨⟨h1, h2⟩, h3⟩, h4⟩
    refine ⟨⟨?_, ?_⟩, ?_, ?_⟩
    · by_contra h; push Not at h; nlinarith
    · by_contra h; push Not at h; nlinarith
    · by_contra h; push Not at h; nlinarith
    · by_contra h; push Not at h; nlinarith
  · rintro ⟨⟨h1, h2⟩, h3, h4⟩
    refine ⟨⟨⟨?_, ?_⟩, ?_⟩, ?_⟩ <;> nlinarith

/-! ### Rectangular pins -/

/-- **C152**: in the mesh that `addRectangularPinMesh` builds, `faceContaining` finds the face of every point of the rectangle, and no face for the others. On a line between faces
it is the face to the left or below. -/
theorem C152_pin (hp : 2 ≤ p) (ext : K × K) (nx ny : ℤ) (mesh : Mesh K) (h : rectangularMeshFp R ext nx ny = some (some mesh)) (hx : 2 * nx ≤ 2 ^ p) (hy : 2 * ny ≤ 2 ^ p) :
    ∃ x y : ℕ → K, Divides p nx.toNat ext.1 x ∧ Divides p ny.toNat ext.2 y ∧
      (∀ i j : ℕ, (i : ℤ) < nx → (j : ℤ) < ny → ∃ f, mesh.faces[j * nx.toNat + i]? = some f ∧ IsBox mesh f (x i) (y j) (x (i + 1)) (y (j + 1))) ∧
      ∀ q, ∃ k, locate R mesh q = some k ∧ (k = -1 ↔ ¬((0 ≤ q.1 ∧ q.1 ≤ x nx.toNat) ∧ 0 ≤ q.2 ∧ q.2 ≤ y ny.toNat)) ∧
        ∀ i j : ℕ, (i : ℤ) < nx → (j : ℤ) < ny →
          (k = ((j * nx.toNat + i : ℕ) : ℤ) ↔ (q.1 ≤ x (i + 1) ∧ (x i < q.1 ∨ i = 0 ∧ q.1 = 0)) ∧ q.2 ≤ y (j + 1) ∧ (y j < q.2 ∨ j = 0 ∧ q.2 = 0)) := by
  obtain ⟨x, y, dx, dy, hl, -, hb⟩ := C141_boxes R (by omega) ext nx ny mesh h hx hy
  obtain ⟨-, -, nx0, ny0, -⟩ := rectangularMeshFp_data R h
  refine ⟨x, y, dx, dy, hb, fun q => ?_⟩
  have hnx : (nx.toNat : ℤ) = nx := Int.toNat_of_nonneg (by omega)
  have hny : (ny.toNat : ℤ) = ny := Int.toNat_of_nonneg (by omega)
  generalize nx.toNat = m at *
  generalize ny.toNat = n at *
  have hl' : mesh.faces.length = m * n := by zify; rw [hl, hnx, hny]
  have hb' : ∀ i j : ℕ, i < m → j < n → ∃ f, mesh.faces[j * m + i]? = some f ∧ IsBox mesh f (x i) (y j) (x (i + 1)) (y (j + 1)) := fun i j hi hj => hb i j (by omega) (by omega)
  clear hb
  have at_ : ∀ k f, mesh.faces[k]? = some f → ∃ i j, i < m ∧ j < n ∧ k = j * m + i ∧ IsBox mesh f (x i) (y j) (x (i + 1)) (y (j + 1)) := by
    intro k f hf
    have hk : k < m * n := by rw [← hl']; exact (List.getElem?_eq_some_iff.1 hf).1
    have e : k = k / m * m + k % m := (Nat.div_add_mod' k m).symm
    have hi : k % m < m := Nat.mod_lt _ nx0
    have hj : k / m < n := Nat.div_lt_of_lt_mul hk
    obtain ⟨g, g1, g2⟩ := hb' (k % m) (k / m) hi hj
    rw [← e, hf] at g1
    cases g1
    exact ⟨_, _, hi, hj, e, g2⟩
  have box : ∀ {f : List ℕ} {i j : ℕ}, i < m → j < n → IsBox mesh f (x i) (y j) (x (i + 1)) (y (j + 1)) → Corners mesh f [(x i, y j), (x (i + 1), y j), (x (i + 1), y (j + 1)), (x i, y (j + 1))] ∧
      ((∀ e ∈ edges [(x i, y j), (x (i + 1), y j), (x (i + 1), y (j + 1)), (x i, y (j + 1))], areCCW R e.1 e.2 q = true) ↔ (x i ≤ q.1 ∧ q.1 ≤ x (i + 1)) ∧ y j ≤ q.2 ∧ q.2 ≤ y (j + 1)) := by
    intro f i j hi hj hf
    refine ⟨hf, ?_⟩
    rw [← C152_rectangle R hp (dx.step i hi) (dy.step j hj)]
    obtain ⟨b, h1, h2⟩ := contains_edges R (vs := [(x i, y j), (x (i + 1), y j), (x (i + 1), y (j + 1)), (x i, y (j + 1))]) (Or.inr rfl) q
    rw [← h2]
    cases h1
    rfl
  obtain ⟨k, hk, hf⟩ := locate_first R (mesh := mesh) (q := q)
    (P := fun f => ∃ i j, i < m ∧ j < n ∧ IsBox mesh f (x i) (y j) (x (i + 1)) (y (j + 1)) ∧ (x i ≤ q.1 ∧ q.1 ≤ x (i + 1)) ∧ y j ≤ q.2 ∧ q.2 ≤ y (j + 1)) (by
      intro f hf
      obtain ⟨k, hk⟩ := List.mem_iff_getElem?.1 hf
      obtain ⟨i, j, hi, hj, -, b⟩ := at_ k f hk
      have c := box hi hj b
      refine ⟨_, c.1, Or.inr rfl, ?_⟩
      rw [c.2]
      constructor
      · rintro ⟨i', j', hi', hj', b', r⟩
        have c' := (box hi' hj' b').1
        have := corners_unique c' c.1
        simp only [List.cons.injEq, Prod.mk.injEq] at this
        obtain ⟨⟨t1, t2⟩, -, ⟨t3, t4⟩, -⟩ := this
        rw [t1, t2, t3, t4] at r
        exact r
      · intro r
        exact ⟨i, j, hi, hj, b, r⟩)
  have here : ∀ i j, i < m → j < n → ∀ f, mesh.faces[j * m + i]? = some f →
      ((∃ i j, i < m ∧ j < n ∧ IsBox mesh f (x i) (y j) (x (i + 1)) (y (j + 1)) ∧ (x i ≤ q.1 ∧ q.1 ≤ x (i + 1)) ∧ y j ≤ q.2 ∧ q.2 ≤ y (j + 1)) ↔
        (x i ≤ q.1 ∧ q.1 ≤ x (i + 1)) ∧ y j ≤ q.2 ∧ q.2 ≤ y (j + 1)) := by
    intro i j hi hj f hf
    obtain ⟨g, g1, g2⟩ := hb' i j hi hj
    rw [hf] at g1
    cases g1
    constructor
    · rintro ⟨i', j', hi', hj', b', r⟩
      have := corners_unique (box hi' hj' b').1 (box hi hj g2).1
      simp only [List.cons.injEq, Prod.mk.injEq] at this
      obtain ⟨⟨t1, t2⟩, -, ⟨t3, t4⟩, -⟩ := this
      rw [t1, t2, t3, t4] at r
      exact r
    · intro r
      exact ⟨i, j, hi, hj, g2, r⟩
  -- the cell with its left and lower side removed, except at the border
  have cellOf : (0 ≤ q.1 ∧ q.1 ≤ x m) ∧ 0 ≤ q.2 ∧ q.2 ≤ y n → ∃ i j, i < m ∧ j < n ∧ (x i ≤ q.1 ∧ q.1 ≤ x (i + 1)) ∧ y j ≤ q.2 ∧ q.2 ≤ y (j + 1) := by
    rintro ⟨⟨a, b⟩, c, d⟩
    obtain ⟨i, hi, hi1, hi2⟩ := dx.slot nx0 a b
    obtain ⟨j, hj, hj1, hj2⟩ := dy.slot ny0 c d
    exact ⟨i, j, hi, hj, ⟨hi1, hi2⟩, hj1, hj2⟩
  have inside : ∀ i j, i < m → j < n → (x i ≤ q.1 ∧ q.1 ≤ x (i + 1)) ∧ y j ≤ q.2 ∧ q.2 ≤ y (j + 1) → (0 ≤ q.1 ∧ q.1 ≤ x m) ∧ 0 ≤ q.2 ∧ q.2 ≤ y n := by
    rintro i j hi hj ⟨⟨a, b⟩, c, d⟩
    have e1 := dx.mono (Nat.zero_le i) hi.le
    have e2 := dx.mono (i := i + 1) (j := m) hi le_rfl
    have e3 := dy.mono (Nat.zero_le j) hj.le
    have e4 := dy.mono (i := j + 1) (j := n) hj le_rfl
    rw [dx.start] at e1
    rw [dy.start] at e3
    exact ⟨⟨e1.trans a, b.trans e2⟩, e3.trans c, d.trans e4⟩
  refine ⟨k, hk, ?_, ?_⟩
  · rcases hf with ⟨a, b⟩ | ⟨l, a, ⟨f, b, c⟩, -⟩
    · refine ⟨fun _ c => ?_, fun _ => a⟩
      obtain ⟨i, j, hi, hj, r⟩ := cellOf c
      obtain ⟨g, g1, g2⟩ := hb' i j hi hj
      exact b g (List.mem_of_getElem? g1) ⟨i, j, hi, hj, g2, r⟩
    · refine ⟨fun e => by omega, fun e => ?_⟩
      obtain ⟨i, j, hi, hj, -, r⟩ := c
      exact absurd (inside i j hi hj r) e
  · intro i j hi' hj'
    have hi : i < m := by omega
    have hj : j < n := by omega
    obtain ⟨g, g1, g2⟩ := hb' i j hi hj
    constructor
    · intro e
      rcases hf with ⟨a, -⟩ | ⟨l, a, ⟨f, b, c⟩, d⟩
      · omega
      · have : l = j * m + i := by omega
        subst this
        have r := (here i j hi hj f b).1 c
        refine ⟨⟨r.1.2, ?_⟩, r.2.2, ?_⟩
        · by_contra hn
          push Not at hn
          have e1 : q.1 = x i := le_antisymm hn.1 r.1.1
          rcases Nat.eq_zero_or_pos i with rfl | i0
          · exact hn.2 rfl (by rw [e1, dx.start])
          · obtain ⟨i, rfl⟩ : ∃ i', i = i' + 1 := ⟨i - 1, by omega⟩
            obtain ⟨w, w1, w2⟩ := hb' i j (by omega) hj
            exact d (j * m + i) (by omega) w w1 ⟨i, j, by omega, hj, w2, ⟨by rw [e1]; exact (dx.step i (by omega)).le, e1.le⟩, r.2⟩
        · by_contra hn
          push Not at hn
          have e1 : q.2 = y j := le_antisymm hn.1 r.2.1
          rcases Nat.eq_zero_or_pos j with rfl | j0
          · exact hn.2 rfl (by rw [e1, dy.start])
          · obtain ⟨j, rfl⟩ : ∃ j', j = j' + 1 := ⟨j - 1, by omega⟩
            obtain ⟨w, w1, w2⟩ := hb' i j hi (by omega)
            exact d (j * m + i) (by rw [Nat.succ_mul]; omega) w w1 ⟨i, j, hi, by omega, w2, r.1, by rw [e1]; exact (dy.step j (by omega)).le, e1.le⟩
    · rintro ⟨⟨a1, a2⟩, b1, b2⟩
      have ax : x i ≤ q.1 := by
        rcases a2 with a2 | ⟨rfl, a2⟩
        · exact a2.le
        · rw [a2, dx.start]
      have ay : y j ≤ q.2 := by
        rcases b2 with b2 | ⟨rfl, b2⟩
        · exact b2.le
        · rw [b2, dy.start]
      rcases hf with ⟨-, b⟩ | ⟨l, a, ⟨f, b, c⟩, d⟩
      · exact absurd ⟨i, j, hi, hj, g2, ⟨ax, a1⟩, ay, b1⟩ (b g (List.mem_of_getElem? g1))
      · obtain ⟨i', j', hi', hj', e', -⟩ := at_ l f b
        subst e'
        have r := (here i' j' hi' hj' f b).1 c
        rcases Nat.lt_trichotomy (j * m + i) (j' * m + i') with hlt | heq | hlt
        · exact absurd ⟨i, j, hi, hj, g2, ⟨ax, a1⟩, ay, b1⟩ (d _ hlt g g1)
        · rw [a, heq]
        · exfalso
          rcases Nat.lt_trichotomy j' j with hj2 | rfl | hj2
          · have := dy.mono (i := j' + 1) (j := j) hj2 hj.le
            rcases b2 with b2 | ⟨rfl, -⟩
            · exact absurd (r.2.2.trans this) (not_le.2 b2)
            · omega
          · have := dx.mono (i := i' + 1) (j := i) (by omega) hi.le
            rcases a2 with a2 | ⟨rfl, -⟩
            · exact absurd (r.1.2.trans this) (not_le.2 a2)
            · omega
          · have : (j + 1) * m ≤ j' * m := Nat.mul_le_mul_right _ hj2
            rw [Nat.succ_mul] at this
            omega

/-! ### Points between faces -/

/-- **C152**: a point inside a mesh of two triangles, in double precision, for which `faceContaining` finds no face. -/
theorem C152_gap_fails : ∃ (mesh : Mesh ℚ) (q : P2 ℚ), Sound mesh ∧ (∀ v ∈ mesh.verts, IsFp 53 v.1 ∧ IsFp 53 v.2) ∧ IsFp 53 q.1 ∧ IsFp 53 q.2 ∧
    (∃ f ∈ mesh.faces, Within mesh q f) ∧ locate (ieee ℚ 53 (by norm_num)) mesh q = some (-1) := by
  obtain ⟨a, s, b, t, q, hf, -, -, hin, -, -, -, -, h1, h2⟩ := FpGeomP.C121_gap_fails
  refine ⟨⟨[a, s, b, t], [[0, 1, 2], [0, 2, 3]]⟩, q, ?_, fun v hv => hf v (by simp at hv ⊢; tauto), (hf q (by simp)).1, (hf q (by simp)).2, ?_, ?_⟩
  · intro f hf
    simp only [List.mem_cons, List.not_mem_nil, or_false] at hf
    rcases hf with rfl | rfl
    · exact ⟨[a, s, b], rfl, Or.inl rfl⟩
    · exact ⟨[a, b, t], rfl, Or.inl rfl⟩
  · refine ⟨[0, 1, 2], by simp, [a, s, b], rfl, ?_⟩
    intro e he
    simp [edges, List.rotate] at he
    rcases he with rfl | rfl | rfl
    exacts [hin.1, hin.2.1, hin.2.2]
  · simp [locate, locateFrom, faceContains, h1, h2]

/-! ### The hypotheses are met -/

/-- A pin of 1.26 cm with three times three faces: the point (0.5, 0.1) is in face 1, a point outside in none. -/
example : ∃ mesh, rectangularMeshFp (ieee ℚ 53 (by norm_num)) (rne 53 (126 / 100), rne 53 (126 / 100)) 3 3 = some (some mesh) ∧
    locate (ieee ℚ 53 (by norm_num)) mesh (rne 53 (1 / 2), rne 53 (1 / 10)) = some 1 ∧ locate (ieee ℚ 53 (by norm_num)) mesh (2, 0) = some (-1) := by
  refine ⟨⟨rectVertsFp (ieee ℚ 53 (by norm_num)) (rne 53 (126 / 100), rne 53 (126 / 100)) 3 3, rectFaces 3 3⟩, ?_, ?_, ?_⟩
  · unfold rectangularMeshFp
    rw [if_neg (by decide +kernel), if_neg (by norm_num), if_neg (by norm_num)]
    rfl
  · decide +kernel
  · decide +kernel

/-- Two triangles and a square on a grid; the point (1, 1) is in the second face. -/
example : ∃ n, locate (ieee ℚ 53 (by norm_num)) ⟨[(0, 0), (1, 0), (2, 1), (0, 2), (2, 2)], [[0, 1, 2], [0, 2, 4, 3]]⟩ (1, 1) = some n ∧ n = 1 ∧
    FirstFace [[0, 1, 2], [0, 2, 4, 3]] (Within (⟨[(0, 0), (1, 0), (2, 1), (0, 2), (2, 2)], [[0, 1, 2], [0, 2, 4, 3]]⟩ : Mesh ℚ) (1, 1)) n := by
  obtain ⟨n, a, b⟩ := C152_grid_partial (ieee ℚ 53 (by norm_num)) (by norm_num) (k := 0)
    (mesh := ⟨[(0, 0), (1, 0), (2, 1), (0, 2), (2, 2)], [[0, 1, 2], [0, 2, 4, 3]]⟩) (q := (1, 1)) (by
      intro f hf
      simp only [List.mem_cons, List.not_mem_nil, or_false] at hf
      rcases hf with rfl | rfl
      · exact ⟨[(0, 0), (1, 0), (2, 1)], rfl, Or.inl rfl⟩
      · exact ⟨[(0, 0), (2, 1), (2, 2), (0, 2)], rfl, Or.inr rfl⟩) (by
      intro v hv
      simp only [List.mem_cons, List.not_mem_nil, or_false] at hv
      rcases hv with rfl | rfl | rfl | rfl | rfl
      exacts [⟨0, 0, by norm_num, by norm_num, by norm_num⟩, ⟨1, 0, by norm_num, by norm_num, by norm_num⟩, ⟨2, 1, by norm_num, by norm_num, by norm_num⟩,
        ⟨0, 2, by norm_num, by norm_num, by norm_num⟩, ⟨2, 2, by norm_num, by norm_num, by norm_num⟩]) ⟨1, 1, by norm_num, by norm_num, by norm_num⟩
  have e : locate (ieee ℚ 53 (by norm_num)) ⟨[(0, 0), (1, 0), (2, 1), (0, 2), (2, 2)], [[0, 1, 2], [0, 2, 4, 3]]⟩ (1, 1) = some 1 := by decide +kernel
  rw [e] at a
  cases a
  exact ⟨1, e, rfl, b⟩

end Verif.FpLocateP
