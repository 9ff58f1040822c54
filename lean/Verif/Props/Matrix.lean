import Verif.Model.Matrix
import Mathlib.LinearAlgebra.Matrix.Determinant.Basic
import Mathlib.LinearAlgebra.Matrix.NonsingularInverse
import Mathlib.Algebra.BigOperators.Fin
import Mathlib.Algebra.BigOperators.Ring.Finset
import Mathlib.Tactic.Ring
import Mathlib.Tactic.FieldSimp
import Mathlib.Tactic.LinearCombination
import Mathlib.Tactic.FinCases

/-!
# C22, C23: matrices

Specification: Mathlib's matrices (`Matrix.mulVec`, `*`, `det`, transpose) for `Mat`; the sum over
`k` of `a(i, k) b(k, j)` for `Matrix`.
-/

namespace Verif.Mx

/-! ## C22 -/

/-- The mathematical matrix. -/
def math {T : Type} {M N : Nat} (a : Mat M N T) : _root_.Matrix (Fin M) (Fin N) T :=
  _root_.Matrix.of fun i j => a j i

section
variable {T : Type} [CommRing T] {M N P : Nat}

/-- `a * x` is the matrix-vector product. -/
theorem C22_mulVec (a : Mat M N T) (x : Fin N → T) : mulVec a x = (math a).mulVec x := by
  funext j
  have key : ∀ (l : List (Fin N)) (r : Fin M → T),
      (l.foldl (fun res i => fun j => res j + x i * a i j) r) j =
        r j + (l.map fun i => a i j * x i).sum := by
    intro l
    induction l with
    | nil => simp
    | cons i l ih =>
      intro r
      rw [List.foldl_cons, ih, List.map_cons, List.sum_cons]; ring
  rw [mulVec, key]
  simp only [_root_.Matrix.mulVec, dotProduct, math, _root_.Matrix.of_apply, zero_add]
  rw [← List.sum_ofFn]
  congr 1
  rw [List.ofFn_eq_map]

theorem mulMatLoop_spec (a : Mat M N T) (b : Mat N P T) (is : List Nat) (h : ∀ i ∈ is, i < P)
    (r : Fin P → Option (Fin M → T)) :
    mulMatLoop a b is r =
      some fun (j : Fin P) => if (j : Nat) ∈ is then some (mulVec a (b j)) else r j := by
  induction is generalizing r with
  | nil => simp [mulMatLoop]
  | cons i is ih =>
    have hi := h i List.mem_cons_self
    rw [mulMatLoop, dif_pos hi, ih (fun k hk => h k (List.mem_cons_of_mem _ hk))]
    congr 1
    funext j
    by_cases hj : j = ⟨i, hi⟩
    · subst hj; simp
    · have hne : (j : Nat) ≠ i := fun e => hj (Fin.ext e)
      simp [hj, hne]

/-- What `a * b` returns in every shape `M×N` times `N×P`: undefined behaviour if `N > P`; otherwise
the first `N` columns are those of the product and the remaining `P - N` columns are left
indeterminate. -/
theorem C22_mul_exact (a : Mat M N T) (b : Mat N P T) :
    (P < N → mulMat a b = none) ∧
    (N ≤ P → mulMat a b = some fun (j : Fin P) => if (j : Nat) < N then
      some (fun i => (math a * math b) i j) else none) := by
  constructor
  · intro h
    unfold mulMat
    have key : ∀ (is : List Nat) (r : Fin P → Option (Fin M → T)), P ∈ is →
        mulMatLoop a b is r = none := by
      intro is
      induction is with
      | nil => simp
      | cons i is ih =>
        intro r hm
        rw [mulMatLoop]
        by_cases hi : i < P
        · rw [dif_pos hi]
          apply ih
          rcases List.mem_cons.1 hm with rfl | hm
          · omega
          · exact hm
        · rw [dif_neg hi]
    exact key _ _ (List.mem_range.2 h)
  · intro h
    unfold mulMat
    rw [mulMatLoop_spec a b _ (fun i hi => by have := List.mem_range.1 hi; omega)]
    congr 1
    funext j
    simp only [List.mem_range, C22_mulVec]
    rfl

/-- Partial result: for square second factors (`N = P`, the only shape the tests use) `a * b` is the
matrix product. The full claim, for all `M`, `N`, `P`, is false: the loop runs to `N` instead of
`P` (`C22_mul_fails`). -/
theorem C22_mul_partial (a : Mat M N T) (b : Mat N N T) :
    mulMat a b = some fun j => some fun i => (math a * math b) i j := by
  rw [(C22_mul_exact a b).2 (le_refl N)]
  simp

/-- A `1×1` times a `1×2` matrix: the second column of the product is never computed; and `1×2` times
`2×1` is undefined. -/
theorem C22_mul_fails :
    (∃ r, mulMat (fun _ _ => 1 : Mat 1 1 ℤ) (fun _ _ => 1 : Mat 1 2 ℤ) = some r ∧ r 1 = none) ∧
    mulMat (fun _ _ => 1 : Mat 1 2 ℤ) (fun _ _ => 1 : Mat 2 1 ℤ) = none :=
  ⟨⟨_, (C22_mul_exact _ _).2 (by decide), by simp⟩, (C22_mul_exact _ _).1 (by decide)⟩

end

/-- `inv` returns the two-sided inverse of every invertible 2×2 matrix. -/
theorem C22_inv {T : Type} [Field T] [DecidableEq T] (m : Mat 2 2 T) (h : (math m).det ≠ 0) :
    ∃ r, inv m = some r ∧ math r * math m = 1 ∧ math m * math r = 1 := by
  have hdet : (math m).det = m 0 0 * m 1 1 - m 1 0 * m 0 1 := by
    rw [_root_.Matrix.det_fin_two]; rfl
  have hd : det2x2 (m 0 0) (m 1 0) (m 0 1) (m 1 1) = (math m).det := by
    rw [hdet]; unfold det2x2; ring
  unfold inv
  dsimp only
  rw [hd, if_neg h]
  refine ⟨_, rfl, ?_⟩
  generalize hD : (math m).det = D at h
  have hD' : D = m 0 0 * m 1 1 - m 1 0 * m 0 1 := by rw [← hD, hdet]
  have hleft : math (fun j i => if j = 0 then (if i = 0 then m 1 1 / D else -m 0 1 / D)
      else (if i = 0 then -m 1 0 / D else m 0 0 / D)) * math m = 1 := by
    ext i j
    rw [_root_.Matrix.mul_apply, Fin.sum_univ_two]
    fin_cases i <;> fin_cases j <;> simp [math] <;> field_simp <;> rw [hD'] <;> ring
  exact ⟨hleft, _root_.mul_eq_one_comm.1 hleft⟩

/-- A singular matrix has no inverse to return: the code divides by zero. -/
theorem C22_inv_singular {T : Type} [Field T] [DecidableEq T] (m : Mat 2 2 T)
    (h : (math m).det = 0) : inv m = none := by
  have hd : det2x2 (m 0 0) (m 1 0) (m 0 1) (m 1 1) = (math m).det := by
    rw [_root_.Matrix.det_fin_two]; unfold det2x2 math; simp only [_root_.Matrix.of_apply]; ring
  unfold inv
  dsimp only
  rw [hd, if_pos h]

/-- A rotation matrix is orthogonal with determinant one, and rotations compose by adding angles. -/
theorem C22_rotation (s t : ℝ) :
    (math (rotation t)).transpose * math (rotation t) = 1 ∧ (math (rotation t)).det = 1 ∧
    math (rotation s) * math (rotation t) = math (rotation (s + t)) := by
  have h := Real.sin_sq_add_cos_sq t
  refine ⟨?_, ?_, ?_⟩
  · ext i j
    rw [_root_.Matrix.mul_apply, Fin.sum_univ_two]
    fin_cases i <;> fin_cases j <;> simp [math, rotation] <;>
      first | linear_combination h | ring
  · rw [_root_.Matrix.det_fin_two]
    simp [math, rotation]
    linear_combination h
  · ext i j
    rw [_root_.Matrix.mul_apply, Fin.sum_univ_two]
    fin_cases i <;> fin_cases j <;>
      simp [math, rotation, Real.sin_add, Real.cos_add] <;> ring

example : (math (fun j i => if i = j then 2 else 1 : Mat 2 2 ℚ)).det ≠ 0 := by
  rw [_root_.Matrix.det_fin_two]; simp [math]; norm_num

/-! ## C23 -/

section
variable {T : Type} [CommRing T]

/-- A matrix whose storage has the right size. -/
def Matrix.ok (a : Matrix T) : Prop := a.data.length = a.rows * a.cols

/-- The entry `(i, j)` (in range for `i < rows`, `j < cols`). -/
def Matrix.get (a : Matrix T) (i j : Nat) : T := a.data.getD (j * a.rows + i) 0

theorem index_lt {r c i j : Nat} (hi : i < r) (hj : j < c) : j * r + i < r * c := by
  have : (j + 1) * r ≤ c * r := Nat.mul_le_mul_right r hj
  rw [Nat.mul_comm r c]; rw [Nat.add_mul] at this; omega

theorem index_inj {r i j i' j' : Nat} (hi : i < r) (hi' : i' < r)
    (h : j * r + i = j' * r + i') : i = i' ∧ j = j' := by
  have h1 : i = i' := by
    have := congrArg (· % r) h
    simpa [Nat.add_comm, Nat.mod_eq_of_lt hi, Nat.mod_eq_of_lt hi'] using this
  subst h1
  exact ⟨rfl, Nat.eq_of_mul_eq_mul_right (by omega : 0 < r) (Nat.add_right_cancel h)⟩

theorem at_get {a : Matrix T} (h : a.ok) {i j : Nat} (hi : i < a.rows) (hj : j < a.cols) :
    a.at i j = some (a.get i j) := by
  have hlt : j * a.rows + i < a.data.length := by rw [h]; exact index_lt hi hj
  simp [Matrix.at, Matrix.get, List.getElem?_eq_getElem hlt]

/-- Repeated `c[n] += v` with the indices in range: every cell gains the sum of what was added to
it. -/
theorem addAt_fold {I : Type} (f : I → Nat) (v : I → T) (l : List I) (c : List T)
    (h : ∀ i ∈ l, f i < c.length) :
    ∃ c', l.foldlM (fun c i => addAt c (f i) (v i)) c = some c' ∧ c'.length = c.length ∧
      ∀ n, c'.getD n 0 = c.getD n 0 + (l.map fun i => if f i = n then v i else 0).sum := by
  induction l generalizing c with
  | nil => exact ⟨c, rfl, rfl, by simp⟩
  | cons i l ih =>
    have hi := h i List.mem_cons_self
    have h1 : addAt c (f i) (v i) = some (c.set (f i) (c[f i] + v i)) := by
      simp [addAt, List.getElem?_eq_getElem hi]
    obtain ⟨c', e, hl, hs⟩ := ih (c.set (f i) (c[f i] + v i))
      (fun k hk => by simpa using h k (List.mem_cons_of_mem _ hk))
    refine ⟨c', by rw [List.foldlM_cons, h1]; exact e, by simpa using hl, fun n => ?_⟩
    rw [hs n, List.map_cons, List.sum_cons]
    by_cases hn : f i = n
    · subst hn
      simp [List.getD, List.getElem?_set_self hi, List.getElem?_eq_getElem hi, add_assoc]
    · simp [List.getD, List.getElem?_set_ne hn, hn]

theorem foldlM_congr {σ I : Type} (l : List I) (f g : σ → I → Option σ)
    (h : ∀ s, ∀ i ∈ l, f s i = g s i) (s : σ) : l.foldlM f s = l.foldlM g s := by
  induction l generalizing s with
  | nil => rfl
  | cons i l ih =>
    rw [List.foldlM_cons, List.foldlM_cons, h s i List.mem_cons_self]
    congr 1
    funext s'
    exact ih (fun s i hi => h s i (List.mem_cons_of_mem _ hi)) s'

theorem foldlM_flatMap {σ I J : Type} (l : List I) (g : I → List J) (f : σ → J → Option σ) (s : σ) :
    l.foldlM (fun s i => (g i).foldlM f s) s = (l.flatMap g).foldlM f s := by
  induction l generalizing s with
  | nil => rfl
  | cons i l ih =>
    rw [List.foldlM_cons, List.flatMap_cons, List.foldlM_append]
    congr 1
    funext s'
    exact ih s'

theorem foldlM_map {σ I J : Type} (l : List I) (g : I → J) (f : σ → J → Option σ) (s : σ) :
    (l.map g).foldlM f s = l.foldlM (fun s i => f s (g i)) s := by
  induction l generalizing s with
  | nil => rfl
  | cons i l ih =>
    rw [List.map_cons, List.foldlM_cons, List.foldlM_cons]
    congr 1
    funext s'
    exact ih s'

theorem sum_range (n : Nat) (f : Nat → T) : ((List.range n).map f).sum = ∑ k ∈ Finset.range n, f k := by
  induction n with
  | zero => simp
  | succ n ih => rw [List.range_succ, List.map_append, List.sum_append, ih, Finset.sum_range_succ]; simp

theorem sum_flatMap {I J : Type} (l : List I) (g : I → List J) (f : J → T) :
    ((l.flatMap g).map f).sum = (l.map fun i => ((g i).map f).sum).sum := by
  induction l with
  | nil => rfl
  | cons i l ih => rw [List.flatMap_cons, List.map_append, List.sum_append, ih]; simp

/-- `y = a * x` without BLAS: entry `j` is the sum over `i` of `a(j, i) x[i]`. -/
theorem C23_mulVec (a : Matrix T) (x : List T) (ha : a.ok) (hx : x.length = a.cols) :
    ∃ y, mulVecD a x = some y ∧ y.length = a.rows ∧
      ∀ j, j < a.rows → y[j]? = some (∑ i ∈ Finset.range a.cols, a.get j i * x.getD i 0) := by
  unfold mulVecD
  rw [foldlM_congr _ _ (fun y i => ((List.range a.rows).map fun j => (i, j)).foldlM
    (fun y (p : Nat × Nat) => addAt y p.2 (a.get p.2 p.1 * x.getD p.1 0)) y)]
  · rw [foldlM_flatMap]
    obtain ⟨y, e, hl, hs⟩ := addAt_fold (fun p : Nat × Nat => p.2)
      (fun p => a.get p.2 p.1 * x.getD p.1 0)
      ((List.range a.cols).flatMap fun i => (List.range a.rows).map fun j => (i, j))
      (List.replicate a.rows 0) (by
        intro p hp
        simp only [List.mem_flatMap, List.mem_map, List.mem_range] at hp
        obtain ⟨i, hi, j, hj, rfl⟩ := hp
        simpa using hj)
    rw [List.length_replicate] at hl
    refine ⟨y, e, hl, fun j hj => ?_⟩
    have := hs j
    rw [List.getD, List.getElem?_eq_getElem (by omega), Option.getD_some] at this
    rw [List.getElem?_eq_getElem (by omega), this]
    congr 1
    simp only [sum_flatMap, List.map_map, Function.comp_def, sum_range]
    have h0 : (List.replicate a.rows (0 : T)).getD j 0 = 0 := by
      simp [List.getD, List.getElem?_replicate, hj]
    rw [h0, zero_add]
    apply Finset.sum_congr rfl
    intro i _
    rw [Finset.sum_ite_eq' (Finset.range a.rows) j, if_pos (Finset.mem_range.2 hj)]
  · intro y i hi
    rw [List.mem_range] at hi
    rw [foldlM_map]
    apply foldlM_congr
    intro y j hj
    rw [List.mem_range] at hj
    rw [at_get ha hj hi]
    have : x[i]? = some (x.getD i 0) := by
      simp [List.getD, List.getElem?_eq_getElem (by omega : i < x.length)]
    rw [this]; rfl

/-- `matmul(c, a, b)` without BLAS *adds* the product to what `c` held. -/
theorem C23_matmul_exact (c a b : Matrix T) (hc : c.ok) (ha : a.ok) (hb : b.ok)
    (h1 : a.cols = b.rows) (h2 : c.rows = a.rows) (h3 : c.cols = b.cols) :
    ∃ c', matmul c a b = some c' ∧ c'.ok ∧ c'.rows = a.rows ∧ c'.cols = b.cols ∧
      ∀ i j, i < a.rows → j < b.cols →
        c'.at i j = some (c.get i j + ∑ k ∈ Finset.range a.cols, a.get i k * b.get k j) := by
  unfold matmul
  have hloop : (List.range a.rows).foldlM (fun c' i =>
    (List.range b.cols).foldlM (fun c' j =>
      (List.range a.cols).foldlM (fun c' k => do
        let p ← a.at i k
        let q ← b.at k j
        addAt c' (j * c.rows + i) (p * q)) c') c') c.data =
      ((List.range a.rows).flatMap fun i => (List.range b.cols).flatMap fun j =>
        (List.range a.cols).map fun k => ((i, j, k) : Nat × Nat × Nat)).foldlM
        (fun c' p => addAt c' (p.2.1 * c.rows + p.1) (a.get p.1 p.2.2 * b.get p.2.2 p.2.1))
        c.data := by
    rw [← foldlM_flatMap]
    apply foldlM_congr
    intro s i hi
    rw [← foldlM_flatMap]
    apply foldlM_congr
    intro s j hj
    rw [foldlM_map]
    apply foldlM_congr
    intro s k hk
    rw [List.mem_range] at hi hj hk
    rw [at_get ha hi hk, at_get hb (by omega) hj]
    rfl
  rw [hloop]
  obtain ⟨d, e, hl, hs⟩ := addAt_fold (fun p : Nat × Nat × Nat => p.2.1 * c.rows + p.1)
    (fun p => a.get p.1 p.2.2 * b.get p.2.2 p.2.1)
    ((List.range a.rows).flatMap fun i => (List.range b.cols).flatMap fun j =>
        (List.range a.cols).map fun k => ((i, j, k) : Nat × Nat × Nat)) c.data (by
      intro p hp
      simp only [List.mem_flatMap, List.mem_map, List.mem_range] at hp
      obtain ⟨i, hi, j, hj, k, hk, rfl⟩ := hp
      dsimp only
      rw [hc]
      exact index_lt (by omega) (by omega))
  refine ⟨⟨c.rows, c.cols, d⟩, by rw [e]; rfl, by rw [Matrix.ok, hl]; exact hc, h2, h3, ?_⟩
  intro i j hi hj
  have hlt : j * c.rows + i < d.length := by rw [hl, hc]; exact index_lt (by omega) (by omega)
  have := hs (j * c.rows + i)
  rw [List.getD, List.getElem?_eq_getElem hlt, Option.getD_some] at this
  rw [Matrix.at, List.getElem?_eq_getElem hlt, this]
  congr 1
  simp only [sum_flatMap, List.map_map, Function.comp_def, sum_range]
  congr 1
  rw [Finset.sum_eq_single i, Finset.sum_eq_single j]
  · simp
  · intro j' hj' hne
    apply Finset.sum_eq_zero
    intro k _
    rw [if_neg]
    intro h
    exact hne (index_inj (by omega) (by omega) h).2
  · intro h; exact absurd (Finset.mem_range.2 hj) h
  · intro i' hi' hne
    apply Finset.sum_eq_zero
    intro j' hj'
    apply Finset.sum_eq_zero
    intro k _
    rw [if_neg]
    intro h
    rw [Finset.mem_range] at hi'
    exact hne (index_inj (by omega) (by omega) h).1
  · intro h; exact absurd (Finset.mem_range.2 hi) h

/-- `a * b` without BLAS is the matrix product. -/
theorem C23_mul (a b : Matrix T) (ha : a.ok) (hb : b.ok) (h1 : a.cols = b.rows) :
    ∃ c, mulD a b = some c ∧ c.ok ∧ c.rows = a.rows ∧ c.cols = b.cols ∧
      ∀ i j, i < a.rows → j < b.cols →
        c.at i j = some (∑ k ∈ Finset.range a.cols, a.get i k * b.get k j) := by
  obtain ⟨c, e, hok, hr, hcs, h⟩ := C23_matmul_exact
    ⟨a.rows, b.cols, List.replicate (a.rows * b.cols) 0⟩ a b (by simp [Matrix.ok]) ha hb h1 rfl rfl
  refine ⟨c, e, hok, hr, hcs, fun i j hi hj => ?_⟩
  rw [h i j hi hj]
  have : (⟨a.rows, b.cols, List.replicate (a.rows * b.cols) 0⟩ : Matrix T).get i j = 0 := by
    simp only [Matrix.get, List.getD, List.getElem?_replicate]
    split_ifs <;> rfl
  rw [this, zero_add]

/-- With BLAS (by the contract of `gemm`), `matmul` and `operator*` are the matrix product whatever
`c` held before. -/
theorem C23_blas (c a b c' : Matrix T) (h1 : a.cols = b.rows) (h2 : c.rows = a.rows)
    (h3 : c.cols = b.cols) (h : IsBlasMatmul c a b c') :
    c'.rows = a.rows ∧ c'.cols = b.cols ∧ ∀ i j, i < a.rows → j < b.cols →
      c'.at i j = some (∑ k ∈ Finset.range a.cols, a.get i k * b.get k j) := by
  obtain ⟨hr, hcs, hg⟩ := h
  refine ⟨hr.trans h2, hcs.trans h3, fun i j hi hj => ?_⟩
  obtain ⟨old, _, he⟩ := hg.entry i j hi hj
  rw [Matrix.at, hr, he]
  simp [Matrix.get]

/-- Partial result: without BLAS, `matmul(c, a, b)` is the matrix product if `c` is zero. The full
claim ("whatever `c` held before") is false, see `C23_matmul_fails`. -/
theorem C23_matmul_partial (c a b : Matrix T) (hc : c.ok) (ha : a.ok) (hb : b.ok)
    (h1 : a.cols = b.rows) (h2 : c.rows = a.rows) (h3 : c.cols = b.cols)
    (h0 : ∀ i j, i < a.rows → j < b.cols → c.get i j = 0) :
    ∃ c', matmul c a b = some c' ∧ ∀ i j, i < a.rows → j < b.cols →
        c'.at i j = some (∑ k ∈ Finset.range a.cols, a.get i k * b.get k j) := by
  obtain ⟨c', e, _, _, _, h⟩ := C23_matmul_exact c a b hc ha hb h1 h2 h3
  exact ⟨c', e, fun i j hi hj => by rw [h i j hi hj, h0 i j hi hj, zero_add]⟩

end

/-- `matmul(c, a, b)` without BLAS on `c = [1]`, `a = [1]`, `b = [1]` gives `[2]`, not `[1]`. -/
theorem C23_matmul_fails :
    matmul (⟨1, 1, [1]⟩ : Matrix ℤ) ⟨1, 1, [1]⟩ ⟨1, 1, [1]⟩ = some ⟨1, 1, [2]⟩ := by
  rfl

example : (⟨2, 3, [1, 2, 3, 4, 5, 6]⟩ : Matrix ℤ).ok ∧ (⟨3, 1, [1, 0, 1]⟩ : Matrix ℤ).ok ∧
    mulD (⟨2, 3, [1, 2, 3, 4, 5, 6]⟩ : Matrix ℤ) ⟨3, 1, [1, 0, 1]⟩ = some ⟨2, 1, [6, 8]⟩ :=
  ⟨rfl, rfl, rfl⟩

end Verif.Mx
