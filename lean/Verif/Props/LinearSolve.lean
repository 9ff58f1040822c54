import Verif.Model.LinearSolve
import Verif.Props.Matrix
import Mathlib.LinearAlgebra.Matrix.NonsingularInverse
import Mathlib.LinearAlgebra.Matrix.Charpoly.Eigs
import Mathlib.Analysis.Complex.Polynomial.Basic

/-! C134: linear systems and eigenvalues. -/

namespace Verif.LapackP

open Verif.Lapack
open Verif.Mx (Matrix)

set_option linter.unusedSectionVars false

variable {T : Type} [Field T]

/-- The matrix, as mathematics has it. -/
def mat (n m : Nat) (a : Matrix T) : _root_.Matrix (Fin n) (Fin m) T := fun i j => (a.at i.val j.val).getD 0

theorem mat_stored (n m : Nat) (a : Matrix T) : mat n m a = stored n m a.data a.rows := by
  ext i j
  simp [mat, stored, Matrix.at, List.getD]

theorem fits_square {a b : Matrix T} (ha : a.ok) (hb : b.ok) (hs : a.cols = a.rows) (hr : b.rows = a.rows) {npiv : Nat} (hp : a.rows ≤ npiv) :
    fits a.rows b.cols a.data.length a.rows npiv b.data.length b.rows = true := by
  unfold fits
  unfold Matrix.ok at ha hb
  rw [ha, hb, hs, hr]
  rcases Nat.eq_zero_or_pos a.rows with h | h
  · simp [h]
  · have h1 : (a.rows - 1) * a.rows + a.rows = a.rows * a.rows := by
      obtain ⟨k, hk⟩ : ∃ k, a.rows = k + 1 := ⟨a.rows - 1, by omega⟩
      rw [hk]
      simp [Nat.add_mul, Nat.mul_add]
    have h2 : b.cols = 0 ∨ (b.cols - 1) * a.rows + a.rows = a.rows * b.cols := by
      rcases Nat.eq_zero_or_pos b.cols with c | c
      · exact Or.inl c
      · obtain ⟨k, hk⟩ : ∃ k, b.cols = k + 1 := ⟨b.cols - 1, by omega⟩
        rw [hk]
        right
        rw [Nat.mul_comm a.rows, Nat.add_mul]
        simp
    rw [h1]
    rcases h2 with h2 | h2
    · simp [h2, hp]
    · simp [h2, hp]

theorem fits_right {a b : Matrix T} (hb : b.ok) (hr : b.rows = a.rows) : a.rows = 0 ∨ b.cols = 0 ∨ (b.cols - 1) * b.rows + a.rows ≤ b.data.length := by
  unfold Matrix.ok at hb
  rcases Nat.eq_zero_or_pos b.cols with c | c
  · exact Or.inr (Or.inl c)
  · right; right
    obtain ⟨k, hk⟩ : ∃ k, b.cols = k + 1 := ⟨b.cols - 1, by omega⟩
    rw [hb, hk, Nat.mul_comm b.rows, Nat.add_mul, hr]
    simp

/-- For a regular matrix `linearSolve` gives the one solution of A X = B; the overload with the buffers of the caller leaves it in `b`. -/
theorem C134_solve {gesv : GesvFn T} (hg : IsGesv gesv) {a b : Matrix T} (ha : a.ok) (hb : b.ok) (hs : a.cols = a.rows) (hr : b.rows = a.rows)
    (hd : (mat a.rows a.rows a).det ≠ 0) :
    ∃ x, linearSolve gesv a b = some x ∧ x.ok ∧ x.rows = a.rows ∧ x.cols = b.cols ∧ mat a.rows a.rows a * mat a.rows b.cols x = mat a.rows b.cols b ∧
      (∀ y, mat a.rows a.rows a * y = mat a.rows b.cols b → y = mat a.rows b.cols x) ∧
      ∀ npiv, a.rows ≤ npiv → ∃ a', solveInPlace gesv a b npiv = some (a', x) := by
  have key : ∀ npiv, a.rows ≤ npiv → solveInPlace gesv a b npiv =
      some (⟨a.rows, a.cols, (gesv a.rows b.cols a.data a.rows b.data b.rows).1⟩, ⟨b.rows, b.cols, (gesv a.rows b.cols a.data a.rows b.data b.rows).2⟩) := by
    intro npiv h
    unfold solveInPlace
    rw [if_pos (fits_square ha hb hs hr h)]
  have hsol : mat a.rows a.rows a * mat a.rows b.cols ⟨b.rows, b.cols, (gesv a.rows b.cols a.data a.rows b.data b.rows).2⟩ = mat a.rows b.cols b := by
    rw [mat_stored, mat_stored, mat_stored]
    rw [mat_stored] at hd
    exact hg.solved _ _ _ _ _ _ (le_refl _) hr.ge (fits_right hb hr) hd
  refine ⟨⟨b.rows, b.cols, (gesv a.rows b.cols a.data a.rows b.data b.rows).2⟩, ?_, ?_, hr, rfl, hsol, fun y hy => ?_, fun npiv h => ⟨_, key npiv h⟩⟩
  · unfold linearSolve
    rw [key _ (le_refl _)]
    rfl
  · unfold Matrix.ok at hb ⊢
    rw [(hg.sizes _ _ _ _ _ _).2, hb]
  · have hu : IsUnit (mat a.rows a.rows a).det := isUnit_iff_ne_zero.2 hd
    have := congrArg ((mat a.rows a.rows a)⁻¹ * ·) (hy.trans hsol.symm)
    rwa [_root_.Matrix.nonsing_inv_mul_cancel_left _ _ hu, _root_.Matrix.nonsing_inv_mul_cancel_left _ _ hu] at this

/-- With the identity on the right the solution is the inverse, as the CMFD analysis uses it. -/
theorem C134_inverse {gesv : GesvFn T} (hg : IsGesv gesv) {a b : Matrix T} (ha : a.ok) (hb : b.ok) (hs : a.cols = a.rows) (hr : b.rows = a.rows) (hc : b.cols = a.rows)
    (hi : mat a.rows a.rows b = 1) (hd : (mat a.rows a.rows a).det ≠ 0) :
    ∃ x, linearSolve gesv a b = some x ∧ mat a.rows a.rows x = (mat a.rows a.rows a)⁻¹ := by
  obtain ⟨x, h1, -, -, -, h5, -⟩ := C134_solve hg ha hb hs hr hd
  rw [hc, hi] at h5
  exact ⟨x, h1, (_root_.Matrix.inv_eq_right_inv h5).symm⟩

/-- For a singular matrix `linearSolve` gives back the right side. -/
theorem C134_singular {gesv : GesvFn T} (hg : IsGesv gesv) {a b : Matrix T} (ha : a.ok) (hb : b.ok) (hs : a.cols = a.rows) (hr : b.rows = a.rows)
    (hd : (mat a.rows a.rows a).det = 0) : linearSolve gesv a b = some b := by
  unfold linearSolve solveInPlace
  rw [if_pos (fits_square ha hb hs hr (le_refl _))]
  rw [mat_stored] at hd
  simp only [Option.map_some, hg.singular _ _ _ _ _ _ (le_refl _) hr.ge hd]

/-- So does it for a right side with too few rows; and a matrix with fewer columns than rows is read past its end. -/
theorem C134_shapes {gesv : GesvFn T} (hg : IsGesv gesv) {a b : Matrix T} (ha : a.ok) :
    (b.rows < a.rows → linearSolve gesv a b = some b) ∧ (a.cols < a.rows → a.rows ≤ b.rows → linearSolve gesv a b = none) := by
  constructor
  · intro h
    unfold linearSolve solveInPlace
    have hf : fits a.rows b.cols a.data.length a.rows a.rows b.data.length b.rows = true := by
      unfold fits
      have : decide (b.rows < max 1 a.rows) = true := by simp; omega
      rw [this]
      simp
    rw [if_pos hf]
    simp only [Option.map_some, hg.illegal a.rows b.cols a.data a.rows b.data b.rows (Or.inr (by omega))]
  · intro h1 h2
    unfold linearSolve solveInPlace
    have hf : fits a.rows b.cols a.data.length a.rows a.rows b.data.length b.rows = false := by
      unfold fits
      unfold Matrix.ok at ha
      rw [ha]
      have e1 : decide (a.rows < max 1 a.rows) = false := by simp; omega
      have e2 : decide (b.rows < max 1 a.rows) = false := by simp; omega
      have e3 : decide (a.rows = 0) = false := by simp; omega
      have e4 : decide ((a.rows - 1) * a.rows + a.rows ≤ a.rows * a.cols) = false := by
        simp only [decide_eq_false_iff_not, not_le]
        obtain ⟨k, hk⟩ : ∃ k, a.rows = k + 1 := ⟨a.rows - 1, by omega⟩
        rw [hk] at h1 ⊢
        have : (k + 1) * a.cols ≤ (k + 1) * k := Nat.mul_le_mul_left _ (by omega)
        simp only [Nat.add_sub_cancel]
        calc (k + 1) * a.cols ≤ (k + 1) * k := this
          _ = k * (k + 1) := Nat.mul_comm _ _
          _ < k * (k + 1) + (k + 1) := by omega
      rw [e1, e2, e3, e4]
      simp
    rw [if_neg (by rw [hf]; simp)]
    rfl

/-- In a release build nobody notices: 0 x = 1 has the "solution" 1. -/
theorem C134_singular_fails {gesv : GesvFn T} (hg : IsGesv gesv) :
    linearSolve gesv ⟨1, 1, [0]⟩ ⟨1, 1, [1]⟩ = some ⟨1, 1, [1]⟩ ∧ mat 1 1 (⟨1, 1, [0]⟩ : Matrix T) * mat 1 1 ⟨1, 1, [1]⟩ ≠ mat 1 1 ⟨1, 1, [1]⟩ := by
  constructor
  · refine C134_singular hg (by rfl) (by rfl) rfl rfl ?_
    simp [mat, Matrix.at]
  · intro h
    have := congrFun (congrFun h 0) 0
    simp [_root_.Matrix.mul_apply, mat, Matrix.at] at this

/-- `eigvals` gives the roots of the characteristic polynomial, each as often as it occurs; their product is the determinant and their sum the trace. -/
theorem C134_eigvals {geev : GeevFn} (hg : IsGeev geev) {a : Matrix ℝ} (ha : a.ok) (hs : a.cols = a.rows) :
    ∃ l : List ℂ, eigvals geev a = some l ∧ l.length = a.rows ∧ (l : Multiset ℂ) = ((mat a.rows a.rows a).map Complex.ofReal).charpoly.roots ∧
      l.prod = ((mat a.rows a.rows a).det : ℂ) ∧ l.sum = ((mat a.rows a.rows a).trace : ℂ) := by
  have hf : a.rows = 0 ∨ (a.rows - 1) * a.rows + a.rows ≤ a.data.length := by
    unfold Matrix.ok at ha
    rw [ha, hs]
    rcases Nat.eq_zero_or_pos a.rows with h | h
    · exact Or.inl h
    · right
      obtain ⟨k, hk⟩ : ∃ k, a.rows = k + 1 := ⟨a.rows - 1, by omega⟩
      rw [hk]
      simp [Nat.add_mul, Nat.mul_add]
  have hroots : ∃ l : List ℂ, eigvals geev a = some l ∧ l.length = a.rows ∧ (l : Multiset ℂ) = ((mat a.rows a.rows a).map Complex.ofReal).charpoly.roots := by
    unfold eigvals
    dsimp only
    rw [if_pos hf]
    refine ⟨_, rfl, by simp, ?_⟩
    rcases Nat.eq_zero_or_pos a.rows with h | h
    · have : ((mat a.rows a.rows a).map Complex.ofReal).charpoly = 1 := by
        have : IsEmpty (Fin a.rows) := by rw [h]; infer_instance
        exact _root_.Matrix.charpoly_isEmpty
      rw [this, h]
      simp
    · rw [mat_stored, ← hg.values a.rows a.data a.rows (List.replicate a.rows 0) (List.replicate a.rows 0) (4 * a.rows) (by omega) (by omega) (by simp) (by simp)]
      obtain ⟨s1, s2⟩ := hg.sizes a.rows a.data a.rows (List.replicate a.rows 0) (List.replicate a.rows 0) (4 * a.rows)
      rw [List.length_replicate] at s1 s2
      congr 1
      apply List.ext_getElem
      · simp [s1, s2]
      · intro i h1 h2
        simp only [List.getElem_map, List.getElem_range, List.getElem_zipWith]
        simp only [List.length_map, List.length_range] at h1
        simp [List.getD, s1, s2, h1]
  obtain ⟨l, h1, h2, h3⟩ := hroots
  refine ⟨l, h1, h2, h3, ?_, ?_⟩
  · rw [← Multiset.prod_coe, h3, ← _root_.Matrix.det_eq_prod_roots_charpoly]
    exact (Complex.ofRealHom.map_det _).symm
  · rw [← Multiset.sum_coe, h3, ← _root_.Matrix.trace_eq_sum_roots_charpoly]
    exact (AddMonoidHom.map_trace (Complex.ofRealHom : ℝ →+ ℂ) _).symm

/-! ### The contracts can be met -/

open Classical in
/-- A solver that meets the contract. -/
noncomputable def cramer : GesvFn T := fun n nrhs A lda B ldb =>
  if lda < max 1 n ∨ ldb < max 1 n ∨ (stored n n A lda).det = 0 then (A, B)
  else (A, B.mapIdx fun q x => if h : ∃ ij : Fin n × Fin nrhs, q = ij.2.val * ldb + ij.1.val then ((stored n n A lda)⁻¹ * stored n nrhs B ldb) h.choose.1 h.choose.2 else x)

theorem cramer_ok : IsGesv (cramer (T := T)) where
  sizes n nrhs A lda B ldb := by
    unfold cramer
    split <;> simp
  illegal n nrhs A lda B ldb h := by
    unfold cramer
    rw [if_pos (by tauto)]
  singular n nrhs A lda B ldb _ _ h := by
    unfold cramer
    rw [if_pos (by tauto)]
  others n nrhs A lda B ldb q h := by
    unfold cramer
    split
    · rfl
    · dsimp only
      rw [List.getElem?_mapIdx]
      cases hq : B[q]? with
      | none => rfl
      | some x =>
        rw [Option.map_some, dif_neg]
        rintro ⟨⟨i, j⟩, e⟩
        exact h i.val j.val i.isLt j.isLt e
  solved n nrhs A lda B ldb h1 h2 hl hd := by
    rcases Nat.eq_zero_or_pos n with z | z
    · subst z
      ext i
      exact i.elim0
    · have key : stored n nrhs (cramer n nrhs A lda B ldb).2 ldb = (stored n n A lda)⁻¹ * stored n nrhs B ldb := by
        unfold cramer
        rw [if_neg (by
          rintro (c | c | c)
          · omega
          · omega
          · exact hd c)]
        ext i j
        have hj : j.val * ldb + i.val < B.length := by
          have := j.isLt
          rcases hl with c | c | c
          · omega
          · omega
          · have : j.val * ldb ≤ (nrhs - 1) * ldb := Nat.mul_le_mul_right _ (by omega)
            omega
        have hex : ∃ ij : Fin n × Fin nrhs, j.val * ldb + i.val = ij.2.val * ldb + ij.1.val := ⟨(i, j), rfl⟩
        show List.getD _ _ _ = _
        rw [List.getD_eq_getElem?_getD, List.getElem?_mapIdx, List.getElem?_eq_getElem hj, Option.map_some, dif_pos hex, Option.getD_some]
        obtain ⟨e1, e2⟩ := Mx.index_inj (r := ldb) (by omega) (by have := hex.choose.1.isLt; omega) hex.choose_spec
        rw [← Fin.ext e1, ← Fin.ext e2]
      rw [key, _root_.Matrix.mul_nonsing_inv_cancel_left _ _ (isUnit_iff_ne_zero.2 hd)]

/-- A program for eigenvalues that meets the contract. -/
noncomputable def spectrum : GeevFn := fun n A lda wr wi lwork =>
  if max 1 n ≤ lda ∧ max 1 (3 * n) ≤ lwork ∧ wr.length = n ∧ wi.length = n then
    let l := ((stored n n A lda).map Complex.ofReal).charpoly.roots.toList
    (l.map Complex.re, l.map Complex.im)
  else (wr, wi)

theorem spectrum_ok : IsGeev spectrum where
  illegal n A lda wr wi lwork h := by
    unfold spectrum
    rw [if_neg (by omega)]
  sizes n A lda wr wi lwork := by
    unfold spectrum
    split
    · rename_i h
      have : ((stored n n A lda).map Complex.ofReal).charpoly.roots.card = n := by
        rw [IsAlgClosed.card_roots_eq_natDegree, _root_.Matrix.charpoly_natDegree_eq_dim, Fintype.card_fin]
      simp [this, h.2.2.1, h.2.2.2]
    · exact ⟨rfl, rfl⟩
  values n A lda wr wi lwork h1 h2 h3 h4 := by
    unfold spectrum
    rw [if_pos ⟨h1, h2, h3, h4⟩]
    dsimp only
    have z : ∀ l : List ℂ, List.zipWith Complex.mk (l.map Complex.re) (l.map Complex.im) = l := by
      intro l
      induction l with
      | nil => rfl
      | cons a l ih => rw [List.map_cons, List.map_cons, List.zipWith_cons_cons, ih]
    rw [z, Multiset.coe_toList]

/-- 2 x + y = 3, x + y = 2 is a regular system. -/
example : ∃ x, linearSolve cramer (⟨2, 2, [2, 1, 1, 1]⟩ : Matrix ℚ) ⟨2, 1, [3, 2]⟩ = some x ∧ x.rows = 2 := by
  obtain ⟨x, h1, -, h2, -⟩ := C134_solve cramer_ok (a := (⟨2, 2, [2, 1, 1, 1]⟩ : Matrix ℚ)) (b := ⟨2, 1, [3, 2]⟩) rfl rfl rfl rfl (by
    show (mat 2 2 _).det ≠ 0
    rw [_root_.Matrix.det_fin_two]
    norm_num [mat, Matrix.at])
  exact ⟨x, h1, h2⟩

end Verif.LapackP
