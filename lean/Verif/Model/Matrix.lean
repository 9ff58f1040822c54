import Mathlib.Algebra.BigOperators.Group.Finset.Basic
import Mathlib.Algebra.Field.Defs
import Mathlib.Data.Fin.Basic
import Mathlib.Data.List.Range
import Mathlib.Analysis.SpecialFunctions.Trigonometric.Basic

/-!
# Model of include/um2/math/mat.hpp, include/um2/math/matrix.hpp and src/math/matrix.cpp

Exact arithmetic.  `Mat<M, N>` is the function giving its columns.
-/

namespace Verif.Mx

/-! ## `Mat<M, N, T>` -/

/-- `Mat<M, N, T>`, mat.hpp 22-76: `N` columns (`Vec<M, T>`). `a j i` is `a(i, j)`. -/
abbrev Mat (M N : Nat) (T : Type) := Fin N → Fin M → T

section
variable {T : Type} [CommRing T] {M N P : Nat}

/-- `operator*(Mat, Vec)`, mat.hpp 221-231. -/
def mulVec (a : Mat M N T) (x : Fin N → T) : Fin M → T :=
  (List.finRange N).foldl (fun res i => fun j => res j + x i * a i j) (fun _ => 0)

/-- The loop of `operator*(Mat, Mat)`, mat.hpp 239-242: it runs over `i < N`. The result has `P`
columns, indeterminate at first (`none`). `b.col(i)` and `result.col(i)` are undefined for
`i ≥ P`. -/
def mulMatLoop (a : Mat M N T) (b : Mat N P T) : List Nat → (Fin P → Option (Fin M → T)) →
    Option (Fin P → Option (Fin M → T))
  | [], r => some r
  | i :: is, r =>
    if h : i < P then
      mulMatLoop a b is (fun j => if j = ⟨i, h⟩ then some (mulVec a (b ⟨i, h⟩)) else r j)
    else none

/-- `operator*(Mat, Mat)`, mat.hpp 233-246. -/
def mulMat (a : Mat M N T) (b : Mat N P T) : Option (Fin P → Option (Fin M → T)) :=
  mulMatLoop a b (List.range N) (fun _ => none)

/-- `operator+`, mat.hpp 200-209. -/
def addMat (a b : Mat M N T) : Mat M N T := fun j i => a j i + b j i

/-- `det2x2`, vec.hpp 773-783. -/
def det2x2 (a b c d : T) : T :=
  let w := b * c
  let e := -b * c + w
  let f := a * d + -w
  f + e

end

/-- `inv(Mat2x2)`, mat.hpp 265-289; a zero determinant divides by zero (`none`). -/
def inv {T : Type} [Field T] [DecidableEq T] (m : Mat 2 2 T) : Option (Mat 2 2 T) :=
  let a := m 0 0
  let c := m 0 1
  let b := m 1 0
  let d := m 1 1
  let det := det2x2 a b c d
  if det = 0 then none
  else some fun j i =>
    if j = 0 then (if i = 0 then d / det else -c / det)
    else (if i = 0 then -b / det else a / det)

/-- `makeRotationMatrix`, mat.hpp 249-263. -/
noncomputable def rotation (t : ℝ) : Mat 2 2 ℝ := fun j i =>
  if j = 0 then (if i = 0 then Real.cos t else Real.sin t)
  else (if i = 0 then -Real.sin t else Real.cos t)

/-! ## `Matrix<T>` -/

/-- `Matrix<T>`, matrix.hpp 22-34: column-major. -/
structure Matrix (T : Type) where
  rows : Nat
  cols : Nat
  data : List T

section
variable {T : Type} [CommRing T]

/-- `a(i, j)`, matrix.hpp 246-266 (`Vector::operator[]` out of bounds is undefined). -/
def Matrix.at (a : Matrix T) (i j : Nat) : Option T := a.data[j * a.rows + i]?

/-- `y[n] += v`. -/
def addAt (c : List T) (n : Nat) (v : T) : Option (List T) := do
  let x ← c[n]?
  pure (c.set n (x + v))

/-- `operator*(Matrix, Vector)`, matrix.hpp 438-451 (no BLAS). -/
def mulVecD (a : Matrix T) (x : List T) : Option (List T) :=
  (List.range a.cols).foldlM (fun y i =>
    (List.range a.rows).foldlM (fun y j => do
      let p ← a.at j i
      let q ← x[i]?
      addAt y j (p * q)) y) (List.replicate a.rows 0)

/-- `matmul(c, a, b)`, matrix.hpp 470-485 (no BLAS); `c` is a different object from `a` and `b`. -/
def matmul (c a b : Matrix T) : Option (Matrix T) := do
  let d ← (List.range a.rows).foldlM (fun c' i =>
    (List.range b.cols).foldlM (fun c' j =>
      (List.range a.cols).foldlM (fun c' k => do
        let p ← a.at i k
        let q ← b.at k j
        addAt c' (j * c.rows + i) (p * q)) c') c') c.data
  pure ⟨c.rows, c.cols, d⟩

/-- `operator*(Matrix, Matrix)`, matrix.hpp 453-468 (no BLAS): the same loops on a zero matrix. -/
def mulD (a b : Matrix T) : Option (Matrix T) :=
  matmul ⟨a.rows, b.cols, List.replicate (a.rows * b.cols) 0⟩ a b

/-- The contract of `cblas_?gemm(ColMajor, NoTrans, NoTrans, m, n, k, alpha, A, lda, B, ldb, beta, C,
ldc)`: `C := alpha A B + beta C`, `C` not being read when `beta` is zero. -/
structure IsGemm (m n k : Nat) (alpha : T) (A : List T) (lda : Nat) (B : List T) (ldb : Nat)
    (beta : T) (C : List T) (ldc : Nat) (C' : List T) : Prop where
  size : C'.length = C.length
  entry : ∀ i j, i < m → j < n → ∃ old, (beta ≠ 0 → C[j * ldc + i]? = some old) ∧
    C'[j * ldc + i]? = some (alpha * (∑ p ∈ Finset.range k,
      A.getD (p * lda + i) 0 * B.getD (j * ldb + p) 0) + beta * old)

/-- `matmul` and `operator*` with BLAS, matrix.cpp 135-235, 249-360: the call they make (`c` is the
destination as it was before). -/
def IsBlasMatmul (c a b c' : Matrix T) : Prop :=
  c'.rows = c.rows ∧ c'.cols = c.cols ∧
  IsGemm a.rows b.cols a.cols 1 a.data a.rows b.data b.rows 0 c.data c.rows c'.data

end

end Verif.Mx
