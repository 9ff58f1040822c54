import Verif.Model.Matrix
import Mathlib.LinearAlgebra.Matrix.Charpoly.Basic
import Mathlib.LinearAlgebra.Matrix.Determinant.Basic
import Mathlib.Data.Complex.Basic
import Mathlib.Algebra.Polynomial.Roots

/-! `linearSolve` and `eigvals`, src/math/matrix.cpp 362-775.  LAPACK is a parameter with the contract of its documentation; exact arithmetic. -/

namespace Verif.Lapack

open Verif.Mx (Matrix)

/-- The n by n (or n by m) matrix stored in column-major order with leading dimension `ld`. -/
def stored {T : Type} [Zero T] (n m : Nat) (A : List T) (ld : Nat) : _root_.Matrix (Fin n) (Fin m) T := fun i j => A.getD (j.val * ld + i.val) 0

section
variable {T : Type} [Field T]

/-- What `LAPACKE_?gesv(COL_MAJOR, n, nrhs, A, lda, ipiv, B, ldb)` leaves in `A` and `B`. -/
abbrev GesvFn (T : Type) := (n nrhs : Nat) → (A : List T) → (lda : Nat) → (B : List T) → (ldb : Nat) → List T × List T

/-- The documented behaviour of `?gesv`: the solution replaces `B`, other elements of the array of `B` are left alone; with an illegal argument, or a singular
matrix, `B` is left alone (and `info`, which the release build does not look at, is not zero). -/
structure IsGesv (gesv : GesvFn T) : Prop where
  sizes : ∀ n nrhs A lda B ldb, (gesv n nrhs A lda B ldb).1.length = A.length ∧ (gesv n nrhs A lda B ldb).2.length = B.length
  illegal : ∀ n nrhs A lda B ldb, lda < max 1 n ∨ ldb < max 1 n → gesv n nrhs A lda B ldb = (A, B)
  singular : ∀ n nrhs A lda B ldb, n ≤ lda → n ≤ ldb → (stored n n A lda).det = 0 → (gesv n nrhs A lda B ldb).2 = B
  solved : ∀ n nrhs A lda B ldb, n ≤ lda → n ≤ ldb → (n = 0 ∨ nrhs = 0 ∨ (nrhs - 1) * ldb + n ≤ B.length) → (stored n n A lda).det ≠ 0 →
    stored n n A lda * stored n nrhs (gesv n nrhs A lda B ldb).2 ldb = stored n nrhs B ldb
  others : ∀ n nrhs A lda B ldb q, (∀ i j, i < n → j < nrhs → q ≠ j * ldb + i) → (gesv n nrhs A lda B ldb).2[q]? = B[q]?

/-- Whether `?gesv` stays in its arrays. -/
def fits (n nrhs lenA lda npiv lenB ldb : Nat) : Bool :=
  decide (lda < max 1 n) || decide (ldb < max 1 n) ||
    ((decide (n = 0) || decide ((n - 1) * lda + n ≤ lenA)) && decide (n ≤ npiv) && (decide (n = 0) || decide (nrhs = 0) || decide ((nrhs - 1) * ldb + n ≤ lenB)))

/-- `linearSolve(a, b, ipiv)`, matrix.cpp 512-602; `npiv` is the size of `ipiv`.  The result is what `a` and `b` hold afterwards. -/
def solveInPlace (gesv : GesvFn T) (a b : Matrix T) (npiv : Nat) : Option (Matrix T × Matrix T) :=
  if fits a.rows b.cols a.data.length a.rows npiv b.data.length b.rows then
    let r := gesv a.rows b.cols a.data a.rows b.data b.rows
    some (⟨a.rows, a.cols, r.1⟩, ⟨b.rows, b.cols, r.2⟩)
  else none

/-- `linearSolve(a, b)`, matrix.cpp 367-510: on copies, with an own `ipiv` of `a.rows()` elements. -/
def linearSolve (gesv : GesvFn T) (a b : Matrix T) : Option (Matrix T) := (solveInPlace gesv a b a.rows).map (·.2)

end

/-- What `LAPACKE_dgeev_work(COL_MAJOR, 'N', 'N', n, A, lda, wr, wi, …, work, lwork)` leaves in `wr` and `wi`. -/
abbrev GeevFn := (n : Nat) → (A : List ℝ) → (lda : Nat) → (wr wi : List ℝ) → (lwork : Nat) → List ℝ × List ℝ

/-- The documented behaviour of `dgeev` without eigenvectors, if it converges: the real and imaginary parts of the eigenvalues.  With an illegal argument, in particular a work array of
less than `max(1, 3 n)` elements, nothing is done. -/
structure IsGeev (geev : GeevFn) : Prop where
  illegal : ∀ n A lda wr wi lwork, lda < max 1 n ∨ lwork < max 1 (3 * n) → geev n A lda wr wi lwork = (wr, wi)
  sizes : ∀ n A lda wr wi lwork, (geev n A lda wr wi lwork).1.length = wr.length ∧ (geev n A lda wr wi lwork).2.length = wi.length
  values : ∀ n A lda wr wi lwork, max 1 n ≤ lda → max 1 (3 * n) ≤ lwork → wr.length = n → wi.length = n →
    (List.zipWith Complex.mk (geev n A lda wr wi lwork).1 (geev n A lda wr wi lwork).2 : Multiset ℂ) = ((stored n n A lda).map Complex.ofReal).charpoly.roots

/-- `eigvals(Matrix<double>)`, matrix.cpp 656-694; `none` if LAPACK would read past the end of the matrix. -/
def eigvals (geev : GeevFn) (a : Matrix ℝ) : Option (List ℂ) :=
  let n := a.rows
  if n = 0 ∨ (n - 1) * a.rows + n ≤ a.data.length then
    let r := geev n a.data a.rows (List.replicate n 0) (List.replicate n 0) (4 * n)
    some ((List.range n).map fun i => ⟨r.1.getD i 0, r.2.getD i 0⟩)
  else none

end Verif.Lapack
