import Mathlib.Data.Matrix.Mul
import Mathlib.LinearAlgebra.Matrix.NonsingularInverse
import Mathlib.Analysis.SpecialFunctions.Trigonometric.Basic
import Mathlib.Analysis.SpecialFunctions.Exp
import Mathlib.Analysis.Complex.Norm

/-!
# Model of src/physics/cmfd.cpp and include/um2/physics/cmfd.hpp

Exact arithmetic over ℝ and ℂ. The number of fine cells is `m + 1`. Buffers that the code reuses are
arguments. LAPACK's solver is the inverse matrix, a singular matrix is `none`; LAPACK's eigenvalues are a
parameter. The quadrature (`mu`, `w`, cmfd.cpp 117-140) is a parameter.
-/

namespace Verif.Cmfd

open Matrix

/-- `Matrix<ComplexF>`, square. -/
abbrev Mat (m : Nat) := Matrix (Fin (m + 1)) (Fin (m + 1)) ℂ

/-- `CMFDCellParams`, cmfd.hpp 38-80, without `p` (the size `m + 1`) and `s` (always 1, cmfd.cpp 196). -/
structure Params where
  w : ℝ
  sigmaT : ℝ
  c : ℝ
  eta : ℝ

/-- `h = w / p`, cmfd.hpp 76. -/
noncomputable def Params.h (q : Params) (m : Nat) : ℝ := q.w / (m + 1 : ℕ)
/-- `delta = Sigma_t * w`, cmfd.hpp 77. -/
def Params.delta (q : Params) : ℝ := q.sigmaT * q.w
/-- `D = 1 / (3 * delta) + eta`, cmfd.hpp 78. -/
noncomputable def Params.D (q : Params) : ℝ := 1 / (3 * q.delta) + q.eta

/-- The assertions of the constructor, cmfd.hpp 64-71. -/
structure Params.Ok (q : Params) : Prop where
  w : 0 < q.w
  sigmaT : 0 < q.sigmaT
  c0 : 0 ≤ q.c
  c1 : q.c ≤ 1
  eta0 : 0 ≤ q.eta

/-- `A(i, j) = x`. -/
def set {m : Nat} (A : Mat m) (i j : Fin (m + 1)) (x : ℂ) : Mat m :=
  fun a b => if a = i ∧ b = j then x else A a b

/-- `beta_n`, cmfd.cpp 25-30. -/
noncomputable def beta (h mu : ℝ) : ℝ :=
  let z := h / (2 * mu)
  1 / Real.tanh z - 1 / z

/-- The assignments shared by `set_An` (cmfd.cpp 51-58) and `set_Bn` (cmfd.cpp 81-88): `d` on the
diagonal, `u` above it, `u * exp(i α Δ)` in the lower left corner. -/
noncomputable def fillBand {m : Nat} (A : Mat m) (d u : ℂ) (ad : ℝ) : Mat m :=
  let A := set A 0 0 d
  let A := set A (Fin.last m) 0 (u * Complex.exp (Complex.I * ad))
  (List.finRange m).foldl (fun A i => set (set A i.castSucc i.succ u) i.succ i.succ d) A

/-- `set_An`, cmfd.cpp 33-59. -/
noncomputable def setAn {m : Nat} (An : Mat m) (q : Params) (mu alpha : ℝ) : Mat m :=
  let b := beta (q.h m) mu
  fillBand An (((1 - b) / 2 : ℝ) : ℂ) (((1 + b) / 2 : ℝ) : ℂ) (alpha * q.delta)

/-- `set_Bn`, cmfd.cpp 62-90. -/
noncomputable def setBn {m : Nat} (Bn An : Mat m) (q : Params) (mu alpha : ℝ) : Mat m :=
  let u : ℂ := ((mu / (q.sigmaT * q.h m) : ℝ) : ℂ)
  fillBand Bn (-u) u (alpha * q.delta) + An

/-- One pass of the loop over the polar angles, cmfd.cpp 147-167: state (`U`, `An`). -/
noncomputable def angleStep {m : Nat} (q : Params) (alpha : ℝ) (st : Mat m × Mat m) (muw : ℝ × ℝ) :
    Option (Mat m × Mat m) :=
  let An := setAn st.2 q muw.1 alpha
  let Bn := setBn 0 An q muw.1 alpha
  if Bn.det = 0 then none
  else some (fun i j => st.1 i j + (muw.2 : ℂ) * (An * Bn⁻¹) i j, An)

/-- `set_U`, cmfd.cpp 93-169; the result is `U` and the buffer `An`. -/
noncomputable def setU {m : Nat} (quad : List (ℝ × ℝ)) (An : Mat m) (q : Params) (alpha : ℝ) :
    Option (Mat m × Mat m) :=
  (quad.foldlM (angleStep q alpha) (0, An)).map fun (U, An) => (fun i j => U i j * ((q.c / 2 : ℝ) : ℂ), An)

/-- `getF`, cmfd.cpp 172-181; division by zero is `none`. -/
noncomputable def getF (m : Nat) (q : Params) (alpha : ℝ) : Option ℝ :=
  let num := q.c * q.sigmaT * q.h m
  let den := 2 * q.D * (1 - Real.cos (alpha * q.delta)) + (1 - q.c) * q.delta
  if den = 0 then none else some (num / den)

/-- The matrix of ones, cmfd.cpp 253-255. -/
def ones {m : Nat} : Mat m := fun _ _ => 1

/-- `set_omega`, cmfd.cpp 184-225; `J` is a matrix of ones. Result: `omega` and the buffer `An`. -/
noncomputable def setOmega {m : Nat} (quad : List (ℝ × ℝ)) (J An : Mat m) (q : Params) (alpha : ℝ) :
    Option (Mat m × Mat m) := do
  let (U, An) ← setU quad An q alpha
  let F ← getF m q alpha
  let U := (List.finRange (m + 1)).foldl (fun U i => set U i i (U i i - 1)) U
  let om := J * U
  let om : Mat m := fun i j => om i j * (F : ℂ)
  let om := om + U
  let om := (List.finRange (m + 1)).foldl (fun om i => set om i i (om i i + 1)) om
  return (om, An)

/-- The update of the largest eigenvalue, cmfd.cpp 268-274. -/
noncomputable def larger (r e : ℂ) : ℂ := if ‖e‖ > ‖r‖ then e else r

/-- `spectral_radius`, cmfd.cpp 232-277, with `num` samples of α; `eig` is `eigvals`.  The overload with the buffers of the caller, cmfd.cpp 279-315, does the same:
it clears `An` and `Bn` and fills `J`, and `U`, `omega` and `I` are overwritten before they are read. -/
noncomputable def spectralRadius {m : Nat} (quad : List (ℝ × ℝ)) (eig : Mat m → List ℂ) (num : Nat) (q : Params) : Option ℂ :=
  let dAlpha := (Real.pi / q.delta) / ((num : ℝ) - 1)
  ((List.range num).foldlM (fun (st : ℂ × Mat m) (i : Nat) => do
    let (om, An) ← setOmega quad ones st.2 q (i * dAlpha)
    return ((eig om).foldl larger st.1, An)) ((0 : ℂ), (0 : Mat m))).map Prod.fst

end Verif.Cmfd
