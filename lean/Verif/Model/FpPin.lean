import Verif.Model.Fp
import Verif.Model.Pin

/-!
# Rectangular pin meshes in floating-point arithmetic

The mesh built by `Model::addRectangularPinMesh` (src/mpact/model.cpp 716-766) with `float` or `double`; `Verif.Model.Pin` has the same function
in exact arithmetic, with the same simplifications.
-/

namespace Verif.FpPin

open Verif.Fp Verif.Pin

variable {K : Type} [Field K] [LinearOrder K] {p : ℕ}

/-- Coordinate `i` along an edge of length `e` with `n` faces, model.cpp 736-737, 739 and 741. -/
def place (R : Rounding K p) (n : Nat) (e : K) (i : Nat) : K := R.rnd (R.rnd (i : K) * R.rnd (e / R.rnd (n : K)))

/-- The vertices, model.cpp 738-744. -/
def rectVertsFp (R : Rounding K p) (ext : K × K) (nx ny : Nat) : List (K × K) :=
  (List.range (ny + 1)).flatMap fun j : Nat => (List.range (nx + 1)).map fun i : Nat => (place R nx ext.1 i, place R ny ext.2 j)

/-- The mesh of `addRectangularPinMesh`, 725-764: `some none` is an error, `none` an overflow of the 32-bit sizes. -/
def rectangularMeshFp (R : Rounding K p) (ext : K × K) (nx ny : ℤ) : Option (Option (Mesh K)) :=
  if ext.1 ≤ 0 ∨ ext.2 ≤ 0 then some none
  else if nx ≤ 0 ∨ ny ≤ 0 then some none
  else if 2 ^ 31 ≤ (nx + 1) * (ny + 1) then none
  else some (some ⟨rectVertsFp R ext nx.toNat ny.toNat, rectFaces nx.toNat ny.toNat⟩)

end Verif.FpPin
