import Verif.Model.FpDist
import Verif.Model.FpArea

/-! Norms, unit vectors, perimeters and mean chords in floating-point arithmetic.  `sqrt` is the exact square root, of which `um2::sqrt` is the rounding, as IEEE 754 demands. -/

namespace Verif.Fp

variable {K : Type} [Field K] [LinearOrder K] {p : ℕ} (R : Rounding K p) (sqrt : K → K) (fused : Bool)

/-- `Vec::norm`, vec.hpp 750-755. -/
def norm (v : List K) : K := R.rnd (sqrt (squaredNorm R fused v))

/-- `Vec::normalized`, vec.hpp 757-771; `none` for the division by a norm of zero. -/
def normalized (v : List K) : Option (List K) :=
  if norm R sqrt fused v = 0 then none else some (v.map fun x => R.rnd (x / norm R sqrt fused v))

/-- The assertion of the constructor of `Ray`, ray.hpp 27-34; `castIfNot<T>(1e-5)` rounds the literal. -/
def rayAssert (d : List K) : Bool := decide (|R.rnd (squaredNorm R fused d - 1)| < R.rnd (1 / 10 ^ 5))

/-- `Vec::distanceTo`, vec.hpp 813-818. -/
def distanceTo (a b : List K) : K := R.rnd (sqrt (squaredDistanceTo R fused a b))

/-- The loop of `perimeter(LinearPolygon)`, polygon.hpp 99-101. -/
def perimeterLoop : K → List (List K) → K
  | s, v :: w :: vs => perimeterLoop (R.rnd (s + distanceTo R sqrt fused v w)) (w :: vs)
  | s, _ => s

/-- `perimeter(LinearPolygon)`, polygon.hpp 92-104, for the vertices `v :: vs`. -/
def perimeter (v : List K) (vs : List (List K)) : K := perimeterLoop R sqrt fused (distanceTo R sqrt fused ((v :: vs).getLast (by simp)) v) (v :: vs)

/-- The coordinates of a point of the plane. -/
def coords (v : P2 K) : List K := [v.1, v.2]

/-- `meanChordLength(PlanarPolygon)`, polygon.hpp 237-245, for a triangle; `pi` is the constant of numbers.hpp 12; `none` for a perimeter of zero. -/
def triMeanChord (pi : K) (a b c : P2 K) : Option K :=
  let l := perimeter R sqrt fused (coords a) [coords b, coords c]
  if l = 0 then none else some (R.rnd (R.rnd (pi * triArea R a b c) / l))

/-- `meanChordLength(PlanarPolygon)`, polygon.hpp 237-245, for a quadrilateral. -/
def quadMeanChord (pi : K) (a b c d : P2 K) : Option K :=
  let l := perimeter R sqrt fused (coords a) [coords b, coords c, coords d]
  if l = 0 then none else some (R.rnd (R.rnd (pi * quadArea R a b c d) / l))

end Verif.Fp
