import Verif.Model.FpLerp

/-!
# Distances in floating-point arithmetic

`Vec<D, T>` as the list of its coordinates, for any `D`.  With `fused` the compiler has made one operation of the product and the sum of
each turn of the loops; it is taken to do so in all of them or in none.
-/

namespace Verif.Fp

variable {K : Type} [Field K] [LinearOrder K] {p : ℕ}

/-- The loop of `Vec::dot` and `Vec::squaredNorm`, vec.hpp 733-735 and 744-746. -/
def dotLoop (R : Rounding K p) (fused : Bool) (acc : K) : List K → List K → K
  | a :: as, b :: bs => dotLoop R fused (mulAdd R fused acc a b) as bs
  | _, _ => acc

/-- `Vec::dot`, vec.hpp 728-737. -/
def dot (R : Rounding K p) (fused : Bool) : List K → List K → K
  | a :: as, b :: bs => dotLoop R fused (R.rnd (a * b)) as bs
  | _, _ => 0

/-- `Vec::squaredNorm`, vec.hpp 739-748. -/
def squaredNorm (R : Rounding K p) (fused : Bool) (v : List K) : K := dot R fused v v

/-- `operator-` of `Vec`, vec.hpp 577-589 and 956-961, coordinate by coordinate. -/
def subV (R : Rounding K p) (u v : List K) : List K := List.zipWith (fun a b => R.rnd (a - b)) u v

/-- `Vec::squaredDistanceTo`, vec.hpp 805-811. -/
def squaredDistanceTo (R : Rounding K p) (fused : Bool) (u v : List K) : K := squaredNorm R fused (subV R u v)

/-- `Vec::isApprox`, vec.hpp 820-825. -/
def isApprox (R : Rounding K p) (fused : Bool) (eps2 : K) (u v : List K) : Bool := decide (squaredDistanceTo R fused u v < eps2)

/-- `um2::clamp` to the unit interval, clamp.hpp 9-18. -/
def clamp01 (r : K) : K := if r < 0 then 0 else if 1 < r then 1 else r

/-- `pointClosestTo`, line_segment.hpp 221-236; `none` is the division of zero by zero. -/
def pointClosestTo (R : Rounding K p) (fused : Bool) (l0 l1 q : List K) : Option K :=
  if squaredNorm R fused (subV R l1 l0) = 0 then none
  else some (clamp01 (clamp01 (R.rnd (dot R fused (subV R q l0) (subV R l1 l0) / squaredNorm R fused (subV R l1 l0)))))

/-- `squaredDistanceTo` of a segment, line_segment.hpp 249-256. -/
def segSquaredDistanceTo (R : Rounding K p) (fused : Bool) (l0 l1 q : List K) : Option K :=
  (pointClosestTo R fused l0 l1 q).bind fun r => some (squaredDistanceTo R fused (List.zipWith (fun a b => lerp R fused a b r) l0 l1) q)

end Verif.Fp
