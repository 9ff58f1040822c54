import Verif.Model.Fp
import Verif.Model.Pin

/-!
# Cylindrical pin meshes in floating-point arithmetic

`Model::addCylindricalPinMesh` for meshes of order 1 (src/mpact/model.cpp 138-396) with `float` or `double`; `Verif.Model.Pin` has the same function
in exact arithmetic, with the same simplifications.  Every operation is rounded.  A compiler that contracts `a * b + c` does not round some of the
products: that is a choice in the record `FpLibm`, the same for all calls.  Products are not contracted with the addition of half the pitch (383-385),
which reads them back from the vector of vertices.
-/

namespace Verif.FpCyl

open Verif.Fp Verif.Pin

/-- The arithmetic, the functions of `um2/math` before (`sqrt`) or after (`sin`, `cos`) they are rounded, `pi<Float>`, `epsDistance<Float>()`, and which
of the products of 208 (first and second) and 225, 237 and 269 are contracted. -/
structure FpLibm (K : Type) [Field K] [LinearOrder K] (p : ℕ) where
  R : Rounding K p
  sqrt : K → K
  sin : K → K
  cos : K → K
  pi : K
  eps : K
  fuse1 : Bool
  fuse2 : Bool
  fuse3 : Bool

variable {K : Type} [Field K] [LinearOrder K] {p : ℕ}

/-- A product that is an operand of an addition. -/
def prodFp (R : Rounding K p) (fused : Bool) (x : K) : K := if fused then x else R.rnd x

/-- The area of a region, 204 and 207-208. -/
def regionFp (m : FpLibm K p) (r : K) : Option K → K
  | none => m.R.rnd (m.R.rnd (m.pi * r) * r)
  | some q => m.R.rnd (m.pi * m.R.rnd (prodFp m.R m.fuse1 (r * r) - prodFp m.R m.fuse2 (q * q)))

/-- `radial_region_areas`, 204-209. -/
def regionAreasFp (m : FpLibm K p) : List K → Option K → List K
  | [], _ => []
  | r :: rs, q => regionFp m r q :: regionAreasFp m rs (some r)

/-- `ring_areas`, 220, 223, 232-235. -/
def ringAreasFp (m : FpLibm K p) (areas : List K) (rings : List Nat) : List K :=
  (List.zip areas rings).flatMap fun p => List.replicate p.2 (m.R.rnd (p.1 / m.R.rnd (p.2 : K)))

/-- `ring_radii` after the first, 224-225 and 236-237. -/
def radiiLoopFp (m : FpLibm K p) : K → List K → List K
  | _, [] => []
  | q, a :: as =>
    let e := m.R.rnd (m.sqrt (m.R.rnd (m.R.rnd (a / m.pi) + prodFp m.R m.fuse3 (q * q))))
    e :: radiiLoopFp m e as

/-- `ring_radii`, 221-239. -/
def ringRadiiFp (m : FpLibm K p) : List K → List K
  | [] => []
  | a :: as => m.R.rnd (m.sqrt (m.R.rnd (a / m.pi))) :: radiiLoopFp m (m.R.rnd (m.sqrt (m.R.rnd (a / m.pi)))) as

/-- `theta`, 256. -/
def thetaFp (m : FpLibm K p) (na : Nat) : K := m.R.rnd (m.R.rnd (2 * m.pi) / m.R.rnd (na : K))

/-- `2 * ring_areas[i] / (sin_theta * num_azimuthal_t)`, 263 and 268. -/
def eqTermFp (m : FpLibm K p) (na : Nat) (a : K) : K :=
  m.R.rnd (m.R.rnd (2 * a) / m.R.rnd (m.sin (thetaFp m na) * m.R.rnd (na : K)))

/-- `eq_radii` after the first, 267-270. -/
def eqLoop1Fp (m : FpLibm K p) (na : Nat) : K → List K → List K
  | _, [] => []
  | q, a :: as =>
    let e := m.R.rnd (m.sqrt (m.R.rnd (eqTermFp m na a + prodFp m.R m.fuse3 (q * q))))
    e :: eqLoop1Fp m na e as

/-- `eq_radii`, 258-270. -/
def eqRadii1Fp (m : FpLibm K p) (na : Nat) : List K → List K
  | [] => []
  | a :: as => m.R.rnd (m.sqrt (eqTermFp m na a)) :: eqLoop1Fp m na (m.R.rnd (m.sqrt (eqTermFp m na a))) as

/-- `if (um2::abs(x) < eps) x = 0`, for example 318-323. -/
def snapFp (m : FpLibm K p) (x : K) : K := if |x| < m.eps then 0 else x

/-- Cosine and sine after the two tests, 316-323 and 333-340. -/
def snapTrigFp (m : FpLibm K p) (x : K) : K × K := (snapFp m (m.cos x), snapFp m (m.sin x))

/-- `{r * cos, r * sin}`, 308, 324-325 and 344. -/
def polarFp (m : FpLibm K p) (r : K) (cs : K × K) : K × K := (m.R.rnd (r * cs.1), m.R.rnd (r * cs.2))

/-- `um2::abs(pitch / (2 * c))`, 341 and 342, when `c` is not zero. -/
def sideFp (m : FpLibm K p) (pitch c : K) : K := |m.R.rnd (pitch / m.R.rnd (2 * c))|

/-- `rb`, 341-343: a zero cosine or sine makes `rx` or `ry` infinite, and `um2::min` takes the other one. -/
def boundaryRadiusFp (m : FpLibm K p) (pitch : K) (cs : K × K) : K :=
  if cs.1 = 0 then sideFp m pitch cs.2
  else if cs.2 = 0 then sideFp m pitch cs.1
  else if sideFp m pitch cs.2 < sideFp m pitch cs.1 then sideFp m pitch cs.2 else sideFp m pitch cs.1

/-- `theta * (2 * ia + 1)`, 306 and 307. -/
def angleTriFp (m : FpLibm K p) (na ia : Nat) : K := m.R.rnd (thetaFp m na * m.R.rnd (m.R.rnd (2 * m.R.rnd (ia : K)) + 1))

/-- `theta * ia`, for example 316 and 317. -/
def angleFp (m : FpLibm K p) (na ia : Nat) : K := m.R.rnd (thetaFp m na * m.R.rnd (ia : K))

/-- The triangular points, 304-309. -/
def triPoints1Fp (m : FpLibm K p) (na : Nat) (e0 : K) : List (K × K) :=
  (List.range (na / 2)).map fun ia : Nat => polarFp m (m.R.rnd (e0 / 2)) (m.cos (angleTriFp m na ia), m.sin (angleTriFp m na ia))

/-- One ring of points, 314-327. -/
def ringPoints1Fp (m : FpLibm K p) (na : Nat) (e : K) : List (K × K) :=
  (List.range na).map fun ia : Nat => polarFp m e (snapTrigFp m (angleFp m na ia))

/-- The boundary points, 331-345. -/
def boundaryPoints1Fp (m : FpLibm K p) (na : Nat) (pitch : K) : List (K × K) :=
  (List.range na).map fun ia : Nat =>
    polarFp m (boundaryRadiusFp m pitch (snapTrigFp m (angleFp m na ia))) (snapTrigFp m (angleFp m na ia))

/-- All points before the shift, 296-345. -/
def points1Fp (m : FpLibm K p) (na : Nat) (pitch : K) (eq : List K) : List (K × K) :=
  [(0, 0)] ++ triPoints1Fp m na (eq.headD 0) ++ eq.flatMap (ringPoints1Fp m na) ++ boundaryPoints1Fp m na pitch

/-- The shift to the lower left corner, 383-394. -/
def shiftFp (m : FpLibm K p) (pitch : K) (v : K × K) : K × K :=
  (snapFp m (m.R.rnd (v.1 + m.R.rnd (pitch / 2))), snapFp m (m.R.rnd (v.2 + m.R.rnd (pitch / 2))))

/-- The outcome of `addCylindricalPinMesh` with `mesh_order` 1, 138-396: the three outcomes are those of `Verif.Pin.cylindricalMesh`. -/
def cylindricalMeshFp (m : FpLibm K p) (pitch : K) (radii : List K) (numRings : List ℤ) (numAzi : ℤ) : Option (Option (Mesh K)) :=
  if numAzi < 8 then some none
  else if numAzi.toNat &&& (numAzi.toNat - 1) ≠ 0 then some none
  else if radii.length ≠ numRings.length then some none
  else if radii.any fun r => decide (m.R.rnd (pitch / 2) < r) then some none
  else if numRings.headD 0 ≤ 0 ∨ numRings.any (fun n => decide (n < 0)) then none
  else
    let na := numAzi.toNat
    let rings := numRings.map Int.toNat
    let nr := rings.sum
    let eq := eqRadii1Fp m na (ringAreasFp m (regionAreasFp m radii none) rings)
    if 2 ^ 31 ≤ 1 + (nr + 1) * na + na / 2 then none
    else if eq.any fun r => decide (m.R.rnd (pitch / 2) < r) then some none
    else some (some ⟨(points1Fp m na pitch eq).map (shiftFp m pitch), faces1 na nr⟩)

end Verif.FpCyl
