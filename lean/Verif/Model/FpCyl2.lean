import Verif.Model.FpCyl

/-!
# Quadratic cylindrical pin meshes in floating-point arithmetic

`Model::addCylindricalPinMesh` for meshes of order 2 (src/mpact/model.cpp 138-248 and 398-645) with `float` or `double`; `Verif.Model.Pin` has the same
function in exact arithmetic, with the same simplifications, and `Verif.Model.FpCyl` the part that both orders share.
-/

namespace Verif.FpCyl

open Verif.Fp Verif.Pin

/-- Which products are contracted with the addition or subtraction that they are an operand of: `tri_area` (422), the two squares and `a_quad` (434),
`l_im1 * cos_gamma` (432), and the last product of 427 and 437. -/
structure EqFused where
  tri : Bool
  sq : Bool
  sq1 : Bool
  quad : Bool
  edge : Bool
  last : Bool

variable {K : Type} [Field K] [LinearOrder K] {p : ℕ}

/-- `gamma`, 401. -/
def gammaFp (m : FpLibm K p) (na : Nat) : K := m.R.rnd (thetaFp m na / 2)

/-- `sincos_gamma`, 402-404. -/
def sincosFp (m : FpLibm K p) (na : Nat) : K := m.R.rnd (m.sin (gammaFp m na) * m.cos (gammaFp m na))

/-- `three_fourths * t / (l * sin_gamma) + l * cos_gamma`, 427 and 436-437. -/
def eqFinish (m : FpLibm K p) (g : EqFused) (na : Nat) (t l : K) : K :=
  m.R.rnd (m.R.rnd (m.R.rnd (3 / 4 * t) / m.R.rnd (l * m.sin (gammaFp m na))) + prodFp m.R g.last (l * m.cos (gammaFp m na)))

/-- `eq_radii[0]`, 422-427. -/
def eqFirst2Fp (m : FpLibm K p) (g : EqFused) (na : Nat) (l a : K) : K :=
  eqFinish m g na (m.R.rnd (m.R.rnd (a / m.R.rnd (na : K)) - prodFp m.R g.tri (m.R.rnd (l * l) * sincosFp m na))) l

/-- `a_edge_im1`, 431-432. -/
def edgeFp (m : FpLibm K p) (g : EqFused) (na : Nat) (l1 e1 : K) : K :=
  m.R.rnd (m.R.rnd (m.R.rnd (l1 * m.sin (gammaFp m na)) * m.R.rnd (e1 - prodFp m.R g.edge (l1 * m.cos (gammaFp m na)))) / (3 / 4))

/-- `a_quad`, 434. -/
def quadFp (m : FpLibm K p) (g : EqFused) (na : Nat) (l1 l : K) : K :=
  prodFp m.R g.quad (m.R.rnd (prodFp m.R g.sq (l * l) - prodFp m.R g.sq1 (l1 * l1)) * sincosFp m na)

/-- `eq_radii[i]`, 429-437: `l1`, `e1` are the ring radius and the equivalent radius of the ring inside. -/
def eqStep2Fp (m : FpLibm K p) (g : EqFused) (na : Nat) (l1 e1 l a : K) : K :=
  eqFinish m g na (m.R.rnd (m.R.rnd (m.R.rnd (a / m.R.rnd (na : K)) - quadFp m g na l1 l) + edgeFp m g na l1 e1)) l

/-- `eq_radii` after the first, 428-438. -/
def eqLoop2Fp (m : FpLibm K p) (g : EqFused) (na : Nat) : K → K → List K → List K → List K
  | l1, e1, l :: ls, a :: as => eqStep2Fp m g na l1 e1 l a :: eqLoop2Fp m g na l (eqStep2Fp m g na l1 e1 l a) ls as
  | _, _, _, _ => []

/-- `eq_radii`, 405-438, from `ring_radii` and `ring_areas`. -/
def eqRadii2Fp (m : FpLibm K p) (g : EqFused) (na : Nat) : List K → List K → List K
  | l :: ls, a :: as => eqFirst2Fp m g na l a :: eqLoop2Fp m g na l (eqFirst2Fp m g na l a) ls as
  | _, _ => []

/-- `ia * theta`, for example 469. -/
def angle2Fp (m : FpLibm K p) (na ia : Nat) : K := m.R.rnd (m.R.rnd (ia : K) * thetaFp m na)

/-- `ia * gamma`, for example 484. -/
def angleGammaFp (m : FpLibm K p) (na ia : Nat) : K := m.R.rnd (m.R.rnd (ia : K) * gammaFp m na)

/-- The triangular points, 467-480. -/
def triPoints2Fp (m : FpLibm K p) (na : Nat) (r0 : K) : List (K × K) :=
  (List.range na).flatMap fun ia : Nat =>
    let c := m.cos (angle2Fp m na ia)
    let s := m.sin (angle2Fp m na ia)
    let rt := m.R.rnd (r0 / 2)
    if ia % 2 = 0 then [(m.R.rnd (rt * c), m.R.rnd (rt * s))]
    else [(m.R.rnd (m.R.rnd (rt * c) / 2), m.R.rnd (m.R.rnd (rt * s) / 2)), (m.R.rnd (rt * c), m.R.rnd (rt * s)),
      (m.R.rnd (m.R.rnd (m.R.rnd (3 * rt) * c) / 2), m.R.rnd (m.R.rnd (m.R.rnd (3 * rt) * s) / 2))]

/-- The points on a ring, 483-501 and 519-537. -/
def ringPoints2Fp (m : FpLibm K p) (na : Nat) (r e : K) : List (K × K) :=
  (List.range (2 * na)).map fun ia : Nat => polarFp m (if ia % 2 = 0 then r else e) (snapTrigFp m (angleGammaFp m na ia))

/-- The points between two rings, 506-517. -/
def betweenPoints2Fp (m : FpLibm K p) (na : Nat) (r0 r : K) : List (K × K) :=
  (List.range na).map fun ia : Nat => polarFp m (m.R.rnd (m.R.rnd (r + r0) / 2)) (snapTrigFp m (angle2Fp m na ia))

/-- The rings after the first, 503-538: `r0` is the radius of the ring inside. -/
def rings2Fp (m : FpLibm K p) (na : Nat) : K → List K → List K → List (K × K)
  | r0, r :: rs, e :: es => betweenPoints2Fp m na r0 r ++ ringPoints2Fp m na r e ++ rings2Fp m na r rs es
  | _, _, _ => []

/-- The points between the last ring and the boundary, 540-556. -/
def beforePoints2Fp (m : FpLibm K p) (na : Nat) (pitch r : K) : List (K × K) :=
  (List.range na).map fun ia : Nat =>
    let cs := snapTrigFp m (angle2Fp m na ia)
    polarFp m (m.R.rnd (m.R.rnd (boundaryRadiusFp m pitch cs + r) / 2)) cs

/-- The boundary points, 558-572. -/
def boundaryPoints2Fp (m : FpLibm K p) (na : Nat) (pitch : K) : List (K × K) :=
  (List.range (2 * na)).map fun ia : Nat =>
    let cs := snapTrigFp m (m.R.rnd (gammaFp m na * m.R.rnd (ia : K)))
    polarFp m (boundaryRadiusFp m pitch cs) cs

/-- All points before the shift, 464-572. -/
def points2Fp (m : FpLibm K p) (na : Nat) (pitch : K) (radii eq : List K) : List (K × K) :=
  [(0, 0)] ++ triPoints2Fp m na (radii.headD 0) ++ ringPoints2Fp m na (radii.headD 0) (eq.headD 0) ++
    rings2Fp m na (radii.headD 0) radii.tail eq.tail ++ beforePoints2Fp m na pitch (radii.getLastD 0) ++ boundaryPoints2Fp m na pitch

/-- The outcome of `addCylindricalPinMesh` with `mesh_order` 2, 138-248 and 398-645: the three outcomes are those of `Verif.Pin.cylindricalMesh`. -/
def cylindricalMesh2Fp (m : FpLibm K p) (g : EqFused) (pitch : K) (radii : List K) (numRings : List ℤ) (numAzi : ℤ) : Option (Option (Mesh K)) :=
  if numAzi < 8 then some none
  else if numAzi.toNat &&& (numAzi.toNat - 1) ≠ 0 then some none
  else if radii.length ≠ numRings.length then some none
  else if radii.any fun r => decide (m.R.rnd (pitch / 2) < r) then some none
  else if numRings.headD 0 ≤ 0 ∨ numRings.any (fun n => decide (n < 0)) then none
  else
    let na := numAzi.toNat
    let rings := numRings.map Int.toNat
    let nr := rings.sum
    let areas := ringAreasFp m (regionAreasFp m radii none) rings
    let rr := ringRadiiFp m areas
    let eq := eqRadii2Fp m g na rr areas
    if 2 ^ 31 ≤ 1 + 4 * na + 3 * na * nr then none
    else if eq.any fun r => decide (m.R.rnd (pitch / 2) < r) then some none
    else some (some ⟨(points2Fp m na pitch rr eq).map (shiftFp m pitch), faces2 na nr⟩)

end Verif.FpCyl
