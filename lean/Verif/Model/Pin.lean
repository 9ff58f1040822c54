import Mathlib.Algebra.Order.Field.Basic
import Mathlib.Algebra.Order.Group.Unbundled.Abs

/-!
# Pin meshes

Model of `Model::addCylindricalPinMesh` (src/mpact/model.cpp 138-649) and of the mesh built by
`Model::addRectangularPinMesh` (716-766).

Simplifications.  `Float` is an arbitrary linearly ordered field `K` (exact arithmetic); the functions `sqrt`, `sin`,
`cos` and the constant `pi` are passed as a record (`Libm`), together with `epsDistance`.  `LOG_DEBUG` and `ASSERT`
(compiled out) are left out.  Vectors that the code fills from the first to the last index are written as
concatenations.  `none` is undefined behaviour.  The mesh constructor (face_vertex_mesh.hpp 238-245) and
`addRectangularPinMesh` call `validate`, which reverses faces that are clockwise beyond a tolerance and otherwise only
reports; the faces here are the ones before that call.
-/

namespace Verif.Pin

/-- The mathematical functions of `um2/math` that are used, and `epsDistance<Float>()`. -/
structure Libm (K : Type) where
  sqrt : K → K
  sin : K → K
  cos : K → K
  pi : K
  eps : K

/-- A `FaceVertexMesh`: vertices and face-vertex connectivity (face_vertex_mesh.hpp). -/
structure Mesh (K : Type) where
  verts : List (K × K)
  faces : List (List Nat)

variable {K : Type} [Field K] [LinearOrder K]

/-! ## Radii (197-248) -/

/-- `radial_region_areas` of the rings, 199-205: `prev` is the radius of the region inside.  The entry for the region
outside the last radius (206-207) is never read and left out. -/
def regionAreas (m : Libm K) : List K → Option K → List K
  | [], _ => []
  | r :: rs, none => m.pi * r * r :: regionAreas m rs (some r)
  | r :: rs, some p => m.pi * (r * r - p * p) :: regionAreas m rs (some r)

/-- `ring_areas` of the rings, 216-234: every region is divided into rings of equal area.  The last entry (236, the area
outside the last ring) is only logged and left out. -/
def ringAreas (areas : List K) (rings : List Nat) : List K :=
  (List.zip areas rings).flatMap fun p => List.replicate p.2 (p.1 / (p.2 : K))

/-- `ring_radii` after the first, 221-222 and 231-232. -/
def radiiLoop (m : Libm K) : K → List K → List K
  | _, [] => []
  | p, a :: as => m.sqrt (a / m.pi + p * p) :: radiiLoop m (m.sqrt (a / m.pi + p * p)) as

/-- `ring_radii`, 218-234. -/
def ringRadii (m : Libm K) : List K → List K
  | [] => []
  | a :: as => m.sqrt (a / m.pi) :: radiiLoop m (m.sqrt (a / m.pi)) as

/-- `theta`, 251 and 400. -/
def theta (m : Libm K) (na : Nat) : K := 2 * m.pi / (na : K)

/-- `gamma`, 401. -/
def gamma (m : Libm K) (na : Nat) : K := theta m na / 2

/-- `eq_radii` after the first, order 1, 262-265. -/
def eqLoop1 (m : Libm K) (na : Nat) : K → List K → List K
  | _, [] => []
  | p, a :: as =>
    m.sqrt (2 * a / (m.sin (theta m na) * (na : K)) + p * p) ::
      eqLoop1 m na (m.sqrt (2 * a / (m.sin (theta m na) * (na : K)) + p * p)) as

/-- `eq_radii`, order 1, 251-265. -/
def eqRadii1 (m : Libm K) (na : Nat) : List K → List K
  | [] => []
  | a :: as =>
    m.sqrt (2 * a / (m.sin (theta m na) * (na : K))) :: eqLoop1 m na (m.sqrt (2 * a / (m.sin (theta m na) * (na : K)))) as

/-- `eq_radii` after the first, order 2, 428-438: `l1`, `e1` are the ring radius and the equivalent radius of the ring
inside. -/
def eqLoop2 (m : Libm K) (na : Nat) : K → K → List K → List K → List K
  | l1, e1, l :: ls, a :: as =>
    let edge := l1 * m.sin (gamma m na) * (e1 - l1 * m.cos (gamma m na)) / (3 / 4)
    let quad := (l * l - l1 * l1) * (m.sin (gamma m na) * m.cos (gamma m na))
    let ring := a / (na : K)
    let e := 3 / 4 * (ring - quad + edge) / (l * m.sin (gamma m na)) + l * m.cos (gamma m na)
    e :: eqLoop2 m na l e ls as
  | _, _, _, _ => []

/-- `eq_radii`, order 2, 422-438, from `ring_radii` and `ring_areas`. -/
def eqRadii2 (m : Libm K) (na : Nat) : List K → List K → List K
  | l :: ls, a :: as =>
    let tri := l * l * (m.sin (gamma m na) * m.cos (gamma m na))
    let ring := a / (na : K)
    let e := 3 / 4 * (ring - tri) / (l * m.sin (gamma m na)) + l * m.cos (gamma m na)
    e :: eqLoop2 m na l e ls as
  | _, _ => []

/-! ## Points -/

/-- `if (um2::abs(x) < eps) x = 0`, for example 316-321. -/
def snap (m : Libm K) (x : K) : K := if |x| < m.eps then 0 else x

/-- Sine and cosine after the two tests, for example 314-321. -/
def snapTrig (m : Libm K) (x : K) : K × K := (snap m (m.cos x), snap m (m.sin x))

/-- `{r * cos, r * sin}`. -/
def polar (r : K) (cs : K × K) : K × K := (r * cs.1, r * cs.2)

/-- `rb`, for example 338-340: a zero cosine or sine makes `rx` or `ry` infinite, and `um2::min` takes the other one. -/
def boundaryRadius (pitch : K) (cs : K × K) : K :=
  if cs.1 = 0 then |pitch / (2 * cs.2)|
  else if cs.2 = 0 then |pitch / (2 * cs.1)|
  else if |pitch / (2 * cs.2)| < |pitch / (2 * cs.1)| then |pitch / (2 * cs.2)| else |pitch / (2 * cs.1)|

/-- The triangular points, order 1, 302-307. -/
def triPoints1 (m : Libm K) (na : Nat) (e0 : K) : List (K × K) :=
  (List.range (na / 2)).map fun ia : Nat =>
    polar (e0 / 2) (m.cos (theta m na * (2 * (ia : K) + 1)), m.sin (theta m na * (2 * (ia : K) + 1)))

/-- One ring of points, order 1, 313-324. -/
def ringPoints1 (m : Libm K) (na : Nat) (e : K) : List (K × K) :=
  (List.range na).map fun ia : Nat => polar e (snapTrig m (theta m na * (ia : K)))

/-- The boundary points, order 1, 328-342. -/
def boundaryPoints1 (m : Libm K) (na : Nat) (pitch : K) : List (K × K) :=
  (List.range na).map fun ia : Nat =>
    polar (boundaryRadius pitch (snapTrig m (theta m na * (ia : K)))) (snapTrig m (theta m na * (ia : K)))

/-- All points before the shift, order 1, 298-342. -/
def points1 (m : Libm K) (na : Nat) (pitch : K) (eq : List K) : List (K × K) :=
  [(0, 0)] ++ triPoints1 m na (eq.headD 0) ++ eq.flatMap (ringPoints1 m na) ++ boundaryPoints1 m na pitch

/-- The triangular points, order 2, 467-480. -/
def triPoints2 (m : Libm K) (na : Nat) (r0 : K) : List (K × K) :=
  (List.range na).flatMap fun ia : Nat =>
    let c := m.cos ((ia : K) * theta m na)
    let s := m.sin ((ia : K) * theta m na)
    let rt := r0 / 2
    if ia % 2 = 0 then [(rt * c, rt * s)]
    else [(rt * c / 2, rt * s / 2), (rt * c, rt * s), (3 * rt * c / 2, 3 * rt * s / 2)]

/-- The points on a ring, order 2, 483-501 and 519-537. -/
def ringPoints2 (m : Libm K) (na : Nat) (r e : K) : List (K × K) :=
  (List.range (2 * na)).map fun ia : Nat => polar (if ia % 2 = 0 then r else e) (snapTrig m ((ia : K) * gamma m na))

/-- The points between two rings, order 2, 506-517. -/
def betweenPoints2 (m : Libm K) (na : Nat) (r0 r : K) : List (K × K) :=
  (List.range na).map fun ia : Nat => polar ((r + r0) / 2) (snapTrig m ((ia : K) * theta m na))

/-- The rings after the first, order 2, 503-538: `r0` is the radius of the ring inside. -/
def rings2 (m : Libm K) (na : Nat) : K → List K → List K → List (K × K)
  | r0, r :: rs, e :: es => betweenPoints2 m na r0 r ++ ringPoints2 m na r e ++ rings2 m na r rs es
  | _, _, _ => []

/-- The points between the last ring and the boundary, order 2, 540-556. -/
def beforePoints2 (m : Libm K) (na : Nat) (pitch r : K) : List (K × K) :=
  (List.range na).map fun ia : Nat =>
    let cs := snapTrig m ((ia : K) * theta m na)
    polar ((boundaryRadius pitch cs + r) / 2) cs

/-- The boundary points, order 2, 558-572. -/
def boundaryPoints2 (m : Libm K) (na : Nat) (pitch : K) : List (K × K) :=
  (List.range (2 * na)).map fun ia : Nat =>
    let cs := snapTrig m (gamma m na * (ia : K))
    polar (boundaryRadius pitch cs) cs

/-- All points before the shift, order 2, 464-572. -/
def points2 (m : Libm K) (na : Nat) (pitch : K) (radii eq : List K) : List (K × K) :=
  [(0, 0)] ++ triPoints2 m na (radii.headD 0) ++ ringPoints2 m na (radii.headD 0) (eq.headD 0) ++
    rings2 m na (radii.headD 0) radii.tail eq.tail ++ beforePoints2 m na pitch (radii.getLastD 0) ++
    boundaryPoints2 m na pitch

/-- The shift to the lower left corner, 382-393 and 630-641. -/
def shift (m : Libm K) (pitch : K) (p : K × K) : K × K := (snap m (p.1 + pitch / 2), snap m (p.2 + pitch / 2))

/-! ## Faces -/

/-- The triangular faces, order 1, 354-366. -/
def triFaces1 (na : Nat) : List (List Nat) :=
  (List.range (na / 2)).flatMap fun ia : Nat =>
    let ntric := 1 + na / 2
    let p1 := ntric + ia * 2
    let p2 := ntric + ia * 2 + 1
    let p3 := 1 + ia
    let p4 := if ntric + ia * 2 + 2 = ntric + na then ntric else ntric + ia * 2 + 2
    [[0, p1, p2, p3], [0, p3, p2, p4]]

/-- The faces of ring `ir ≥ 1`, order 1, 369-380. -/
def ringFaces1 (na ir : Nat) : List (List Nat) :=
  (List.range na).map fun ia : Nat =>
    let ntric := 1 + na / 2
    let p0 := ntric + (ir - 1) * na + ia
    let p1 := ntric + ir * na + ia
    let p2 := ntric + ir * na + ia + 1
    let p3 := ntric + (ir - 1) * na + ia + 1
    if ia + 1 = na then [p0, p1, p2 - na, p3 - na] else [p0, p1, p2, p3]

/-- All faces, order 1, 347-381. -/
def faces1 (na nr : Nat) : List (List Nat) :=
  triFaces1 na ++ (List.range nr).flatMap fun k => ringFaces1 na (k + 1)

/-- The triangular faces, order 2, 583-602. -/
def triFaces2 (na : Nat) : List (List Nat) :=
  (List.range (na / 2)).flatMap fun ia : Nat =>
    let p1 := 1 + 2 * na + 4 * ia
    let p2 := p1 + 2
    let p3 := 3 + 4 * ia
    let p4 := p2 + 2
    let p5 := 1 + 4 * ia
    let p6 := p1 + 1
    let p7 := p3 + 1
    let p8 := p3 - 1
    let p9 := p2 + 1
    let p10 := p7 + 1
    let p4' := if p10 = 1 + 2 * na then p4 - 2 * na else p4
    let p10' := if p10 = 1 + 2 * na then p10 - 2 * na else p10
    [[0, p1, p2, p3, p5, p6, p7, p8], [0, p3, p2, p4', p8, p7, p9, p10']]

/-- The faces of ring `ir ≥ 1`, order 2, 606-622. -/
def ringFaces2 (na ir : Nat) : List (List Nat) :=
  (List.range na).map fun ia : Nat =>
    let np := 1 + 2 * na + 3 * na * (ir - 1)
    let p0 := np + 2 * ia
    let p1 := p0 + 3 * na
    let p2 := p1 + 2
    let p3 := p0 + 2
    let p4 := np + 2 * na + ia
    let p5 := p1 + 1
    let p6 := p4 + 1
    let p7 := p0 + 1
    if ia + 1 = na then [p0, p1, p2 - 2 * na, p3 - 2 * na, p4, p5, p6 - na, p7]
    else [p0, p1, p2, p3, p4, p5, p6, p7]

/-- All faces, order 2, 580-623. -/
def faces2 (na nr : Nat) : List (List Nat) :=
  triFaces2 na ++ (List.range nr).flatMap fun k => ringFaces2 na (k + 1)

/-! ## The functions -/

/-- The outcome of `addCylindricalPinMesh`, 138-649: `some (some mesh)` is the mesh that is appended to `_quads` (order 1)
or `_quad8s` (order 2), `some none` is an error (return value -1).

Undefined behaviour, `none`: `radii` is empty (`radii[0]`, 201); `num_rings[0] ≤ 0` (the first ring is then written
to, or its predecessor read from, an index outside `ring_radii`); a negative count (fewer elements are allocated than
written); a number of points that does not fit in 32 bits. -/
def cylindricalMesh (m : Libm K) (pitch : K) (radii : List K) (numRings : List ℤ) (numAzi order : ℤ) :
    Option (Option (Mesh K)) :=
  if order ≠ 1 ∧ order ≠ 2 then some none
  else if numAzi < 8 then some none
  else if numAzi.toNat &&& (numAzi.toNat - 1) ≠ 0 then some none
  else if radii.length ≠ numRings.length then some none
  else if radii.any fun r => decide (pitch / 2 < r) then some none
  else if numRings.headD 0 ≤ 0 ∨ numRings.any (fun n => decide (n < 0)) then none
  else
    let na := numAzi.toNat
    let rings := numRings.map Int.toNat
    let nr := rings.sum
    let areas := ringAreas (regionAreas m radii none) rings
    let rr := ringRadii m areas
    if order = 1 then
      let eq := eqRadii1 m na areas
      if 2 ^ 31 ≤ 1 + (nr + 1) * na + na / 2 then none
      else if eq.any fun r => decide (pitch / 2 < r) then some none
      else some (some ⟨(points1 m na pitch eq).map (shift m pitch), faces1 na nr⟩)
    else
      let eq := eqRadii2 m na rr areas
      if 2 ^ 31 ≤ 1 + 4 * na + 3 * na * nr then none
      else if eq.any fun r => decide (pitch / 2 < r) then some none
      else some (some ⟨(points2 m na pitch rr eq).map (shift m pitch), faces2 na nr⟩)

/-- The vertices of a rectangular pin mesh, 734-745. -/
def rectVerts (dx dy : K) (nx ny : Nat) : List (K × K) :=
  (List.range (ny + 1)).flatMap fun j : Nat => (List.range (nx + 1)).map fun i : Nat => ((i : K) * dx, (j : K) * dy)

/-- The faces of a rectangular pin mesh, 746-763. -/
def rectFaces (nx ny : Nat) : List (List Nat) :=
  (List.range ny).flatMap fun j : Nat => (List.range nx).map fun i =>
    let v0 := j * (nx + 1) + i
    let v1 := v0 + 1
    let v2 := v1 + nx + 1
    let v3 := v2 - 1
    [v0, v1, v2, v3]

/-- The mesh of `addRectangularPinMesh`, 726-766: `some none` is an error, `none` an overflow of the 32-bit sizes. -/
def rectangularMesh (ext : K × K) (nx ny : ℤ) : Option (Option (Mesh K)) :=
  if ext.1 ≤ 0 ∨ ext.2 ≤ 0 then some none
  else if nx ≤ 0 ∨ ny ≤ 0 then some none
  else if 2 ^ 31 ≤ (nx + 1) * (ny + 1) then none
  else
    let dx := ext.1 / (nx.toNat : K)
    let dy := ext.2 / (ny.toNat : K)
    some (some ⟨rectVerts dx dy nx.toNat ny.toNat, rectFaces nx.toNat ny.toNat⟩)

end Verif.Pin
