import Verif.Model.QCross
import Verif.Model.MeshSoup
import Verif.Model.MeshCheck

/-!
# Repair of self-intersecting faces, and validation of a quadratic mesh

Model of `checkSelfIntersections` and `FaceVertexMesh::validate`, src/mesh/face_vertex_mesh.cpp 428-529, for faces with
`k + 2` edges (`k = 1`: quadratic triangles, `k = 2`: quadratic quadrilaterals).

* Exact arithmetic; `tol` and `eps2` as in Verif/Model/QCross.lean.
* The while loop gets `fuel`, the number of its rounds. `running` is the outcome if they do not suffice.
* An error ends the program (`exit_on_error`). Warnings and the files written when `WRITE_SELF_INTERSECTING_MESH` is set
  are not modelled.
-/

namespace Verif.SelfFix

open Verif.Geom Verif.Mesh Verif.QCross

variable {K : Type} [Field K] [LinearOrder K]

/-- What becomes of the mesh. -/
inductive Outcome (α : Type) where
  | done (m : α)
  | moved (m : α)
  | unfixed
  | boxChanged
  | refused
  | undef
  | running

/-- `AxisAlignedBox::isApprox`, axis_aligned_box.hpp 269-276, with `Vec::isApprox`, vec.hpp 815-825. -/
def boxApprox (eps2 : K) (a b : Box.AABB 2 K) : Bool :=
  decide (sqDist a.min b.min < eps2) && decide (sqDist a.max b.max < eps2)

/-- `boundingBox(QuadraticFVM)`, face_vertex_mesh.hpp 440-449; without faces `getFace(0)` reads outside the vector. -/
def meshBox {k : Nat} (v : List (Pt 2 K)) (fv : List (Fin (2 * (k + 2)) → Nat)) : Option (Box.AABB 2 K) :=
  match fv with
  | [] => none
  | c :: cs => do
    let f ← loadFace v c
    cs.foldlM (fun b c => do
      let f ← loadFace v c
      pure (Box.add b (qpolyBox (m := k + 1) f))) (qpolyBox (m := k + 1) f)

/-- The body of the `if`, face_vertex_mesh.cpp 459-499, for the face `f` with the vertices `c`. -/
def repairFace (tol eps2 : K) {k : Nat} (m : FVM (Pt 2 K) (2 * (k + 2))) (c : Fin (2 * (k + 2)) → Nat)
    (f : Poly (2 * (k + 2)) 2 K) : Outcome (FVM (Pt 2 K) (2 * (k + 2))) :=
  match meshBox m.v m.fv with
  | none => .undef
  | some before =>
    match fixSelfIntersection tol eps2 f with
    | none => .undef
    | some none => .unfixed
    | some (some (vid, disp, _)) =>
      match m.v[c vid]? with
      | none => .undef
      | some p =>
        let m' := { m with v := m.v.set (c vid) (p + disp) }
        match meshBox m'.v m'.fv with
        | none => .undef
        | some after => if boxApprox eps2 before after then .moved m' else .boxChanged

/-- One round of the while loop, face_vertex_mesh.cpp 438-502: the first face that intersects itself is repaired. -/
def round (tol eps2 : K) {k : Nat} (m : FVM (Pt 2 K) (2 * (k + 2))) :
    List (Fin (2 * (k + 2)) → Nat) → Outcome (FVM (Pt 2 K) (2 * (k + 2)))
  | [] => .done m
  | c :: cs =>
    match loadFace m.v c with
    | none => .undef
    | some f => if hasSelfIntersection tol eps2 f then repairFace tol eps2 m c f else round tol eps2 m cs

/-- `checkSelfIntersections`, face_vertex_mesh.cpp 428-504. -/
def checkSelf (tol eps2 : K) {k : Nat} : (fuel : Nat) → FVM (Pt 2 K) (2 * (k + 2)) → Outcome (FVM (Pt 2 K) (2 * (k + 2)))
  | 0, _ => .running
  | n + 1, m =>
    match round tol eps2 m m.fv with
    | .moved m' => checkSelf tol eps2 n m'
    | r => r

/-- `FaceVertexMesh<2, N>::validate()`, face_vertex_mesh.cpp 512-525: `r` is a possible outcome. The verdicts of
`checkManifoldWatertight` other than `ok` are errors. -/
def Validate (tol eps2 : K) {k : Nat} (isCCW : Poly (2 * (k + 2)) 2 K → Bool)
    (flip : (Fin (2 * (k + 2)) → Nat) → Fin (2 * (k + 2)) → Nat) (fuel : Nat) (m : FVM (Pt 2 K) (2 * (k + 2)))
    (r : Outcome (FVM (Pt 2 K) (2 * (k + 2)))) : Prop :=
  match checkCCW isCCW flip m with
  | none => r = .undef
  | some m1 =>
    let es := MeshCheck.quadraticEdges m1.fv
    ∃ v, MeshCheck.Check es.length es v ∧
      r = if v = .ok then checkSelf tol eps2 fuel m1 else if v = .ub then .undef else .refused

end Verif.SelfFix
