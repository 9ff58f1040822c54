import Verif.Model.Power
import Verif.Model.MeshSoup
import Verif.Model.ModelFiles
import Verif.Model.XSLib

/-! `um2::mpact::getPowers` from the soup of an FSR output, src/mpact/powers.cpp 35-59, 78-106 and 248-278.  `LOG_ERROR` ends the program (`refused`). -/

namespace Verif.PowerFile

open Verif.Polytope Verif.Geom Verif.Power
open Verif.Str (Byte)
open Verif.ElemTypes (VTK)
open Verif.XSLib (Res)

section
variable {K : Type} [Field K] [LinearOrder K]

/-- `getPowerData`, powers.cpp 35-58; the vectors of the caller are empty (82-83), and stay so if there is no set. -/
def powerData {V T : Type} (s : Soup V T (List Byte) K) : Res (List K) :=
  (Res.ofOption (getElsetByName s (MFiles.str "power") [])).bind fun r =>
    let ids := (r.getD ([], [])).1
    let power := (r.getD ([], [])).2
    if ids.length ≠ power.length then .refused
    else if ids.isEmpty then .refused
    else if ids.length ≠ s.types.length then .refused
    else if !Alg.isSorted (fun a b : Nat => decide (a < b)) ids then .refused
    else if power.any fun p => decide (0 < p) then .ok power
    else .refused

/-- `getPowers<P, N>(soup)`, powers.cpp 77-244: only faces with positive power are looked up (95-106). -/
def powersOf {N : Nat} (kind : Kind N K) (ty : VTK) (eps : K) (junk : Nat → Pt 2 K) (tol scl : K) (sorter : List (Item N K) → List (Item N K))
    (s : Soup (Pt 3 K) VTK (List Byte) K) : Res (List (K × Option (Pt 2 K))) :=
  (powerData s).bind fun power =>
  (Res.ofOption (Mesh.ofSoup N ty true eps junk s)).bind fun r =>
  match r with
  | none => .refused
  | some m =>
    (Res.ofOption ((m.fv.zip power).mapM fun x => if 0 < x.2 then Mesh.loadFace m.v x.1 else some fun _ => 0)).bind fun faces =>
    Res.ofOption (getPowers kind tol scl sorter faces power)

end

/-- `getPowers(fsr_output)`, powers.cpp 248-277, after reading the file. -/
noncomputable def powers (eps : ℝ) (junk : Nat → Pt 2 ℝ) (tol scl : ℝ) (sorter : ∀ N, List (Item N ℝ) → List (Item N ℝ))
    (s : Soup (Pt 3 ℝ) VTK (List Byte) ℝ) : Res (List (ℝ × Option (Pt 2 ℝ))) :=
  match getElemTypes s with
  | [t] =>
    if t = VTK.Triangle then powersOf triKind VTK.Triangle eps junk tol scl (sorter 3) s
    else if t = VTK.Quad then powersOf quadKind VTK.Quad eps junk tol scl (sorter 4) s
    else if t = VTK.QuadraticTriangle then powersOf tri6Kind VTK.QuadraticTriangle eps junk tol scl (sorter 6) s
    else if t = VTK.QuadraticQuad then powersOf quad8Kind VTK.QuadraticQuad eps junk tol scl (sorter 8) s
    else .refused
  | _ => .refused

end Verif.PowerFile
