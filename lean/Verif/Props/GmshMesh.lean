import Verif.Lemmas.GmshMesh

/-!
# C148: the mesh has the faces that were asked for

The enumerators of `MeshType` are the numbers of nodes of a face: 3, 4, 6, 8.  A mesh made by `generateMesh` must have faces
with that many nodes, whatever the program did before.  This is so except for triangles after quadrilaterals: the options that
turn triangles into quadrilaterals are never taken back (`C148_faces_partial`, which says exactly when, and
`C148_faces_fails`).
-/

namespace Verif.GmshMesh

open Verif.XSLib (Res)

/-! ## Specification -/

/-- The value of the enumerator. -/
def MeshType.value : MeshType → ℕ
  | .invalid => 0
  | .tri => 3
  | .quad => 4
  | .triQuad => 7
  | .quadraticTri => 6
  | .quadraticQuad => 8
  | .quadraticTriQuad => 14

/-- What Gmsh makes of the options, after its manual (`Mesh.SubdivisionAlgorithm` 1: all quadrangles; `Mesh.RecombineAll`;
`Mesh.RecombinationAlgorithm` 2, 3: full-quad): the number of corners of every face, `none` for a mixture. -/
def corners (o : Opt → ℤ) : Option ℕ :=
  if o .subdivisionAlgorithm = 1 then some 4
  else if o .recombineAll = 0 then some 3
  else if o .recombinationAlgorithm = 2 ∨ o .recombinationAlgorithm = 3 then some 4
  else none

/-- The number of nodes of every face of the mesh: of order 2 each side has a node more, and a quadrilateral one in the middle,
unless the elements are incomplete. -/
def faceNodes (m : Made) : Option ℕ :=
  match corners m.gen, m.order, m.raised with
  | some c, 1, _ => some c
  | some c, 2, some o => some (2 * c + if c = 4 ∧ o .secondOrderIncomplete = 0 then 1 else 0)
  | _, _, _ => none

/-- The request can be met. -/
def Supported (t : MeshType) : Prop := t = .tri ∨ t = .quad ∨ t = .quadraticTri ∨ t = .quadraticQuad

/-! ## The theorems -/

/-- Whatever the state of the session, the mesh has the right faces exactly if no option is in the way. -/
theorem C148_faces_state {t : MeshType} (ht : Supported t) {n : ℤ} {s : St} (hu : s.up = true) :
    ∃ s' m, generateMesh t n s = .ok s' ∧ s'.mesh = some m ∧ m.dim = 2 ∧
      (faceNodes m = some t.value ↔
        (t = .tri ∨ t = .quadraticTri → s.opt .recombineAll = 0 ∧ s.opt .subdivisionAlgorithm ≠ 1)) := by
  rcases ht with rfl | rfl | rfl | rfl
  all_goals
    simp only [generateMesh, setNumber, generate, setOrder, hu, if_true, Res.bind, Option.map]
    refine ⟨_, _, rfl, rfl, rfl, ?_⟩
    simp only [faceNodes, corners, MeshType.value]
  · simp
    by_cases h1 : s.opt .subdivisionAlgorithm = 1
    · simp [h1]
    · by_cases h2 : s.opt .recombineAll = 0
      · simp [h1, h2]
      · by_cases h3 : s.opt .recombinationAlgorithm = 2 ∨ s.opt .recombinationAlgorithm = 3 <;> simp [h1, h2, h3]
  · simp
  · simp
    by_cases h1 : s.opt .subdivisionAlgorithm = 1
    · simp [h1]
    · by_cases h2 : s.opt .recombineAll = 0
      · simp [h1, h2]
      · by_cases h3 : s.opt .recombinationAlgorithm = 2 ∨ s.opt .recombinationAlgorithm = 3 <;> simp [h1, h2, h3]
  · by_cases h1 : s.opt .subdivisionAlgorithm = 1 <;> simp [h1]

/-- The full claim is that the mesh has faces with as many nodes as the type says, for every program. What holds: exactly if
the faces are to be quadrilaterals or no quadrilaterals have been asked for before in the session. (`recombineAll` and
`subdivisionAlgorithm` are 0 by default in Gmsh.) -/
theorem C148_faces_partial {d : Opt → ℤ} (d1 : d .recombineAll = 0) (d2 : d .subdivisionAlgorithm = 0) {a b : Bool}
    {cs : List Call} {s : St} (hs : run d a b cs (fresh d) = .ok s) (hu : s.up = true) {t : MeshType} (ht : Supported t)
    (n : ℤ) :
    ∃ s' m, run d a b (cs ++ [.mesh t n]) (fresh d) = .ok s' ∧ s'.mesh = some m ∧ m.dim = 2 ∧
      (faceNodes m = some t.value ↔ (t = .tri ∨ t = .quadraticTri → ¬ askedQuads cs)) := by
  have key : ∀ (cs : List Call) (s : St), run d a b cs (fresh d) = .ok s → s.up = true →
      ((s.opt .recombineAll = 0 ∧ s.opt .subdivisionAlgorithm ≠ 1) ↔ ¬ askedQuads cs) := by
    intro cs s hs hu
    have := run_flag d1 d2 cs (fresh d) s False ⟨fun _ h => h, fun h => by simp [fresh] at h⟩ hs
    have := this.2 hu
    rwa [false_and, or_false] at this
  obtain ⟨s', m, h1, h2, h3, h4⟩ := C148_faces_state ht (n := n) hu
  refine ⟨s', m, ?_, h2, h3, ?_⟩
  · rw [run_append, hs]
    simp only [Res.bind, run, step, h1]
  · rw [h4]
    exact imp_congr_right fun _ => key cs s hs hu

/-- The witness: triangles asked for after quadrilaterals, even with a call of `initialize` between, have four corners. -/
theorem C148_faces_fails {d : Opt → ℤ} (n : ℤ) :
    ∃ s m, run d true true [.start, .mesh .quad n, .start, .mesh .tri n] (fresh d) = .ok s ∧ s.mesh = some m ∧
      faceNodes m = some 4 ∧ MeshType.tri.value = 3 := by
  refine ⟨_, _, rfl, rfl, ?_, rfl⟩
  rfl

/-- Ending the session and opening it again is a remedy: the process is as if it had done nothing before. -/
theorem C148_restart {d : Opt → ℤ} {a b : Bool} {cs : List Call} {s : St} (hs : run d a b cs (fresh d) = .ok s) :
    run d a b (cs ++ [.stop, .start]) (fresh d) = run d a b [.start] (fresh d) := by
  rw [run_append, hs]
  simp only [Res.bind, run, step, umFinalize]
  rcases hu : s.up with - | - <;> simp [umInitialize, hu, fresh]

/-- The options with which the mesh is made: the number of smoothing steps is the one asked for, and each type has its
algorithms; raising the order is optimised and makes incomplete elements. -/
theorem C148_options {t : MeshType} (ht : Supported t) {n : ℤ} {s : St} (hu : s.up = true) :
    ∃ s' m, generateMesh t n s = .ok s' ∧ s'.mesh = some m ∧
      m.gen .smoothing = n ∧
      (t = .tri ∨ t = .quadraticTri → m.gen .algorithm = 5) ∧
      (t = .quad ∨ t = .quadraticQuad →
        m.gen .algorithm = 8 ∧ m.gen .recombineAll = 1 ∧ m.gen .recombinationAlgorithm = 2) ∧
      (t = .quad → m.gen .subdivisionAlgorithm = 1) ∧
      (t = .tri ∨ t = .quad → m.order = 1 ∧ m.raised = none) ∧
      (t = .quadraticTri ∨ t = .quadraticQuad → m.order = 2 ∧
        ∃ o, m.raised = some o ∧ o .highOrderOptimize = 2 ∧ o .secondOrderIncomplete = 1) ∧
      (∀ o, o ≠ .secondOrderIncomplete → o ≠ .smoothing → o ≠ .algorithm → o ≠ .recombineAll →
        o ≠ .subdivisionAlgorithm → o ≠ .recombinationAlgorithm → m.gen o = s.opt o) ∧
      s'.points = s.points ∧ s'.size = s.size ∧ s'.log = s.log := by
  rcases ht with rfl | rfl | rfl | rfl
  all_goals
    simp only [generateMesh, setNumber, generate, setOrder, hu, if_true, Res.bind, Option.map]
    refine ⟨_, _, rfl, rfl, ?_⟩
    simp +contextual

/-- Any other type makes no mesh: the program ends, unless it was told to go on after errors. -/
theorem C148_other {t : MeshType} (ht : ¬ Supported t) {n : ℤ} {s : St} (hu : s.up = true) :
    (1 ≤ s.log.level ∧ s.log.exitOnError = true → generateMesh t n s = .refused) ∧
    (¬ (1 ≤ s.log.level ∧ s.log.exitOnError = true) → ∃ s', generateMesh t n s = .ok s' ∧ s'.mesh = s.mesh) := by
  cases t <;> simp [Supported] at ht <;>
    simp only [generateMesh, setNumber, hu, if_true, Res.bind, error] <;>
    exact ⟨fun h => if_pos h, fun h => ⟨_, if_neg h, rfl⟩⟩

/-- The mesh size is set at every point there is, and at no other; a point added later has none. -/
theorem C148_size {x : ℚ} {s : St} (hu : s.up = true) :
    ∃ s', setGlobalMeshSize x s = .ok s' ∧ (∀ p ∈ s.points, s'.size p = some x) ∧
      (∀ p ∉ s.points, s'.size p = s.size p) ∧ s'.points = s.points ∧ s'.opt = s.opt ∧ s'.mesh = s.mesh ∧
      ∀ p ∉ s.points, s.size p = none → ∃ s'', addPoint p s' = .ok s'' ∧ p ∈ s''.points ∧ s''.size p = none := by
  simp only [setGlobalMeshSize, addPoint, hu, if_true]
  refine ⟨_, rfl, ?_, ?_, rfl, rfl, rfl, ?_⟩
  · intro p hp
    simp [hp]
  · intro p hp
    simp [hp]
  · intro p hp h
    exact ⟨_, rfl, by simp, by simp [hp, h]⟩

/-- Opening the session: the settings of the logger are the defaults, whatever the user had set, in colour if both streams are
terminals; Gmsh is started with its defaults but for the two options, unless it runs already: then nothing of it changes. -/
theorem C148_initialize (d : Opt → ℤ) (a b : Bool) (s : St) :
    ∃ s', umInitialize d a b s = .ok s' ∧ s'.up = true ∧ s'.log = ⟨3, true, a && b, true⟩ ∧
      (s.up = true → s' = { s with log := s'.log }) ∧
      (s.up = false → s'.points = [] ∧ s'.mesh = none ∧ (∀ p, s'.size p = none) ∧ s'.opt .numThreads = 0 ∧
        s'.opt .occParallel = 1 ∧ ∀ o, o ≠ .numThreads → o ≠ .occParallel → s'.opt o = d o) ∧
      umInitialize d a b s' = .ok s' := by
  rcases hu : s.up with - | - <;> cases a <;> cases b <;>
    simp only [umInitialize, hu, setNumber, Res.bind, reset] <;>
    refine ⟨_, rfl, ?_⟩ <;> simp +contextual

/-- Closing it: Gmsh is not running, the model is gone; the settings of the logger stay. Twice is as once. -/
theorem C148_finalize (s : St) :
    (umFinalize s).up = false ∧ (umFinalize s).log = s.log ∧ umFinalize (umFinalize s) = umFinalize s ∧
      (s.up = true → (umFinalize s).mesh = none ∧ (umFinalize s).points = []) := by
  rcases hu : s.up with - | - <;> simp [umFinalize, hu]

/-! ## The hypotheses can be met -/

/-- A program that makes a mesh of quadratic triangles of a model with two points. -/
example : ∃ s m, run (fun _ => 0) true false
      [.settings ⟨0, false, true, false⟩, .start, .point 1, .point 2, .size (1 / 8), .mesh .quadraticTri 100] (fresh fun _ => 0) =
        .ok s ∧ s.mesh = some m ∧ faceNodes m = some 6 ∧ s.size 2 = some (1 / 8) ∧ s.log.colorized = false := by
  refine ⟨_, _, rfl, rfl, ?_, ?_, ?_⟩ <;> decide +kernel

/-- Its requests meet the condition of `C148_faces_partial`; those of the witness do not. -/
example : ¬ askedQuads [.start, .point 1, .mesh .tri 5, .mesh .quad 5, .stop, .start] ∧
    askedQuads [.start, .mesh .quad 5, .start] := by
  simp [askedQuads]

/-- A type that cannot be met. -/
example : ¬ Supported .triQuad := by simp [Supported]

end Verif.GmshMesh
