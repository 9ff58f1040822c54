import Verif.Model.XSLib
import Mathlib.Algebra.Field.Rat

/-!
# A session with Gmsh: start, mesh sizes, making the mesh

Model of `um2::initialize` and `um2::finalize`, src/um2.cpp 15-47 (`um2Initialize`, `um2Finalize`, src/um2c.cpp 57-67, call
them), of `logger::reset`, src/common/logger.cpp 38-49, and of `setGlobalMeshSize` and `generateMesh`,
src/gmsh/mesh.cpp 28-84.

Gmsh itself is not part of the repository; what is taken of it is this.  The options are variables of the process.
`gmsh::initialize` sets all of them to their defaults (an argument here), `setNumber` changes one, and nothing else changes
any.  `generate` replaces the mesh of the current model by one made with the options in force; `setOrder` raises its order,
with the options then in force.  `finalize` ends the session and forgets the model.  What a call outside of a session does is
left undefined.  Of the model the points (entities of dimension 0) with their mesh sizes are kept.

Simplifications.  Sizes are rationals; messages are left out, but for `logger::error` ending the program; printing and
`fflush` succeed; `start_time` is left out.
-/

namespace Verif.GmshMesh

open Verif.XSLib (Res)

/-- `MeshType`, include/um2/mesh/element_types.hpp 37-45. -/
inductive MeshType
  | invalid | tri | quad | triQuad | quadraticTri | quadraticQuad | quadraticTriQuad
  deriving DecidableEq

/-- The options of Gmsh which the code sets, um2.cpp 27-29 and mesh.cpp 44-78. -/
inductive Opt
  | numThreads | occParallel | secondOrderIncomplete | smoothing | algorithm | recombineAll | subdivisionAlgorithm
  | recombinationAlgorithm | highOrderOptimize
  deriving DecidableEq

/-- The settings of the logger, src/common/logger.cpp 23-26. -/
structure Log where
  level : ℤ
  timestamped : Bool
  colorized : Bool
  exitOnError : Bool
  deriving DecidableEq

/-- How the mesh of the model was made: dimension and options of `generate`; order, with the options of the last `setOrder`. -/
structure Made where
  dim : ℕ
  gen : Opt → ℤ
  order : ℕ
  raised : Option (Opt → ℤ)

/-- The state of the process. -/
structure St where
  log : Log
  up : Bool
  opt : Opt → ℤ
  points : List ℤ
  size : ℤ → Option ℚ
  mesh : Option Made

/-! ## Gmsh -/

/-- `gmsh::option::setNumber`. -/
def setNumber (o : Opt) (v : ℤ) (s : St) : Res St :=
  if s.up then .ok { s with opt := fun p => if p = o then v else s.opt p } else .undef

/-- `gmsh::model::mesh::generate`. -/
def generate (d : ℕ) (s : St) : Res St :=
  if s.up then .ok { s with mesh := some ⟨d, s.opt, 1, none⟩ } else .undef

/-- `gmsh::model::mesh::setOrder`. -/
def setOrder (n : ℕ) (s : St) : Res St :=
  if s.up then .ok { s with mesh := s.mesh.map fun m => { m with order := n, raised := some s.opt } } else .undef

/-- A point is added to the model, with no mesh size of its own. -/
def addPoint (p : ℤ) (s : St) : Res St :=
  if s.up then .ok { s with points := s.points ++ [p] } else .undef

/-! ## The functions of the code -/

/-- `logger::reset`, logger.cpp 38-49, with the defaults of include/um2/common/settings.hpp 26-29. -/
def reset : Log := ⟨3, true, true, true⟩

/-- `logger::error`, include/um2/common/logger.hpp 110-126: the program ends if errors are shown and are to end it. -/
def error (s : St) : Res St :=
  if 1 ≤ s.log.level ∧ s.log.exitOnError then .refused else .ok s

/-- `um2::initialize`, um2.cpp 15-33; `tout`, `terr`: the standard output, the standard error, is a terminal; `d`: the defaults
of Gmsh. -/
def umInitialize (d : Opt → ℤ) (tout terr : Bool) (s : St) : Res St :=
  let l := reset
  let l := if tout = false ∨ terr = false then { l with colorized := false } else l
  let s := { s with log := l }
  if s.up then .ok s
  else
    Res.bind (setNumber .numThreads 0 ⟨s.log, true, d, [], fun _ => none, none⟩) (setNumber .occParallel 1)

/-- `um2::finalize`, um2.cpp 35-47. -/
def umFinalize (s : St) : St :=
  if s.up then { s with up := false, points := [], size := fun _ => none, mesh := none } else s

/-- `setGlobalMeshSize`, mesh.cpp 28-35. -/
def setGlobalMeshSize (x : ℚ) (s : St) : Res St :=
  if s.up then .ok { s with size := fun p => if p ∈ s.points then some x else s.size p } else .undef

/-- `generateMesh`, mesh.cpp 41-84. -/
def generateMesh (t : MeshType) (n : ℤ) (s : St) : Res St :=
  Res.bind (setNumber .secondOrderIncomplete 1 s) fun s =>
  Res.bind (setNumber .smoothing n s) fun s =>
  match t with
  | .tri =>
    Res.bind (setNumber .algorithm 5 s) fun s =>
    generate 2 s
  | .quad =>
    Res.bind (setNumber .recombineAll 1 s) fun s =>
    Res.bind (setNumber .algorithm 8 s) fun s =>
    Res.bind (setNumber .subdivisionAlgorithm 1 s) fun s =>
    Res.bind (setNumber .recombinationAlgorithm 2 s) fun s =>
    generate 2 s
  | .quadraticTri =>
    Res.bind (setNumber .algorithm 5 s) fun s =>
    Res.bind (generate 2 s) fun s =>
    Res.bind (setNumber .highOrderOptimize 2 s) fun s =>
    setOrder 2 s
  | .quadraticQuad =>
    Res.bind (setNumber .recombineAll 1 s) fun s =>
    Res.bind (setNumber .algorithm 8 s) fun s =>
    Res.bind (setNumber .recombinationAlgorithm 2 s) fun s =>
    Res.bind (generate 2 s) fun s =>
    Res.bind (setNumber .highOrderOptimize 2 s) fun s =>
    setOrder 2 s
  | _ => error s

/-! ## Programs -/

/-- What a program may do: start and end the session, change the settings of the logger, add points, set the mesh size, ask
for a mesh. -/
inductive Call
  | start
  | stop
  | settings (l : Log)
  | point (p : ℤ)
  | size (x : ℚ)
  | mesh (t : MeshType) (n : ℤ)

/-- One call. -/
def step (d : Opt → ℤ) (tout terr : Bool) (s : St) : Call → Res St
  | .start => umInitialize d tout terr s
  | .stop => .ok (umFinalize s)
  | .settings l => .ok { s with log := l }
  | .point p => addPoint p s
  | .size x => setGlobalMeshSize x s
  | .mesh t n => generateMesh t n s

/-- A program: its calls one after the other. -/
def run (d : Opt → ℤ) (tout terr : Bool) : List Call → St → Res St
  | [], s => .ok s
  | c :: cs, s => Res.bind (step d tout terr s c) (run d tout terr cs)

/-- The process before the first call: the settings of src/common/settings.cpp 18-21, no session. -/
def fresh (d : Opt → ℤ) : St := ⟨reset, false, d, [], fun _ => none, none⟩

end Verif.GmshMesh
