import Verif.Model.Mem
import Verif.Model.Box
import Verif.Model.Geom
import Verif.Model.Quadratic
import Verif.Model.Stats

/-!
# Model of src/mpact/powers.cpp: `getPowers`

The four instantiations differ in the bounding box, the area and the centroid of a face; these are the fields of `Kind`.
Arithmetic is exact.  The element set is the list `power`, one number per face (`getPowerData` 36-59 only logs other
shapes); a shorter list is read out of bounds (`none`).
-/

namespace Verif.Power

open Geom Box

/-- What `getPowers<P, N>` uses of a face. -/
structure Kind (N : Nat) (K : Type) where
  box : Poly N 2 K → AABB 2 K
  area : Poly N 2 K → K
  centroid : Poly N 2 K → Option (Pt 2 K)

section
variable {K : Type} [Field K] [LinearOrder K]

/-- `boundingBox(LinearPolytope)`, polytope.hpp 155-160. -/
def linBox {n : Nat} (v : Poly (n + 1) 2 K) : AABB 2 K :=
  (List.finRange n).foldl (fun a i => addPoint a (v i.succ)) ⟨v 0, v 0⟩

/-- `getPowers<1, 3>`. -/
def triKind : Kind 3 K := ⟨linBox, triArea, fun v => some (triCentroid v)⟩

/-- `getPowers<1, 4>`; a quadrilateral of zero area has centroid `0 / 0`. -/
def quadKind : Kind 4 K := ⟨linBox, quadArea, fun v => if quadArea v = 0 then none else some (quadCentroid v)⟩

end

/-- `getPowers<2, 6>`. -/
noncomputable def tri6Kind : Kind 6 ℝ :=
  ⟨qpolyBox (m := 2), tri6Area, fun v =>
    let l := linearPolygon (m := 3) v
    quadraticCentroid (triArea l) (triCentroid l) ((List.finRange 3).map fun i => getEdge2 (m := 3) v i)⟩

/-- `getPowers<2, 8>`. -/
noncomputable def quad8Kind : Kind 8 ℝ :=
  ⟨qpolyBox (m := 3), quad8Area, fun v =>
    let l := linearPolygon (m := 4) v
    if quadArea l = 0 then none
    else quadraticCentroid (quadArea l) (quadCentroid l) ((List.finRange 4).map fun i => getEdge2 (m := 4) v i)⟩

section
variable {K : Type} [Field K] [LinearOrder K]

/-- A face with positive power. The code keeps the index and looks up the rest. -/
structure Item (N : Nat) (K : Type) where
  id : Nat
  verts : Poly N 2 K
  power : K

/-- `facesShareVertex`, powers.cpp 60-74; `distanceTo(..) < tol` without the square root. -/
def shareVertex {N : Nat} (tol : K) (a b : Poly N 2 K) : Bool :=
  (List.finRange N).any fun i => (List.finRange N).any fun j => decide (sqDist (a i) (b j) < tol * tol)

end

section
variable {K : Type} [LinearOrder K] {α : Type} (touch : α → α → Bool) (box : α → AABB 2 K)

/-- The loop over the subsets for one face, powers.cpp 125-155: the face joins the first subset whose box meets its box
and one of whose faces it touches, or starts a new one. -/
def place (f : α) : List (List α × AABB 2 K) → List (List α × AABB 2 K)
  | [] => [([f], box f)]
  | s :: rest =>
    if intersects (box f) s.2 && s.1.any (fun g => touch f g) then (s.1 ++ [f], add s.2 (box f)) :: rest
    else s :: place f rest

/-- The first pass, powers.cpp 121-155. -/
def pass (fs : List α) : List (List α × AABB 2 K) := fs.foldl (fun sets f => place touch box f sets) []

/-- The test for a merge of subsets `i` and `j`, powers.cpp 177-184. -/
def joinable (si sj : List α × AABB 2 K) : Bool :=
  intersects sj.2 si.2 && si.1.any fun a => sj.1.any fun b => touch a b

/-- The pairs in the order of the loops, powers.cpp 171-176: `i` from the last down, `j` from `i - 1` down. -/
def pairs (n : Nat) : List (Nat × Nat) :=
  (List.range n).reverse.flatMap fun i => (List.range i).reverse.map fun j => (i, j)

/-- The first pair to be merged. -/
def findPair (sets : List (List α × AABB 2 K)) : Option (Nat × Nat) :=
  (pairs sets.length).find? fun p =>
    match sets[p.1]?, sets[p.2]? with
    | some si, some sj => joinable touch si sj
    | _, _ => false

/-- The merge of `i` into `j`, powers.cpp 185-199. -/
def mergeAt (sorter : List α → List α) (sets : List (List α × AABB 2 K)) (i j : Nat) : List (List α × AABB 2 K) :=
  match sets[i]?, sets[j]? with
  | some si, some sj => (sets.set j (sorter (sj.1 ++ si.1), add sj.2 si.2)).eraseIdx i
  | _, _ => sets.eraseIdx i

theorem mem_pairs {n : Nat} {p : Nat × Nat} : p ∈ pairs n ↔ p.1 < n ∧ p.2 < p.1 := by
  obtain ⟨a, b⟩ := p
  simp only [pairs, List.mem_flatMap, List.mem_reverse, List.mem_range, List.mem_map, Prod.mk.injEq]
  constructor
  · rintro ⟨i, hi, j, hj, rfl, rfl⟩
    exact ⟨hi, hj⟩
  · rintro ⟨h1, h2⟩
    exact ⟨a, h1, b, h2, rfl, rfl⟩

theorem findPair_lt {sets : List (List α × AABB 2 K)} {i j : Nat} (h : findPair touch sets = some (i, j)) : i < sets.length ∧ j < i :=
  mem_pairs.1 (List.mem_of_find?_eq_some h)

theorem mergeAt_length {sorter : List α → List α} {sets : List (List α × AABB 2 K)} {i j : Nat} (h : i < sets.length) :
    (mergeAt sorter sets i j).length < sets.length := by
  unfold mergeAt
  split <;> rw [List.length_eraseIdx] <;> simp [h] <;> omega

/-- The merging loop, powers.cpp 168-212. -/
def mergeAll (sorter : List α → List α) (sets : List (List α × AABB 2 K)) : List (List α × AABB 2 K) :=
  match h : findPair touch sets with
  | none => sets
  | some (i, j) => mergeAll sorter (mergeAt sorter sets i j)
termination_by sets.length
decreasing_by exact mergeAt_length (findPair_lt touch h).1

end

section
variable {K : Type} [Field K] [LinearOrder K]

/-- The faces with positive power, powers.cpp 95-106. -/
def items {N : Nat} (faces : List (Poly N 2 K)) (power : List K) : List (Item N K) :=
  ((faces.zip power).zipIdx.filter fun x => decide (0 < x.1.2)).map fun x => ⟨x.2, x.1.1, x.1.2⟩

/-- Power and centroid of a subset, powers.cpp 219-242. The centroid is `none` for a division by zero. -/
def entry {N : Nat} (kind : Kind N K) (s : List (Item N K)) : Option (K × Option (Pt 2 K)) := do
  let area ← Stats.pairwiseSum (s.map fun f => kind.area f.verts)
  let total ← Stats.pairwiseSum (s.map fun f => f.power * kind.area f.verts)
  let centroid : Option (Pt 2 K) := do
    let moments ← s.mapM fun f => (kind.centroid f.verts).map fun c => (fun d => kind.area f.verts * c d : Pt 2 K)
    let m ← Stats.pairwiseSum moments
    if area = 0 then none else some fun d => m d / area
  some (total, centroid)

/-- `getPowers<P, N>`, powers.cpp 77-244: `tol` is 1e-5, `scl` is 1.01. -/
def getPowers {N : Nat} (kind : Kind N K) (tol scl : K) (sorter : List (Item N K) → List (Item N K))
    (faces : List (Poly N 2 K)) (power : List K) : Option (List (K × Option (Pt 2 K))) :=
  if power.length < faces.length then none
  else
    let touch := fun a b : Item N K => shareVertex tol a.verts b.verts
    let box := fun a : Item N K => scale (kind.box a.verts) scl
    (mergeAll touch sorter (pass touch box (items faces power))).mapM fun s => entry kind s.1

end
end Verif.Power
