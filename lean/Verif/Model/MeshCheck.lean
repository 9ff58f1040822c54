import Verif.Model.Mem
import Verif.Model.Algorithm
import Verif.Model.Geom
import Verif.Model.Quadratic

/-!
# Model of checkManifoldWatertight: src/mesh/face_vertex_mesh.cpp 268-426

The check only looks at the connectivity: its input is the list of directed edges of all faces.
`std::sort` enters through its contract.  An error message is the outcome; `logger::error` does not
stop the program but the function returns after each message.  The loop of the last part may not
terminate in principle, so it is given a number of steps; `outOfFuel` says that it was not enough.
-/

namespace Verif.MeshCheck

/-- `EdgeConn = Vec<P + 1, Int>`, face_vertex_mesh.hpp 60: start, end, and for quadratic edges the
middle vertex. -/
structure Edge where
  s : Nat
  e : Nat
  mid : List Nat
  deriving DecidableEq

/-- `um2::swap(edge[0], edge[1])`. -/
def Edge.rev (x : Edge) : Edge := ⟨x.e, x.s, x.mid⟩

/-- The components of the `Vec`. -/
def Edge.comps (x : Edge) : List Nat := x.s :: x.e :: x.mid

/-- `Pair<EdgeConn, Int>`: the edge and its orientation. -/
abbrev Item := Edge × Int

/-- Lines 298-311: the smaller vertex first, and whether the edge was turned round. -/
def canon (x : Edge) : Item := if x.s > x.e then (x.rev, -1) else (x, 1)

/-- `operator<` of `Pair<EdgeConn, Int>`, used by `std::sort` in line 315. -/
def itemLt : Item → Item → Bool :=
  Alg.pairLt (fun a b => Alg.vecLt (fun x y => decide (x < y)) a.comps b.comps)
    (fun x y => decide (x < y))

/-- An entry of `unique_edges` and `edge_counts`. -/
structure Run where
  edge : Edge
  neg : Nat
  pos : Nat

/-- Lines 328-337 and 352-361: a new entry, the edge in its natural orientation. -/
def newRun (x : Item) : Run :=
  if x.2 = 1 then ⟨x.1, 0, 1⟩ else ⟨x.1.rev, 1, 0⟩

/-- Lines 343-350. -/
def bumpRun (r : Run) (o : Int) : Run :=
  if o = 1 then { r with pos := r.pos + 1 } else { r with neg := r.neg + 1 }

/-- Lines 339-363: `back` is the last entry pushed so far, `prev` the previous edge; the result is
`back` and everything pushed after it. -/
def runLoop (back : Run) (prev : Item) : List Item → List Run
  | [] => [back]
  | x :: xs =>
    if prev.1 = x.1 then runLoop (bumpRun back x.2) x xs else back :: runLoop (newRun x) x xs

/-- What the function finds. -/
inductive Verdict where
  | ok | overlapping | holeOnBoundary | hanging | holeInInterior | ub | outOfFuel
  deriving DecidableEq

/-- Lines 372-392: the boundary edges, or the message. -/
def boundary : List Run → List Edge → Verdict ⊕ List Edge
  | [], b => .inr b
  | r :: rs, b =>
    if r.neg + r.pos > 2 then .inl .overlapping
    else if r.neg + r.pos = 1 then
      if b.any fun x => decide (r.edge.s = x.s) || decide (r.edge.e = x.e) then .inl .holeOnBoundary
      else boundary rs (b ++ [r.edge])
    else boundary rs b

/-- Lines 396-419: `edge` is the current edge, `start` is `start_idx`. -/
def walk (b : List Edge) (start : Nat) : (fuel : Nat) → (edge : Edge) → (ctr : Nat) → Verdict ⊕ Nat
  | 0, _, _ => .inl .outOfFuel
  | fuel + 1, edge, ctr =>
    match b.find? (fun x => decide (edge.e = x.s)) with
    | none => .inl .hanging
    | some x => if x.s = start then .inr (ctr + 1) else walk b start fuel x (ctr + 1)

/-- Lines 318-426, after the sort. With no edge at all `edge_conns[0]`, and with no boundary edge
`boundary_edges[0]`, is read outside the vector. -/
def checkSorted (fuel : Nat) : List Item → Verdict
  | [] => .ub
  | x :: xs =>
    match boundary (runLoop (newRun x) x xs) [] with
    | .inl v => v
    | .inr [] => .ub
    | .inr (b0 :: bs) =>
      match walk (b0 :: bs) b0.s fuel b0 0 with
      | .inl v => v
      | .inr ctr => if ctr ≠ (b0 :: bs).length then .holeInInterior else .ok

/-- `checkManifoldWatertight` on a mesh with the directed edges `es`: `r` is a possible outcome. -/
def Check (fuel : Nat) (es : List Edge) (r : Verdict) : Prop :=
  ∃ sorted, IsStdSort itemLt (es.map canon) sorted ∧ r = checkSorted fuel sorted

/-- The edges of the faces of a linear mesh in the order of lines 298-301, with `getEdgeConn`,
face_vertex_mesh.hpp 359-362. -/
def linearEdges {N : Nat} (fv : List (Fin N → Nat)) : List Edge :=
  fv.flatMap fun c => (List.finRange N).map fun i => ⟨Geom.getEdge c i 0, Geom.getEdge c i 1, []⟩

/-- The edges of the faces of a quadratic mesh, `getEdgeConn`, face_vertex_mesh.hpp 363-368. -/
def quadraticEdges {m : Nat} (fv : List (Fin (2 * m) → Nat)) : List Edge :=
  fv.flatMap fun c => (List.finRange m).map fun i =>
    ⟨Geom.getEdge2 c i 0, Geom.getEdge2 c i 1, [Geom.getEdge2 c i 2]⟩

end Verif.MeshCheck
