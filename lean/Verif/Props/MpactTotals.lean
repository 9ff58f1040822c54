import Verif.Props.Mpact
import Mathlib.Algebra.BigOperators.Group.List.Basic

/-!
# C59 Totals over the hierarchy, and mean chord lengths
-/

namespace Verif.Mpact

open Verif.Pin (Mesh Libm)

set_option linter.unusedSectionVars false
variable {K M N : Type} [Field K] [LinearOrder K]

/-! ## Occurrences with multiplicity -/

/-- The ids below a list of ids: the children of each object, in order, with repetition. -/
def below {α β : Type} (table : List α) (children : α → List β) (ids : List ℤ) : List β :=
  ids.flatMap fun i => (table[i.toNat]?).elim [] children

/-- The assemblies of the core. -/
def placedAssemblies (s : Model K M) : List ℤ := s.core.children

/-- The lattices of the assemblies of the core. -/
def placedLattices (s : Model K M) : List ℤ := below s.assemblies (·.children) (placedAssemblies s)

def placedRTMs (s : Model K M) : List ℤ := below s.lattices (·.children) (placedLattices s)

def placedCells (s : Model K M) : List ℤ := below s.rtms (·.children) (placedRTMs s)

/-- One entry for every face of every coarse cell: the material. -/
def placedFineCells (s : Model K M) : List Int8 := below s.cells (·.mats) (placedCells s)

/-- A total that fits into `Int`, or undefined behaviour. -/
def total32 (n : ℤ) : Option ℤ := if n < 2 ^ 31 then some n else none

/-- A loop body that adds `w id`. -/
def Adds (P : ℤ → Prop) (f : ℤ → ℤ → Option ℤ) (w : ℤ → Nat) : Prop :=
  ∀ id, P id → ∀ acc, 0 ≤ acc → acc < 2 ^ 31 → f id acc = total32 (acc + w id)

theorem sumLoop_eq {P : ℤ → Prop} {f : ℤ → ℤ → Option ℤ} {w : ℤ → Nat} (h : Adds P f w) : ∀ (ids : List ℤ) (acc : ℤ), 0 ≤ acc → acc < 2 ^ 31 →
    (∀ id ∈ ids, P id) → sumLoop f ids acc = total32 (acc + ((ids.map w).sum : Nat)) := by
  intro ids
  induction ids with
  | nil =>
    intro acc h0 h1 _
    rw [sumLoop, total32, if_pos (by simpa using h1)]
    simp
  | cons i ids ih =>
    intro acc h0 h1 hp
    rw [sumLoop, h i (hp i (by simp)) acc h0 h1, total32, List.map_cons, List.sum_cons]
    split
    · rename_i hlt
      rw [Option.bind_some, ih _ (by omega) hlt fun id hid => hp id (by simp [hid])]
      congr 1
      push_cast
      ring
    · rename_i hge
      rw [Option.bind_none, total32, if_neg]
      push_cast
      omega

theorem chk_total (acc : ℤ) (n : Nat) (h0 : 0 ≤ acc) : chk (acc + n) = total32 (acc + n) := by
  rw [total32]
  split
  · exact chk_some (by omega) (by omega)
  · exact chk_none (by rintro ⟨-, h⟩; omega)

theorem below_append {α β : Type} (table : List α) (children : α → List β) (l l' : List ℤ) :
    below table children (l ++ l') = below table children l ++ below table children l' := by
  simp [below]

theorem below_singleton {α β : Type} {table : List α} {children : α → List β} {i : ℤ} {x : α} (h : at? table i = some x) :
    below table children [i] = children x := by
  simp [below, (at?_eq.1 h).2]

theorem sum_below {α : Type} (table : List α) (children : α → List ℤ) (w : ℤ → Nat) (ids : List ℤ) :
    (ids.map fun i => ((below table children [i]).map w).sum).sum = ((below table children ids).map w).sum := by
  induction ids with
  | nil => rfl
  | cons i ids ih =>
    have : below table children (i :: ids) = below table children [i] ++ below table children ids := below_append _ _ [i] ids
    rw [this, List.map_append, List.sum_append, ← ih]
    simp

theorem length_below {α β : Type} (table : List α) (children : α → List β) (ids : List ℤ) :
    (ids.map fun i => (below table children [i]).length).sum = (below table children ids).length := by
  induction ids with
  | nil => rfl
  | cons i ids ih =>
    have : below table children (i :: ids) = below table children [i] ++ below table children ids := below_append _ _ [i] ids
    rw [this, List.length_append, ← ih]
    simp

/-- Refers to an element of a table. -/
def InTable {α : Type} (table : List α) (i : ℤ) : Prop := 0 ≤ i ∧ i < table.length

/-- A loop over children adds up. -/
theorem adds_level {α : Type} {table : List α} {children : α → List ℤ} {P : ℤ → Prop} {g : ℤ → ℤ → Option ℤ} {w : ℤ → Nat} (hg : Adds P g w)
    (hP : ∀ x ∈ table, ∀ i ∈ children x, P i) :
    Adds (InTable table) (fun a acc => (at? table a).bind fun x => sumLoop g (children x) acc)
      (fun i => ((below table children [i]).map w).sum) := by
  intro i hi acc h0 h1
  obtain ⟨x, hx, hm⟩ := at?_of_lt hi.1 hi.2
  dsimp only
  rw [hx, Option.bind_some, below_singleton hx]
  exact sumLoop_eq hg _ acc h0 h1 (hP x hm)

/-- The innermost loop body. -/
theorem adds_leaf {α β : Type} (table : List α) (children : α → List β) :
    Adds (InTable table) (fun a acc => (at? table a).bind fun x => chk (acc + (children x).length))
      (fun i => (below table children [i]).length) := by
  intro i hi acc h0 h1
  obtain ⟨x, hx, -⟩ := at?_of_lt hi.1 hi.2
  dsimp only
  rw [hx, Option.bind_some, below_singleton hx]
  exact chk_total acc _ h0

/-- **C59.**  The totals count occurrences with multiplicity (as long as they fit into `Int`). -/
theorem C59_totals (s : Model K M) (h : Valid s) :
    numAssembliesTotal s = (placedAssemblies s).length ∧
    numLatticesTotal s = total32 (placedLattices s).length ∧
    numRTMsTotal s = total32 (placedRTMs s).length ∧
    numCoarseCellsTotal s = total32 (placedCells s).length ∧
    numFineCellsTotal s = total32 (placedFineCells s).length := by
  have hA : ∀ i ∈ s.core.children, InTable s.assemblies i := h.core
  have hL : ∀ a ∈ s.assemblies, ∀ i ∈ a.children, InTable s.lattices i := fun a ha => (h.assembly a ha).2.2.2
  have hR : ∀ l ∈ s.lattices, ∀ i ∈ l.children, InTable s.rtms i := fun l hl => (h.lattice l hl).2
  have hC : ∀ r ∈ s.rtms, ∀ i ∈ r.children, InTable s.cells i := h.rtm
  have z0 : (0 : ℤ) ≤ 0 := le_refl _
  have z1 : (0 : ℤ) < 2 ^ 31 := by norm_num
  refine ⟨rfl, ?_, ?_, ?_, ?_⟩
  · have := sumLoop_eq (adds_leaf s.assemblies fun a : Assembly K => a.children) s.core.children 0 z0 z1 hA
    rw [zero_add, length_below] at this
    exact this
  · have := sumLoop_eq (adds_level (adds_leaf s.lattices fun l : Lattice K => l.children) hL) s.core.children 0 z0 z1 hA
    rw [zero_add, sum_below, length_below] at this
    exact this
  · have := sumLoop_eq (adds_level (adds_level (adds_leaf s.rtms fun l : Rect K => l.children) hR) hL) s.core.children 0 z0 z1 hA
    rw [zero_add, sum_below, sum_below, length_below] at this
    exact this
  · have := sumLoop_eq (adds_level (adds_level (adds_level (adds_leaf s.cells fun l : CoarseCell K => l.mats) hC) hR) hL) s.core.children 0 z0 z1 hA
    rw [zero_add, sum_below, sum_below, sum_below, length_below] at this
    exact this

/-! ## Mean chord lengths -/

/-- The chord lengths of the faces of the coarse cell `c`. -/
def cellChords (chord : Mesh K → Nat → K) (s : Model K M) (c : ℤ) (out : List K) : Prop :=
  ∃ cell mesh, s.cells[c.toNat]? = some cell ∧ IsMeshOf s cell mesh ∧ out = (List.range mesh.faces.length).map (chord mesh)

theorem chordFaces_eq (chord : Mesh K → Nat → K) (mesh : Mesh K) : ∀ (n i : Nat) (done mid rest : List K),
    mid.length = i → n ≤ rest.length →
    chordFaces chord mesh done.length n i (done ++ mid ++ rest) =
      some (done ++ mid ++ (List.range' i n).map (chord mesh) ++ rest.drop n) := by
  intro n
  induction n with
  | zero => intro i done mid rest _ _; simp [chordFaces]
  | succ n ih =>
    intro i done mid rest hm hr
    cases rest with
    | nil => simp at hr
    | cons x rest =>
      have hset : Grid.set? (done ++ mid ++ x :: rest) (done.length + i) (chord mesh i) = some (done ++ (mid ++ [chord mesh i]) ++ rest) := by
        unfold Grid.set?
        rw [if_pos (by simp; omega), ← hm, ← List.length_append, List.set_append_right _ _ (le_refl _)]
        simp
      rw [chordFaces, hset, Option.bind_some, ih (i + 1) done (mid ++ [chord mesh i]) rest (by simp [hm]) (by simpa using hr)]
      rw [List.range'_succ]
      simp

/-- A loop body that writes the list `g id` at the current position. -/
def Writes (P : ℤ → Prop) (f : ℤ → List K × Nat → Option (List K × Nat)) (g : ℤ → List K) : Prop :=
  ∀ id, P id → ∀ done rest, (g id).length ≤ rest.length →
    f id (done ++ rest, done.length) = some (done ++ g id ++ rest.drop (g id).length, (done ++ g id).length)

theorem forIds_eq {P : ℤ → Prop} {f : ℤ → List K × Nat → Option (List K × Nat)} {g : ℤ → List K} (h : Writes P f g) : ∀ (ids : List ℤ) (done rest : List K),
    (∀ id ∈ ids, P id) → (ids.flatMap g).length ≤ rest.length →
    forIds f ids (done ++ rest, done.length) =
      some (done ++ ids.flatMap g ++ rest.drop (ids.flatMap g).length, (done ++ ids.flatMap g).length) := by
  intro ids
  induction ids with
  | nil => intro done rest _ _; simp [forIds]
  | cons i ids ih =>
    intro done rest hp hr
    rw [List.flatMap_cons, List.length_append] at hr
    rw [forIds, h i (hp i (by simp)) done rest (by omega), Option.bind_some,
      ih (done ++ g i) (rest.drop (g i).length) (fun id hid => hp id (by simp [hid])) (by rw [List.length_drop]; omega), List.flatMap_cons]
    rw [List.drop_drop, List.length_append (as := g i), List.append_assoc done]

theorem flatMap_below {α : Type} (table : List α) (children : α → List ℤ) (g : ℤ → List K) (ids : List ℤ) :
    (ids.flatMap fun i => (below table children [i]).flatMap g) = (below table children ids).flatMap g := by
  induction ids with
  | nil => rfl
  | cons i ids ih =>
    have : below table children (i :: ids) = below table children [i] ++ below table children ids := below_append _ _ [i] ids
    rw [this, List.flatMap_append, ← ih, List.flatMap_cons]

theorem writes_level {α : Type} {table : List α} {children : α → List ℤ} {P Q : ℤ → Prop} {f : ℤ → List K × Nat → Option (List K × Nat)} {g : ℤ → List K}
    (h : Writes P f g) (hP : ∀ i, Q i → InTable table i ∧ ∀ x, at? table i = some x → ∀ j ∈ children x, P j) :
    Writes Q (fun a st => (at? table a).bind fun x => forIds f (children x) st) (fun i => (below table children [i]).flatMap g) := by
  intro i hi done rest hr
  obtain ⟨x, hx, hm⟩ := at?_of_lt (hP i hi).1.1 (hP i hi).1.2
  dsimp only at hr ⊢
  rw [hx, Option.bind_some]
  rw [below_singleton hx] at hr ⊢
  exact forIds_eq h _ done rest ((hP i hi).2 x hx) hr

theorem isMeshOf_meshes {s : Model K M} {c : CoarseCell K} {mesh : Mesh K} (h : IsMeshOf s c mesh) :
    ∃ l, s.meshes c.meshType = some l ∧ at? l c.meshId = some mesh := by
  obtain ⟨h0, h⟩ := h
  rcases h with ⟨ht, h⟩ | ⟨ht, h⟩ | ⟨ht, h⟩ | ⟨ht, h⟩ <;> rw [ht]
  · exact ⟨s.tris, rfl, at?_eq.2 ⟨h0, h⟩⟩
  · exact ⟨s.quads, rfl, at?_eq.2 ⟨h0, h⟩⟩
  · exact ⟨s.tri6s, rfl, at?_eq.2 ⟨h0, h⟩⟩
  · exact ⟨s.quad8s, rfl, at?_eq.2 ⟨h0, h⟩⟩

theorem mem_below {α β : Type} {table : List α} {children : α → List β} {ids : List ℤ} {i : ℤ} {x : α} (hi : i ∈ ids) (hx : at? table i = some x)
    {j : β} (hj : j ∈ children x) : j ∈ below table children ids := by
  rw [below, List.mem_flatMap]
  exact ⟨i, hi, by rw [(at?_eq.1 hx).2]; exact hj⟩

/-- **C59.**  If every coarse cell in the core has a mesh, `getMeanChordLengths` returns one entry for each fine cell: the chord
lengths of the faces of the coarse cells in the order of the hierarchy. -/
theorem C59_chords_partial (chord : Mesh K → Nat → K) (s : Model K M) (h : Valid s)
    (hm : ∀ c ∈ placedCells s, ∀ cell, s.cells[c.toNat]? = some cell → cell.meshId ≠ -1) (hsize : (placedFineCells s).length < 2 ^ 31) :
    ∃ g : ℤ → List K, (∀ c ∈ placedCells s, cellChords chord s c (g c)) ∧
      getMeanChordLengths chord s = some ((placedCells s).flatMap g) ∧
      ((placedCells s).flatMap g).length = (placedFineCells s).length := by
  classical
  have hA : ∀ i ∈ s.core.children, InTable s.assemblies i := h.core
  have hL : ∀ a ∈ s.assemblies, ∀ i ∈ a.children, InTable s.lattices i := fun a ha => (h.assembly a ha).2.2.2
  have hR : ∀ l ∈ s.lattices, ∀ i ∈ l.children, InTable s.rtms i := fun l hl => (h.lattice l hl).2
  have hC : ∀ r ∈ s.rtms, ∀ i ∈ r.children, InTable s.cells i := h.rtm
  have range : ∀ c ∈ placedCells s, InTable s.cells c := by
    intro c hc
    rw [placedCells, below, List.mem_flatMap] at hc
    obtain ⟨r, -, hc⟩ := hc
    cases ht : s.rtms[r.toNat]? with
    | none => rw [ht] at hc; simp at hc
    | some x => rw [ht] at hc; exact hC x (List.mem_of_getElem? ht) c hc
  have ex : ∀ c, ∃ out : List K, c ∈ placedCells s → cellChords chord s c out ∧ out.length = (below s.cells (·.mats) [c]).length ∧
      ∃ cell mesh, at? s.cells c = some cell ∧ IsMeshOf s cell mesh ∧ out = (List.range mesh.faces.length).map (chord mesh) := by
    intro c
    by_cases hc : c ∈ placedCells s
    · obtain ⟨cell, hcell, hcm⟩ := at?_of_lt (range c hc).1 (range c hc).2
      obtain ⟨mesh, h1, h2, -⟩ := (h.cell cell hcm).2.2 (hm c hc cell (at?_eq.1 hcell).2)
      refine ⟨(List.range mesh.faces.length).map (chord mesh), fun _ => ⟨⟨cell, mesh, (at?_eq.1 hcell).2, h1, rfl⟩, ?_, cell, mesh, hcell, h1, rfl⟩⟩
      rw [below_singleton hcell]
      simp [h2]
    · exact ⟨[], fun h => absurd h hc⟩
  choose g hg using ex
  have hlen : ((placedCells s).flatMap g).length = (placedFineCells s).length := by
    rw [placedFineCells, ← length_below, List.length_flatMap]
    congr 1
    apply List.map_congr_left
    intro c hc
    exact (hg c hc).2.1
  refine ⟨g, fun c hc => (hg c hc).1, ?_, hlen⟩
  have w0 : Writes (fun c => c ∈ placedCells s) (chordCell chord s) g := by
    intro c hc done rest hr
    obtain ⟨-, -, cell, mesh, hcell, hmesh, hout⟩ := hg c hc
    obtain ⟨l, hl, hml⟩ := isMeshOf_meshes hmesh
    have hgl : (g c).length = mesh.faces.length := by rw [hout]; simp
    unfold chordCell
    rw [hcell, Option.bind_some, hl]
    dsimp only
    rw [hml, Option.bind_some]
    have := chordFaces_eq chord mesh mesh.faces.length 0 done [] rest rfl (by omega)
    rw [List.append_nil, ← List.range_eq_range', ← hout] at this
    rw [this, Option.bind_some, List.length_append, hgl]
  have w1 := writes_level (table := s.rtms) (children := fun r : Rect K => r.children) (Q := fun r => r ∈ placedRTMs s) w0 (by
    intro r hr
    have hin : InTable s.rtms r := by
      rw [placedRTMs, below, List.mem_flatMap] at hr
      obtain ⟨l, -, hr⟩ := hr
      cases ht : s.lattices[l.toNat]? with
      | none => rw [ht] at hr; simp at hr
      | some x => rw [ht] at hr; exact hR x (List.mem_of_getElem? ht) r hr
    exact ⟨hin, fun x hx j hj => mem_below hr hx hj⟩)
  have w2 := writes_level (table := s.lattices) (children := fun r : Lattice K => r.children) (Q := fun l => l ∈ placedLattices s) w1 (by
    intro r hr
    have hin : InTable s.lattices r := by
      rw [placedLattices, below, List.mem_flatMap] at hr
      obtain ⟨l, -, hr⟩ := hr
      cases ht : s.assemblies[l.toNat]? with
      | none => rw [ht] at hr; simp at hr
      | some x => rw [ht] at hr; exact hL x (List.mem_of_getElem? ht) r hr
    exact ⟨hin, fun x hx j hj => mem_below hr hx hj⟩)
  have w3 := writes_level (table := s.assemblies) (children := fun r : Assembly K => r.children) (Q := fun a => a ∈ placedAssemblies s) w2 (by
    intro r hr
    exact ⟨hA r hr, fun x hx j hj => mem_below hr hx hj⟩)
  have e : (s.core.children.flatMap fun i => (below s.assemblies (fun r : Assembly K => r.children) [i]).flatMap fun i =>
      (below s.lattices (fun r : Lattice K => r.children) [i]).flatMap fun i => (below s.rtms (fun r : Rect K => r.children) [i]).flatMap g) =
      (placedCells s).flatMap g := by
    rw [flatMap_below, flatMap_below, flatMap_below]
    rfl
  have htot := (C59_totals s h).2.2.2.2
  rw [total32, if_pos (by exact_mod_cast hsize)] at htot
  have := forIds_eq w3 s.core.children [] (List.replicate (placedFineCells s).length 0) (fun _ hi => hi) (by
    rw [e, hlen, List.length_replicate])
  rw [e, hlen, List.nil_append, List.nil_append, List.drop_replicate, Nat.sub_self, List.replicate_zero, List.append_nil] at this
  unfold getMeanChordLengths
  rw [htot, Option.bind_some, Int.toNat_natCast]
  rw [List.length_nil] at this
  rw [this]
  rfl

/-! ### Cells without mesh -/

section Examples

/-- A mesh with one face. -/
def exMesh : Mesh ℚ := ⟨[(0, 0), (1, 0), (1, 1), (0, 1)], [[0, 1, 2, 3]]⟩

/-- A cell without mesh but with a material, beside a cell with a mesh. -/
def exOps (t : ElemTypes.MeshType) : List (Op ℚ String) :=
  [.material "fuel", .quadMesh exMesh, .coarseCell (1, 1) t (-1) [0], .coarseCell (1, 1) ElemTypes.MeshType.Quad 0 [0],
    .rtm [[0, 1]], .lattice [[0]], .assembly [0] [0, 10], .core [[0]]]

/-- With a cell without mesh, the chord lengths are attributed to the wrong fine cells: the second fine cell (the face of the mesh)
gets 0, the first one its chord length. -/
theorem C59_meshless_fails : (exRun (exOps ElemTypes.MeshType.Invalid)).map (fun st => (st.2, numFineCellsTotal st.1, getMeanChordLengths (fun _ _ => 7) st.1)) =
    some ([0, 0, 0, 1, 0, 0, 0, 0], some 2, some [7, 0]) := by
  decide +kernel

/-- Such a cell of a supported mesh type (as `addCylindricalPinCell` leaves it, `C58_pinCell_meshless_fails`) makes the function read outside the
table of meshes. -/
theorem C59_meshless_ub_fails : (exRun (exOps ElemTypes.MeshType.Quad)).map (fun st => (st.2, numFineCellsTotal st.1, getMeanChordLengths (fun _ _ => 7) st.1)) =
    some ([0, 0, 0, 1, 0, 0, 0, 0], some 2, none) := by
  decide +kernel

/-- The hypotheses of `C59_chords_partial` hold for a core of two such cells, used four times. -/
example : (exRun [.material "fuel", .quadMesh exMesh, .coarseCell (1, 1) ElemTypes.MeshType.Quad 0 [0],
    .rtm [[0, 0]], .lattice [[0], [0]], .assembly [0] [0, 10], .core [[0]]]).map (fun st => (placedCells st.1, placedFineCells st.1, getMeanChordLengths (fun _ _ => 7) st.1)) =
    some ([0, 0, 0, 0], [0, 0, 0, 0], some [7, 7, 7, 7]) := by
  decide +kernel

end Examples

end Verif.Mpact
