import Verif.Lemmas.Mpact
import Mathlib.Algebra.Order.Ring.Rat
import Mathlib.Tactic.NormNum

/-!
# C57 References in an MPACT model are valid; C58 what a rejected or accepted edit does
-/

namespace Verif.Mpact

open Verif.Pin (Mesh Libm)

/-! ## Edits and histories -/

/-- The modifiers of a model. -/
inductive Op (K M : Type) where
  | clear
  | material (m : M)
  | cylMesh (pitch : K) (radii : List K) (numRings : List ℤ) (na order : ℤ)
  | rectMesh (ext : K × K) (nx ny : ℤ)
  | triMesh (mesh : Mesh K)
  | quadMesh (mesh : Mesh K)
  | tri6Mesh (mesh : Mesh K)
  | quad8Mesh (mesh : Mesh K)
  | cylCell (pitch : K) (radii : List K) (mats : List M) (numRings : List ℤ) (na order : ℤ)
  | coarseCell (ext : K × K) (t : ElemTypes.MeshType) (id : ℤ) (mats : List Int8)
  | rtm (ids : List (List ℤ))
  | lattice (ids : List (List ℤ))
  | assembly (ids : List ℤ) (z : List K)
  | core (ids : List (List ℤ))
  | coarseGrid (ext : K × K) (nx ny : ℤ)

set_option linter.unusedSectionVars false
variable {K M N : Type} [Field K] [LinearOrder K] [DecidableEq N]

/-- One edit; `clear` and `addCoarseGrid` return nothing, shown as 0. -/
def step (m : Libm K) (sort : List K → List K) (name : M → N) (s : Model K M) : Op K M → Option (Model K M × ℤ)
  | .clear => some (Model.empty K M, 0)
  | .material x => addMaterial s x
  | .cylMesh p r n na o => addCylindricalPinMesh m s p r n na o
  | .rectMesh e nx ny => addRectangularPinMesh s e nx ny
  | .triMesh x => addTriMesh s x
  | .quadMesh x => addQuadMesh s x
  | .tri6Mesh x => addTri6Mesh s x
  | .quad8Mesh x => addQuad8Mesh s x
  | .cylCell p r ms n na o => addCylindricalPinCell m name s p r ms n na o
  | .coarseCell e t id ms => addCoarseCell s e t id ms
  | .rtm ids => addRTM sort m.eps s ids
  | .lattice ids => addLattice s ids
  | .assembly ids z => addAssembly m.eps s ids z
  | .core ids => addCore sort m.eps s ids
  | .coarseGrid e nx ny => (addCoarseGrid sort m.eps s e nx ny).map fun s => (s, 0)

/-- Models reached from the empty one by any sequence of edits, accepted or rejected. -/
inductive Reach (m : Libm K) (sort : List K → List K) (name : M → N) : Model K M → Prop
  | empty : Reach m sort name (Model.empty K M)
  | step {s s' : Model K M} {r : ℤ} (op : Op K M) : Reach m sort name s → step m sort name s op = some (s', r) → Reach m sort name s'

/-! ## The invariant -/

/-- The mesh a coarse cell refers to: index and type pick the table. -/
def IsMeshOf (s : Model K M) (c : CoarseCell K) (mesh : Mesh K) : Prop :=
  0 ≤ c.meshId ∧
    ((c.meshType = ElemTypes.MeshType.Tri ∧ s.tris[c.meshId.toNat]? = some mesh) ∨
      (c.meshType = ElemTypes.MeshType.Quad ∧ s.quads[c.meshId.toNat]? = some mesh) ∨
      (c.meshType = ElemTypes.MeshType.QuadraticTri ∧ s.tri6s[c.meshId.toNat]? = some mesh) ∨
      (c.meshType = ElemTypes.MeshType.QuadraticQuad ∧ s.quad8s[c.meshId.toNat]? = some mesh))

/-- All references are valid. -/
structure Valid (s : Model K M) : Prop where
  /-- assemblies of the core -/
  core : ∀ i ∈ s.core.children, 0 ≤ i ∧ i < s.assemblies.length
  /-- lattices of an assembly: one per axial interval; the planes ascend -/
  assembly : ∀ a ∈ s.assemblies, a.children.length + 1 = a.zs.length ∧ a.zs.Pairwise (· ≤ ·) ∧ a.children ≠ [] ∧
    ∀ i ∈ a.children, 0 ≤ i ∧ i < s.lattices.length
  /-- RTMs of a lattice: one per cell -/
  lattice : ∀ l ∈ s.lattices, l.children.length = l.nx * l.ny ∧ ∀ i ∈ l.children, 0 ≤ i ∧ i < s.rtms.length
  /-- coarse cells of an RTM -/
  rtm : ∀ r ∈ s.rtms, ∀ i ∈ r.children, 0 ≤ i ∧ i < s.cells.length
  /-- mesh and materials of a coarse cell that has a mesh -/
  cell : ∀ c ∈ s.cells, 0 < c.ext.1 ∧ 0 < c.ext.2 ∧ (c.meshId ≠ -1 →
    ∃ mesh, IsMeshOf s c mesh ∧ mesh.faces.length = c.mats.length ∧ ∀ x ∈ c.mats, 0 ≤ x.toInt ∧ x.toInt < s.materials.length)

/-- Tables only grow. -/
structure Grows (s s' : Model K M) : Prop where
  tris : s.tris <+: s'.tris
  quads : s.quads <+: s'.quads
  tri6s : s.tri6s <+: s'.tri6s
  quad8s : s.quad8s <+: s'.quad8s
  materials : s.materials <+: s'.materials

theorem isMeshOf_grows {s s' : Model K M} {c : CoarseCell K} {mesh : Mesh K} (g : Grows s s') (h : IsMeshOf s c mesh) :
    IsMeshOf s' c mesh := by
  have key : ∀ {l l' : List (Mesh K)}, l <+: l' → ∀ {i : Nat}, l[i]? = some mesh → l'[i]? = some mesh := by
    rintro l l' ⟨t, rfl⟩ i hi
    rw [List.getElem?_append_left (List.getElem?_eq_some_iff.1 hi).1]
    exact hi
  refine ⟨h.1, ?_⟩
  rcases h.2 with ⟨t, h⟩ | ⟨t, h⟩ | ⟨t, h⟩ | ⟨t, h⟩
  · exact Or.inl ⟨t, key g.tris h⟩
  · exact Or.inr (Or.inl ⟨t, key g.quads h⟩)
  · exact Or.inr (Or.inr (Or.inl ⟨t, key g.tri6s h⟩))
  · exact Or.inr (Or.inr (Or.inr ⟨t, key g.quad8s h⟩))

theorem cell_grows {s s' : Model K M} {c : CoarseCell K} (g : Grows s s')
    (h : 0 < c.ext.1 ∧ 0 < c.ext.2 ∧ (c.meshId ≠ -1 →
      ∃ mesh, IsMeshOf s c mesh ∧ mesh.faces.length = c.mats.length ∧ ∀ x ∈ c.mats, 0 ≤ x.toInt ∧ x.toInt < s.materials.length)) :
    0 < c.ext.1 ∧ 0 < c.ext.2 ∧ (c.meshId ≠ -1 →
      ∃ mesh, IsMeshOf s' c mesh ∧ mesh.faces.length = c.mats.length ∧ ∀ x ∈ c.mats, 0 ≤ x.toInt ∧ x.toInt < s'.materials.length) := by
  refine ⟨h.1, h.2.1, fun hid => ?_⟩
  obtain ⟨mesh, h1, h2, h3⟩ := h.2.2 hid
  refine ⟨mesh, isMeshOf_grows g h1, h2, fun x hx => ⟨(h3 x hx).1, ?_⟩⟩
  have := (h3 x hx).2
  have := g.materials.length_le
  omega

/-- An edit that adds meshes or materials only. -/
theorem Valid.grow {s s' : Model K M} (h : Valid s) (g : Grows s s') (h1 : s'.core = s.core) (h2 : s'.assemblies = s.assemblies)
    (h3 : s'.lattices = s.lattices) (h4 : s'.rtms = s.rtms) (h5 : s'.cells = s.cells) : Valid s' := by
  constructor
  · rw [h1, h2]; exact h.core
  · rw [h2, h3]; exact h.assembly
  · rw [h3, h4]; exact h.lattice
  · rw [h4, h5]; exact h.rtm
  · rw [h5]; exact fun c hc => cell_grows g (h.cell c hc)

theorem valid_empty : Valid (Model.empty K M) := by
  constructor <;> simp [Model.empty]

theorem meshes_isMeshOf {s : Model K M} {ext : K × K} {t : ElemTypes.MeshType} {id : ℤ} {mats : List Int8} {l : List (Mesh K)} {mesh : Mesh K}
    (h : s.meshes t = some l) (hm : at? l id = some mesh) : IsMeshOf s ⟨ext, t, id, mats⟩ mesh := by
  obtain ⟨h0, hm⟩ := at?_eq.1 hm
  refine ⟨h0, ?_⟩
  dsimp only
  unfold Model.meshes at h
  split at h
  · rename_i ht
    cases h
    exact Or.inl ⟨ht, hm⟩
  split at h
  · rename_i ht
    cases h
    exact Or.inr (Or.inl ⟨ht, hm⟩)
  split at h
  · rename_i ht
    cases h
    exact Or.inr (Or.inr (Or.inl ⟨ht, hm⟩))
  split at h
  · rename_i ht
    cases h
    exact Or.inr (Or.inr (Or.inr ⟨ht, hm⟩))
  · exact absurd h (by simp)

theorem valid_coarseCell {s s' : Model K M} {ext : K × K} {t : ElemTypes.MeshType} {id r : ℤ} {mats : List Int8} (h : Valid s)
    (hs : addCoarseCell s ext t id mats = some (s', r)) : Valid s' := by
  rcases addCoarseCell_cases hs with ⟨rfl, -⟩ | ⟨h1, h2, rfl, -, h3⟩
  · exact h
  · have g : Grows s { s with cells := s.cells ++ [⟨ext, t, id, mats⟩] } := ⟨List.prefix_rfl, List.prefix_rfl, List.prefix_rfl, List.prefix_rfl, List.prefix_rfl⟩
    refine ⟨h.core, h.assembly, h.lattice, ?_, ?_⟩
    · intro rt hr i hi
      have := h.rtm rt hr i hi
      refine ⟨this.1, ?_⟩
      dsimp only
      rw [List.length_append]
      push_cast
      have := this.2
      omega
    · intro c hc
      rcases List.mem_append.1 hc with hc | hc
      · exact cell_grows g (h.cell c hc)
      · rw [List.mem_singleton] at hc
        subst hc
        refine ⟨h1, h2, fun hid => ?_⟩
        rcases h3 with h3 | ⟨l, mesh, hl, hm, hlen, hr⟩
        · exact absurd h3 hid
        · exact ⟨mesh, isMeshOf_grows g (meshes_isMeshOf hl hm), hlen, hr⟩

theorem valid_rtm {sort : List K → List K} {eps : K} {s s' : Model K M} {ids : List (List ℤ)} {r : ℤ} (h : Valid s)
    (hs : addRTM sort eps s ids = some (s', r)) : Valid s' := by
  rcases addRTM_cases hs with ⟨rfl, -⟩ | ⟨xs, ys, flat, h1, h2, rfl, -, -⟩
  · exact h
  · refine ⟨h.core, h.assembly, ?_, ?_, fun c hc => cell_grows ⟨List.prefix_rfl, List.prefix_rfl, List.prefix_rfl, List.prefix_rfl, List.prefix_rfl⟩ (h.cell c hc)⟩
    · intro l hl
      refine ⟨(h.lattice l hl).1, fun i hi => ⟨((h.lattice l hl).2 i hi).1, ?_⟩⟩
      have := ((h.lattice l hl).2 i hi).2
      dsimp only
      rw [List.length_append]
      push_cast
      omega
    · intro rt hr
      rcases List.mem_append.1 hr with hr | hr
      · exact h.rtm rt hr
      · rw [List.mem_singleton] at hr
        subst hr
        exact fun i hi => h1 i (flattenLattice_mem h2 i hi)

theorem valid_lattice {s s' : Model K M} {ids : List (List ℤ)} {r : ℤ} (h : Valid s)
    (hs : addLattice s ids = some (s', r)) : Valid s' := by
  rcases addLattice_cases hs with ⟨rfl, -⟩ | ⟨e, r0, nc, h1, h2, h3, -, -, rfl, -⟩
  · exact h
  · refine ⟨h.core, ?_, ?_, h.rtm, fun c hc => cell_grows ⟨List.prefix_rfl, List.prefix_rfl, List.prefix_rfl, List.prefix_rfl, List.prefix_rfl⟩ (h.cell c hc)⟩
    · intro a ha
      obtain ⟨a1, a2, a3, a4⟩ := h.assembly a ha
      refine ⟨a1, a2, a3, fun i hi => ⟨(a4 i hi).1, ?_⟩⟩
      have := (a4 i hi).2
      dsimp only
      rw [List.length_append]
      push_cast
      omega
    · intro l hl
      rcases List.mem_append.1 hl with hl | hl
      · exact h.lattice l hl
      · rw [List.mem_singleton] at hl
        subst hl
        refine ⟨?_, ?_⟩
        · dsimp only
          rw [flatten_length nc _ fun r hr => h2 r (List.mem_reverse.1 hr), List.length_reverse, Nat.mul_comm]
        · intro i hi
          obtain ⟨row, hr, hir⟩ := List.mem_flatten.1 hi
          exact h3 i (List.mem_flatten.2 ⟨row, List.mem_reverse.1 hr, hir⟩)

theorem valid_assembly {eps : K} {s s' : Model K M} {ids : List ℤ} {z : List K} {r : ℤ} (h : Valid s)
    (hs : addAssembly eps s ids z = some (s', r)) : Valid s' := by
  rcases addAssembly_cases hs with ⟨rfl, -⟩ | ⟨z0, z1, l0, h1, h2, h3, h4, -, -, -, -, -, rfl, -⟩
  · exact h
  · refine ⟨?_, ?_, h.lattice, h.rtm, fun c hc => cell_grows ⟨List.prefix_rfl, List.prefix_rfl, List.prefix_rfl, List.prefix_rfl, List.prefix_rfl⟩ (h.cell c hc)⟩
    · intro i hi
      refine ⟨(h.core i hi).1, ?_⟩
      have := (h.core i hi).2
      dsimp only
      rw [List.length_append]
      push_cast
      omega
    · intro a ha
      rcases List.mem_append.1 ha with ha | ha
      · exact h.assembly a ha
      · rw [List.mem_singleton] at ha
        subst ha
        exact ⟨h3, h4, h1, h2⟩

theorem valid_core {sort : List K → List K} {eps : K} {s s' : Model K M} {ids : List (List ℤ)} {r : ℤ} (h : Valid s)
    (hs : addCore sort eps s ids = some (s', r)) : Valid s' := by
  rcases addCore_cases hs with ⟨rfl, -⟩ | ⟨xs, ys, flat, -, h1, h2, rfl, -⟩
  · exact h
  · exact ⟨fun i hi => h1 i (flattenLattice_mem h2 i hi), h.assembly, h.lattice, h.rtm,
      fun c hc => cell_grows ⟨List.prefix_rfl, List.prefix_rfl, List.prefix_rfl, List.prefix_rfl, List.prefix_rfl⟩ (h.cell c hc)⟩

theorem valid_cylMesh {m : Libm K} {s s' : Model K M} {pitch : K} {radii : List K} {n : List ℤ} {na o r : ℤ} (h : Valid s)
    (hs : addCylindricalPinMesh m s pitch radii n na o = some (s', r)) : Valid s' := by
  rcases addCylindricalPinMesh_cases hs with ⟨rfl, -⟩ | ⟨mesh, -, ⟨-, rfl, -⟩ | ⟨-, rfl, -⟩⟩
  · exact h
  · exact h.grow ⟨List.prefix_rfl, List.prefix_append _ _, List.prefix_rfl, List.prefix_rfl, List.prefix_rfl⟩ rfl rfl rfl rfl rfl
  · exact h.grow ⟨List.prefix_rfl, List.prefix_rfl, List.prefix_rfl, List.prefix_append _ _, List.prefix_rfl⟩ rfl rfl rfl rfl rfl

theorem valid_repeat {f : Model K M → Option (Model K M × ℤ)} (hf : ∀ s s' r, Valid s → f s = some (s', r) → Valid s') :
    ∀ n s s', Valid s → repeatCall f n s = some s' → Valid s' := by
  intro n
  induction n with
  | zero => intro s s' h hs; cases hs; exact h
  | succ n ih =>
    intro s s' h hs
    rw [repeatCall, Option.bind_eq_some_iff] at hs
    obtain ⟨⟨s1, r⟩, h1, h2⟩ := hs
    exact ih s1 s' (hf s s1 r h h1) h2

theorem valid_gridRTMs {sort : List K → List K} {eps : K} : ∀ is (s s' : Model K M), Valid s → gridRTMs sort eps is s = some s' → Valid s' := by
  intro is
  induction is with
  | nil => intro s s' h hs; cases hs; exact h
  | cons i is ih =>
    intro s s' h hs
    rw [gridRTMs, Option.bind_eq_some_iff] at hs
    obtain ⟨⟨s1, r⟩, h1, h2⟩ := hs
    exact ih s1 s' (valid_rtm h h1) h2

theorem valid_grid {sort : List K → List K} {eps : K} {s s' : Model K M} {ext : K × K} {nx ny : ℤ} (h : Valid s)
    (hs : addCoarseGrid sort eps s ext nx ny = some s') : Valid s' := by
  unfold addCoarseGrid at hs
  split at hs
  · cases hs; exact h
  split at hs
  · cases hs; exact h
  split at hs
  · exact absurd hs (by simp)
  rw [Option.bind_eq_some_iff] at hs
  obtain ⟨s1, h1, hs⟩ := hs
  have v1 := valid_repeat (fun s s' r hv hh => valid_coarseCell hv hh) _ _ _ h h1
  rw [Option.bind_eq_some_iff] at hs
  obtain ⟨s2, h2, hs⟩ := hs
  have v2 := valid_gridRTMs _ _ _ v1 h2
  rw [Option.bind_eq_some_iff] at hs
  obtain ⟨⟨s3, r3⟩, h3, hs⟩ := hs
  have v3 := valid_lattice v2 h3
  rw [Option.bind_eq_some_iff] at hs
  obtain ⟨⟨s4, r4⟩, h4, hs⟩ := hs
  have v4 := valid_assembly v3 h4
  rw [Option.bind_eq_some_iff] at hs
  obtain ⟨⟨s5, r5⟩, h5, hs⟩ := hs
  cases hs
  exact valid_core v4 h5

theorem valid_step {m : Libm K} {sort : List K → List K} {name : M → N} {s s' : Model K M} {r : ℤ} (op : Op K M) (h : Valid s)
    (hs : step m sort name s op = some (s', r)) : Valid s' := by
  cases op with
  | clear => cases hs; exact valid_empty
  | material x => cases hs; exact h.grow ⟨List.prefix_rfl, List.prefix_rfl, List.prefix_rfl, List.prefix_rfl, List.prefix_append _ _⟩ rfl rfl rfl rfl rfl
  | cylMesh p rr n na o => exact valid_cylMesh h hs
  | rectMesh e nx ny =>
    change addRectangularPinMesh s e nx ny = _ at hs
    unfold addRectangularPinMesh at hs
    split at hs
    · exact absurd hs (by simp)
    · cases hs; exact h.grow ⟨List.prefix_rfl, List.prefix_append _ _, List.prefix_rfl, List.prefix_rfl, List.prefix_rfl⟩ rfl rfl rfl rfl rfl
    · cases hs; exact h.grow ⟨List.prefix_rfl, List.prefix_append _ _, List.prefix_rfl, List.prefix_rfl, List.prefix_rfl⟩ rfl rfl rfl rfl rfl
  | triMesh x => cases hs; exact h.grow ⟨List.prefix_append _ _, List.prefix_rfl, List.prefix_rfl, List.prefix_rfl, List.prefix_rfl⟩ rfl rfl rfl rfl rfl
  | quadMesh x => cases hs; exact h.grow ⟨List.prefix_rfl, List.prefix_append _ _, List.prefix_rfl, List.prefix_rfl, List.prefix_rfl⟩ rfl rfl rfl rfl rfl
  | tri6Mesh x => cases hs; exact h.grow ⟨List.prefix_rfl, List.prefix_rfl, List.prefix_append _ _, List.prefix_rfl, List.prefix_rfl⟩ rfl rfl rfl rfl rfl
  | quad8Mesh x => cases hs; exact h.grow ⟨List.prefix_rfl, List.prefix_rfl, List.prefix_rfl, List.prefix_append _ _, List.prefix_rfl⟩ rfl rfl rfl rfl rfl
  | cylCell p rr ms n na o =>
    obtain ⟨s1, id, h1, ⟨rfl, -, -⟩ | ⟨idx, -, -, -, -, h2⟩⟩ := addCylindricalPinCell_cases hs
    · exact valid_cylMesh h h1
    · exact valid_coarseCell (valid_cylMesh h h1) h2
  | coarseCell e t id ms => exact valid_coarseCell h hs
  | rtm ids => exact valid_rtm h hs
  | lattice ids => exact valid_lattice h hs
  | assembly ids z => exact valid_assembly h hs
  | core ids => exact valid_core h hs
  | coarseGrid e nx ny =>
    change (addCoarseGrid sort m.eps s e nx ny).map (fun s => (s, (0 : ℤ))) = _ at hs
    rw [Option.map_eq_some_iff] at hs
    obtain ⟨s1, h1, h2⟩ := hs
    cases h2
    exact valid_grid h h1

/-- **C57.**  After any sequence of edits all references are valid (for coarse cells without a mesh, see
`C57_meshless_fails`). -/
theorem C57_valid_partial (m : Libm K) (sort : List K → List K) (name : M → N) (s : Model K M) (h : Reach m sort name s) : Valid s := by
  induction h with
  | empty => exact valid_empty
  | step op _ hs ih => exact valid_step op ih hs

/-! ### Same sizes -/

/-- All RTMs have the extents of the first one, all assemblies its bottom and top, up to the tolerance; the lattices of one
assembly have the same numbers of cells. -/
structure Uniform (eps : K) (s : Model K M) : Prop where
  rtms : ∀ r0 rest, s.rtms = r0 :: rest → ∀ r ∈ rest, ∃ e0 e, extents r0.xs r0.ys = some e0 ∧ extents r.xs r.ys = some e ∧
    (e0.1 - e.1) * (e0.1 - e.1) + (e0.2 - e.2) * (e0.2 - e.2) < eps * eps
  assemblies : ∀ a0 rest, s.assemblies = a0 :: rest → ∀ a ∈ rest, ∃ b0 t0 b t, a0.zs.head? = some b0 ∧ a0.zs.getLast? = some t0 ∧
    a.zs.head? = some b ∧ a.zs.getLast? = some t ∧ |b - b0| ≤ eps ∧ |t - t0| ≤ eps
  lattices : ∀ a ∈ s.assemblies, ∃ nx ny, ∀ i ∈ a.children, ∃ l, s.lattices[i.toNat]? = some l ∧ l.nx = nx ∧ l.ny = ny

theorem Uniform.same {eps : K} {s s' : Model K M} (h : Uniform eps s) (h1 : s'.rtms = s.rtms) (h2 : s'.assemblies = s.assemblies)
    (h3 : s'.lattices = s.lattices) : Uniform eps s' :=
  ⟨by rw [h1]; exact h.rtms, by rw [h2]; exact h.assemblies, by rw [h2, h3]; exact h.lattices⟩

theorem cons_append_split {α : Type} {l : List α} {x a : α} {rest : List α} (h : l ++ [x] = a :: rest) :
    (l = [] ∧ rest = []) ∨ ∃ r', l = a :: r' ∧ rest = r' ++ [x] := by
  cases l with
  | nil => simp at h; exact Or.inl ⟨rfl, h.2⟩
  | cons y ys => simp at h; exact Or.inr ⟨ys, by rw [h.1], h.2.symm⟩

theorem uniform_coarseCell {eps : K} {s s' : Model K M} {ext : K × K} {t : ElemTypes.MeshType} {id r : ℤ} {mats : List Int8} (h : Uniform eps s)
    (hs : addCoarseCell s ext t id mats = some (s', r)) : Uniform eps s' := by
  rcases addCoarseCell_cases hs with ⟨rfl, -⟩ | ⟨-, -, rfl, -, -⟩
  · exact h
  · exact h.same rfl rfl rfl

theorem uniform_cylMesh {eps : K} {m : Libm K} {s s' : Model K M} {pitch : K} {radii : List K} {n : List ℤ} {na o r : ℤ} (h : Uniform eps s)
    (hs : addCylindricalPinMesh m s pitch radii n na o = some (s', r)) : Uniform eps s' := by
  rcases addCylindricalPinMesh_cases hs with ⟨rfl, -⟩ | ⟨mesh, -, ⟨-, rfl, -⟩ | ⟨-, rfl, -⟩⟩
  · exact h
  · exact h.same rfl rfl rfl
  · exact h.same rfl rfl rfl

theorem uniform_rtm {sort : List K → List K} {eps : K} {s s' : Model K M} {ids : List (List ℤ)} {r : ℤ} (h : Uniform eps s)
    (hs : addRTM sort eps s ids = some (s', r)) : Uniform eps s' := by
  rcases addRTM_cases hs with ⟨rfl, -⟩ | ⟨xs, ys, flat, h1, h2, rfl, -, h3⟩
  · exact h
  · refine ⟨?_, h.assemblies, h.lattices⟩
    intro r0 rest hl r hr
    rcases cons_append_split hl with ⟨-, rfl⟩ | ⟨r', hl', rfl⟩
    · simp at hr
    · rcases List.mem_append.1 hr with hr | hr
      · exact h.rtms r0 r' hl' r hr
      · rw [List.mem_singleton] at hr
        subst hr
        obtain ⟨e0, e, a, b, c⟩ := h3 r0 r' hl'
        exact ⟨e0, e, a, b, of_decide_eq_true c⟩

theorem uniform_lattice {eps : K} {s s' : Model K M} {ids : List (List ℤ)} {r : ℤ} (h : Uniform eps s)
    (hs : addLattice s ids = some (s', r)) : Uniform eps s' := by
  rcases addLattice_cases hs with ⟨rfl, -⟩ | ⟨e, r0, nc, h1, h2, h3, -, -, rfl, -⟩
  · exact h
  · refine ⟨h.rtms, h.assemblies, ?_⟩
    intro a ha
    obtain ⟨nx, ny, hl⟩ := h.lattices a ha
    refine ⟨nx, ny, fun i hi => ?_⟩
    obtain ⟨l, hl1, hl2⟩ := hl i hi
    refine ⟨l, ?_, hl2⟩
    dsimp only
    rw [List.getElem?_append_left (List.getElem?_eq_some_iff.1 hl1).1]
    exact hl1

theorem uniform_assembly {eps : K} {s s' : Model K M} {ids : List ℤ} {z : List K} {r : ℤ} (h : Uniform eps s)
    (hs : addAssembly eps s ids z = some (s', r)) : Uniform eps s' := by
  rcases addAssembly_cases hs with ⟨rfl, -⟩ | ⟨z0, z1, l0, h1, h2, h3, h4, hz0, hz1, -, hl, hh, rfl, -⟩
  · exact h
  · refine ⟨h.rtms, ?_, ?_⟩
    · intro a0 rest hl a ha
      rcases cons_append_split hl with ⟨-, rfl⟩ | ⟨r', hl', rfl⟩
      · simp at ha
      · rcases List.mem_append.1 ha with ha | ha
        · exact h.assemblies a0 r' hl' a ha
        · rw [List.mem_singleton] at ha
          subst ha
          obtain ⟨b0, b1, c1, c2, c3, c4⟩ := hh a0 r' hl'
          exact ⟨b0, b1, z0, z1, c1, c2, hz0, hz1, c3, c4⟩
    · intro a ha
      rcases List.mem_append.1 ha with ha | ha
      · exact h.lattices a ha
      · rw [List.mem_singleton] at ha
        subst ha
        refine ⟨l0.nx, l0.ny, fun i hi => ?_⟩
        obtain ⟨l, c1, c2⟩ := hl i hi
        exact ⟨l, (at?_eq.1 c1).2, c2⟩

theorem uniform_core {sort : List K → List K} {eps : K} {s s' : Model K M} {ids : List (List ℤ)} {r : ℤ} (h : Uniform eps s)
    (hs : addCore sort eps s ids = some (s', r)) : Uniform eps s' := by
  rcases addCore_cases hs with ⟨rfl, -⟩ | ⟨xs, ys, flat, -, h1, h2, rfl, -⟩
  · exact h
  · exact h.same rfl rfl rfl

theorem uniform_repeat {eps : K} {f : Model K M → Option (Model K M × ℤ)} (hf : ∀ s s' r, Uniform eps s → f s = some (s', r) → Uniform eps s') :
    ∀ n s s', Uniform eps s → repeatCall f n s = some s' → Uniform eps s' := by
  intro n
  induction n with
  | zero => intro s s' h hs; cases hs; exact h
  | succ n ih =>
    intro s s' h hs
    rw [repeatCall, Option.bind_eq_some_iff] at hs
    obtain ⟨⟨s1, r⟩, h1, h2⟩ := hs
    exact ih s1 s' (hf s s1 r h h1) h2

theorem uniform_gridRTMs {sort : List K → List K} {eps : K} : ∀ is (s s' : Model K M), Uniform eps s → gridRTMs sort eps is s = some s' →
    Uniform eps s' := by
  intro is
  induction is with
  | nil => intro s s' h hs; cases hs; exact h
  | cons i is ih =>
    intro s s' h hs
    rw [gridRTMs, Option.bind_eq_some_iff] at hs
    obtain ⟨⟨s1, r⟩, h1, h2⟩ := hs
    exact ih s1 s' (uniform_rtm h h1) h2

theorem uniform_grid {sort : List K → List K} {eps : K} {s s' : Model K M} {ext : K × K} {nx ny : ℤ} (h : Uniform eps s)
    (hs : addCoarseGrid sort eps s ext nx ny = some s') : Uniform eps s' := by
  unfold addCoarseGrid at hs
  split at hs
  · cases hs; exact h
  split at hs
  · cases hs; exact h
  split at hs
  · exact absurd hs (by simp)
  rw [Option.bind_eq_some_iff] at hs
  obtain ⟨s1, h1, hs⟩ := hs
  have v1 := uniform_repeat (fun s s' r hv hh => uniform_coarseCell hv hh) _ _ _ h h1
  rw [Option.bind_eq_some_iff] at hs
  obtain ⟨s2, h2, hs⟩ := hs
  have v2 := uniform_gridRTMs _ _ _ v1 h2
  rw [Option.bind_eq_some_iff] at hs
  obtain ⟨⟨s3, r3⟩, h3, hs⟩ := hs
  have v3 := uniform_lattice v2 h3
  rw [Option.bind_eq_some_iff] at hs
  obtain ⟨⟨s4, r4⟩, h4, hs⟩ := hs
  have v4 := uniform_assembly v3 h4
  rw [Option.bind_eq_some_iff] at hs
  obtain ⟨⟨s5, r5⟩, h5, hs⟩ := hs
  cases hs
  exact uniform_core v4 h5

/-- **C57.**  After any sequence of edits, the sizes of RTMs, assemblies and lattices agree. -/
theorem C57_uniform (m : Libm K) (sort : List K → List K) (name : M → N) (s : Model K M) (h : Reach m sort name s) : Uniform m.eps s := by
  induction h with
  | empty => constructor <;> simp [Model.empty]
  | step op _ hs ih =>
    cases op with
    | clear => cases hs; constructor <;> simp [Model.empty]
    | material x => cases hs; exact ih.same rfl rfl rfl
    | cylMesh p rr n na o => exact uniform_cylMesh ih hs
    | rectMesh e nx ny =>
      change addRectangularPinMesh _ e nx ny = _ at hs
      unfold addRectangularPinMesh at hs
      split at hs
      · exact absurd hs (by simp)
      · cases hs; exact ih.same rfl rfl rfl
      · cases hs; exact ih.same rfl rfl rfl
    | triMesh x => cases hs; exact ih.same rfl rfl rfl
    | quadMesh x => cases hs; exact ih.same rfl rfl rfl
    | tri6Mesh x => cases hs; exact ih.same rfl rfl rfl
    | quad8Mesh x => cases hs; exact ih.same rfl rfl rfl
    | cylCell p rr ms n na o =>
      obtain ⟨s1, id, h1, ⟨rfl, -, -⟩ | ⟨idx, -, -, -, -, h2⟩⟩ := addCylindricalPinCell_cases hs
      · exact uniform_cylMesh ih h1
      · exact uniform_coarseCell (uniform_cylMesh ih h1) h2
    | coarseCell e t id ms => exact uniform_coarseCell ih hs
    | rtm ids => exact uniform_rtm ih hs
    | lattice ids => exact uniform_lattice ih hs
    | assembly ids z => exact uniform_assembly ih hs
    | core ids => exact uniform_core ih hs
    | coarseGrid e nx ny =>
      change (addCoarseGrid sort m.eps _ e nx ny).map (fun s => (s, (0 : ℤ))) = _ at hs
      rw [Option.map_eq_some_iff] at hs
      obtain ⟨s1, h1, h2⟩ := hs
      cases h2
      exact uniform_grid ih h1

/-! ### What C57 does not give -/

/-- A coarse cell without mesh may name materials that do not exist: nothing is checked. -/
theorem C57_meshless_fails (m : Libm K) (sort : List K → List K) (name : M → N) (ext : K × K) (h1 : 0 < ext.1) (h2 : 0 < ext.2) (x : Int8) :
    ∃ s : Model K M, Reach m sort name s ∧ s.materials = [] ∧ ∃ c ∈ s.cells, x ∈ c.mats := by
  refine ⟨{ Model.empty K M with cells := [⟨ext, ElemTypes.MeshType.Invalid, -1, [x]⟩] }, ?_, rfl, _, List.mem_singleton.2 rfl, by simp⟩
  refine Reach.step (r := 0) (.coarseCell ext ElemTypes.MeshType.Invalid (-1) [x]) Reach.empty ?_
  show addCoarseCell _ _ _ _ _ = _
  unfold addCoarseCell
  dsimp only
  rw [if_neg (by push Not; exact ⟨h1, h2⟩), if_pos rfl]
  rfl

/-! ## C58 -/

/-- The arrangement stored for an array of ids: the rows from the last (bottom) to the first, or nothing for an array with
rows of different lengths. -/
def IsArranged (ids : List (List ℤ)) (children : List ℤ) : Prop :=
  ((∃ n, ∀ row ∈ ids, row.length = n) ∧ children = ids.reverse.flatten) ∨ ((¬ ∃ n, ∀ row ∈ ids, row.length = n) ∧ children = [])

/-- The effect of an accepted edit: exactly one new object (with the given contents), whose index is returned. -/
def Accepted (s s' : Model K M) (r : ℤ) : Op K M → Prop
  | .clear => s' = Model.empty K M
  | .material x => s' = { s with materials := s.materials ++ [x] } ∧ r = s.materials.length
  | .cylMesh _ _ rings na o => ∃ mesh : Mesh K, mesh.faces.length = ((rings.map Int.toNat).sum + 1) * na.toNat ∧
      ((o = 1 ∧ s' = { s with quads := s.quads ++ [mesh] } ∧ r = s.quads.length) ∨
        (o = 2 ∧ s' = { s with quad8s := s.quad8s ++ [mesh] } ∧ r = s.quad8s.length))
  | .rectMesh _ nx ny => ∃ mesh : Mesh K, mesh.faces.length = nx.toNat * ny.toNat ∧ s' = { s with quads := s.quads ++ [mesh] } ∧ r = s.quads.length
  | .triMesh x => s' = { s with tris := s.tris ++ [x] } ∧ r = s.tris.length
  | .quadMesh x => s' = { s with quads := s.quads ++ [x] } ∧ r = s.quads.length
  | .tri6Mesh x => s' = { s with tri6s := s.tri6s ++ [x] } ∧ r = s.tri6s.length
  | .quad8Mesh x => s' = { s with quad8s := s.quad8s ++ [x] } ∧ r = s.quad8s.length
  | .cylCell p _ _ _ _ _ => ∃ s1 c, Grows s s1 ∧ s1.cells = s.cells ∧ c.ext = (p, p) ∧ s' = { s1 with cells := s1.cells ++ [c] } ∧ r = s.cells.length
  | .coarseCell e t id ms => s' = { s with cells := s.cells ++ [⟨e, t, id, ms⟩] } ∧ r = s.cells.length
  | .rtm ids => ∃ xs ys ch, IsArranged ids ch ∧ s' = { s with rtms := s.rtms ++ [⟨xs, ys, ch⟩] } ∧ r = s.rtms.length
  | .lattice ids => ∃ sp nx, (∀ row ∈ ids, row.length = nx) ∧
      s' = { s with lattices := s.lattices ++ [⟨sp, nx, ids.length, ids.reverse.flatten⟩] } ∧ r = s.lattices.length
  | .assembly ids z => s' = { s with assemblies := s.assemblies ++ [⟨z, ids⟩] } ∧ r = s.assemblies.length
  | .core ids => ∃ xs ys ch, IsArranged ids ch ∧ s.core.children = [] ∧ s' = { s with core := ⟨xs, ys, ch⟩ } ∧ r = 0
  | .coarseGrid _ _ _ => True

theorem arranged {ids : List (List ℤ)} {flat : List ℤ} (h : Grid.flattenLattice ids [] = some flat) : IsArranged ids flat := by
  obtain ⟨-, ⟨nc, h1, h2⟩ | h⟩ := flattenLattice_cases h
  · exact Or.inl ⟨⟨nc, h1⟩, h2⟩
  · exact Or.inr h

theorem flatMap_length {α β : Type} (f : α → List β) (n : Nat) (l : List α) (h : ∀ x ∈ l, (f x).length = n) :
    (l.flatMap f).length = l.length * n := by
  induction l with
  | nil => simp
  | cons x l ih =>
    rw [List.flatMap_cons, List.length_append, ih fun y hy => h y (by simp [hy]), h x (by simp), List.length_cons, Nat.succ_mul]
    omega

theorem even_of_pow {na : Nat} (h8 : 8 ≤ na) (h : na &&& (na - 1) = 0) : na % 2 = 0 := by
  by_contra hc
  have h1 : (na &&& (na - 1)) = na - 1 := by
    apply Nat.eq_of_testBit_eq
    intro i
    rw [Nat.testBit_and]
    cases i with
    | zero =>
      rw [Nat.testBit_zero, Nat.testBit_zero]
      have : (na - 1) % 2 = 0 := by omega
      simp [this]
    | succ i =>
      rw [Nat.testBit_succ, Nat.testBit_succ]
      have : (na - 1) / 2 = na / 2 := by omega
      rw [this, Bool.and_self]
  omega

theorem faces1_length (na nr : Nat) (h : na % 2 = 0) : (Pin.faces1 na nr).length = (nr + 1) * na := by
  unfold Pin.faces1 Pin.triFaces1
  rw [List.length_append, flatMap_length _ 2 _ fun x _ => by simp, flatMap_length _ na _ fun x _ => by simp [Pin.ringFaces1],
    List.length_range, List.length_range, Nat.succ_mul]
  omega

theorem faces2_length (na nr : Nat) (h : na % 2 = 0) : (Pin.faces2 na nr).length = (nr + 1) * na := by
  unfold Pin.faces2 Pin.triFaces2
  rw [List.length_append, flatMap_length _ 2 _ fun x _ => by simp, flatMap_length _ na _ fun x _ => by simp [Pin.ringFaces2],
    List.length_range, List.length_range, Nat.succ_mul]
  omega

theorem cylindricalMesh_order {m : Libm K} {pitch : K} {radii : List K} {rings : List ℤ} {na o : ℤ} {mesh : Mesh K}
    (h : Pin.cylindricalMesh m pitch radii rings na o = some (some mesh)) :
    (o = 1 ∨ o = 2) ∧ mesh.faces.length = ((rings.map Int.toNat).sum + 1) * na.toNat := by
  unfold Pin.cylindricalMesh at h
  split at h
  · simp at h
  rename_i ho
  split at h
  · simp at h
  rename_i hna
  split at h
  · simp at h
  rename_i hpow
  have hev : na.toNat % 2 = 0 := even_of_pow (by omega) (not_not.1 hpow)
  split at h
  · simp at h
  split at h
  · simp at h
  split at h
  · simp at h
  dsimp only at h
  refine ⟨by by_contra hc; push Not at hc; exact ho hc, ?_⟩
  split at h
  · split at h
    · simp at h
    split at h
    · simp at h
    cases h
    exact faces1_length _ _ hev
  · split at h
    · simp at h
    split at h
    · simp at h
    cases h
    exact faces2_length _ _ hev

theorem rectFaces_length (nx ny : Nat) : (Pin.rectFaces nx ny).length = nx * ny := by
  unfold Pin.rectFaces
  rw [flatMap_length _ nx _ fun x _ => by simp, List.length_range, Nat.mul_comm]

/-- **C58.**  An accepted edit adds one object and returns its index. -/
theorem C58_accepted (m : Libm K) (sort : List K → List K) (name : M → N) (s s' : Model K M) (op : Op K M) (r : ℤ)
    (h : step m sort name s op = some (s', r)) (hr : r ≠ -1) : Accepted s s' r op := by
  cases op with
  | clear => cases h; exact rfl
  | material x => cases h; exact ⟨rfl, rfl⟩
  | cylMesh p rr n na o =>
    rcases addCylindricalPinMesh_cases h with ⟨-, h⟩ | ⟨mesh, hm, h⟩
    · exact absurd h hr
    · obtain ⟨ho, hf⟩ := cylindricalMesh_order hm
      refine ⟨mesh, hf, ?_⟩
      rcases h with h | h
      · exact Or.inl h
      · exact Or.inr ⟨ho.resolve_left h.1, h.2⟩
  | rectMesh e nx ny =>
    change addRectangularPinMesh s e nx ny = _ at h
    unfold addRectangularPinMesh at h
    split at h
    · exact absurd h (by simp)
    · cases h; exact absurd rfl hr
    · rename_i mesh hm
      cases h
      refine ⟨mesh, ?_, rfl, rfl⟩
      unfold Pin.rectangularMesh at hm
      split at hm
      · simp at hm
      split at hm
      · simp at hm
      split at hm
      · simp at hm
      cases hm
      exact rectFaces_length _ _
  | triMesh x => cases h; exact ⟨rfl, rfl⟩
  | quadMesh x => cases h; exact ⟨rfl, rfl⟩
  | tri6Mesh x => cases h; exact ⟨rfl, rfl⟩
  | quad8Mesh x => cases h; exact ⟨rfl, rfl⟩
  | cylCell p rr ms n na o =>
    obtain ⟨s1, id, h1, ⟨-, h2, -⟩ | ⟨idx, -, -, -, -, h2⟩⟩ := addCylindricalPinCell_cases h
    · exact absurd h2 hr
    · have hg : Grows s s1 ∧ s1.cells = s.cells := by
        rcases addCylindricalPinMesh_cases h1 with ⟨rfl, -⟩ | ⟨mesh, -, ⟨-, rfl, -⟩ | ⟨-, rfl, -⟩⟩
        · exact ⟨⟨List.prefix_rfl, List.prefix_rfl, List.prefix_rfl, List.prefix_rfl, List.prefix_rfl⟩, rfl⟩
        · exact ⟨⟨List.prefix_rfl, List.prefix_append _ _, List.prefix_rfl, List.prefix_rfl, List.prefix_rfl⟩, rfl⟩
        · exact ⟨⟨List.prefix_rfl, List.prefix_rfl, List.prefix_rfl, List.prefix_append _ _, List.prefix_rfl⟩, rfl⟩
      rcases addCoarseCell_cases h2 with ⟨-, h3⟩ | ⟨-, -, h3, h4, -⟩
      · exact absurd h3 hr
      · exact ⟨s1, _, hg.1, hg.2, rfl, h3, by rw [h4, hg.2]⟩
  | coarseCell e t id ms =>
    rcases addCoarseCell_cases h with ⟨-, h3⟩ | ⟨-, -, h3, h4, -⟩
    · exact absurd h3 hr
    · exact ⟨h3, h4⟩
  | rtm ids =>
    rcases addRTM_cases h with ⟨-, h3⟩ | ⟨xs, ys, flat, h1, h2, h3, h4, -⟩
    · exact absurd h3 hr
    · exact ⟨xs, ys, flat, arranged h2, h3, h4⟩
  | lattice ids =>
    rcases addLattice_cases h with ⟨-, h3⟩ | ⟨e, r0, nc, h1, h2, h3, -, -, h4, h5⟩
    · exact absurd h3 hr
    · exact ⟨e, nc, h2, h4, h5⟩
  | assembly ids z =>
    rcases addAssembly_cases h with ⟨-, h3⟩ | ⟨z0, z1, l0, h1, h2, h3, h4, -, -, -, -, -, h5, h6⟩
    · exact absurd h3 hr
    · exact ⟨h5, h6⟩
  | core ids =>
    rcases addCore_cases h with ⟨-, h3⟩ | ⟨xs, ys, flat, hc, h1, h2, h3, h4⟩
    · exact absurd h3 hr
    · exact ⟨xs, ys, flat, arranged h2, hc, h3, h4⟩
  | coarseGrid e nx ny => exact trivial

/-- **C58.**  A rejected edit has no effect, except for the two functions of `C58_rectangular_fails` and
`C58_pinCell_fails`. -/
theorem C58_rejected_partial (m : Libm K) (sort : List K → List K) (name : M → N) (s s' : Model K M) (op : Op K M)
    (h1 : ∀ e nx ny, op ≠ .rectMesh e nx ny) (h2 : ∀ p rr ms n na o, op ≠ .cylCell p rr ms n na o)
    (h : step m sort name s op = some (s', -1)) : s' = s := by
  have neg : ∀ n : Nat, (n : ℤ) ≠ -1 := fun n => by omega
  cases op with
  | clear => injection h with h; injection h with h h'; exact absurd h' (by decide)
  | material x => injection h with h; injection h with h h'; exact absurd h' (neg _)
  | cylMesh p rr n na o =>
    rcases addCylindricalPinMesh_cases h with ⟨h, -⟩ | ⟨mesh, hm, ⟨-, -, h⟩ | ⟨-, -, h⟩⟩
    · exact h
    · exact absurd h.symm (neg _)
    · exact absurd h.symm (neg _)
  | rectMesh e nx ny => exact absurd rfl (h1 e nx ny)
  | triMesh x => injection h with h; injection h with h h'; exact absurd h' (neg _)
  | quadMesh x => injection h with h; injection h with h h'; exact absurd h' (neg _)
  | tri6Mesh x => injection h with h; injection h with h h'; exact absurd h' (neg _)
  | quad8Mesh x => injection h with h; injection h with h h'; exact absurd h' (neg _)
  | cylCell p rr ms n na o => exact absurd rfl (h2 p rr ms n na o)
  | coarseCell e t id ms =>
    rcases addCoarseCell_cases h with ⟨h, -⟩ | ⟨-, -, -, h, -⟩
    · exact h
    · exact absurd h.symm (neg _)
  | rtm ids =>
    rcases addRTM_cases h with ⟨h, -⟩ | ⟨xs, ys, flat, -, -, -, h, -⟩
    · exact h
    · exact absurd h.symm (neg _)
  | lattice ids =>
    rcases addLattice_cases h with ⟨h, -⟩ | ⟨e, r0, nc, -, -, -, -, -, -, h⟩
    · exact h
    · exact absurd h.symm (neg _)
  | assembly ids z =>
    rcases addAssembly_cases h with ⟨h, -⟩ | ⟨z0, z1, l0, -, -, -, -, -, -, -, -, -, -, h⟩
    · exact h
    · exact absurd h.symm (neg _)
  | core ids =>
    rcases addCore_cases h with ⟨h, -⟩ | ⟨xs, ys, flat, -, -, -, -, h⟩
    · exact h
    · exact absurd h (by decide)
  | coarseGrid e nx ny =>
    change (addCoarseGrid sort m.eps s e nx ny).map (fun s => (s, (0 : ℤ))) = _ at h
    rw [Option.map_eq_some_iff] at h
    obtain ⟨s1, -, h⟩ := h
    injection h with h h'
    exact absurd h' (by decide)

/-- A coarse cell is accepted exactly if its extents are positive and it either has no mesh, or an existing mesh of its type
with as many faces as materials, all of which exist. -/
theorem C58_coarseCell (s : Model K M) (ext : K × K) (t : ElemTypes.MeshType) (id : ℤ) (mats : List Int8) :
    ∃ s' r, addCoarseCell s ext t id mats = some (s', r) ∧ (r ≠ -1 ↔ 0 < ext.1 ∧ 0 < ext.2 ∧ (id = -1 ∨
      ∃ mesh, IsMeshOf s ⟨ext, t, id, mats⟩ mesh ∧ mesh.faces.length = mats.length ∧ ∀ x ∈ mats, 0 ≤ x.toInt ∧ x.toInt < s.materials.length)) := by
  have neg : ∀ n : Nat, (n : ℤ) ≠ -1 := fun n => by omega
  unfold addCoarseCell
  dsimp only
  split
  · rename_i h
    refine ⟨s, -1, rfl, fun h => absurd rfl h, ?_⟩
    rintro ⟨h1, h2, -⟩
    rcases h with h | h
    · exact absurd h1 (not_lt.2 h)
    · exact absurd h2 (not_lt.2 h)
  rename_i hext
  push Not at hext
  split
  · rename_i hid
    exact ⟨_, _, rfl, fun _ => ⟨hext.1, hext.2, Or.inl hid⟩, fun _ => neg _⟩
  rename_i hid
  have meshIff : ∀ mesh, IsMeshOf s ⟨ext, t, id, mats⟩ mesh ↔ ∃ l, s.meshes t = some l ∧ at? l id = some mesh := by
    intro mesh
    constructor
    · rintro ⟨h0, h⟩
      dsimp only at h0 h
      rcases h with ⟨ht, h⟩ | ⟨ht, h⟩ | ⟨ht, h⟩ | ⟨ht, h⟩ <;> subst ht
      · exact ⟨s.tris, rfl, at?_eq.2 ⟨h0, h⟩⟩
      · exact ⟨s.quads, rfl, at?_eq.2 ⟨h0, h⟩⟩
      · exact ⟨s.tri6s, rfl, at?_eq.2 ⟨h0, h⟩⟩
      · exact ⟨s.quad8s, rfl, at?_eq.2 ⟨h0, h⟩⟩
    · rintro ⟨l, h1, h2⟩
      exact meshes_isMeshOf h1 h2
  split
  · rename_i hm
    refine ⟨s, -1, rfl, fun h => absurd rfl h, ?_⟩
    rintro ⟨-, -, h | ⟨mesh, h, -⟩⟩
    · exact absurd h hid
    · obtain ⟨l, hl, -⟩ := (meshIff mesh).1 h
      rw [hm] at hl
      exact absurd hl (by simp)
  rename_i l hl
  split
  · rename_i hr
    refine ⟨s, -1, rfl, fun h => absurd rfl h, ?_⟩
    rintro ⟨-, -, h | ⟨mesh, h, -⟩⟩
    · exact absurd h hid
    · obtain ⟨l', hl', h⟩ := (meshIff mesh).1 h
      rw [hl] at hl'
      cases hl'
      obtain ⟨h0, h⟩ := at?_eq.1 h
      have := (List.getElem?_eq_some_iff.1 h).1
      omega
  rename_i hr
  push Not at hr
  obtain ⟨mesh, hm, -⟩ := at?_of_lt (l := l) hr.1 hr.2
  rw [hm, Option.bind_some]
  have uniq : ∀ mesh', IsMeshOf s ⟨ext, t, id, mats⟩ mesh' → mesh' = mesh := by
    intro mesh' h
    obtain ⟨l', hl', h⟩ := (meshIff mesh').1 h
    rw [hl] at hl'
    cases hl'
    rw [hm] at h
    exact (Option.some.inj h).symm
  split
  · rename_i hlen
    refine ⟨s, -1, rfl, fun h => absurd rfl h, ?_⟩
    rintro ⟨-, -, h | ⟨mesh', h, hl', -⟩⟩
    · exact absurd h hid
    · rw [uniq mesh' h] at hl'
      exact absurd hl' hlen
  rename_i hlen
  split
  · rename_i hbad
    refine ⟨s, -1, rfl, fun h => absurd rfl h, ?_⟩
    rintro ⟨-, -, h | ⟨mesh', -, -, h⟩⟩
    · exact absurd h hid
    · obtain ⟨x, hx, hb⟩ := List.any_eq_true.1 hbad
      have := h x hx
      simp only [Bool.or_eq_true, decide_eq_true_eq, ge_iff_le] at hb
      omega
  · rename_i hgood
    refine ⟨_, _, rfl, fun _ => ⟨hext.1, hext.2, Or.inr ⟨mesh, (meshIff mesh).2 ⟨l, hl, hm⟩, not_not.1 hlen, ?_⟩⟩, fun _ => neg _⟩
    intro x hx
    by_contra hc
    apply hgood
    refine List.any_eq_true.2 ⟨x, hx, ?_⟩
    simp only [Bool.or_eq_true, decide_eq_true_eq, ge_iff_le]
    omega

/-- A rejected rectangular pin mesh leaves an empty mesh behind. -/
theorem C58_rectangular_fails (s : Model K M) (ext : K × K) (nx ny : ℤ) (h : ext.1 ≤ 0 ∨ ext.2 ≤ 0 ∨ nx ≤ 0 ∨ ny ≤ 0) :
    ∃ s', addRectangularPinMesh s ext nx ny = some (s', -1) ∧ s'.quads.length = s.quads.length + 1 := by
  have : Pin.rectangularMesh ext nx ny = some none := by
    unfold Pin.rectangularMesh
    by_cases h1 : ext.1 ≤ 0 ∨ ext.2 ≤ 0
    · rw [if_pos h1]
    · rw [if_neg h1, if_pos]
      push Not at h1
      rcases h with h | h | h | h
      · exact absurd h (not_le.2 h1.1)
      · exact absurd h (not_le.2 h1.2)
      · exact Or.inl h
      · exact Or.inr h
  refine ⟨{ s with quads := s.quads ++ [⟨[], []⟩] }, ?_, by simp⟩
  unfold addRectangularPinMesh
  rw [this]

/-- A pin cell rejected for its materials leaves its mesh behind. -/
theorem C58_pinCell_fails (m : Libm K) (name : M → N) (s s1 : Model K M) (pitch : K) (radii : List K) (mats : List M) (rings : List ℤ)
    (na o r : ℤ) (h : addCylindricalPinMesh m s pitch radii rings na o = some (s1, r)) (hr : r ≠ -1) (hm : mats.length ≠ rings.length + 1) :
    addCylindricalPinCell m name s pitch radii mats rings na o = some (s1, -1) ∧ s1 ≠ s := by
  constructor
  · unfold addCylindricalPinCell
    rw [h, Option.bind_some]
    dsimp only
    rw [if_pos hm]
  · rintro rfl
    rcases addCylindricalPinMesh_cases h with ⟨-, h⟩ | ⟨mesh, -, ⟨-, h, -⟩ | ⟨-, h, -⟩⟩
    · exact hr h
    · have := congrArg (fun x => x.quads.length) h
      simp at this
    · have := congrArg (fun x => x.quad8s.length) h
      simp at this

/-- A pin cell whose mesh is rejected (here: fewer than 8 azimuthal divisions) is nevertheless accepted, without mesh. -/
theorem C58_pinCell_meshless_fails (m : Libm K) (name : M → N) (x : M) (pitch radius : K) (hp : 0 < pitch) (na : ℤ) (h0 : 0 ≤ na) (h8 : na < 8) :
    ∃ s' c, addCylindricalPinCell m name { Model.empty K M with materials := [x] } pitch [radius] [x, x] [1] na 1 = some (s', 0) ∧
      s'.cells = [c] ∧ c.meshId = -1 ∧ s'.quads = [] := by
  have hmesh : addCylindricalPinMesh m { Model.empty K M with materials := [x] } pitch [radius] [1] na 1 =
      some ({ Model.empty K M with materials := [x] }, -1) := by
    unfold addCylindricalPinMesh Pin.cylindricalMesh
    rw [if_neg (by simp), if_pos h8]
  have hf : findMaterial name { Model.empty K M with materials := [x] } x = some 0 := by
    simp [findMaterial]
  refine ⟨{ Model.empty K M with materials := [x], cells := [⟨(pitch, pitch), ElemTypes.MeshType.Quad, -1, cellMats na.toNat [0, 0] [1]⟩] }, _, ?_, rfl, rfl, rfl⟩
  unfold addCylindricalPinCell
  rw [hmesh, Option.bind_some]
  dsimp only
  rw [if_neg (by simp)]
  have : [x, x].mapM (findMaterial name { Model.empty K M with materials := [x] }) = some [0, 0] := by
    rw [List.mapM_cons, hf]
    simp [hf]
  rw [this]
  dsimp only
  rw [if_neg (by omega), if_neg (by simp), if_pos rfl]
  unfold addCoarseCell
  dsimp only
  rw [if_neg (by push Not; exact ⟨hp, hp⟩), if_pos rfl]
  rfl

/-! ### Which arrays of ids are accepted -/

theorem rowBoxes_congr {dxdy dxdy' : List (K × K)} {f g : ℤ → Nat} (y : K) : ∀ (row : List ℤ) (x : K),
    (∀ id ∈ row, dxdy[f id]? = dxdy'[g id]?) → Grid.rowBoxes dxdy y x (row.map f) = Grid.rowBoxes dxdy' y x (row.map g) := by
  intro row
  induction row with
  | nil => intro x _; rfl
  | cons i row ih =>
    intro x h
    rw [List.map_cons, List.map_cons, Grid.rowBoxes, Grid.rowBoxes, h i (by simp)]
    congr 1
    funext d
    rw [ih _ fun id hid => h id (by simp [hid])]

theorem idBoxes_congr {dxdy dxdy' : List (K × K)} {f g : ℤ → Nat} (nc : Nat) : ∀ (ids : List (List ℤ)) (y : K),
    (∀ id ∈ ids.flatten, dxdy[f id]? = dxdy'[g id]?) →
    Grid.idBoxes dxdy nc y (ids.map fun r => r.map f) = Grid.idBoxes dxdy' nc y (ids.map fun r => r.map g) := by
  intro ids
  induction ids with
  | nil => intro y _; rfl
  | cons row ids ih =>
    intro y h
    rw [List.map_cons, List.map_cons, Grid.idBoxes, Grid.idBoxes, List.length_map, List.length_map]
    have hrow : ∀ id ∈ row, dxdy[f id]? = dxdy'[g id]? := fun id hid => h id (by simp [hid])
    split
    · rfl
    rw [← List.map_take, ← List.map_take, rowBoxes_congr y (row.take nc) 0 fun id hid => hrow id (List.mem_of_mem_take hid)]
    congr 1
    funext b
    cases row with
    | nil => rfl
    | cons i row =>
      simp only [List.map_cons, List.length_cons, Nat.zero_lt_succ, List.getElem?_eq_getElem, List.getElem_cons_zero, Option.bind_some]
      rw [hrow i (by simp)]
      congr 1
      funext d
      rw [ih _ fun id hid => h id (by rw [List.flatten_cons]; exact List.mem_append_right _ hid)]

theorem gridBoxes_congr {dxdy dxdy' : List (K × K)} {f g : ℤ → Nat} (ids : List (List ℤ))
    (h : ∀ id ∈ ids.flatten, dxdy[f id]? = dxdy'[g id]?) :
    Grid.gridBoxes dxdy (ids.map fun r => r.map f) = Grid.gridBoxes dxdy' (ids.map fun r => r.map g) := by
  cases ids with
  | nil => rfl
  | cons row ids =>
    have h' : ∀ id ∈ (row :: ids).reverse.flatten, dxdy[f id]? = dxdy'[g id]? := by
      intro id hid
      obtain ⟨r, hr, hi⟩ := List.mem_flatten.1 hid
      exact h id (List.mem_flatten.2 ⟨r, List.mem_reverse.1 hr, hi⟩)
    have := idBoxes_congr (nc := row.length) (row :: ids).reverse 0 h'
    rw [List.map_reverse, List.map_reverse] at this
    rw [List.map_cons, List.map_cons] at this ⊢
    unfold Grid.gridBoxes
    dsimp only
    rw [List.length_map, List.length_map]
    exact this

theorem rowBoxes_some {dxdy : List (K × K)} (y : K) : ∀ (row : List Nat) (x : K), (∀ i ∈ row, i < dxdy.length) →
    ∃ b, Grid.rowBoxes dxdy y x row = some b ∧ b.length = row.length := by
  intro row
  induction row with
  | nil => intro x _; exact ⟨[], rfl, rfl⟩
  | cons i row ih =>
    intro x h
    rw [Grid.rowBoxes, List.getElem?_eq_getElem (h i (by simp)), Option.bind_some]
    obtain ⟨b, hb, hl⟩ := ih (x + (dxdy[i]'(h i (by simp))).1) fun j hj => h j (by simp [hj])
    rw [hb, Option.bind_some]
    exact ⟨_, rfl, by simp [hl]⟩

theorem idBoxes_some {dxdy : List (K × K)} (nc : Nat) (hnc : 0 < nc) : ∀ (ids : List (List Nat)) (y : K),
    (∀ r ∈ ids, r.length = nc) → (∀ i ∈ ids.flatten, i < dxdy.length) →
    ∃ b, Grid.idBoxes dxdy nc y ids = some b ∧ b.length = ids.length * nc := by
  intro ids
  induction ids with
  | nil => intro y _ _; exact ⟨[], rfl, by simp⟩
  | cons row ids ih =>
    intro y hl h
    have hrow := hl row (by simp)
    rw [Grid.idBoxes, if_neg (by omega)]
    obtain ⟨b, hb, hbl⟩ := rowBoxes_some (dxdy := dxdy) y (row.take nc) 0 fun i hi => h i (by simp [List.mem_of_mem_take hi])
    rw [hb, Option.bind_some]
    cases row with
    | nil => simp at hrow; omega
    | cons i row =>
      have hi := h i (by simp)
      rw [List.getElem?_cons_zero, Option.bind_some, List.getElem?_eq_getElem hi, Option.bind_some]
      obtain ⟨r, hr, hrl⟩ := ih (y + (dxdy[i]).2) (fun r hr => hl r (by simp [hr]))
        fun j hj => h j (by rw [List.flatten_cons]; exact List.mem_append_right _ hj)
      rw [hr, Option.bind_some]
      refine ⟨_, rfl, ?_⟩
      rw [List.length_append, hbl, hrl, List.length_take, hrow, Nat.min_self, List.length_cons, Nat.succ_mul]
      omega

theorem gridBoxes_some {dxdy : List (K × K)} {nc : Nat} (hnc : 0 < nc) {ids : List (List Nat)} (hne : ids ≠ [])
    (hc : ∀ r ∈ ids, r.length = nc) (h : ∀ i ∈ ids.flatten, i < dxdy.length) :
    ∃ b, Grid.gridBoxes dxdy ids = some b ∧ b ≠ [] := by
  cases ids with
  | nil => exact absurd rfl hne
  | cons row ids =>
    unfold Grid.gridBoxes
    dsimp only
    rw [hc row (by simp)]
    obtain ⟨b, hb, hl⟩ := idBoxes_some (dxdy := dxdy) nc hnc (row :: ids).reverse 0 (fun r hr => hc r (List.mem_reverse.1 hr))
      (by
        intro i hi
        obtain ⟨r, hr, hi⟩ := List.mem_flatten.1 hi
        exact h i (List.mem_flatten.2 ⟨r, List.mem_reverse.1 hr, hi⟩))
    refine ⟨b, hb, ?_⟩
    rintro rfl
    rw [List.length_reverse, List.length_cons, List.length_nil] at hl
    exact absurd hl.symm (Nat.mul_pos (Nat.succ_pos ids.length) hnc).ne'

theorem addDiv_ne (eps : K) (ds : List K) (x : K) : Grid.addDiv eps ds x ≠ [] := by
  unfold Grid.addDiv
  split
  · rename_i h
    rintro rfl
    simp at h
  · simp

theorem boxDivs_ne (eps : K) {b : List (K × K)} (h : b ≠ []) : Grid.boxDivs eps b ≠ [] := by
  have key : ∀ (b : List (K × K)) (ds : List K), ds ≠ [] →
      b.foldl (fun ds b => Grid.addDiv eps (Grid.addDiv eps ds b.1) b.2) ds ≠ [] := by
    intro b
    induction b with
    | nil => intro ds h; exact h
    | cons x b ih => intro ds _; exact ih _ (addDiv_ne _ _ _)
  cases b with
  | nil => exact absurd rfl h
  | cons x b => exact key b _ (addDiv_ne _ _ _)

theorem extents_some {xs ys : List K} (hx : xs ≠ []) (hy : ys ≠ []) : ∃ e, extents xs ys = some e := by
  unfold extents
  rw [List.head?_eq_some_head hx, List.head?_eq_some_head hy, List.getLast?_eq_some_getLast hx, List.getLast?_eq_some_getLast hy]
  exact ⟨_, rfl⟩

theorem mkGrid_some {sort : List K → List K} (hsort : ∀ l, IsStdSort (fun a b => decide (a < b)) l (sort l)) (eps : K) {dxdy : List (K × K)}
    {nc : Nat} (hnc : 0 < nc) {ids : List (List Nat)} (hne : ids ≠ []) (hc : ∀ r ∈ ids, r.length = nc)
    (h : ∀ i ∈ ids.flatten, i < dxdy.length) :
    ∃ xs ys, mkGrid sort eps dxdy ids = some (xs, ys) ∧ Grid.IsIdGrid eps dxdy ids xs ys ∧ xs ≠ [] ∧ ys ≠ [] := by
  obtain ⟨b, hb, hbn⟩ := gridBoxes_some hnc hne hc h
  have nonempty : ∀ l : List K, l ≠ [] → sort l ≠ [] := by
    intro l hl hs
    have := (hsort l).perm.length_eq
    rw [hs] at this
    exact hl (List.length_eq_zero_iff.1 this.symm)
  refine ⟨_, _, by unfold mkGrid; rw [hb]; rfl, ⟨b, hb, hsort _, hsort _⟩, ?_, ?_⟩
  · exact nonempty _ (boxDivs_ne _ (by simpa using hbn))
  · exact nonempty _ (boxDivs_ne _ (by simpa using hbn))

theorem uniqueIds_mem (ids : List ℤ) : ∀ x, x ∈ uniqueIds ids ↔ x ∈ ids := by
  have key : ∀ (ids u : List ℤ) x, x ∈ ids.foldl (fun u id => if id ∈ u then u else u ++ [id]) u ↔ x ∈ u ∨ x ∈ ids := by
    intro ids
    induction ids with
    | nil => simp
    | cons i ids ih =>
      intro u x
      rw [List.foldl_cons, ih]
      split
      · rename_i h
        constructor
        · rintro (h' | h')
          · exact Or.inl h'
          · exact Or.inr (by simp [h'])
        · rintro (h' | h')
          · exact Or.inl h'
          · rcases List.mem_cons.1 h' with rfl | h'
            · exact Or.inl h
            · exact Or.inr h'
      · simp [or_assoc]
  intro x
  rw [uniqueIds, key]
  simp

theorem mapM_some_getElem? {α β : Type} {f : α → Option β} : ∀ {l : List α}, (∀ x ∈ l, ∃ y, f x = some y) →
    ∃ out : List β, l.mapM f = some out ∧ out.length = l.length ∧ ∀ (i : Nat) (x : α), l[i]? = some x → out[i]? = f x := by
  intro l
  induction l with
  | nil => intro _; exact ⟨[], by simp, rfl, by simp⟩
  | cons a l ih =>
    intro h
    obtain ⟨y, hy⟩ := h a (by simp)
    obtain ⟨out, h1, h2, h3⟩ := ih fun x hx => h x (by simp [hx])
    refine ⟨y :: out, by rw [List.mapM_cons, hy]; simp [h1], by simp [h2], ?_⟩
    intro i x hx
    cases i with
    | zero => simp at hx ⊢; rw [← hx, hy]
    | succ i => simp at hx ⊢; exact h3 i x hx

/-- **C58.**  An array of existing coarse cells with rows of one length is accepted as an RTM, on the grid of the extents of these
cells, exactly if its extents agree with those of the first RTM. -/
theorem C58_rtm {sort : List K → List K} (hsort : ∀ l, IsStdSort (fun a b => decide (a < b)) l (sort l)) (eps : K) (s : Model K M)
    (ids : List (List ℤ)) (nc : Nat) (hnc : 0 < nc) (hne : ids ≠ []) (hc : ∀ row ∈ ids, row.length = nc)
    (hr : ∀ x ∈ ids.flatten, 0 ≤ x ∧ x < s.cells.length) :
    ∃ xs ys e, Grid.IsIdGrid eps (s.cells.map fun c => c.ext) (ids.map fun row => row.map Int.toNat) xs ys ∧ extents xs ys = some e ∧
      (s.rtms = [] → addRTM sort eps s ids = some ({ s with rtms := [⟨xs, ys, ids.reverse.flatten⟩] }, 0)) ∧
      (∀ r0 rest e0, s.rtms = r0 :: rest → extents r0.xs r0.ys = some e0 →
        (addRTM sort eps s ids = some ({ s with rtms := s.rtms ++ [⟨xs, ys, ids.reverse.flatten⟩] }, (s.rtms.length : ℤ)) ↔
          (e0.1 - e.1) * (e0.1 - e.1) + (e0.2 - e.2) * (e0.2 - e.2) < eps * eps)) := by
  have hu : ∀ x ∈ uniqueIds ids.flatten, ∃ y, (fun id => (at? s.cells id).map fun c => c.ext) x = some y := by
    intro x hx
    obtain ⟨c, hc, -⟩ := at?_of_lt (l := s.cells) (hr x ((uniqueIds_mem _ x).1 hx)).1 (hr x ((uniqueIds_mem _ x).1 hx)).2
    exact ⟨c.ext, by dsimp only; rw [hc]; rfl⟩
  obtain ⟨dxdy, hd1, hd2, hd3⟩ := mapM_some_getElem? hu
  have hcongr : ∀ id ∈ ids.flatten, dxdy[(uniqueIds ids.flatten).idxOf id]? = (s.cells.map fun c => c.ext)[id.toNat]? := by
    intro id hid
    have hm := (uniqueIds_mem _ id).2 hid
    rw [hd3 _ id (List.getElem?_eq_some_iff.2 ⟨List.idxOf_lt_length_iff.2 hm, List.getElem_idxOf _⟩)]
    rw [List.getElem?_map, at?, if_neg (by have := (hr id hid).1; omega)]
  have hnat : ∀ i ∈ (ids.map fun row => row.map Int.toNat).flatten, i < (s.cells.map fun c => c.ext).length := by
    intro i hi
    obtain ⟨row, hrow, hi⟩ := List.mem_flatten.1 hi
    obtain ⟨r, hr1, rfl⟩ := List.mem_map.1 hrow
    obtain ⟨x, hx, rfl⟩ := List.mem_map.1 hi
    have := hr x (List.mem_flatten.2 ⟨r, hr1, hx⟩)
    rw [List.length_map]
    omega
  obtain ⟨xs, ys, hg, hgrid, hx, hy⟩ := mkGrid_some hsort eps (dxdy := s.cells.map fun c => c.ext) hnc (ids := ids.map fun row => row.map Int.toNat)
    (by simpa using hne) (by intro r hr'; obtain ⟨r', h1, rfl⟩ := List.mem_map.1 hr'; rw [List.length_map]; exact hc r' h1) hnat
  obtain ⟨e, he⟩ := extents_some hx hy
  have hg' : mkGrid sort eps dxdy (ids.map fun row => row.map fun id => (uniqueIds ids.flatten).idxOf id) = some (xs, ys) := by
    rw [← hg]
    unfold mkGrid
    rw [gridBoxes_congr ids hcongr]
  have hflat := flattenLattice_eq ids nc hne hc
  refine ⟨xs, ys, e, hgrid, he, ?_, ?_⟩
  · intro hs
    unfold addRTM
    dsimp only
    rw [if_neg (by rw [any_range_iff]; exact not_not.2 hr), hd1, Option.bind_some, hg', Option.bind_some]
    dsimp only
    rw [hs, hflat, Option.bind_some]
    rfl
  · intro r0 rest e0 hs he0
    have : addRTM sort eps s ids = if !isApprox eps e0 e then some (s, -1) else
        some ({ s with rtms := s.rtms ++ [⟨xs, ys, ids.reverse.flatten⟩] }, (s.rtms.length : ℤ)) := by
      unfold addRTM
      dsimp only
      rw [if_neg (by rw [any_range_iff]; exact not_not.2 hr), hd1, Option.bind_some, hg', Option.bind_some]
      dsimp only
      rw [hs]
      dsimp only
      rw [he0, Option.bind_some, he, Option.bind_some, hflat, Option.bind_some]
    rw [this]
    by_cases ha : isApprox eps e0 e = true
    · rw [ha]
      simp only [Bool.not_true, Bool.false_eq_true, if_false, true_iff]
      exact of_decide_eq_true ha
    · rw [Bool.not_eq_true] at ha
      rw [ha]
      simp only [Bool.not_false, if_true, Option.some.injEq, Prod.mk.injEq]
      constructor
      · intro h
        omega
      · intro h
        exact absurd h (of_decide_eq_false ha)

/-- **C58.**  An array of RTMs is accepted as a lattice exactly if it has rows of one length and the ids exist (for at least one row, and with an
RTM whose grid is not empty). -/
theorem C58_lattice (s : Model K M) (ids : List (List ℤ)) (r0 : Rect K) (rest : List (Rect K)) (e : K × K) (hs : s.rtms = r0 :: rest)
    (he : extents r0.xs r0.ys = some e) (hne : ids ≠ []) :
    ∃ s' r, addLattice s ids = some (s', r) ∧ (r ≠ -1 ↔ (∃ nc, ∀ row ∈ ids, row.length = nc) ∧ ∀ x ∈ ids.flatten, 0 ≤ x ∧ x < s.rtms.length) := by
  have neg : ∀ n : Nat, (n : ℤ) ≠ -1 := fun n => by omega
  unfold addLattice
  by_cases hr : ids.flatten.any (fun id => decide (id < 0) || decide (id ≥ (s.rtms.length : ℤ))) = true
  · rw [if_pos hr]
    exact ⟨s, -1, rfl, fun h => absurd rfl h, fun h => absurd h.2 (any_range_iff.1 hr)⟩
  rw [if_neg hr]
  have hr' := any_range hr
  cases ids with
  | nil => exact absurd rfl hne
  | cons row0 rows =>
    rw [hs]
    dsimp only
    rw [he, Option.bind_some]
    by_cases hrag : rows.any (fun row => decide (row.length ≠ row0.length)) = true
    · rw [if_pos hrag]
      refine ⟨s, -1, rfl, fun h => absurd rfl h, ?_⟩
      rintro ⟨⟨nc, hc⟩, -⟩
      obtain ⟨row, h1, h2⟩ := List.any_eq_true.1 hrag
      exact absurd ((hc row (by simp [h1])).trans (hc row0 (by simp)).symm) (of_decide_eq_true h2)
    · rw [if_neg hrag]
      have hc : ∀ row ∈ row0 :: rows, row.length = row0.length := by
        intro row hrow
        rcases List.mem_cons.1 hrow with rfl | hrow
        · rfl
        · by_contra hne
          exact hrag (List.any_eq_true.2 ⟨row, hrow, decide_eq_true hne⟩)
      rw [flattenLattice_eq _ _ (by simp) hc, Option.bind_some]
      exact ⟨_, _, rfl, fun _ => ⟨⟨_, hc⟩, hs ▸ hr'⟩, fun _ => neg _⟩

/-- **C58.**  A stack of lattices is accepted as an assembly exactly if the ids exist, the planes are one more, ascending, either from 0 or
`-1/2 … 1/2` (2D), with bottom and top of the first assembly, and the lattices have the same numbers of cells. -/
theorem C58_assembly (eps : K) (s : Model K M) (id0 : ℤ) (rest : List ℤ) (z : List K) (hz : ∀ a ∈ s.assemblies, a.zs ≠ []) :
    ∃ s' r, addAssembly eps s (id0 :: rest) z = some (s', r) ∧ (r ≠ -1 ↔ (∀ x ∈ id0 :: rest, 0 ≤ x ∧ x < s.lattices.length) ∧
      (id0 :: rest).length + 1 = z.length ∧ z.Pairwise (· ≤ ·) ∧
      (∃ z0 z1, z.head? = some z0 ∧ z.getLast? = some z1 ∧ (|z0| ≤ eps ∨ (|z0 + 1 / 2| ≤ eps ∧ |z1 - 1 / 2| ≤ eps)) ∧
        ∀ a l, s.assemblies = a :: l → ∃ b0 b1, a.zs.head? = some b0 ∧ a.zs.getLast? = some b1 ∧ |z0 - b0| ≤ eps ∧ |z1 - b1| ≤ eps) ∧
      ∃ nx ny, ∀ x ∈ id0 :: rest, ∀ l, s.lattices[x.toNat]? = some l → l.nx = nx ∧ l.ny = ny) := by
  have neg : ∀ n : Nat, (n : ℤ) ≠ -1 := fun n => by omega
  have accepted : ∀ s' r, addAssembly eps s (id0 :: rest) z = some (s', r) → r ≠ -1 → (∀ x ∈ id0 :: rest, 0 ≤ x ∧ x < s.lattices.length) ∧
      (id0 :: rest).length + 1 = z.length ∧ z.Pairwise (· ≤ ·) ∧
      (∃ z0 z1, z.head? = some z0 ∧ z.getLast? = some z1 ∧ (|z0| ≤ eps ∨ (|z0 + 1 / 2| ≤ eps ∧ |z1 - 1 / 2| ≤ eps)) ∧
        ∀ a l, s.assemblies = a :: l → ∃ b0 b1, a.zs.head? = some b0 ∧ a.zs.getLast? = some b1 ∧ |z0 - b0| ≤ eps ∧ |z1 - b1| ≤ eps) ∧
      ∃ nx ny, ∀ x ∈ id0 :: rest, ∀ l, s.lattices[x.toNat]? = some l → l.nx = nx ∧ l.ny = ny := by
    intro s' r h hr
    rcases addAssembly_cases h with ⟨-, h⟩ | ⟨z0, z1, l0, -, h2, h3, h4, h5, h6, h7, h8, h9, -, -⟩
    · exact absurd h hr
    · refine ⟨h2, h3, h4, ⟨z0, z1, h5, h6, h7, h9⟩, l0.nx, l0.ny, fun x hx l hl => ?_⟩
      obtain ⟨l', h1, h2⟩ := h8 x hx
      rw [(at?_eq.1 h1).2] at hl
      cases hl
      exact h2
  have key : ∀ s' r, addAssembly eps s (id0 :: rest) z = some (s', r) → ((∀ x ∈ id0 :: rest, 0 ≤ x ∧ x < s.lattices.length) ∧
      (id0 :: rest).length + 1 = z.length ∧ z.Pairwise (· ≤ ·) ∧
      (∃ z0 z1, z.head? = some z0 ∧ z.getLast? = some z1 ∧ (|z0| ≤ eps ∨ (|z0 + 1 / 2| ≤ eps ∧ |z1 - 1 / 2| ≤ eps)) ∧
        ∀ a l, s.assemblies = a :: l → ∃ b0 b1, a.zs.head? = some b0 ∧ a.zs.getLast? = some b1 ∧ |z0 - b0| ≤ eps ∧ |z1 - b1| ≤ eps) ∧
      ∃ nx ny, ∀ x ∈ id0 :: rest, ∀ l, s.lattices[x.toNat]? = some l → l.nx = nx ∧ l.ny = ny) → r ≠ -1 := by
    rintro s' r h ⟨h1, h2, h3, ⟨z0, z1, hz0, hz1, h4, h5⟩, nx, ny, h6⟩
    unfold addAssembly at h
    rw [if_neg (by rw [any_range_iff]; exact not_not.2 h1), if_neg (not_not.2 h2),
      if_neg (by rw [(isSorted_iff z).2 h3]; simp), hz0, Option.bind_some, hz1, Option.bind_some, if_neg (by
        rintro ⟨ha, hb⟩
        rcases h4 with h | h
        · exact absurd h (not_le.2 hb)
        · rcases ha with ha | ha
          · exact absurd h.1 (not_le.2 ha)
          · exact absurd h.2 (not_le.2 ha))] at h
    have hp : placeAssembly s (id0 :: rest) z = some ({ s with assemblies := s.assemblies ++ [⟨z, id0 :: rest⟩] }, (s.assemblies.length : ℤ)) := by
      have hl : ∀ x ∈ id0 :: rest, ∃ y, at? s.lattices x = some y := fun x hx => by
        obtain ⟨y, hy, -⟩ := at?_of_lt (h1 x hx).1 (h1 x hx).2
        exact ⟨y, hy⟩
      obtain ⟨ls, hls, hlen, hget⟩ := mapM_some_getElem? hl
      obtain ⟨l0, hl0⟩ := hl id0 (by simp)
      unfold placeAssembly
      dsimp only
      rw [hl0, Option.bind_some, hls, Option.bind_some, if_neg]
      intro hany
      obtain ⟨l, hlm, hne⟩ := List.any_eq_true.1 hany
      obtain ⟨i, hi, hl⟩ := List.mem_iff_getElem.1 hlm
      have hx : (id0 :: rest)[i]? = some ((id0 :: rest)[i]'(by omega)) := List.getElem?_eq_getElem _
      have hg := hget i _ hx
      rw [List.getElem?_eq_getElem hi, hl] at hg
      have e1 := h6 _ (List.getElem_mem (by omega)) l (at?_eq.1 hg.symm).2
      have e2 := h6 id0 (by simp) l0 (at?_eq.1 hl0).2
      simp only [Bool.or_eq_true, decide_eq_true_eq] at hne
      rcases hne with hne | hne
      · exact hne (e1.1.trans e2.1.symm)
      · exact hne (e1.2.trans e2.2.symm)
    split at h
    · rw [hp] at h
      injection h with h
      injection h with _ h
      rw [← h]
      exact neg _
    · rename_i a l hs
      obtain ⟨b0, b1, hb0, hb1, hc0, hc1⟩ := h5 a l hs
      rw [hb0, Option.bind_some, hb1, Option.bind_some, if_neg (by push Not; exact ⟨hc1, hc0⟩), hp] at h
      injection h with h
      injection h with _ h
      rw [← h]
      exact neg _
  have total : ∃ s' r, addAssembly eps s (id0 :: rest) z = some (s', r) := by
    unfold addAssembly
    split
    · exact ⟨_, _, rfl⟩
    rename_i hids
    have hids := any_range hids
    split
    · exact ⟨_, _, rfl⟩
    rename_i hlen
    split
    · exact ⟨_, _, rfl⟩
    have hzne : z ≠ [] := by
      rintro rfl
      simp at hlen
    have hp : ∃ s' r, placeAssembly s (id0 :: rest) z = some (s', r) := by
      have hl : ∀ x ∈ id0 :: rest, ∃ y, at? s.lattices x = some y := fun x hx => by
        obtain ⟨y, hy, -⟩ := at?_of_lt (hids x hx).1 (hids x hx).2
        exact ⟨y, hy⟩
      obtain ⟨ls, hls, -, -⟩ := mapM_some_getElem? hl
      obtain ⟨l0, hl0⟩ := hl id0 (by simp)
      unfold placeAssembly
      dsimp only
      rw [hl0, Option.bind_some, hls, Option.bind_some]
      split
      · exact ⟨_, _, rfl⟩
      · exact ⟨_, _, rfl⟩
    rw [List.head?_eq_some_head hzne, List.getLast?_eq_some_getLast hzne, Option.bind_some, Option.bind_some]
    split
    · exact ⟨_, _, rfl⟩
    split
    · exact hp
    · rename_i a l hs
      have ha := hz a (by rw [hs]; simp)
      rw [List.head?_eq_some_head ha, List.getLast?_eq_some_getLast ha, Option.bind_some, Option.bind_some]
      split
      · exact ⟨_, _, rfl⟩
      · exact hp
  obtain ⟨s', r, h⟩ := total
  exact ⟨s', r, h, accepted s' r h, key s' r h⟩

/-! ### Examples -/

section Examples

/-- Rational stand-ins; the trigonometric functions are not used by the grids below. -/
def exLibm : Libm ℚ := ⟨fun x => x, fun x => x, fun x => x, 3, 1 / 1000000⟩

def exInsert (a : ℚ) : List ℚ → List ℚ
  | [] => [a]
  | b :: l => if a ≤ b then a :: b :: l else b :: exInsert a l

def exSort (l : List ℚ) : List ℚ := l.foldr exInsert []

/-- Two coarse cells side by side, as one RTM, lattice, assembly and core: all accepted. -/
def exCell : Op ℚ String := .coarseCell (1, 2) ElemTypes.MeshType.Invalid (-1) []

def exRun (ops : List (Op ℚ String)) : Option (Model ℚ String × List ℤ) :=
  ops.foldl (fun st op => st.bind fun (s, rs) => (step exLibm exSort (fun x => x) s op).map fun (s, r) => (s, rs ++ [r]))
    (some (Model.empty ℚ String, []))

example : ((exRun [.material "fuel", exCell, exCell, .rtm [[0, 1]], .lattice [[0], [0]], .assembly [0] [0, 10], .core [[0]], .core [[0]],
    .rtm [[0]], .lattice [[1]], .lattice [[0], [0, 0]]]).map (·.2)) = some [0, 0, 1, 0, 0, 0, 0, -1, -1, -1, -1] := by
  decide +kernel

example : ((exRun [.material "fuel", exCell, exCell, .rtm [[0, 1]], .lattice [[0], [0]]]).map fun st => st.1.rtms.map fun r => (r.xs, r.ys)) =
    some [([0, 1, 2], [0, 2])] := by
  decide +kernel

example : ((exRun [.material "fuel", exCell, exCell, .rtm [[0, 1]], .lattice [[0], [0]]]).map fun st => st.1.rtms.map fun r => r.children) =
    some [[0, 1]] := by
  decide +kernel

/-- An accepted pin mesh, as `C58_pinCell_fails` needs it. -/
example : ((addCylindricalPinMesh exLibm (Model.empty ℚ String) 2 [1 / 2] [1] 8 1).map (·.2)) = some 0 := by
  decide +kernel

/-- An array whose first row is the shortest is accepted as an RTM, without children. -/
theorem C57_ragged_fails : (exRun [exCell, exCell, .rtm [[0], [0, 1]]]).map (fun st => (st.2, st.1.rtms.map fun r => (r.xs, r.ys, r.children))) =
    some ([0, 1, 0], [([0, 1], [0, 2, 4], [])]) := by
  decide +kernel

end Examples

end Verif.Mpact
