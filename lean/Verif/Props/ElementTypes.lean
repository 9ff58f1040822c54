import Verif.Model.ElementTypes
import Mathlib.Data.List.Perm.Basic
import Mathlib.Algebra.BigOperators.Group.List.Basic
import Mathlib.Tactic.SplitIfs

/-!
# C40 Element type codes convert without loss

The specification is the table of supported cells as published by VTK and XDMF:
`(VTK cell type, XDMF topology code, number of nodes)`.
-/

namespace Verif.ElemTypes

/-- Supported cells: vertex, line, triangle, quad, quadratic edge, triangle, quad. -/
def cellTable : List (ℤ × ℤ × ℤ) :=
  [(1, 1, 1), (3, 2, 2), (5, 4, 3), (9, 5, 4), (21, 34, 3), (22, 36, 6), (23, 37, 8)]

/-- The set of element types and mesh type code of each supported mesh. -/
def meshTable : List (List ℤ × ℤ) :=
  [([5], 3), ([9], 4), ([5, 9], 7), ([22], 6), ([23], 8), ([22, 23], 14)]

/-- Each supported cell has the published VTK and XDMF codes and node count. -/
theorem C40_table (v x n : ℤ) (h : (v, x, n) ∈ cellTable) :
    vtkToXDMF v = x ∧ xdmfToVTK x = v ∧ verticesPerElem v = n := by
  simp only [cellTable, List.mem_cons, Prod.mk.injEq, List.not_mem_nil, or_false] at h
  rcases h with ⟨rfl, rfl, rfl⟩ | ⟨rfl, rfl, rfl⟩ | ⟨rfl, rfl, rfl⟩ | ⟨rfl, rfl, rfl⟩ |
    ⟨rfl, rfl, rfl⟩ | ⟨rfl, rfl, rfl⟩ | ⟨rfl, rfl, rfl⟩ <;> decide

example : (22, 36, 6) ∈ cellTable := by decide

/-- Any VTK code that is not in the table is mapped to `Invalid`, and has no vertex count. -/
theorem C40_vtk_unsupported (v : ℤ) (h : ∀ x n, (v, x, n) ∉ cellTable) :
    vtkToXDMF v = 0 ∧ verticesPerElem v = -1000 := by
  simp only [cellTable, List.mem_cons, Prod.mk.injEq, List.not_mem_nil, or_false] at h
  unfold vtkToXDMF verticesPerElem
  simp only [VTK.Vertex, VTK.Line, VTK.Triangle, VTK.Quad, VTK.QuadraticEdge,
    VTK.QuadraticTriangle, VTK.QuadraticQuad, XDMF.Invalid]
  have h1 : v ≠ 1 := fun e => h 1 1 (by simp [e])
  have h2 : v ≠ 3 := fun e => h 2 2 (by simp [e])
  have h3 : v ≠ 5 := fun e => h 4 3 (by simp [e])
  have h4 : v ≠ 9 := fun e => h 5 4 (by simp [e])
  have h5 : v ≠ 21 := fun e => h 34 3 (by simp [e])
  have h6 : v ≠ 22 := fun e => h 36 6 (by simp [e])
  have h7 : v ≠ 23 := fun e => h 37 8 (by simp [e])
  simp [h1, h2, h3, h4, h5, h6, h7]

example : ∀ x n, ((12 : ℤ), x, n) ∉ cellTable := by simp [cellTable]

/-- Any XDMF code that is not in the table is mapped to `Invalid`. -/
theorem C40_xdmf_unsupported (x : ℤ) (h : ∀ v n, (v, x, n) ∉ cellTable) : xdmfToVTK x = 0 := by
  simp only [cellTable, List.mem_cons, Prod.mk.injEq, List.not_mem_nil, or_false] at h
  unfold xdmfToVTK
  simp only [XDMF.Vertex, XDMF.Line, XDMF.Triangle, XDMF.Quad, XDMF.QuadraticEdge,
    XDMF.QuadraticTriangle, XDMF.QuadraticQuad, VTK.Invalid]
  have h1 : x ≠ 1 := fun e => h 1 1 (by simp [e])
  have h2 : x ≠ 2 := fun e => h 3 2 (by simp [e])
  have h3 : x ≠ 4 := fun e => h 5 3 (by simp [e])
  have h4 : x ≠ 5 := fun e => h 9 4 (by simp [e])
  have h5 : x ≠ 34 := fun e => h 21 3 (by simp [e])
  have h6 : x ≠ 36 := fun e => h 22 6 (by simp [e])
  have h7 : x ≠ 37 := fun e => h 23 8 (by simp [e])
  simp [h1, h2, h3, h4, h5, h6, h7]

example : ∀ v n, (v, (9 : ℤ), n) ∉ cellTable := by simp [cellTable]

/-- Conversion to XDMF and back is the identity on every code it accepts. -/
theorem C40_vtk_roundtrip (v : ℤ) (h : vtkToXDMF v ≠ 0) : xdmfToVTK (vtkToXDMF v) = v := by
  by_cases hc : ∃ x n, (v, x, n) ∈ cellTable
  · obtain ⟨x, n, hm⟩ := hc
    obtain ⟨h1, h2, -⟩ := C40_table v x n hm
    rw [h1, h2]
  · push Not at hc
    exact absurd (C40_vtk_unsupported v hc).1 h

/-- Conversion to VTK and back is the identity on every code it accepts. -/
theorem C40_xdmf_roundtrip (x : ℤ) (h : xdmfToVTK x ≠ 0) : vtkToXDMF (xdmfToVTK x) = x := by
  by_cases hc : ∃ v n, (v, x, n) ∈ cellTable
  · obtain ⟨v, n, hm⟩ := hc
    obtain ⟨h1, h2, -⟩ := C40_table v x n hm
    rw [h2, h1]
  · push Not at hc
    exact absurd (C40_xdmf_unsupported x hc) h

example : vtkToXDMF 23 ≠ 0 ∧ xdmfToVTK 37 ≠ 0 := by decide

/-- The type inferred from a vertex count has that many vertices. -/
theorem C40_infer_count (n : ℤ) (h : inferVTKElemType n ≠ 0) :
    verticesPerElem (inferVTKElemType n) = n := by
  unfold inferVTKElemType at h ⊢
  split_ifs at h ⊢ <;> subst_vars <;> first | decide | exact absurd rfl h

/-- Every supported type except the quadratic edge is inferred from its vertex count. -/
theorem C40_infer_type (v : ℤ) (h : vtkToXDMF v ≠ 0) (hq : v ≠ 21) :
    inferVTKElemType (verticesPerElem v) = v := by
  by_cases hc : ∃ x n, (v, x, n) ∈ cellTable
  · obtain ⟨x, n, hm⟩ := hc
    simp only [cellTable, List.mem_cons, Prod.mk.injEq, List.not_mem_nil, or_false] at hm
    rcases hm with ⟨rfl, -⟩ | ⟨rfl, -⟩ | ⟨rfl, -⟩ | ⟨rfl, -⟩ | ⟨rfl, -⟩ | ⟨rfl, -⟩ | ⟨rfl, -⟩ <;>
      first | decide | exact absurd rfl hq
  · push Not at hc
    exact absurd (C40_vtk_unsupported v hc).1 h

example : vtkToXDMF 22 ≠ 0 ∧ (22 : ℤ) ≠ 21 := by decide

/-- The quadratic edge is the only supported type that is not determined by its vertex count. -/
theorem C40_infer_edge_fails : vtkToXDMF 21 ≠ 0 ∧ inferVTKElemType (verticesPerElem 21) = 5 := by
  decide

/-- `getMeshType` does not depend on the order in which the element types are listed. -/
theorem C40_meshType_perm (l l' : List ℤ) (h : l.Perm l') : getMeshType l = getMeshType l' := by
  match l, l' with
  | [], l' => rw [List.nil_perm.1 h]
  | [a], l' => rw [List.perm_singleton.1 h.symm]
  | [a, b], l' =>
    have h2 := h.length_eq
    match l', h2 with
    | [c, d], _ =>
      rw [List.perm_comm] at h
      have hc : c = a ∧ d = b ∨ c = b ∧ d = a := by
        have hmem : c ∈ [a, b] := h.mem_iff.1 (by simp)
        simp only [List.mem_cons, List.not_mem_nil, or_false] at hmem
        rcases hmem with rfl | rfl
        · left; exact ⟨rfl, by simpa using List.perm_singleton.1 ((List.perm_cons c).1 h)⟩
        · right
          have h3 : [c, d].Perm [c, a] := h.trans (List.Perm.swap c a [])
          exact ⟨rfl, by simpa using List.perm_singleton.1 ((List.perm_cons c).1 h3)⟩
      rcases hc with ⟨rfl, rfl⟩ | ⟨rfl, rfl⟩
      · rfl
      · simp only [getMeshType]
        rcases (by omega : c < d ∨ c = d ∨ d < c) with hlt | rfl | hlt
        · have : ¬ c > d := by omega
          simp [hlt, this]
        · rfl
        · have : ¬ d > c := by omega
          simp [hlt, this]
  | a :: b :: c :: t, l' =>
    have h2 := h.length_eq
    match l', h2 with
    | _ :: _ :: _ :: _, _ => rfl

example : ([9, 5] : List ℤ).Perm [5, 9] := List.Perm.swap 5 9 []

/-- The mesh type of a list of element types is the one in the table, for every order of the
list, and `Invalid` for every list that is no reordering of an entry of the table. -/
theorem C40_meshType (l : List ℤ) :
    (∀ ts m, (ts, m) ∈ meshTable → l.Perm ts → getMeshType l = m) ∧
      ((∀ ts m, (ts, m) ∈ meshTable → ¬ l.Perm ts) → getMeshType l = 0) := by
  constructor
  · intro ts m hm hp
    rw [C40_meshType_perm l ts hp]
    simp only [meshTable, List.mem_cons, Prod.mk.injEq, List.not_mem_nil, or_false] at hm
    rcases hm with ⟨rfl, rfl⟩ | ⟨rfl, rfl⟩ | ⟨rfl, rfl⟩ | ⟨rfl, rfl⟩ | ⟨rfl, rfl⟩ | ⟨rfl, rfl⟩ <;>
      decide
  · intro h
    match l with
    | [] => rfl
    | [a] =>
      have h3 : a ≠ 5 := fun e => h [5] 3 (by simp [meshTable]) (by simp [e])
      have h4 : a ≠ 9 := fun e => h [9] 4 (by simp [meshTable]) (by simp [e])
      have h5 : a ≠ 22 := fun e => h [22] 6 (by simp [meshTable]) (by simp [e])
      have h6 : a ≠ 23 := fun e => h [23] 8 (by simp [meshTable]) (by simp [e])
      simp [getMeshType, VTK.Triangle, VTK.Quad, VTK.QuadraticTriangle, VTK.QuadraticQuad,
        h3, h4, h5, h6, MeshType.Invalid]
    | [a, b] =>
      have h1 : ¬ (a = 5 ∧ b = 9) := fun e => h [5, 9] 7 (by simp [meshTable]) (by simp [e])
      have h2 : ¬ (b = 5 ∧ a = 9) := fun e => h [5, 9] 7 (by simp [meshTable])
        (by rw [e.1, e.2]; exact List.Perm.swap _ _ _)
      have h3 : ¬ (a = 22 ∧ b = 23) := fun e => h [22, 23] 14 (by simp [meshTable]) (by simp [e])
      have h4 : ¬ (b = 22 ∧ a = 23) := fun e => h [22, 23] 14 (by simp [meshTable])
        (by rw [e.1, e.2]; exact List.Perm.swap _ _ _)
      simp only [getMeshType, VTK.Triangle, VTK.Quad, VTK.QuadraticTriangle, VTK.QuadraticQuad,
        MeshType.Invalid]
      by_cases hab : a > b
      · simp [hab, h2, h4]
      · simp [hab, h1, h3]
    | _ :: _ :: _ :: _ => rfl

example : ([5, 9], (7 : ℤ)) ∈ meshTable := by decide
example : ∀ ts m, (ts, m) ∈ meshTable → ¬ [(5 : ℤ), 22].Perm ts := by
  intro ts m hm
  simp only [meshTable, List.mem_cons, Prod.mk.injEq, List.not_mem_nil, or_false] at hm
  rcases hm with ⟨rfl, rfl⟩ | ⟨rfl, rfl⟩ | ⟨rfl, rfl⟩ | ⟨rfl, rfl⟩ | ⟨rfl, rfl⟩ | ⟨rfl, rfl⟩ <;>
    decide

/-- The mesh type code of a supported mesh is the total number of vertices of its element
types, so different supported meshes have different codes. -/
theorem C40_meshType_code (l : List ℤ) (h : getMeshType l ≠ 0) :
    getMeshType l = (l.map verticesPerElem).sum := by
  by_cases hc : ∃ ts m, (ts, m) ∈ meshTable ∧ l.Perm ts
  · obtain ⟨ts, m, hm, hp⟩ := hc
    rw [(C40_meshType l).1 ts m hm hp, (hp.map verticesPerElem).sum_eq]
    simp only [meshTable, List.mem_cons, Prod.mk.injEq, List.not_mem_nil, or_false] at hm
    rcases hm with ⟨rfl, rfl⟩ | ⟨rfl, rfl⟩ | ⟨rfl, rfl⟩ | ⟨rfl, rfl⟩ | ⟨rfl, rfl⟩ | ⟨rfl, rfl⟩ <;>
      decide
  · push Not at hc
    exact absurd ((C40_meshType l).2 hc) h

example : getMeshType [23, 22] ≠ 0 := by decide

end Verif.ElemTypes
