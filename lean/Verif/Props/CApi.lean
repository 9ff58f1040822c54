import Verif.Lemmas.CApiWalk
import Verif.Model.Mem

/-!
# C115 The C interface shows the whole model
-/

namespace Verif.CApi

open Verif.XSLib (Res)
open Verif.Mpact (Model CoarseCell IsMeshOf placedCells placedFineCells at? at?_eq below)
open Verif.OverlaySpec (Whole At Path)
open Verif.ElemTypes (MeshType)
open Verif.Pin (Mesh)

set_option linter.unusedSectionVars false
variable {K M : Type} [Field K] [LinearOrder K]

/-! ### The hierarchy -/

/-- **C115.**  A client that asks for numbers of cells and for children, level by level, is never outside a table.  It sees a coarse cell at a
place exactly if it stands there, every place once, rows from the front and lattices from below; and in this order the cells are those that
the totals of the model count. -/
theorem C115_walk (s : Model K M) (h : Whole s) : ∃ out, walk s = .ok out ∧
    (∀ p c, (p, c) ∈ out ↔ ∃ cut, At s p.path c cut) ∧
    out.Pairwise (fun a b => a.1.path.before b.1.path) ∧
    out.map (·.2) = placedCells s :=
  ⟨coreW s, walk_eq s h, coreW_mem s h, (up_coreW s).2, coreW_snd s h⟩

theorem some_bind {α β : Type} (a : α) (f : α → Res β) : (Res.ofOption (some a)).bind f = f a := rfl

theorem cell_eq {s : Model K M} {cc : ℤ} {c : CoarseCell K} (h : IsCell s cc c) : at? s.cells cc = some c := at?_eq.2 h

theorem materialIDs_eq {s : Model K M} {cc : ℤ} {c : CoarseCell K} (h : IsCell s cc c) (buf : List Int8) :
    materialIDs s cc buf = putAll buf 0 c.mats := by
  unfold materialIDs
  rw [cell_eq h]
  show fillFrom _ 0 c.mats.length buf = _
  rw [fillFrom_eq _ (fun i => c.mats.getD i 0) _ _ _ (fun j _ hj => by
    rw [List.getElem?_eq_getElem (by omega), List.getD_eq_getElem _ _ (by omega)]; rfl)]
  congr 1
  apply List.ext_getElem
  · simp
  · intro i h1 h2
    simp [h2]

/-- **C115.**  With arrays of the length that the interface gives, a client gets the materials of all fine cells of the core, in the order of the
model. -/
theorem C115_fine_cells (s : Model K M) (h : Whole s) : fineCells s = .ok (placedFineCells s) := by
  unfold fineCells
  rw [walk_eq s h]
  show loop _ _ = _
  have hin : ∀ q ∈ coreW s, ∃ c, IsCell s q.2 c := by
    rintro ⟨p, c⟩ hq
    obtain ⟨cut, i, asy, j, lat, r, rtm, _, _, _, _, _, _, _, _, -, -, ⟨-, -, -, -, hr⟩, ⟨-, -, hc, -⟩, -⟩ := (coreW_mem s h p c).1 hq
    have := (h.rtm rtm (List.mem_of_getElem? hr)).2.2 c (List.mem_of_getElem? hc)
    exact ⟨s.cells[c.toNat]'(by omega), this.1, List.getElem?_eq_getElem (by omega)⟩
  rw [loop_ok _ _ (fun i => ((coreW s).map (·.2)).getD i 0 |> fun c => (s.cells[c.toNat]?).elim [] (·.mats)) ?_]
  · rw [show ((coreW s).length : ℤ).toNat = ((coreW s).map (·.2)).length from by simp,
      column_eq _ fun c => (s.cells[c.toNat]?).elim [] (·.mats), coreW_snd s h]
    rfl
  intro i hi
  rw [Int.toNat_natCast] at hi
  obtain ⟨c, hc⟩ := hin _ (List.getElem_mem hi)
  rw [List.getElem?_eq_getElem hi, List.getD_eq_getElem _ _ (by simpa using hi), List.getElem_map]
  show (cellNumFaces s (coreW s)[i].2).bind _ = _
  have e : cellNumFaces s (coreW s)[i].2 = .ok (c.mats.length : ℤ) := by unfold cellNumFaces; rw [cell_eq hc]; rfl
  rw [e]
  show materialIDs s _ _ = _
  rw [materialIDs_eq hc, putAll_ok _ _ _ (by simp)]
  simp [hc.2]

/-! ### Coarse cells -/

theorem faceAreas_eq (area : MeshType → List (K × K) → K) {s : Model K M} {cc : ℤ} {c : CoarseCell K} {mesh : Mesh K} (h : Meshed s cc c mesh)
    (buf : List K) : faceAreas area s cc buf = putAll buf 0 ((List.range mesh.faces.length).map fun i => area c.meshType (cornersOf mesh i)) := by
  unfold faceAreas
  rw [cell_eq h.1, some_bind]
  rw [withMesh_eq h.2.1, fillFrom_eq _ (fun i => area c.meshType (cornersOf mesh i)) _ _ _ (fun j _ hj => by
    rw [face_eq (corners_of h.2.2.2 (by omega))]; rfl), List.range_eq_range']

/-- **C115.**  `um2MPACTCoarseCellFaceAreas` writes the areas of the faces, and nothing else.  If the array of the caller is shorter than the number
of faces it writes outside. -/
theorem C115_areas (area : MeshType → List (K × K) → K) (s : Model K M) (cc : ℤ) (c : CoarseCell K) (mesh : Mesh K) (h : Meshed s cc c mesh)
    (buf : List K) :
    (c.mats.length ≤ buf.length → ∃ out, faceAreas area s cc buf = .ok out ∧ out.length = buf.length ∧
      (∀ i < c.mats.length, ∃ vs, Corners mesh i vs ∧ out[i]? = some (area c.meshType vs)) ∧ ∀ i ≥ c.mats.length, out[i]? = buf[i]?) ∧
    (buf.length < c.mats.length → faceAreas area s cc buf = .undef) := by
  rw [faceAreas_eq area h, h.2.2.1]
  constructor
  · intro hb
    refine ⟨_, putAll_ok _ _ _ (by simpa using hb), by simp; omega, ?_, ?_⟩
    · intro i hi
      refine ⟨_, corners_of h.2.2.2 (by rw [h.2.2.1]; exact hi), ?_⟩
      simp [List.getElem?_append, hi]
    · intro i hi
      rw [List.getElem?_append_right (by simpa using hi)]
      simp only [List.getElem?_drop]
      congr 1
      simp
      omega
  · intro hb
    exact putAll_undef _ _ _ (Nat.zero_le _) (by simpa using hb)

/-- **C115.**  The same for `um2MPACTCoarseCellMaterialIDs`, with or without mesh. -/
theorem C115_materials (s : Model K M) (cc : ℤ) (c : CoarseCell K) (h : IsCell s cc c) (buf : List Int8) :
    cellNumFaces s cc = .ok (c.mats.length : ℤ) ∧
    (c.mats.length ≤ buf.length → materialIDs s cc buf = .ok (c.mats ++ buf.drop c.mats.length)) ∧
    (buf.length < c.mats.length → materialIDs s cc buf = .undef) := by
  refine ⟨by unfold cellNumFaces; rw [cell_eq h]; rfl, ?_, ?_⟩
  · intro hb
    rw [materialIDs_eq h, putAll_ok _ _ _ (by simpa using hb)]
    simp
  · intro hb
    rw [materialIDs_eq h]
    exact putAll_undef _ _ _ (Nat.zero_le _) (by simpa using hb)

/-- **C115.**  Materials and areas that a client gets with arrays of the length that the interface gives are those of the same face (for a cell with
a mesh, see `C115_meshless_fails`). -/
theorem C115_faces_partial (area : MeshType → List (K × K) → K) (s : Model K M) (cc : ℤ) (c : CoarseCell K) (mesh : Mesh K)
    (h : Meshed s cc c mesh) :
    ∃ out, faces area s cc = .ok out ∧ out.length = mesh.faces.length ∧
      ∀ i m a, out[i]? = some (m, a) ↔ c.mats[i]? = some m ∧ ∃ vs, Corners mesh i vs ∧ a = area c.meshType vs := by
  have e1 : cellNumFaces s cc = .ok (c.mats.length : ℤ) := by unfold cellNumFaces; rw [cell_eq h.1]; rfl
  have hl := h.2.2.1
  unfold faces
  rw [e1]
  show ∃ out, ((materialIDs s cc _).bind _) = .ok out ∧ _
  rw [materialIDs_eq h.1, putAll_ok _ _ _ (by simp)]
  show ∃ out, ((faceAreas area s cc _).bind _) = .ok out ∧ _
  rw [faceAreas_eq area h, putAll_ok _ _ _ (by simp [hl])]
  refine ⟨_, rfl, ?_, ?_⟩
  · simp [hl]
  · intro i m a
    simp only [Int.toNat_natCast, List.take_zero, List.nil_append, Nat.zero_add, List.drop_replicate, List.length_map, List.length_range, hl,
      Nat.sub_self, List.replicate_zero, List.append_nil, List.getElem?_zip_eq_some]
    constructor
    · rintro ⟨h1, h2⟩
      have hi := (List.getElem?_eq_some_iff.1 h1).1
      rw [List.getElem?_map, List.getElem?_range hi] at h2
      exact ⟨h1, _, corners_of h.2.2.2 (by omega), (Option.some.inj h2).symm⟩
    · rintro ⟨h1, vs, hv, rfl⟩
      have hi := (List.getElem?_eq_some_iff.1 h1).1
      refine ⟨h1, ?_⟩
      rw [List.getElem?_map, List.getElem?_range hi, corners_unique hv (corners_of h.2.2.2 (by omega))]
      rfl

/-- **C115.**  `um2MPACTCoarseCellFaceContaining` gives the first face that contains the point, and -1 exactly if there is none. -/
theorem C115_containing (inside : MeshType → K × K → List (K × K) → Bool) (s : Model K M) (cc : ℤ) (c : CoarseCell K) (mesh : Mesh K)
    (h : Meshed s cc c mesh) (p : K × K) :
    ∃ r, faceContaining inside s cc p = .ok r ∧
      ((r = -1 ∧ ∀ i vs, Corners mesh i vs → inside c.meshType p vs = false) ∨
        ∃ i : Nat, r = i ∧ i < c.mats.length ∧ (∀ vs, Corners mesh i vs → inside c.meshType p vs = true) ∧
          ∀ j < i, ∀ vs, Corners mesh j vs → inside c.meshType p vs = false) := by
  obtain ⟨r, h1, h2⟩ := firstFace_spec (inside c.meshType p) mesh (cornersOf mesh) mesh.faces.length 0
    (fun j _ hj => face_eq (corners_of h.2.2.2 (by omega)))
  have hc : ∀ i vs, Corners mesh i vs → i < mesh.faces.length ∧ vs = cornersOf mesh i := by
    intro i vs hv
    have hi : i < mesh.faces.length := by
      obtain ⟨f, hf, -⟩ := hv
      exact (List.getElem?_eq_some_iff.1 hf).1
    exact ⟨hi, corners_unique hv (corners_of h.2.2.2 hi)⟩
  refine ⟨r, ?_, ?_⟩
  · unfold faceContaining
    rw [cell_eq h.1, some_bind]
    rw [withMesh_eq h.2.1]
    exact h1
  · rcases h2 with ⟨rfl, h2⟩ | ⟨k, rfl, -, k2, k3, k4⟩
    · refine Or.inl ⟨rfl, fun i vs hv => ?_⟩
      obtain ⟨hi, rfl⟩ := hc i vs hv
      exact h2 i (Nat.zero_le _) (by omega)
    · refine Or.inr ⟨k, rfl, by rw [← h.2.2.1]; omega, fun vs hv => ?_, fun j hj vs hv => ?_⟩
      · obtain ⟨hi, rfl⟩ := hc k vs hv
        exact k3
      · obtain ⟨hi, rfl⟩ := hc j vs hv
        exact k4 j (Nat.zero_le _) hj

/-- **C115.**  `um2MPACTCoarseCellFaceCentroid` gives the centroid of the face, for the numbers of faces and no other. -/
theorem C115_centroid (centroid : MeshType → List (K × K) → K × K) (s : Model K M) (cc : ℤ) (c : CoarseCell K) (mesh : Mesh K)
    (h : Meshed s cc c mesh) (f : ℤ) :
    (0 ≤ f ∧ f < c.mats.length → ∃ vs, Corners mesh f.toNat vs ∧ faceCentroid centroid s cc f = .ok (centroid c.meshType vs)) ∧
    (¬ (0 ≤ f ∧ f < c.mats.length) → faceCentroid centroid s cc f = .undef) := by
  have e : faceCentroid centroid s cc f = (face mesh f).bind fun vs => .ok (centroid c.meshType vs) := by
    unfold faceCentroid
    rw [cell_eq h.1, some_bind]
    rw [withMesh_eq h.2.1]
  have hl := h.2.2.1
  rw [e]
  constructor
  · rintro ⟨h0, h1⟩
    have hv := corners_of h.2.2.2 (i := f.toNat) (by omega)
    refine ⟨_, hv, ?_⟩
    have := face_eq hv
    rw [Int.toNat_of_nonneg h0] at this
    rw [this]
    rfl
  · intro hf
    have : at? mesh.faces f = none := by
      unfold at?
      split
      · rfl
      · exact List.getElem?_eq_none (by omega)
    unfold face
    rw [this]
    rfl

/-- **C115.**  `um2MPACTIntersectCoarseCell` gives the coordinates of all intersections of all faces, in ascending order and as often as faces
have them, and leaves the rest of the array; if they do not fit it writes outside. -/
theorem C115_intersect (sort : List K → List K) (hsort : ∀ l, IsStdSort (fun a b => decide (a < b)) l (sort l))
    (hits : MeshType → List (K × K) → List K) (s : Model K M) (cc : ℤ) (c : CoarseCell K) (mesh : Mesh K) (h : Meshed s cc c mesh)
    (vs : List (List (K × K))) (hvs : vs.length = c.mats.length ∧ ∀ i v, vs[i]? = some v → Corners mesh i v) (buf : List K) :
    ((vs.flatMap (hits c.meshType)).length ≤ buf.length → ∃ out, intersectCell sort hits s cc buf =
      .ok (out ++ buf.drop (vs.flatMap (hits c.meshType)).length, (vs.flatMap (hits c.meshType)).length) ∧
      out.Pairwise (· ≤ ·) ∧ out.Perm (vs.flatMap (hits c.meshType))) ∧
    (buf.length < (vs.flatMap (hits c.meshType)).length → intersectCell sort hits s cc buf = .undef) := by
  have hl := h.2.2.1
  have e : (List.range' 0 mesh.faces.length).flatMap (fun j => hits c.meshType (cornersOf mesh j)) = vs.flatMap (hits c.meshType) := by
    have : vs = (List.range mesh.faces.length).map (cornersOf mesh) := by
      apply List.ext_getElem
      · simp [hl, hvs.1]
      · intro i h1 h2
        rw [List.getElem_map, List.getElem_range]
        exact corners_unique (hvs.2 i _ (List.getElem?_eq_getElem h1)) (corners_of h.2.2.2 (by simpa using h2))
    rw [this, List.flatMap_map, List.range_eq_range']
  have e1 : intersectCell sort hits s cc buf = ((putAll buf 0 (vs.flatMap (hits c.meshType))).bind fun b =>
      Res.ok (b, (vs.flatMap (hits c.meshType)).length)).bind fun r => .ok (sort (r.1.take r.2) ++ r.1.drop r.2, r.2) := by
    unfold intersectCell
    rw [cell_eq h.1]
    show (withMesh s c _).bind _ = _
    rw [withMesh_eq h.2.1, meshHits_eq _ _ (cornersOf mesh) _ _ _ _ (fun j _ hj => face_eq (corners_of h.2.2.2 (by omega))), e, Nat.zero_add]
  generalize vs.flatMap (hits c.meshType) = all at *
  rw [e1]
  constructor
  · intro hb
    rw [putAll_ok _ _ _ (by simpa using hb)]
    refine ⟨sort all, ?_, ?_, (hsort all).perm⟩
    · show Res.ok _ = _
      simp
    · refine (hsort all).sorted.imp ?_
      intro a b hab
      simpa using hab
  · intro hb
    rw [putAll_undef _ _ _ (Nat.zero_le _) (by simpa using hb)]
    rfl

/-! ### The mesh -/

theorem flatMap_pair_get (l : List (K × K)) : ∀ i, (h : i < l.length) →
    (l.flatMap fun p => [p.1, p.2]).getD (2 * i) 0 = l[i].1 ∧ (l.flatMap fun p => [p.1, p.2]).getD (2 * i + 1) 0 = l[i].2 := by
  induction l with
  | nil => intro i h; simp at h
  | cons a l ih =>
    intro i h
    cases i with
    | zero => simp
    | succ i =>
      have := ih i (by simpa using h)
      rw [List.flatMap_cons, show 2 * (i + 1) = 2 * i + 2 from by ring, show 2 * i + 2 + 1 = (2 * i + 1) + 2 from by ring]
      simpa using this

theorem flatten_get {n : Nat} (l : List (List Nat)) (h : ∀ f ∈ l, f.length = n) : ∀ i k, (hi : i < l.length) → k < n →
    l.flatten.getD (n * i + k) 0 = l[i].getD k 0 := by
  induction l with
  | nil => intro i k hi; simp at hi
  | cons a l ih =>
    intro i k hi hk
    have ha := h a List.mem_cons_self
    cases i with
    | zero =>
      rw [List.flatten_cons, List.getD_append _ _ _ _ (by omega)]
      simp
    | succ i =>
      rw [List.flatten_cons, List.getD_append_right _ _ _ _ (by rw [ha, Nat.mul_succ]; omega)]
      have := ih (fun f hf => h f (List.mem_cons_of_mem _ hf)) i k (by simpa using hi) hk
      rw [show n * (i + 1) + k - a.length = n * i + k from by rw [ha, Nat.mul_succ]; omega, this]
      rfl

/-- **C115.**  From the arrays of `um2MPACTCoarseCellFaceData` a client gets the mesh back, if its faces have as many vertices as the code of the
type says. -/
theorem C115_face_data (s : Model K M) (cc : ℤ) (c : CoarseCell K) (mesh : Mesh K) (h : IsCell s cc c) (hm : IsMeshOf s c mesh)
    (hn : ∀ f ∈ mesh.faces, (f.length : ℤ) = c.meshType) :
    ∃ d, faceData s cc = .ok d ∧ rebuild d = mesh ∧ d.vertices.length = 2 * mesh.verts.length ∧
      (d.fv.length : ℤ) = c.meshType * mesh.faces.length := by
  have hn' : ∀ f ∈ mesh.faces, f.length = (c.meshType : ℤ).toNat := by
    intro f hf
    have := hn f hf
    omega
  refine ⟨⟨c.meshType, mesh.verts.length, mesh.faces.length, mesh.verts.flatMap fun p => [p.1, p.2], mesh.faces.flatten⟩, ?_, ?_, ?_, ?_⟩
  · unfold faceData
    rw [cell_eq h, some_bind]
    rw [withMesh_eq hm]
  · unfold rebuild
    simp only [Int.toNat_natCast]
    obtain ⟨verts, fs⟩ := mesh
    congr 1
    · apply List.ext_getElem
      · simp
      · intro i h1 h2
        have := flatMap_pair_get verts i h2
        rw [List.getElem_map, List.getElem_range, this.1, this.2]
    · apply List.ext_getElem
      · simp
      · intro i h1 h2
        rw [List.getElem_map, List.getElem_range]
        have hf := hn' fs[i] (List.getElem_mem h2)
        apply List.ext_getElem
        · simpa using hf.symm
        · intro k k1 k2
          rw [List.getElem_map, List.getElem_range, flatten_get fs hn' i k h2 (by omega), List.getD_eq_getElem _ _ k2]
  · simp [List.length_flatMap, Nat.mul_comm]
  · have : mesh.faces.flatten.length = mesh.faces.length * (c.meshType : ℤ).toNat := by
      rw [List.length_flatten]
      have e : mesh.faces.map List.length = List.replicate mesh.faces.length (c.meshType : ℤ).toNat := by
        rw [List.eq_replicate_iff]
        exact ⟨by simp, fun b hb => by obtain ⟨f, hf, rfl⟩ := List.mem_map.1 hb; exact hn' f hf⟩
      rw [e, List.sum_replicate, smul_eq_mul]
    have ht : 0 ≤ (c.meshType : ℤ) := by
      obtain ⟨-, ⟨t, -⟩ | ⟨t, -⟩ | ⟨t, -⟩ | ⟨t, -⟩⟩ := hm <;> rw [t] <;> decide
    show ((mesh.faces.flatten.length : Nat) : ℤ) = _
    rw [this]
    push_cast
    rw [Int.toNat_of_nonneg ht, mul_comm]

/-! ### Sizes -/

/-- **C115.**  The sizes of coarse cells and modules. -/
theorem C115_sizes (s : Model K M) :
    (∀ cc c, IsCell s cc c → cellWidth s cc = .ok c.ext.1 ∧ cellHeight s cc = .ok c.ext.2) ∧
    ∀ (rtm : ℤ) (r : Mpact.Rect K) (x0 x1 y0 y1 : K), 0 ≤ rtm → s.rtms[rtm.toNat]? = some r → r.xs.head? = some x0 → r.xs.getLast? = some x1 →
      r.ys.head? = some y0 → r.ys.getLast? = some y1 → rtmWidth s rtm = .ok (x1 - x0) ∧ rtmHeight s rtm = .ok (y1 - y0) := by
  refine ⟨fun cc c h => ?_, fun rtm r x0 x1 y0 y1 h0 h hx0 hx1 hy0 hy1 => ?_⟩
  · unfold cellWidth cellHeight
    rw [cell_eq h]
    exact ⟨rfl, rfl⟩
  · unfold rtmWidth rtmHeight
    rw [at?_eq.2 ⟨h0, h⟩]
    show (Res.ofOption r.xs.getLast?).bind _ = _ ∧ (Res.ofOption r.ys.getLast?).bind _ = _
    rw [hx0, hx1, hy0, hy1]
    exact ⟨rfl, rfl⟩

/-! ### Cells without mesh, and a concrete model -/

section Examples

/-- An outcome that can be compared: `none` is undefined behaviour, `some none` the end of the program. -/
def out {α : Type} : Res α → Option (Option α)
  | .undef => none
  | .refused => some none
  | .ok a => some (some a)

/-- The modifiers accept a coarse cell of a supported type without a mesh.  The interface says that it has one face; asking for the area of this
face reads outside the table of meshes. -/
theorem C115_meshless_fails : (Mpact.exRun (Mpact.exOps MeshType.Quad)).map (fun st =>
    (st.2, out (cellNumFaces st.1 0), out (faceAreas (fun _ _ => 0) st.1 0 [7]))) =
    some ([0, 0, 0, 1, 0, 0, 0, 0], some (some 1), none) := by
  decide +kernel

/-- With the default type the program ends there. -/
theorem C115_meshless_refused : (Mpact.exRun (Mpact.exOps MeshType.Invalid)).map (fun st =>
    (st.2, out (cellNumFaces st.1 0), out (faceAreas (fun _ _ => 0) st.1 0 [7]))) =
    some ([0, 0, 0, 1, 0, 0, 0, 0], some (some 1), some none) := by
  decide +kernel

/-- A core with cells of two faces and of one face. -/
def exS : Model ℚ Unit where
  core := ⟨[0, 4, 8], [0, 2], [0, 0]⟩
  assemblies := [⟨[0, 1, 3], [0, 0]⟩]
  lattices := [⟨(2, 2), 2, 1, [1, 0]⟩]
  rtms := [⟨[0, 2], [0, 2], [0]⟩, ⟨[0, 1, 2], [0, 2], [1, 0]⟩]
  cells := [⟨(2, 2), MeshType.Tri, 0, [3, 4]⟩, ⟨(1, 2), MeshType.Quad, 0, [5]⟩]
  materials := [(), (), (), (), (), ()]
  tris := [⟨[(0, 0), (2, 0), (2, 2), (0, 2)], [[0, 1, 2], [2, 3, 0]]⟩]
  quads := [⟨[(0, 0), (1, 0), (1, 2), (0, 2)], [[0, 1, 2, 3]]⟩]
  tri6s := []
  quad8s := []

example : Whole exS := by
  refine ⟨by unfold exS; decide, by unfold exS; decide, by unfold exS; decide, by unfold exS; decide⟩

example : Meshed exS 0 ⟨(2, 2), MeshType.Tri, 0, [3, 4]⟩ ⟨[(0, 0), (2, 0), (2, 2), (0, 2)], [[0, 1, 2], [2, 3, 0]]⟩ := by
  refine ⟨⟨by decide, rfl⟩, ⟨by decide, Or.inl ⟨rfl, rfl⟩⟩, rfl, by unfold Refers; decide⟩

example : (out (walk exS)).map (Option.map (List.map (·.2))) = some (some [1, 0, 0, 1, 0, 0, 1, 0, 0, 1, 0, 0]) := by decide +kernel

example : out (fineCells exS) = some (some ((List.replicate 4 [5, 3, 4, 3, 4]).flatten)) := by decide +kernel

example : out (faces (fun _ vs => (vs.map (·.1)).sum) exS 0) = some (some [(3, 4), (4, 2)]) := by decide +kernel

example : out (intersectCell Mpact.exSort (fun _ vs => vs.map (·.1)) exS 0 [9, 9, 9, 9, 9, 9, 9]) = some (some ([0, 0, 0, 2, 2, 2, 9], 6)) := by
  decide +kernel

example : out (intersectCell Mpact.exSort (fun _ vs => vs.map (·.1)) exS 0 [9, 9, 9]) = none := by decide +kernel

example : ((out (faceData exS 0)).bind id).map (fun d => (d.meshType, d.vertices, d.fv)) =
    some (3, [0, 0, 2, 0, 2, 2, 0, 2], [0, 1, 2, 2, 3, 0]) := by decide +kernel

end Examples

end Verif.CApi
