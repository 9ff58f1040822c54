import Verif.Lemmas.XDMF
import Verif.Props.SoupSubset

/-!
# C50 XDMF topology round trip, C69 XDMF grid round trip
-/

namespace Verif.XDMF

open Verif.Polytope Verif.ElemTypes

variable {R : Type}

/-- Every element has a type from the tables and the number of vertices of its type. -/
structure Supported (els : List (ℤ × List Nat)) : Prop where
  type : ∀ e ∈ els, vtkToXDMF e.1 ≠ 0
  size : ∀ e ∈ els, (e.2.length : ℤ) = verticesPerElem e.1

/-- All elements are points, all are straight edges, or all are quadratic edges. -/
def OnlyEdges (els : List (ℤ × List Nat)) : Prop :=
  els ≠ [] ∧ ((∀ e ∈ els, e.1 = 1) ∨ (∀ e ∈ els, e.1 = 3) ∨ (∀ e ∈ els, e.1 = 21))

/-- The topology written is read back, after any elements which are there already, and whatever is added to
the group later.  Missing for the full property: soups of points only or edges only, see below. -/
theorem C50_topology_partial (f p : Name) (g : Group R) (s : XSoup R) (els : List (ℤ × List Nat))
    (sets : List (ElSet Name R)) (hrep : Rep s els sets) (hsup : Supported els) (hedge : ¬ OnlyEdges els)
    (hg : "Topology".toList ∉ g.map (·.1)) :
    ∃ n d, writeTopology f p g s = some (n, g ++ [("Topology".toList, d)]) ∧
      ∀ (more : Group R) (t : XSoup R) (els0 : List (ℤ × List Nat)) (sets0 : List (ElSet Name R)),
        Rep t els0 sets0 →
        ∃ t', readTopology f p (g ++ ("Topology".toList, d) :: more) n t = some t' ∧ Rep t' (els0 ++ els) sets0 ∧
          t'.verts = t.verts := by
  obtain ⟨-, hty⟩ := C46_elemTypes s
  have hn : s.types.length = els.length := by rw [hrep.types]; simp
  have hcreate : ∀ d : Data R, create g "Topology".toList d = some (g ++ [("Topology".toList, d)]) :=
    fun d => create_ok g _ d (by decide) (by decide) (by decide) hg
  have hmixed : (∀ t, getElemTypes s ≠ [t]) → ∃ n d, writeTopology f p g s = some (n, g ++ [("Topology".toList, d)]) ∧
      ∀ (more : Group R) (t : XSoup R) (els0 : List (ℤ × List Nat)) (sets0 : List (ElSet Name R)),
        Rep t els0 sets0 →
        ∃ t', readTopology f p (g ++ ("Topology".toList, d) :: more) n t = some t' ∧ Rep t' (els0 ++ els) sets0 ∧
          t'.verts = t.verts := by
    intro hne
    refine ⟨some ⟨"Mixed", els.length, [els.length + s.conn.length], dataPath f p "Topology".toList⟩,
      .ints (enc els), ?_, ?_⟩
    · unfold writeTopology
      dsimp only
      split
      · rename_i t ht; exact absurd ht (hne t)
      · rw [mixed_write s els sets hrep hsup.type]
        simp only [Option.bind_some]
        rw [hcreate, Option.map_some, hn]
    · intro more t els0 sets0 ht
      obtain ⟨t', n', h1, h2, h3⟩ := mixed_read els els0 sets0 t ht hsup.type hsup.size
      refine ⟨t', ?_, h2, h3⟩
      unfold readTopology
      dsimp only
      rw [openPath_ok f p _ _ g more (by decide) (by decide) (by decide) hg]
      simp only [Option.bind_some, asInts]
      rw [if_pos trivial, if_neg (by rw [enc_length, hrep.conn]; omega), h1]
      rfl
  cases hl : getElemTypes s with
  | nil => exact hmixed fun t h => by rw [hl] at h; simp at h
  | cons ty rest =>
    cases rest with
    | cons _ _ => exact hmixed fun t h => by rw [hl] at h; simp at h
    | nil =>
      have hall : ∀ e ∈ els, e.1 = ty := by
        intro e he
        have : e.1 ∈ getElemTypes s := (hty e.1).2 (by rw [hrep.types]; exact List.mem_map_of_mem he)
        rw [hl] at this
        simpa using this
      have hex : ∃ e ∈ els, e.1 = ty := by
        have : ty ∈ s.types := (hty ty).1 (by rw [hl]; simp)
        rw [hrep.types] at this
        obtain ⟨e, he, h⟩ := List.mem_map.1 this
        exact ⟨e, he, h⟩
      obtain ⟨e, he, het⟩ := hex
      have hne : els ≠ [] := by rintro rfl; simp at he
      have hsup' := hsup.type e he
      rw [het] at hsup'
      have hedge' : ty ≠ 1 ∧ ty ≠ 3 ∧ ty ≠ 21 := by
        refine ⟨?_, ?_, ?_⟩ <;> (rintro rfl; apply hedge)
        · exact ⟨hne, .inl hall⟩
        · exact ⟨hne, .inr (.inl hall)⟩
        · exact ⟨hne, .inr (.inr hall)⟩
      have hkind : ∃ kind k, homogeneous ty = some (kind, k) ∧ homogeneousType kind = some ty ∧
          kind ≠ "Mixed" ∧ verticesPerElem ty = (k : Nat) := by
        have : ty = 5 ∨ ty = 9 ∨ ty = 22 ∨ ty = 23 := by
          by_contra hc
          push Not at hc
          apply hsup'
          unfold vtkToXDMF
          rw [if_neg (show ¬ ty = VTK.Vertex from hedge'.1), if_neg (show ¬ ty = VTK.Line from hedge'.2.1),
            if_neg (show ¬ ty = VTK.Triangle from hc.1), if_neg (show ¬ ty = VTK.Quad from hc.2.1),
            if_neg (show ¬ ty = VTK.QuadraticEdge from hedge'.2.2),
            if_neg (show ¬ ty = VTK.QuadraticTriangle from hc.2.2.1),
            if_neg (show ¬ ty = VTK.QuadraticQuad from hc.2.2.2)]
          rfl
        rcases this with rfl | rfl | rfl | rfl
        · exact ⟨"Triangle", 3, by decide, by decide, by decide, by decide⟩
        · exact ⟨"Quadrilateral", 4, by decide, by decide, by decide, by decide⟩
        · exact ⟨"Triangle_6", 6, by decide, by decide, by decide, by decide⟩
        · exact ⟨"Quadrilateral_8", 8, by decide, by decide, by decide, by decide⟩
      obtain ⟨kind, k, k1, k2, k3, k4⟩ := hkind
      have hlen : ∀ e ∈ els, e.2.length = k := by
        intro e he
        have := hsup.size e he
        rw [hall e he, k4] at this
        exact_mod_cast this
      have hconn : s.conn.length = els.length * k := by
        rw [hrep.conn, flatten_length_equal (els.map (·.2)) k, List.length_map]
        intro b hb
        obtain ⟨e, he, rfl⟩ := List.mem_map.1 hb
        exact hlen e he
      refine ⟨some ⟨kind, els.length, [els.length, k], dataPath f p "Topology".toList⟩,
        .ints ((els.map (·.2)).flatten.map fun (c : Nat) => (c : ℤ)), ?_, ?_⟩
      · unfold writeTopology
        dsimp only
        rw [hl]
        dsimp only
        rw [k1]
        dsimp only
        rw [hn, if_neg (by omega), hcreate, Option.map_some, ← hconn, List.take_length, hrep.conn]
      · intro more t els0 sets0 ht
        obtain ⟨t', h1, h2, h3⟩ := homogeneous_read els els0 sets0 t ht ty k hall hlen
        refine ⟨t', ?_, h2, h3⟩
        unfold readTopology
        dsimp only
        rw [openPath_ok f p _ _ g more (by decide) (by decide) (by decide) hg]
        simp only [Option.bind_some, asInts]
        rw [if_neg k3, if_neg (by simp), if_neg (by rw [List.length_map, ← hrep.conn, hconn]; omega), k2]
        exact h1

/-- A soup of quadratic edges only is written, but nothing of it is read back. -/
theorem C50_quadratic_edges_fails (f p : Name) (g : Group R) (s : XSoup R) (els : List (ℤ × List Nat))
    (sets : List (ElSet Name R)) (hrep : Rep s els sets) (hne : els ≠ []) (hall : ∀ e ∈ els, e.1 = 21 ∧ e.2.length = 3)
    (hg : "Topology".toList ∉ g.map (·.1)) (t : XSoup R) :
    ∃ n g', writeTopology f p g s = some (n, g') ∧ readTopology f p g' n t = some t := by
  have hty : getElemTypes s = [21] := by
    obtain ⟨hnd, hty⟩ := C46_elemTypes s
    have hmem : ∀ x, x ∈ getElemTypes s ↔ x = 21 := by
      intro x
      rw [hty, hrep.types, List.mem_map]
      constructor
      · rintro ⟨e, he, rfl⟩; exact (hall e he).1
      · rintro rfl
        obtain ⟨e, l, rfl⟩ := List.exists_cons_of_ne_nil hne
        exact ⟨e, by simp, (hall e (by simp)).1⟩
    cases hl : getElemTypes s with
    | nil => rw [hl] at hmem; simpa using hmem 21
    | cons a l =>
      rw [hl] at hmem hnd
      have ha := (hmem a).1 (by simp)
      cases l with
      | nil => rw [ha]
      | cons b l =>
        have hb := (hmem b).1 (by simp)
        rw [ha, hb] at hnd
        simp at hnd
  have hn : s.types.length = els.length := by rw [hrep.types]; simp
  have hconn : s.conn.length = els.length * 3 := by
    rw [hrep.conn, flatten_length_equal (els.map (·.2)) 3, List.length_map]
    intro b hb
    obtain ⟨e, he, rfl⟩ := List.mem_map.1 hb
    exact (hall e he).2
  refine ⟨some ⟨"Edge_3", els.length, [els.length, 3], dataPath f p "Topology".toList⟩,
    g ++ [("Topology".toList, .ints (s.conn.map fun (c : Nat) => (c : ℤ)))], ?_, ?_⟩
  · unfold writeTopology
    dsimp only
    rw [hty]
    dsimp only
    rw [show homogeneous 21 = some ("Edge_3", 3) by decide]
    dsimp only
    rw [hn, if_neg (by omega), create_ok g _ _ (by decide) (by decide) (by decide) hg, Option.map_some, ← hconn,
      List.take_length]
  · unfold readTopology
    dsimp only
    rw [openPath_ok f p _ _ g [] (by decide) (by decide) (by decide) hg]
    simp only [Option.bind_some, asInts]
    rw [if_neg (by decide), if_neg (by simp), if_neg (by rw [List.length_map, hconn]; omega),
      show homogeneousType "Edge_3" = none by decide]

/-- The type codes of a mixed topology are reduced to 8 bits: 260, 516, ..., which are no codes, are read as triangles. -/
theorem C50_code_wrap_fails {V D : Type} (n : ℤ) (i j k : Nat) (s : Soup V ℤ Name D) :
    readMixedStep [4 + 256 * n, i, j, k] (0, s) = some (4, (addElement s VTK.Triangle [i, j, k]).1) := by
  have e : int8 (4 + 256 * n) = 4 := by
    unfold int8
    rw [Int.bmod_def]
    split_ifs <;> omega
  unfold readMixedStep
  simp only [List.getElem?_cons_zero, Option.bind_some]
  rw [e]
  rfl

/-- A soup of straight edges only: the topology is not written at all, and nothing is read back. -/
theorem C50_lines_fails (f p : Name) (g : Group R) (t : XSoup R) :
    ∃ s : XSoup R, Rep s [(3, [0, 1])] ([] : List (ElSet Name R)) ∧ Supported [(3, [0, 1])] ∧
      writeTopology f p g s = some (none, g) ∧ readTopology f p g none t = some t := by
  refine ⟨⟨[], [3], [0, 2], [0, 1], [], [], [], []⟩, ⟨rfl, rfl, rfl, rfl, rfl, rfl, rfl⟩, ⟨?_, ?_⟩, rfl, rfl⟩
  · intro e he
    simp at he
    subst he
    decide
  · intro e he
    simp at he
    subst he
    decide

/-! ### Geometry -/

section
variable [Ring R] [LinearOrder R]

/-- The vertices which come back: shifted by the origin; when all are within `eps` of the plane, in the plane. -/
def comesBack (eps : R) (vs : List (Vert R)) (o : Vert R) (r : List (Vert R)) : Prop :=
  (((∃ v ∈ vs, eps < |v.2.2|) ∨ eps < |o.2.2|) → r = vs.map fun v => (v.1 + o.1, v.2.1 + o.2.1, v.2.2 + o.2.2)) ∧
  (¬ ((∃ v ∈ vs, eps < |v.2.2|) ∨ eps < |o.2.2|) → r = vs.map fun v => (v.1 + o.1, v.2.1 + o.2.1, 0))

omit [LinearOrder R] in
theorem nodes3 (vs : List (Vert R)) (o : Vert R) :
    nodesOf (geomArray 3 vs o) vs.length 3 true =
      some (vs.map fun v => (v.1 + o.1, v.2.1 + o.2.1, v.2.2 + o.2.2)) := by
  unfold nodesOf geomArray
  rw [if_neg (by decide : ¬ (3 : Nat) = 2), List.flatMap_def]
  let bs := vs.map fun v => [v.1 + o.1, v.2.1 + o.2.1, v.2.2 + o.2.2]
  have hk : ∀ b ∈ bs, b.length = 3 := by
    intro b hb
    obtain ⟨v, -, rfl⟩ := List.mem_map.1 hb
    rfl
  have hl : bs.flatten.length = vs.length * 3 := by rw [flatten_length_equal bs 3 hk]; simp [bs]
  show (if vs.length * 3 < bs.flatten.length then _ else _) = _
  rw [if_neg (by omega), if_pos rfl]
  apply mapM_some
  apply List.ext_getElem?
  intro i
  rcases Nat.lt_or_ge i vs.length with hi | hi
  · have hb : bs[i]? = some [vs[i].1 + o.1, vs[i].2.1 + o.2.1, vs[i].2.2 + o.2.2] := by
      simp [bs, List.getElem?_eq_getElem hi]
    have h0 := get_equal bs 3 i 0 _ hk hb (by omega)
    have h1 := get_equal bs 3 i 1 _ hk hb (by omega)
    have h2 := get_equal bs 3 i 2 _ hk hb (by omega)
    rw [Nat.add_zero] at h0
    rw [List.getElem?_map, List.getElem?_range hi, Option.map_some]
    show some ((bs.flatten[i * 3]?).bind _) = _
    rw [h0]
    simp only [List.getElem?_cons_zero, Option.bind_some]
    show some ((bs.flatten[i * 3 + 1]?).bind _) = _
    rw [h1]
    simp only [List.getElem?_cons_zero, List.getElem?_cons_succ, Option.bind_some]
    show some ((bs.flatten[i * 3 + 2]?).map _) = _
    rw [h2]
    simp [List.getElem?_eq_getElem hi]
  · rw [List.getElem?_eq_none (by simpa using hi), List.getElem?_eq_none (by simpa using hi)]

omit [LinearOrder R] in
theorem nodes2 (vs : List (Vert R)) (o : Vert R) :
    nodesOf (geomArray 2 vs o) vs.length 2 false = some (vs.map fun v => (v.1 + o.1, v.2.1 + o.2.1, 0)) := by
  unfold nodesOf geomArray
  rw [if_pos rfl, List.flatMap_def]
  let bs := vs.map fun v => [v.1 + o.1, v.2.1 + o.2.1]
  have hk : ∀ b ∈ bs, b.length = 2 := by
    intro b hb
    obtain ⟨v, -, rfl⟩ := List.mem_map.1 hb
    rfl
  have hl : bs.flatten.length = vs.length * 2 := by rw [flatten_length_equal bs 2 hk]; simp [bs]
  show (if vs.length * 2 < bs.flatten.length then _ else _) = _
  rw [if_neg (by omega), if_neg (by decide)]
  apply mapM_some
  apply List.ext_getElem?
  intro i
  rcases Nat.lt_or_ge i vs.length with hi | hi
  · have hb : bs[i]? = some [vs[i].1 + o.1, vs[i].2.1 + o.2.1] := by
      simp [bs, List.getElem?_eq_getElem hi]
    have h0 := get_equal bs 2 i 0 _ hk hb (by omega)
    have h1 := get_equal bs 2 i 1 _ hk hb (by omega)
    rw [Nat.add_zero] at h0
    rw [List.getElem?_map, List.getElem?_range hi, Option.map_some]
    show some ((bs.flatten[i * 2]?).bind _) = _
    rw [h0]
    simp only [List.getElem?_cons_zero, Option.bind_some]
    show some ((bs.flatten[i * 2 + 1]?).map _) = _
    rw [h1]
    simp [List.getElem?_eq_getElem hi]
  · rw [List.getElem?_eq_none (by simpa using hi), List.getElem?_eq_none (by simpa using hi)]

theorem geometry_roundtrip (eps : R) (f p : Name) (s : XSoup R) (o : Vert R) :
    ∃ n d, writeGeometry eps f p [] s o = some (n, [("Geometry".toList, d)]) ∧
      ∀ (more : Group R) (t : XSoup R), ∃ r, comesBack eps s.verts o r ∧
        readGeometry f p (("Geometry".toList, d) :: more) n t = some { t with verts := t.verts ++ r } := by
  have hiff : ((s.verts.any fun v => decide (eps < |v.2.2|)) || decide (eps < |o.2.2|)) = true ↔
      ((∃ v ∈ s.verts, eps < |v.2.2|) ∨ eps < |o.2.2|) := by
    simp
  by_cases h3 : ((∃ v ∈ s.verts, eps < |v.2.2|) ∨ eps < |o.2.2|)
  · have hd : geomDim eps s.verts o = 3 := by unfold geomDim; rw [if_pos (hiff.2 h3)]
    refine ⟨⟨"XYZ", s.verts.length, 3, dataPath f p "Geometry".toList⟩, .floats (geomArray 3 s.verts o), ?_, ?_⟩
    · unfold writeGeometry
      dsimp only
      rw [hd, create_ok [] _ _ (by decide) (by decide) (by decide) (by simp), Option.map_some, if_pos rfl]
      rfl
    · intro more t
      refine ⟨s.verts.map fun v => (v.1 + o.1, v.2.1 + o.2.1, v.2.2 + o.2.2), ⟨fun _ => rfl, fun h => absurd h3 h⟩, ?_⟩
      unfold readGeometry
      dsimp only
      have ho := openPath_ok f p "Geometry".toList (.floats (geomArray 3 s.verts o)) [] more (by decide) (by decide) (by decide) (by simp)
      rw [List.nil_append] at ho
      rw [if_neg (by decide), if_neg (by decide), if_neg (by decide), ho]
      simp only [Option.bind_some, asFloats, decide_true]
      rw [nodes3, Option.map_some, foldl_addVertex]
  · have hd : geomDim eps s.verts o = 2 := by unfold geomDim; rw [if_neg (mt hiff.1 h3)]
    refine ⟨⟨"XY", s.verts.length, 2, dataPath f p "Geometry".toList⟩, .floats (geomArray 2 s.verts o), ?_, ?_⟩
    · unfold writeGeometry
      dsimp only
      rw [hd, create_ok [] _ _ (by decide) (by decide) (by decide) (by simp), Option.map_some, if_neg (by decide)]
      rfl
    · intro more t
      refine ⟨s.verts.map fun v => (v.1 + o.1, v.2.1 + o.2.1, 0), ⟨fun h => absurd h h3, fun _ => rfl⟩, ?_⟩
      unfold readGeometry
      dsimp only
      have ho := openPath_ok f p "Geometry".toList (.floats (geomArray 2 s.verts o)) [] more (by decide) (by decide) (by decide) (by simp)
      rw [List.nil_append] at ho
      rw [if_neg (by decide), if_neg (by decide), if_neg (by decide), ho]
      simp only [Option.bind_some, asFloats, show decide ("XY" = "XYZ") = false by decide]
      rw [nodes2, Option.map_some, foldl_addVertex]

end

/-! ### Element sets -/

/-- The dataset names that a set occupies. -/
def setNames (e : ElSet Name R) : List Name := e.name :: if e.data.isEmpty then [] else [dataName e.name]

theorem dataName_dot (n : Name) : dataName n ≠ ['.'] := by
  intro h
  have := congrArg List.length h
  simp [dataName] at this

theorem dataName_slash {n : Name} (h : '/' ∉ n) : '/' ∉ dataName n := by
  unfold dataName
  rw [List.mem_append, not_or]
  exact ⟨h, by decide⟩

/-- Names which HDF5 can store, all different, and different from those of the geometry and the topology. -/
structure NamesOK (sets : List (ElSet Name R)) : Prop where
  nonempty : ∀ e ∈ sets, e.name ≠ []
  slash : ∀ e ∈ sets, '/' ∉ e.name
  dot : ∀ e ∈ sets, e.name ≠ ['.']
  nodup : (["Geometry".toList, "Topology".toList] ++ sets.flatMap setNames).Nodup

/-- What is stored for a set. -/
def entries (e : ElSet Name R) : Group R :=
  (e.name, .ints (e.ids.map fun (c : Nat) => (c : ℤ))) :: if e.data.isEmpty then [] else [(dataName e.name, .floats e.data)]

def node (f p : Name) (e : ElSet Name R) : SetNode :=
  ⟨e.name, dataPath f p e.name, if e.data.isEmpty then none else some (dataName (dataPath f p e.name))⟩

theorem entries_names (e : ElSet Name R) : (entries e).map (·.1) = setNames e := by
  unfold entries setNames
  split <;> rfl

theorem dataName_path (f p n : Name) : dataName (dataPath f p n) = dataPath f p (dataName n) := by
  simp [dataName, dataPath]

theorem map_flatMap_names (sets : List (ElSet Name R)) :
    (sets.flatMap entries).map (·.1) = sets.flatMap setNames := by
  induction sets with
  | nil => rfl
  | cons e sets ih => simp only [List.flatMap_cons, List.map_append, ih, entries_names]

theorem sets_write (f p : Name) (g : Group R) (s : XSoup R) (els : List (ℤ × List Nat))
    (sets : List (ElSet Name R)) (hrep : Rep s els sets) (hne : ∀ e ∈ sets, e.name ≠ [])
    (hsl : ∀ e ∈ sets, '/' ∉ e.name) (hdot : ∀ e ∈ sets, e.name ≠ ['.']) (hnd : (g.map (·.1) ++ sets.flatMap setNames).Nodup) :
    writeSets f p g s = some (sets.map (node f p), g ++ sets.flatMap entries) := by
  have hn : s.names.length = sets.length := by rw [hrep.names]; simp
  have key : ∀ m, m ≤ sets.length → (List.range m).foldlM (writeSet f p s) ([], g) =
      some ((sets.take m).map (node f p), g ++ (sets.take m).flatMap entries) := by
    intro m
    induction m with
    | zero => intro _; simp
    | succ m ih =>
      intro hm
      have hm' : m < sets.length := hm
      have hme := List.getElem?_eq_getElem hm'
      have hmem := List.getElem_mem hm'
      have htake : sets.take (m + 1) = sets.take m ++ [sets[m]] := by
        rw [List.take_add_one, hme]; rfl
      have hsub : (g.map (·.1) ++ ((sets.take m).flatMap setNames ++ setNames sets[m])).Nodup := by
        refine hnd.sublist ?_
        have : (sets.take m).flatMap setNames ++ setNames sets[m] = (sets.take (m + 1)).flatMap setNames := by
          rw [htake, List.flatMap_append]; simp
        rw [this]
        conv_rhs => rw [← List.take_append_drop (m + 1) sets, List.flatMap_append, ← List.append_assoc]
        exact List.sublist_append_left _ _
      rw [← List.append_assoc, ← map_flatMap_names, ← List.map_append] at hsub
      rw [List.range_succ, List.foldlM_append, ih (by omega)]
      simp only [Option.bind_eq_bind, Option.bind_some, List.foldlM_cons, List.foldlM_nil]
      obtain ⟨a, r1, r2, -, r4⟩ := offsOf_read (sets.map (·.ids)) m sets[m].ids (by simp [hme])
      rw [← hrep.soffs] at r1 r2
      rw [← hrep.sids] at r4
      unfold writeSet
      dsimp only
      rw [show s.names[m]? = some sets[m].name by rw [hrep.names]; simp [hme], r1, r2]
      simp only [Option.bind_some]
      rw [r4]
      simp only [Option.bind_some]
      rw [show s.sdata[m]? = some sets[m].data by rw [hrep.sdata]; simp [hme]]
      have h1 : sets[m].name ∉ (g ++ (sets.take m).flatMap entries).map (·.1) := by
        intro h
        exact (List.nodup_append.1 hsub).2.2 _ h _ (by simp [setNames]) rfl
      rw [create_ok _ _ _ (hne _ hmem) (hsl _ hmem) (hdot _ hmem) h1]
      simp only [Option.bind_some]
      rw [htake, List.map_append, List.flatMap_append]
      by_cases hd : sets[m].data.isEmpty = true
      · rw [if_pos hd]
        simp [entries, node, hd]
      · rw [if_neg hd]
        have h2 : dataName sets[m].name ∉ (g ++ (sets.take m).flatMap entries ++
            [(sets[m].name, Data.ints (sets[m].ids.map fun (c : Nat) => (c : ℤ)))]).map (fun x : Name × Data R => x.1) := by
          rw [List.map_append, List.mem_append, not_or]
          refine ⟨?_, ?_⟩
          · intro h
            exact (List.nodup_append.1 hsub).2.2 _ h _ (by simp [setNames, hd]) rfl
          · have := (List.nodup_append.1 hsub).2.1
            unfold setNames at this
            rw [if_neg hd] at this
            simp at this ⊢
            exact fun h => this h.symm
        have h3 : dataName sets[m].name ≠ [] := by simp [dataName]
        have h4 : '/' ∉ dataName sets[m].name := by
          unfold dataName
          rw [List.mem_append, not_or]
          exact ⟨hsl _ hmem, by decide⟩
        rw [create_ok _ _ _ h3 h4 (dataName_dot _) h2]
        simp [entries, node, hd]
  unfold writeSets
  rw [hn, key sets.length le_rfl, List.take_length]

theorem sets_read (f p : Name) (g : Group R) (t : XSoup R) (els : List (ℤ × List Nat))
    (sets : List (ElSet Name R)) (hrep : Rep t els []) (hg : GoodSets sets) (hne : ∀ e ∈ sets, e.name ≠ [])
    (hsl : ∀ e ∈ sets, '/' ∉ e.name) (hdot : ∀ e ∈ sets, e.name ≠ ['.']) (hnd : (g.map (·.1) ++ sets.flatMap setNames).Nodup) :
    ∃ t', readSets f p (g ++ sets.flatMap entries) (sets.map (node f p)) t = some t' ∧ Rep t' els sets ∧
      t'.verts = t.verts := by
  have key : ∀ (post pre : List (ElSet Name R)) (t : XSoup R), pre ++ post = sets → Rep t els pre →
      ∃ t', (post.map (node f p)).foldlM (readSet f p (g ++ sets.flatMap entries)) (true, t) = some (true, t') ∧
        Rep t' els sets ∧ t'.verts = t.verts := by
    intro post
    induction post with
    | nil =>
      intro pre t hpp ht
      rw [List.append_nil] at hpp
      subst hpp
      exact ⟨t, rfl, ht, rfl⟩
    | cons e post ih =>
      intro pre t hpp ht
      have hmem : e ∈ sets := by rw [← hpp]; simp
      have hsplit : g ++ sets.flatMap entries = (g ++ pre.flatMap entries) ++ (entries e ++ post.flatMap entries) := by
        rw [← hpp]; simp
      have hnd' : ((g ++ pre.flatMap entries).map (·.1) ++ (setNames e ++ post.flatMap setNames)).Nodup := by
        rw [← hpp, List.flatMap_append, List.flatMap_cons] at hnd
        rw [List.map_append, map_flatMap_names]
        simpa using hnd
      have h1 : e.name ∉ (g ++ pre.flatMap entries).map (·.1) := by
        intro h
        exact (List.nodup_append.1 hnd').2.2 _ h _ (by simp [setNames]) rfl
      have hnew : e.name ∉ t.names := by
        rw [ht.names]
        have := hg.nodup
        rw [← hpp, List.map_append, List.map_cons] at this
        intro h
        exact (List.nodup_append.1 this).2.2 _ h _ (by simp) rfl
      have hacc := addElset_accept t e.name e.ids e.data hnew (hg.ids e hmem) (hg.data e hmem)
      obtain ⟨t', i1, i2, i3⟩ := ih (pre ++ [e]) (addElset t e.name e.ids e.data).1 (by simpa using hpp)
        (by rw [hacc]; exact ht.addElset e.name e.ids e.data)
      refine ⟨t', ?_, i2, by rw [i3, hacc]⟩
      rw [List.map_cons, List.foldlM_cons]
      have hstep : readSet f p (g ++ sets.flatMap entries) (true, t) (node f p e) =
          some (true, (addElset t e.name e.ids e.data).1) := by
        unfold readSet node
        dsimp only
        rw [if_neg (by decide), if_neg (hne e hmem), hsplit]
        by_cases hd : e.data.isEmpty = true
        · have hent : entries e ++ post.flatMap entries =
              (e.name, .ints (e.ids.map fun (c : Nat) => (c : ℤ))) :: post.flatMap entries := by
            simp [entries, hd]
          rw [hent, openPath_ok f p _ _ _ _ (hne e hmem) (hsl e hmem) (hdot e hmem) h1]
          simp only [Option.bind_some, asInts]
          rw [if_pos hd]
          dsimp only
          rw [toNat_map, List.isEmpty_iff.1 hd]
        · have hent : entries e ++ post.flatMap entries =
              (e.name, .ints (e.ids.map fun (c : Nat) => (c : ℤ))) ::
                ((dataName e.name, .floats e.data) :: post.flatMap entries) := by
            simp [entries, hd]
          rw [hent, openPath_ok f p _ _ _ _ (hne e hmem) (hsl e hmem) (hdot e hmem) h1]
          simp only [Option.bind_some, asInts]
          rw [if_neg hd]
          dsimp only
          rw [dataName_path]
          have h2 : dataName e.name ∉ (g ++ pre.flatMap entries ++
              [(e.name, Data.ints (e.ids.map fun (c : Nat) => (c : ℤ)))]).map (fun x : Name × Data R => x.1) := by
            rw [List.map_append, List.mem_append, not_or]
            refine ⟨?_, ?_⟩
            · intro h
              exact (List.nodup_append.1 hnd').2.2 _ h _ (by simp [setNames, hd]) rfl
            · simp [dataName]
          have ho := openPath_ok f p (dataName e.name) (.floats e.data) _ (post.flatMap entries) (by simp [dataName]) (dataName_slash (hsl e hmem)) (dataName_dot _) h2
          rw [List.append_assoc] at ho
          rw [show ([(e.name, Data.ints (e.ids.map fun (c : Nat) => (c : ℤ)))] : Group R) ++
              (dataName e.name, Data.floats e.data) :: post.flatMap entries =
              (e.name, .ints (e.ids.map fun (c : Nat) => (c : ℤ))) ::
                ((dataName e.name, .floats e.data) :: post.flatMap entries) from rfl] at ho
          rw [ho]
          simp only [Option.bind_some, asFloats]
          have hlen : e.data.length = e.ids.length :=
            (hg.data e hmem).resolve_left fun h => hd (by simp [h])
          rw [if_neg (by simpa using hlen), toNat_map]
      rw [hstep]
      exact i1
  obtain ⟨t', h1, h2, h3⟩ := key sets [] t rfl hrep
  refine ⟨t', ?_, h2, h3⟩
  unfold readSets
  rw [h1]
  rfl

variable [Ring R] [LinearOrder R]

/-- A grid that is written and read back into an empty soup holds the same elements and element sets, in the
same order, and the vertices shifted by the origin.  Missing for the full property: soups of edges only (C50),
and sets whose names clash, see below. -/
theorem C69_grid_partial (eps : R) (f p : Name) (s : XSoup R) (o : Vert R) (els : List (ℤ × List Nat))
    (sets : List (ElSet Name R)) (hrep : Rep s els sets) (hg : GoodSets sets) (hsup : Supported els)
    (hedge : ¬ OnlyEdges els) (hn : NamesOK sets) :
    ∃ x t, writeGrid eps f p s o = some x ∧ readGrid f p x empty = some t ∧
      Rep t els sets ∧ comesBack eps s.verts o t.verts := by
  obtain ⟨gn, gd, g1, g2⟩ := geometry_roundtrip eps f p s o
  obtain ⟨tn, td, t1, t2⟩ := C50_topology_partial f p [("Geometry".toList, gd)] s els sets hrep hsup hedge
    (by show ¬ "Topology".toList ∈ ["Geometry".toList]; decide)
  have hnd : (([("Geometry".toList, gd), ("Topology".toList, td)] : Group R).map (·.1) ++
      sets.flatMap setNames).Nodup := hn.nodup
  have s1 := sets_write f p [("Geometry".toList, gd), ("Topology".toList, td)] s els sets hrep hn.nonempty hn.slash hn.dot hnd
  obtain ⟨r, r1, r2⟩ := g2 (("Topology".toList, td) :: sets.flatMap entries) empty
  have hrep0 : Rep { (empty : XSoup R) with verts := (empty : XSoup R).verts ++ r } [] [] :=
    ⟨rfl, rfl, rfl, rfl, rfl, rfl, rfl⟩
  obtain ⟨ta, a1, a2, a3⟩ := t2 (sets.flatMap entries) _ [] [] hrep0
  obtain ⟨tb, b1, b2, b3⟩ := sets_read f p [("Geometry".toList, gd), ("Topology".toList, td)] ta els sets
    (by simpa using a2) hg hn.nonempty hn.slash hn.dot hnd
  refine ⟨(⟨gn, tn, sets.map (node f p)⟩,
    [("Geometry".toList, gd), ("Topology".toList, td)] ++ sets.flatMap entries), tb, ?_, ?_, b2, ?_⟩
  · unfold writeGrid
    rw [g1]
    simp only [Option.bind_some]
    rw [t1]
    simp only [Option.bind_some]
    have : ([("Geometry".toList, gd)] : Group R) ++ [("Topology".toList, td)] =
      [("Geometry".toList, gd), ("Topology".toList, td)] := rfl
    rw [this, s1, Option.map_some]
  · unfold readGrid
    dsimp only
    have e1 : ([("Geometry".toList, gd), ("Topology".toList, td)] : Group R) ++ sets.flatMap entries =
      ("Geometry".toList, gd) :: ("Topology".toList, td) :: sets.flatMap entries := rfl
    have e2 : ([("Geometry".toList, gd)] : Group R) ++ ("Topology".toList, td) :: sets.flatMap entries =
      ("Geometry".toList, gd) :: ("Topology".toList, td) :: sets.flatMap entries := rfl
    rw [e1, r2]
    simp only [Option.bind_some]
    rw [← e2, a1]
    simp only [Option.bind_some]
    exact b1
  · rw [b3, a3]
    exact r1

/-- With vertices in space, or exactly in the plane, and no shift, the vertices are those written. -/
theorem C69_vertices (eps : R) (vs r : List (Vert R)) (h : comesBack eps vs (0, 0, 0) r)
    (hv : (∃ v ∈ vs, eps < |v.2.2|) ∨ ∀ v ∈ vs, v.2.2 = 0) : r = vs := by
  by_cases h3 : ((∃ v ∈ vs, eps < |v.2.2|) ∨ eps < |(0 : R)|)
  · rw [h.1 h3]
    simp
  · rw [h.2 h3]
    have hz := hv.resolve_left fun hx => h3 (.inl hx)
    conv_rhs => rw [← List.map_id vs]
    apply List.map_congr_left
    rintro ⟨x, y, z⟩ hv
    have : z = 0 := hz _ hv
    subst this
    simp

/-- One triangle, with one set. -/
def triSoup (name : Name) : XSoup ℤ := ⟨[(0, 0, 0), (1, 0, 0), (0, 1, 0)], [5], [0, 3], [0, 1, 2], [name], [0, 1], [0], [[]]⟩

/-- The same triangle in two sets, the first with data. -/
def triSoup2 (n1 n2 : Name) : XSoup ℤ :=
  ⟨[(0, 0, 0), (1, 0, 0), (0, 1, 0)], [5], [0, 3], [0, 1, 2], [n1, n2], [0, 1, 2], [0, 0], [[7], []]⟩

/-- Valid soups on whose set names the writer throws: a set called `Topology`, and a set `A` with data next to a
set `A_data`. -/
theorem C69_name_clash_fails (f p : Name) :
    (Rep (triSoup "Topology".toList) [(5, [0, 1, 2])] [⟨"Topology".toList, [0], []⟩] ∧
      (writeGrid 0 f p (triSoup "Topology".toList) (0, 0, 0)).isNone) ∧
    (Rep (triSoup2 "A".toList "A_data".toList) [(5, [0, 1, 2])] [⟨"A".toList, [0], [7]⟩, ⟨"A_data".toList, [0], []⟩] ∧
      (writeGrid 0 f p (triSoup2 "A".toList "A_data".toList) (0, 0, 0)).isNone) :=
  ⟨⟨⟨rfl, rfl, rfl, rfl, rfl, rfl, rfl⟩, rfl⟩, ⟨⟨rfl, rfl, rfl, rfl, rfl, rfl, rfl⟩, rfl⟩⟩

/-- A flat mesh slightly out of the plane loses its third coordinate (`eps` is 2 here). -/
theorem C69_flat_fails :
    ((writeGrid (2 : ℤ) "m.h5".toList "/m".toList { (empty : XSoup ℤ) with verts := [(0, 0, 1)] } (0, 0, 0)).bind
      fun x => readGrid "m.h5".toList "/m".toList x empty).map (fun t => t.verts) = some [(0, 0, 0)] := by
  decide +kernel

example : Supported [(5, [0, 1, 2])] ∧ ¬ OnlyEdges [(5, [0, 1, 2])] := by
  refine ⟨⟨by simp; decide, by simp; decide⟩, ?_⟩
  simp [OnlyEdges]

example : NamesOK ([⟨"A".toList, [0], [7]⟩, ⟨"B".toList, [0], []⟩] : List (ElSet Name ℤ)) :=
  ⟨by simp, by simp, by simp, by decide⟩

end Verif.XDMF
