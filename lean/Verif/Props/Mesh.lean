import Verif.Lemmas.MeshVF
import Verif.Props.Algorithm
import Verif.Props.MortonPoints
import Verif.Props.Box
import Verif.Props.Geom
import Verif.Model.Quadratic

/-!
# C41 Vertex-to-face adjacency, C42 Morton renumbering, C43 point location
-/

namespace Verif.Mesh

variable {α : Type} {N : Nat}

/-- Every vertex id of every face is the id of a vertex. -/
def InRange (m : FVM α N) : Prop := ∀ c ∈ m.fv, ∀ j, c j < m.v.length

/-- How many corners of face `i` are vertex `x` (none if there is no face `i`). -/
def corners (fv : List (Fin N → Nat)) (i x : Nat) : Nat :=
  match fv[i]? with
  | none => 0
  | some c => ((List.finRange N).filter fun j => c j == x).length

/-- The adjacency stored in `vfOffsets`, `vf` is that of the face list: vertex `x` owns the block
between offsets `x` and `x + 1`, the blocks follow each other without gaps and fill `vf`, and block
`x` lists, in increasing order, each face as often as it has a corner at `x`. -/
structure AdjacencyExact (m : FVM α N) : Prop where
  length : m.vfOffsets.length = m.v.length + 1
  first : m.vfOffsets[0]? = some 0
  last : m.vfOffsets[m.v.length]? = some m.vf.length
  block : ∀ x, x < m.v.length → ∃ a b, m.vfOffsets[x]? = some a ∧ m.vfOffsets[x + 1]? = some b ∧
    a ≤ b ∧ b ≤ m.vf.length ∧ ((m.vf.drop a).take (b - a)).Pairwise (· ≤ ·) ∧
    ∀ i, ((m.vf.drop a).take (b - a)).count i = corners m.fv i x

/-! ## C41 -/

/-- `populateVF` succeeds on every mesh with in-range connectivity, whatever the old contents of the
adjacency arrays, changes nothing else, and the adjacency is exact. -/
theorem C41_populateVF (m : FVM α N) (h : InRange m) :
    ∃ m', populateVF m = some m' ∧ m'.v = m.v ∧ m'.fv = m.fv ∧ m'.isMorton = m.isMorton ∧
      m'.hasVF = true ∧ m'.vf.length = N * m.fv.length ∧ AdjacencyExact m' := by
  have hb := entries_bound m.fv 0 m.v.length h
  obtain ⟨c, c1, c2, c3⟩ := count_fold (entries m.fv 0) m.v.length hb (List.replicate m.v.length 0)
    (by simp)
  have c3' : ∀ x, x < c.length → c.getD x 0 = cnt (entries m.fv 0) x := by
    intro x hx
    rw [c3 x (by omega)]
    simp [List.getD_eq_getElem?_getD, List.getElem?_replicate]
    split <;> rfl
  have hoff := scan_base (entries m.fv 0) c c3'
  have htot := hoff m.v.length (by omega)
  rw [base_top _ _ hb] at htot
  have inv0 : FillInv (entries m.fv 0) [] m.v.length
      (resize m.vf (entries m.fv 0).length, 0 :: inclusiveScan 0 c) := by
    refine ⟨by simp [resize_length], ?_, ?_⟩
    · intro x hx
      show (0 :: inclusiveScan 0 c)[x]? = _
      rw [hoff x (by omega)]
      simp [cnt]
    · intro x k _ hk
      simp [cnt] at hk
  obtain ⟨st, s1, inv⟩ := fill_fold (entries m.fv 0) m.v.length hb (entries m.fv 0) [] _ rfl inv0
  refine ⟨{ m with hasVF := true, vfOffsets := 0 :: inclusiveScan 0 c, vf := st.1 }, ?_, rfl, rfl,
    rfl, rfl, ?_, ?_⟩
  · unfold populateVF countVerts fillVF
    rw [countVerts_eq m.fv 0, c1]
    simp only [Option.bind_eq_bind, Option.bind_some, htot]
    rw [fillVF_eq m.fv 0, s1]
    rfl
  · show st.1.length = _
    rw [inv.len, entries_length]
  · refine ⟨?_, rfl, ?_, ?_⟩
    · simp [scan_length, c2]
    · show (0 :: inclusiveScan 0 c)[m.v.length]? = some st.1.length
      rw [htot, inv.len]
    · intro x (hx : x < m.v.length)
      have hle : base (entries m.fv 0) (x + 1) ≤ st.1.length := by
        rw [inv.len, ← base_top _ _ hb]
        exact base_mono _ (by omega)
      have hseg : (st.1.drop (base (entries m.fv 0) x)).take
          (base (entries m.fv 0) (x + 1) - base (entries m.fv 0) x) =
          facesOf (entries m.fv 0) x := by
        have hs := base_succ (entries m.fv 0) x
        apply List.ext_getElem?
        intro k
        by_cases hk : k < cnt (entries m.fv 0) x
        · rw [List.getElem?_take_of_lt (by omega), List.getElem?_drop, inv.vals x k hx hk]
          rfl
        · rw [List.getElem?_eq_none, List.getElem?_eq_none]
          · simpa [facesOf, cnt] using hk
          · simp; omega
      refine ⟨_, _, hoff x (by omega), hoff (x + 1) (by omega), base_mono _ (by omega), hle, ?_, ?_⟩
      · show List.Pairwise _ ((st.1.drop _).take _)
        rw [hseg]
        exact (facesOf_sorted m.fv 0 x).1
      · intro i
        show List.count i ((st.1.drop _).take _) = _
        rw [hseg]
        have := facesOf_count m.fv 0 x i
        rw [Nat.zero_add] at this
        exact this

/-- Consequently face `i` is listed at vertex `x` exactly if it has a corner there, and only once if
its corners are different vertices. -/
theorem C41_membership (m : FVM α N) (h : AdjacencyExact m) (x : Nat) (hx : x < m.v.length) :
    ∃ a b, m.vfOffsets[x]? = some a ∧ m.vfOffsets[x + 1]? = some b ∧
      (∀ i, i ∈ (m.vf.drop a).take (b - a) ↔ ∃ c, m.fv[i]? = some c ∧ ∃ j, c j = x) ∧
      ((∀ c ∈ m.fv, Function.Injective c) → ((m.vf.drop a).take (b - a)).Pairwise (· < ·)) := by
  obtain ⟨a, b, h1, h2, -, -, h5, h6⟩ := h.block x hx
  refine ⟨a, b, h1, h2, ?_, ?_⟩
  · intro i
    rw [← List.count_pos_iff, h6 i]
    unfold corners
    cases hc : m.fv[i]? with
    | none => simp
    | some c =>
      simp only [List.length_pos_iff_exists_mem, List.mem_filter, Option.some.injEq]
      constructor
      · rintro ⟨j, -, hj⟩
        exact ⟨c, rfl, j, by simpa using hj⟩
      · rintro ⟨c', rfl, j, hj⟩
        exact ⟨j, List.mem_finRange j, by simpa using hj⟩
  · intro hinj
    have hnd : ((m.vf.drop a).take (b - a)).Nodup := by
      rw [List.nodup_iff_count_le_one]
      intro i
      rw [h6 i]
      unfold corners
      cases hc : m.fv[i]? with
      | none => simp
      | some c =>
        have hi := hinj c (List.mem_of_getElem? hc)
        simp only
        have hnd2 : ((List.finRange N).filter fun j => c j == x).Nodup :=
          (List.nodup_finRange N).filter _
        match hl : (List.finRange N).filter fun j => c j == x with
        | [] => simp
        | [_] => simp
        | j1 :: j2 :: t =>
          exfalso
          have m1 : j1 ∈ (List.finRange N).filter fun j => c j == x := by rw [hl]; simp
          have m2 : j2 ∈ (List.finRange N).filter fun j => c j == x := by rw [hl]; simp
          rw [hl] at hnd2
          have e1 : c j1 = x := by simpa using (List.mem_filter.1 m1).2
          have e2 : c j2 = x := by simpa using (List.mem_filter.1 m2).2
          have := hi (e1.trans e2.symm)
          simp [this] at hnd2
    refine (h5.and hnd).imp ?_
    rintro p q ⟨hp, hq⟩
    omega

/-- Connectivity that names a vertex that does not exist is undefined behaviour. -/
theorem C41_out_of_range (m : FVM α N) (h : ¬ InRange m) : populateVF m = none := by
  have key : ∀ (es : List (Nat × Nat)) (c0 : List Nat), (∃ e ∈ es, c0.length ≤ e.1) →
      es.foldlM (fun counts e => bump counts e.1) c0 = none := by
    intro es
    induction es with
    | nil => rintro c0 ⟨e, he, -⟩; cases he
    | cons e es ih =>
      rintro c0 ⟨e', he', hle⟩
      rw [List.foldlM_cons]
      by_cases hlt : e.1 < c0.length
      · have : bump c0 e.1 = some (c0.set e.1 (c0[e.1] + 1)) := by
          simp [bump, hlt]
        rw [this]
        refine ih _ ⟨e', ?_, by simpa using hle⟩
        rcases List.mem_cons.1 he' with rfl | h'
        · omega
        · exact h'
      · have : bump c0 e.1 = none := by
          simp [bump, List.getElem?_eq_none (by omega : c0.length ≤ e.1)]
        rw [this]; rfl
  have : countVerts m.v.length m.fv = none := by
    unfold countVerts
    rw [countVerts_eq m.fv 0]
    apply key
    unfold InRange at h
    push Not at h
    obtain ⟨c, hc, j, hj⟩ := h
    obtain ⟨i, hi, rfl⟩ := List.mem_iff_getElem.1 hc
    exact ⟨(m.fv[i] j, i), (entries_mem m.fv 0 _ i).2 ⟨m.fv[i], j, by
      simp [List.mem_zipIdx_iff_getElem?, List.getElem?_eq_getElem hi], rfl⟩, by simpa using hj⟩
  unfold populateVF
  rw [this]; rfl

/-- A strip of two triangles. -/
def strip : FVM Nat 3 := { v := [10, 11, 12, 13], fv := [![0, 1, 2], ![1, 3, 2]], vf := [7, 7] }

example : InRange strip := by
  intro c hc j
  simp only [strip, List.mem_cons, List.not_mem_nil, or_false] at hc
  rcases hc with rfl | rfl <;> fin_cases j <;> decide
example : (populateVF strip).map (fun m => (m.vfOffsets, m.vf)) =
    some ([0, 1, 3, 5, 6], [0, 0, 1, 0, 1, 1]) := by decide +kernel
example : ¬ InRange ({ v := [10], fv := [![0, 1, 2]] } : FVM Nat 3) := by
  intro h
  have := h ![0, 1, 2] (by simp) 1
  simp at this

/-! ## C42 -/

/-- The faces as the coordinates of their vertices, in face order and vertex order. -/
def faceCoords (m : FVM α N) : List (Fin N → Option α) := m.fv.map fun c j => m.v[c j]?

theorem mapM_some {β γ : Type} (f : β → Option γ) (g : β → γ) (l : List β)
    (h : ∀ x ∈ l, f x = some (g x)) : l.mapM f = some (l.map g) := by
  induction l with
  | nil => rfl
  | cons a l ih =>
    rw [List.mapM_cons, h a (by simp), ih (fun x hx => h x (by simp [hx]))]
    rfl

/-- Sorting the vertices with any permutation keeps every face where it is. -/
theorem sortVerticesWith_spec (m : FVM α N) (perm : List Nat) (h : InRange m)
    (hp : perm.Perm (List.range m.v.length)) :
    ∃ m', sortVerticesWith perm m = some m' ∧ Alg.applyPermutation m.v perm = some m'.v ∧
      m'.v.length = m.v.length ∧ faceCoords m' = faceCoords m ∧ InRange m' ∧ m'.hasVF = false ∧
      m'.isMorton = m.isMorton ∧ m'.fv.length = m.fv.length ∧ m'.vf = m.vf ∧
      m'.vfOffsets = m.vfOffsets := by
  have hl : perm.length = m.v.length := by simpa using hp.length_eq
  obtain ⟨v', hv, hvl, hvi⟩ := Alg.C12_applyPermutation m.v perm hp
  obtain ⟨q, hq, hql, -, hqj⟩ := Alg.C12_invertPermutation perm (List.replicate m.v.length 0)
    (by rwa [hl]) (by simp [hl])
  have hq' : ∀ i (hi : i < m.v.length), v'[q[i]'(by omega)]? = m.v[i]? ∧ q[i]'(by omega) < v'.length := by
    intro i hi
    obtain ⟨j, j1, j2⟩ := hqj i (by omega)
    have hqi : q[i]'(by omega) = j := by
      rw [List.getElem?_eq_getElem (by omega)] at j1
      simpa using j1
    have hj : j < perm.length := by
      by_contra hc
      rw [List.getElem?_eq_none (by omega)] at j2
      cases j2
    rw [hqi]
    refine ⟨?_, by omega⟩
    rw [hvi j hj]
    rw [List.getElem?_eq_getElem hj] at j2
    simp only [Option.some.injEq] at j2
    rw [j2]
  have hmap : m.fv.mapM (mapFace q) =
      some (m.fv.map fun c j => if hj : c j < q.length then q[c j] else 0) := by
    apply mapM_some
    intro c hc
    have hcj : ∀ j, c j < q.length := fun j => by have := h c hc j; omega
    unfold mapFace
    rw [dif_pos hcj]
    congr 1
    funext j
    rw [dif_pos (hcj j)]
  refine ⟨{ m with hasVF := false, v := v', fv := m.fv.map fun c j => if hj : c j < q.length then q[c j] else 0 },
    ?_, hv, hvl, ?_, ?_, rfl, rfl, by simp, rfl, rfl⟩
  · unfold sortVerticesWith
    rw [hq, hv]
    simp [hmap]
  · unfold faceCoords
    rw [List.map_map]
    apply List.map_congr_left
    intro c hc
    funext j
    have hcj := h c hc j
    simp only [Function.comp]
    rw [dif_pos (by omega)]
    exact (hq' (c j) hcj).1
  · intro c hc j
    simp only [List.mem_map] at hc
    obtain ⟨c0, hc0, rfl⟩ := hc
    have hcj := h c0 hc0 j
    show (if hj : c0 j < q.length then q[c0 j] else 0) < v'.length
    rw [dif_pos (by omega)]
    exact (hq' (c0 j) hcj).2

/-- `mortonSortVertices`: whichever order `std::sort` leaves equal codes in, the call succeeds when
the code of every vertex is defined, the vertices are rearranged into increasing code order, and
every face keeps its place and the coordinates of its corners. -/
theorem C42_sortVertices (enc : FVM α N → α → Option (BitVec 32)) (m : FVM α N)
    (r : Option (FVM α N)) (h : InRange m) (hv : m.v ≠ []) (hf : m.fv ≠ [])
    (hdef : ∀ p ∈ m.v, ∃ a, enc m p = some a) (hr : MortonSortVertices enc m r) :
    ∃ m', r = some m' ∧ m'.v.Perm m.v ∧ faceCoords m' = faceCoords m ∧ InRange m' ∧
      m'.hasVF = false ∧
      ∃ codes : List (BitVec 32), m'.v.map (enc m) = codes.map some ∧ codes.Pairwise (· ≤ ·) := by
  unfold MortonSortVertices at hr
  rw [if_neg] at hr
  · obtain ⟨perm, hp, rfl⟩ := hr
    obtain ⟨h1, out, h2, h3⟩ := MortonPoints.C16_mortonSortPermutation (enc m) m.v perm hp
    obtain ⟨m', g1, g2, -, g4, g5, g6, -⟩ := sortVerticesWith_spec m perm h h1
    rw [h2] at g2
    cases g2
    obtain ⟨k1, k2⟩ := MortonPoints.C16_mortonSort (enc m) m.v m'.v hdef h3
    exact ⟨m', g1, k1, g4, g5, g6, k2⟩
  · rintro (h' | h' | ⟨-, p, hp, hn⟩)
    · exact hv h'
    · exact hf h'
    · obtain ⟨a, ha⟩ := hdef p hp
      rw [ha] at hn
      cases hn

theorem loadFace_some (v : List α) (c : Fin N → Nat) (h : ∀ j, c j < v.length) :
    loadFace v c = some fun j => v[c j]'(h j) := by
  unfold loadFace; rw [dif_pos h]

theorem loads {m : FVM α N} (h : InRange m) (cen : (Fin N → α) → α) :
    ∃ cs, m.fv.mapM (fun c => (loadFace m.v c).map cen) = some cs ∧ cs.length = m.fv.length ∧
      ∀ (i : Nat) (c : Fin N → Nat), m.fv[i]? = some c → cs[i]? = (loadFace m.v c).map cen := by
  have : ∀ l : List (Fin N → Nat), (∀ c ∈ l, ∀ j, c j < m.v.length) →
      ∃ cs, l.mapM (fun c => (loadFace m.v c).map cen) = some cs ∧ cs.length = l.length ∧
        ∀ (i : Nat) (c : Fin N → Nat), l[i]? = some c → cs[i]? = (loadFace m.v c).map cen := by
    intro l
    induction l with
    | nil => intro _; exact ⟨[], rfl, rfl, by simp⟩
    | cons c l ih =>
      intro hl
      obtain ⟨cs, e1, e2, e3⟩ := ih (fun c hc => hl c (by simp [hc]))
      have hc := loadFace_some m.v c (hl c (by simp))
      refine ⟨cen (fun j => m.v[c j]'(hl c (by simp) j)) :: cs, ?_, by simp [e2], ?_⟩
      · rw [List.mapM_cons, e1, hc]; rfl
      · intro i d hd
        cases i with
        | zero =>
          simp only [List.getElem?_cons_zero, Option.some.injEq] at hd
          subst hd
          rw [hc]; rfl
        | succ i => simpa using e3 i d (by simpa using hd)
  exact this m.fv h

/-- `mortonSortFaces`: the vertices stay, the faces are rearranged into increasing order of the code
of their centroids. -/
theorem C42_sortFaces (enc : FVM α N → α → Option (BitVec 32)) (cen : (Fin N → α) → α) (m : FVM α N)
    (r : Option (FVM α N)) (h : InRange m)
    (hdef : ∀ c ∈ m.fv, ∀ f, loadFace m.v c = some f → ∃ a, enc m (cen f) = some a)
    (hr : MortonSortFaces enc cen m r) :
    ∃ m', r = some m' ∧ m'.v = m.v ∧ m'.fv.Perm m.fv ∧ m'.hasVF = false ∧
      ∃ codes : List (BitVec 32),
        m'.fv.map (fun c => (loadFace m.v c).bind fun f => enc m (cen f)) = codes.map some ∧
        codes.Pairwise (· ≤ ·) := by
  obtain ⟨cs, e1, e2, e3⟩ := loads h cen
  have hcs : ∀ p ∈ cs, ∃ a, enc m p = some a := by
    intro p hp
    obtain ⟨i, hi, rfl⟩ := List.mem_iff_getElem.1 hp
    have hi' : i < m.fv.length := by omega
    have := e3 i _ (List.getElem?_eq_getElem hi')
    rw [List.getElem?_eq_getElem hi] at this
    cases hl : loadFace m.v m.fv[i] with
    | none => rw [hl] at this; cases this
    | some f =>
      rw [hl] at this
      simp only [Option.map_some, Option.some.injEq] at this
      rw [this]
      exact hdef _ (List.getElem_mem hi') f hl
  unfold MortonSortFaces at hr
  rw [e1] at hr
  dsimp only at hr
  rw [if_neg] at hr
  · obtain ⟨perm, hp, rfl⟩ := hr
    obtain ⟨h1, out, h2, h3⟩ := MortonPoints.C16_mortonSortPermutation (enc m) cs perm hp
    rw [e2] at h1
    have hlp : perm.length = m.fv.length := by simpa using h1.length_eq
    obtain ⟨fv', f1, f2, f3⟩ := Alg.C12_applyPermutation m.fv perm h1
    obtain ⟨out', o1, o2, o3⟩ := Alg.C12_applyPermutation cs perm (by rw [e2]; exact h1)
    rw [h2] at o1
    cases o1
    obtain ⟨k1, codes, k2, k3⟩ := MortonPoints.C16_mortonSort (enc m) cs out hcs h3
    refine ⟨{ m with hasVF := false, fv := fv' }, ?_, rfl, ?_, rfl, codes, ?_, k3⟩
    · unfold sortFacesWith
      rw [f1]; rfl
    · have : fv' = perm.map (fun i => m.fv.getD i (fun _ => 0)) := by
        apply List.ext_getElem?
        intro i
        by_cases hi : i < perm.length
        · rw [f3 i hi, List.getElem?_map, List.getElem?_eq_getElem hi]
          have : perm[i] < m.fv.length := by
            have := h1.mem_iff.1 (List.getElem_mem hi)
            simpa using this
          simp [this]
        · rw [List.getElem?_eq_none (by omega), List.getElem?_eq_none (by simp; omega)]
      show fv'.Perm m.fv
      rw [this]
      refine (h1.map _).trans ?_
      have : (List.range m.fv.length).map (fun i => m.fv.getD i (fun _ => 0)) = m.fv := by
        apply List.ext_getElem?
        intro i
        by_cases hi : i < m.fv.length
        · simp [hi]
        · rw [List.getElem?_eq_none (by simp; omega), List.getElem?_eq_none (by omega)]
      rw [this]
    · rw [← k2]
      show fv'.map _ = _
      apply List.ext_getElem?
      intro i
      by_cases hi : i < perm.length
      · rw [List.getElem?_map, List.getElem?_map, f3 i hi, o3 i hi]
        have hpi : perm[i] < m.fv.length := by
          have := h1.mem_iff.1 (List.getElem_mem hi)
          simpa using this
        rw [e3 perm[i] _ (List.getElem?_eq_getElem hpi), List.getElem?_eq_getElem hpi]
        have hc := loadFace_some m.v m.fv[perm[i]] (h _ (List.getElem_mem hpi))
        rw [hc]
        simp [hc]
      · rw [List.getElem?_eq_none (by simp; omega), List.getElem?_eq_none (by simp; omega)]
  · rintro ⟨-, p, hp, hn⟩
    obtain ⟨a, ha⟩ := hcs p hp
    rw [ha] at hn
    cases hn

theorem inRange_perm {m m' : FVM α N} (h : InRange m) (hv : m'.v.length = m.v.length)
    (hf : m'.fv.Perm m.fv) : InRange m' := fun c hc j => by
  rw [hv]; exact h c (hf.mem_iff.1 hc) j

/-- With two faces or more, one of which has a centroid without a code, the result is undefined. -/
theorem C42_sortFaces_undefined (enc : FVM α N → α → Option (BitVec 32)) (cen : (Fin N → α) → α) (m : FVM α N)
    (r : Option (FVM α N)) (h : InRange m) (h2 : 2 ≤ m.fv.length)
    (hundef : ∃ c ∈ m.fv, ∃ f, loadFace m.v c = some f ∧ enc m (cen f) = none) (hr : MortonSortFaces enc cen m r) : r = none := by
  obtain ⟨cs, e1, e2, e3⟩ := loads h cen
  unfold MortonSortFaces at hr
  rw [e1] at hr
  obtain ⟨c, hc, f, hf, hn⟩ := hundef
  obtain ⟨i, hi⟩ := List.mem_iff_getElem?.1 hc
  have := e3 i c hi
  rw [hf, Option.map_some] at this
  dsimp only at hr
  rw [if_pos ⟨by omega, cen f, List.mem_of_getElem? this, hn⟩] at hr
  exact hr

/-- `mortonSort`: in every outcome that does not run into undefined behaviour, vertices and faces
are rearranged, every face keeps the coordinates of its corners in their order, and the adjacency, if
there was one, is that of the new numbering. -/
theorem C42_mortonSort (enc : FVM α N → α → Option (BitVec 32)) (cen : (Fin N → α) → α)
    (m m' : FVM α N) (h : InRange m) (hr : MortonSort enc cen m (some m')) :
    m'.v.Perm m.v ∧ (faceCoords m').Perm (faceCoords m) ∧ InRange m' ∧ m'.isMorton = true ∧
      m'.hasVF = m.hasVF ∧ (m.hasVF = true → AdjacencyExact m') := by
  obtain ⟨r1, h1, hr⟩ := hr
  cases r1 with
  | none => cases hr
  | some m1 =>
    obtain ⟨r2, h2, hr⟩ := hr
    cases r2 with
    | none => cases hr
    | some m2 =>
      unfold MortonSortVertices at h1
      split_ifs at h1
      obtain ⟨perm, hp, e1⟩ := h1
      have hperm := (MortonPoints.C16_mortonSortPermutation (enc m) m.v perm hp)
      obtain ⟨m1', g1, g2, g3, g4, g5, g6, -⟩ := sortVerticesWith_spec m perm h hperm.1
      rw [g1] at e1
      cases e1
      obtain ⟨hp1, out, ho, hs⟩ := hperm
      rw [g2] at ho
      cases ho
      unfold MortonSortFaces at h2
      obtain ⟨cs, c1, c2, c3⟩ := loads g5 cen
      rw [c1] at h2
      dsimp only at h2
      split_ifs at h2
      obtain ⟨perm2, hp2, e2⟩ := h2
      have hq := (MortonPoints.C16_mortonSortPermutation (enc m1) cs perm2 hp2).1
      rw [c2] at hq
      obtain ⟨fv', f1, f2, f3⟩ := Alg.C12_applyPermutation m1.fv perm2 hq
      have e2' : m2 = { m1 with hasVF := false, fv := fv' } := by
        unfold sortFacesWith at e2
        rw [f1] at e2
        simpa using e2
      have hlp : perm2.length = m1.fv.length := by simpa using hq.length_eq
      have hfv : fv'.Perm m1.fv := by
        have e : fv' = perm2.map (fun i => m1.fv.getD i (fun _ => 0)) := by
          apply List.ext_getElem?
          intro i
          by_cases hi : i < perm2.length
          · rw [f3 i hi, List.getElem?_map, List.getElem?_eq_getElem hi]
            have : perm2[i] < m1.fv.length := by
              have := hq.mem_iff.1 (List.getElem_mem hi)
              simpa using this
            simp [this]
          · rw [List.getElem?_eq_none (by omega), List.getElem?_eq_none (by simp; omega)]
        rw [e]
        refine (hq.map _).trans ?_
        have : (List.range m1.fv.length).map (fun i => m1.fv.getD i (fun _ => 0)) = m1.fv := by
          apply List.ext_getElem?
          intro i
          by_cases hi : i < m1.fv.length
          · simp [hi]
          · rw [List.getElem?_eq_none (by simp; omega), List.getElem?_eq_none (by omega)]
        rw [this]
      have hin : InRange m2 := by
        rw [e2']
        exact inRange_perm g5 rfl hfv
      have hfc : (faceCoords m2).Perm (faceCoords m) := by
        rw [← g4, e2']
        exact hfv.map _
      have hv2 : m2.v.Perm m.v := by rw [e2']; exact hs.perm
      by_cases hvf : m.hasVF = true
      · dsimp only at hr
        rw [if_pos hvf] at hr
        obtain ⟨m3, p1, p2, p3, p4, p5, -, p7⟩ := C41_populateVF { m2 with isMorton := true } hin
        rw [p1] at hr
        cases hr
        refine ⟨by rw [p2]; exact hv2, ?_, ?_, p4, by rw [p5, hvf], fun _ => p7⟩
        · have : faceCoords m' = faceCoords m2 := by unfold faceCoords; rw [p2, p3]
          rw [this]; exact hfc
        · intro c hc j
          rw [p2]; rw [p3] at hc
          exact hin c hc j
      · dsimp only at hr
        rw [if_neg hvf] at hr
        cases hr
        refine ⟨hv2, hfc, hin, rfl, ?_, fun hc => absurd hc hvf⟩
        rw [e2']
        simpa using hvf

/-! ### Which linear meshes can be Morton sorted -/

section
variable {K : Type} [Field K] [LinearOrder K] [IsStrictOrderedRing K] [FloorSemiring K]
open Geom

theorem code_defined_iff (p : K × K) :
    (∃ a, MortonPoints.encodePoint2 p = some a) ↔ MortonPoints.InUnit2 p := by
  constructor
  · rintro ⟨a, ha⟩
    unfold MortonPoints.encodePoint2 at ha
    by_cases hc : 0 ≤ p.1 ∧ 0 ≤ p.2 ∧ p.1 ≤ 1 ∧ p.2 ≤ 1
    · exact ⟨⟨hc.1, hc.2.2.1⟩, hc.2.1, hc.2.2.2⟩
    · simp [hc] at ha
  · intro h
    obtain ⟨a, -, h1, -⟩ := MortonPoints.C16_code2_monotone p p h h (le_refl _) (le_refl _)
    exact ⟨a, h1⟩

/-- The codes of all vertices of a linear mesh are defined exactly if its bounding box has its lower
corner at the origin and positive extents: the code scales by the extents but does not subtract the
lower corner. -/
theorem C42_codes_defined (m : FVM (Pt 2 K) N) (box : Box.AABB 2 K)
    (hb : Box.boundingBox m.v = some box) :
    (∀ p ∈ m.v, ∃ a, scaledCode MortonPoints.encodePoint2 m p = some a) ↔
      box.min 0 = 0 ∧ box.min 1 = 0 ∧ 0 < box.max 0 ∧ 0 < box.max 1 := by
  have hne : m.v ≠ [] := by rintro h; rw [h] at hb; cases hb
  obtain ⟨b', e, hval, hin, hleast⟩ := Box.C24_boundingBox m.v hne
  rw [hb] at e
  cases e
  have w0 := hval 0
  have w1 := hval 1
  constructor
  · intro hall
    obtain ⟨p0, hp0⟩ := List.exists_mem_of_ne_nil _ hne
    have hw : box.max 0 - box.min 0 ≠ 0 ∧ box.max 1 - box.min 1 ≠ 0 := by
      obtain ⟨a, ha⟩ := hall p0 hp0
      unfold scaledCode at ha
      rw [hb] at ha
      by_contra hc
      have : box.max 0 - box.min 0 = 0 ∨ box.max 1 - box.min 1 = 0 := by tauto
      simp [this] at ha
    have hw0 : 0 < box.max 0 - box.min 0 := lt_of_le_of_ne (by linarith) (Ne.symm hw.1)
    have hw1 : 0 < box.max 1 - box.min 1 := lt_of_le_of_ne (by linarith) (Ne.symm hw.2)
    have hunit : ∀ p ∈ m.v, Box.Inside p
        ⟨fun _ => 0, ![box.max 0 - box.min 0, box.max 1 - box.min 1]⟩ := by
      intro p hp
      have hd := hall p hp
      unfold scaledCode at hd
      rw [hb] at hd
      simp only [Option.bind_eq_bind, Option.bind_some] at hd
      rw [if_neg (by tauto), code_defined_iff] at hd
      obtain ⟨⟨a1, a2⟩, a3, a4⟩ := hd
      dsimp only at a1 a2 a3 a4
      rw [mul_one_div] at a1 a2 a3 a4
      rw [div_le_one (by assumption)] at a2 a4
      have b1 : 0 ≤ p 0 := by
        by_contra hc
        exact absurd (div_neg_of_neg_of_pos (not_le.1 hc) hw0) (not_lt.2 a1)
      have b2 : 0 ≤ p 1 := by
        by_contra hc
        exact absurd (div_neg_of_neg_of_pos (not_le.1 hc) hw1) (not_lt.2 a3)
      intro i
      fin_cases i
      · exact ⟨b1, a2⟩
      · exact ⟨b2, a4⟩
    have hl := hleast _ hunit
    have l0 := hl box.min (Box.inside_min hval)
    have u0 := hl box.max (Box.inside_max hval)
    have l00 := (l0 0).1
    have l01 := (l0 1).1
    have u00 := (u0 0).2
    have u01 := (u0 1).2
    simp only [Matrix.cons_val_zero, Matrix.cons_val_one] at l00 l01 u00 u01
    refine ⟨?_, ?_, ?_, ?_⟩ <;> linarith
  · rintro ⟨z0, z1, p0, p1⟩ p hp
    have h0 := hin p hp 0
    have h1 := hin p hp 1
    unfold scaledCode
    rw [hb]
    simp only [Option.bind_eq_bind, Option.bind_some, z0, z1, sub_zero]
    rw [if_neg (by push Not; exact ⟨p0.ne', p1.ne'⟩), code_defined_iff]
    rw [z0] at h0
    rw [z1] at h1
    refine ⟨⟨?_, ?_⟩, ?_, ?_⟩ <;> dsimp only <;> rw [mul_one_div]
    · exact div_nonneg h0.1 p0.le
    · rw [div_le_one p0]; exact h0.2
    · exact div_nonneg h1.1 p1.le
    · rw [div_le_one p1]; exact h1.2

omit [Field K] [IsStrictOrderedRing K] [FloorSemiring K] in
theorem boundingBox_perm (l l' : List (Pt 2 K)) (h : l'.Perm l) (box : Box.AABB 2 K)
    (hb : Box.boundingBox l = some box) : Box.boundingBox l' = some box := by
  have hne : l ≠ [] := by rintro rfl; cases hb
  have hne' : l' ≠ [] := by rintro rfl; exact hne (List.nil_perm.1 h)
  obtain ⟨b1, e1, v1, i1, m1⟩ := Box.C24_boundingBox l hne
  obtain ⟨b2, e2, v2, i2, m2⟩ := Box.C24_boundingBox l' hne'
  rw [hb] at e1
  cases e1
  rw [e2]
  congr 1
  have h12 := m1 b2 (fun p hp => i2 p (h.mem_iff.2 hp))
  have h21 := m2 box (fun p hp => i1 p (h.mem_iff.1 hp))
  ext i
  · exact le_antisymm ((h12 _ (Box.inside_min v1)) i).1 ((h21 _ (Box.inside_min v2)) i).1
  · exact le_antisymm ((h21 _ (Box.inside_max v2)) i).2 ((h12 _ (Box.inside_max v1)) i).2

/-- A triangle mesh whose bounding box starts at the origin is sorted without undefined behaviour. -/
theorem C42_triangles_at_origin (m : FVM (Pt 2 K) 3) (box : Box.AABB 2 K) (h : InRange m)
    (hb : Box.boundingBox m.v = some box) (hf : m.fv ≠ [])
    (ho : box.min 0 = 0 ∧ box.min 1 = 0 ∧ 0 < box.max 0 ∧ 0 < box.max 1)
    (r : Option (FVM (Pt 2 K) 3))
    (hr : MortonSort (scaledCode MortonPoints.encodePoint2) triCentroid m r) :
    ∃ m', r = some m' := by
  have hne : m.v ≠ [] := by rintro h; rw [h] at hb; cases hb
  have hdef := (C42_codes_defined m box hb).2 ho
  obtain ⟨r1, h1, hr⟩ := hr
  obtain ⟨m1, rfl, k1, k2, k3, -⟩ := C42_sortVertices _ m r1 h hne hf hdef h1
  obtain ⟨r2, h2, hr⟩ := hr
  have hb1 := boundingBox_perm m.v m1.v k1 box hb
  have hne1 : m1.v ≠ [] := by rintro h; rw [h] at hb1; cases hb1
  obtain ⟨b', e, hval, hin, -⟩ := Box.C24_boundingBox m1.v hne1
  rw [hb1] at e
  cases e
  have hcen : ∀ c ∈ m1.fv, ∀ f, loadFace m1.v c = some f →
      ∃ a, scaledCode MortonPoints.encodePoint2 m1 (triCentroid f) = some a := by
    intro c hc f hfc
    rw [loadFace_some m1.v c (k3 c hc)] at hfc
    simp only [Option.some.injEq] at hfc
    have hfi : ∀ j, Box.Inside (f j) box := by
      intro j
      rw [← hfc]
      exact hin _ (List.getElem_mem _)
    unfold scaledCode
    rw [hb1]
    obtain ⟨z0, z1, p0, p1⟩ := ho
    simp only [Option.bind_eq_bind, Option.bind_some, z0, z1, sub_zero]
    rw [if_neg (by push Not; exact ⟨p0.ne', p1.ne'⟩), code_defined_iff]
    have a0 := hfi 0 0
    have a1 := hfi 1 0
    have a2 := hfi 2 0
    have b0 := hfi 0 1
    have b1 := hfi 1 1
    have b2 := hfi 2 1
    rw [z0] at a0 a1 a2
    rw [z1] at b0 b1 b2
    unfold triCentroid
    refine ⟨⟨?_, ?_⟩, ?_, ?_⟩ <;> dsimp only <;> rw [mul_one_div]
    · exact div_nonneg (by linarith) p0.le
    · rw [div_le_one p0]; linarith
    · exact div_nonneg (by linarith) p1.le
    · rw [div_le_one p1]; linarith
  obtain ⟨m2, rfl, j1, j2, -⟩ := C42_sortFaces _ triCentroid m1 r2 k3 hcen h2
  dsimp only at hr
  have hin2 : InRange m2 := inRange_perm k3 (by rw [j1]) j2
  split_ifs at hr
  · obtain ⟨m3, e3, -⟩ := C41_populateVF { m2 with isMorton := true } hin2
    exact ⟨m3, by rw [hr, e3]⟩
  · exact ⟨_, hr⟩

/-- A linear mesh with more than one vertex whose bounding box does not start at the origin always
runs into undefined behaviour (a coordinate outside `[0, 1]` reaches the Morton encoder). -/
theorem C42_away_from_origin_fails (cen : (Fin N → Pt 2 K) → Pt 2 K) (m : FVM (Pt 2 K) N)
    (box : Box.AABB 2 K) (hb : Box.boundingBox m.v = some box) (h2 : 2 ≤ m.v.length)
    (hoff : box.min 0 ≠ 0 ∨ box.min 1 ≠ 0) (r : Option (FVM (Pt 2 K) N))
    (hr : MortonSort (scaledCode MortonPoints.encodePoint2) cen m r) : r = none := by
  obtain ⟨r1, h1, hr⟩ := hr
  have hnot : ¬ ∀ p ∈ m.v, ∃ a, scaledCode MortonPoints.encodePoint2 m p = some a := by
    rw [C42_codes_defined m box hb]
    tauto
  unfold MortonSortVertices at h1
  rw [if_pos] at h1
  · rw [h1] at hr
    exact hr
  · right; right
    refine ⟨h2, ?_⟩
    push Not at hnot
    obtain ⟨p, hp, hn⟩ := hnot
    refine ⟨p, hp, ?_⟩
    cases he : scaledCode MortonPoints.encodePoint2 m p with
    | none => rfl
    | some a => exact absurd he (hn a)

end

/-- A unit square of two triangles. -/
def square : FVM (Geom.Pt 2 ℚ) 3 :=
  { v := [![1, 1], ![0, 0], ![1, 0], ![0, 1]], fv := [![0, 3, 1], ![1, 2, 0]], hasVF := true }

example : InRange square := by
  intro c hc j
  simp only [square, List.mem_cons, List.not_mem_nil, or_false] at hc
  rcases hc with rfl | rfl <;> fin_cases j <;> decide
example : ∃ box, Box.boundingBox square.v = some box ∧
    box.min 0 = 0 ∧ box.min 1 = 0 ∧ 0 < box.max 0 ∧ 0 < box.max 1 := by
  refine ⟨_, rfl, ?_⟩
  decide +kernel
/-- The permutation `[1, 2, 3, 0]`, which is not its own inverse, moves the square's vertices. -/
example : (sortVerticesWith [1, 2, 3, 0] square).map (fun m => (m.v, m.fv)) =
    some ([![0, 0], ![1, 0], ![0, 1], ![1, 1]], [![3, 2, 0], ![0, 1, 3]]) := by decide +kernel
example : ∃ box, Box.boundingBox ([![2, 0], ![3, 0], ![2, 1]] : List (Geom.Pt 2 ℚ)) = some box ∧
    (box.min 0 ≠ 0 ∨ box.min 1 ≠ 0) := by
  refine ⟨_, rfl, ?_⟩
  decide +kernel

/-! ## Histories: the adjacency flag can be trusted -/

/-- The mutating operations of the class. -/
inductive Op (α : Type) (N : Nat) where
  | addVertex (p : α)
  | addFace (c : Fin N → Nat)
  | flipFace (i : Nat)
  | populateVF
  | mortonSort

/-- `r` is a possible outcome of the operation. -/
def Step (flip : (Fin N → Nat) → Fin N → Nat) (enc : FVM α N → α → Option (BitVec 32))
    (cen : (Fin N → α) → α) (m : FVM α N) : Op α N → Option (FVM α N) → Prop
  | .addVertex p, r => r = some (addVertex m p)
  | .addFace c, r => r = some (addFace m c)
  | .flipFace i, r => r = flipFace flip m i
  | .populateVF, r => r = populateVF m
  | .mortonSort, r => MortonSort enc cen m r

/-- `m'` is reached from `m` by the operations, none of which is undefined. -/
inductive Steps (flip : (Fin N → Nat) → Fin N → Nat) (enc : FVM α N → α → Option (BitVec 32))
    (cen : (Fin N → α) → α) : FVM α N → List (Op α N) → FVM α N → Prop where
  | nil (m) : Steps flip enc cen m [] m
  | cons {m m1 m2 op ops} : Step flip enc cen m op (some m1) → Steps flip enc cen m1 ops m2 →
      Steps flip enc cen m (op :: ops) m2

theorem populate_inRange (m m' : FVM α N) (h : populateVF m = some m') : InRange m := by
  by_contra hc
  rw [C41_out_of_range m hc] at h
  cases h

/-- After any sequence of operations on a mesh, the flag that says that the adjacency is up to date
is set only if the adjacency is exact. -/
theorem C41_flag (flip : (Fin N → Nat) → Fin N → Nat) (enc : FVM α N → α → Option (BitVec 32))
    (cen : (Fin N → α) → α) (m m' : FVM α N) (ops : List (Op α N))
    (h0 : m.hasVF = true → InRange m ∧ AdjacencyExact m) (h : Steps flip enc cen m ops m') :
    m'.hasVF = true → InRange m' ∧ AdjacencyExact m' := by
  induction h with
  | nil m => exact h0
  | @cons m m1 m2 op ops hs _ ih =>
    apply ih
    cases op with
    | addVertex p => cases hs; intro hc; cases hc
    | addFace c => cases hs; intro hc; cases hc
    | flipFace i =>
      intro hc
      simp only [Step, flipFace] at hs
      cases hi : m.fv[i]? with
      | none => rw [hi] at hs; cases hs
      | some c => rw [hi] at hs; cases hs; cases hc
    | populateVF =>
      intro _
      have hs : populateVF m = some m1 := Eq.symm hs
      have hin := populate_inRange m m1 hs
      obtain ⟨m3, e, e1, e2, -, -, -, ex⟩ := C41_populateVF m hin
      rw [hs] at e
      cases e
      refine ⟨?_, ex⟩
      intro c hc j
      rw [e1]; rw [e2] at hc
      exact hin c hc j
    | mortonSort =>
      intro hc
      have hs : MortonSort enc cen m (some m1) := hs
      -- the flag is only set at the end if it was set before
      by_cases hvf : m.hasVF = true
      · obtain ⟨-, -, k3, -, -, k6⟩ := C42_mortonSort enc cen m m1 (h0 hvf).1 hs
        exact ⟨k3, k6 hvf⟩
      · exfalso
        obtain ⟨r1, h1, hr⟩ := hs
        cases r1 with
        | none => cases hr
        | some a =>
          obtain ⟨r2, h2, hr⟩ := hr
          cases r2 with
          | none => cases hr
          | some b =>
            dsimp only at hr
            rw [if_neg hvf] at hr
            cases hr
            unfold MortonSortFaces at h2
            split at h2
            · cases h2
            · split_ifs at h2
              obtain ⟨perm, -, e⟩ := h2
              unfold sortFacesWith at e
              cases ha : Alg.applyPermutation a.fv perm with
              | none => rw [ha] at e; cases e
              | some fv' => rw [ha] at e; cases e; cases hc

/-- A newly constructed mesh satisfies the hypothesis of `C41_flag`. -/
example : ({ v := [], fv := [] } : FVM α N).hasVF = true → InRange ({ v := [], fv := [] } : FVM α N) ∧
    AdjacencyExact ({ v := [], fv := [] } : FVM α N) := by simp
def strip1 : FVM Nat 3 :=
  { v := [10, 11, 12, 13], fv := [![0, 1, 2], ![1, 3, 2]], hasVF := true,
    vfOffsets := [0, 1, 3, 5, 6], vf := [0, 0, 1, 0, 1, 1] }
def strip2 : FVM Nat 3 := { strip1 with hasVF := false, v := [10, 11, 12, 13, 14] }
def strip3 : FVM Nat 3 := { strip2 with fv := [Geom.triFlip ![0, 1, 2], ![1, 3, 2]] }
def strip4 : FVM Nat 3 := { strip3 with hasVF := true, vfOffsets := [0, 1, 3, 5, 6, 6] }

example : strip4.hasVF = true ∧ Steps (Geom.triFlip) (fun _ _ => none) (fun f => f 0) strip
    [.populateVF, .addVertex 14, .flipFace 0, .populateVF] strip4 :=
  ⟨rfl, .cons (m1 := strip1) (by show _ = _; rfl) <| .cons (m1 := strip2) (by show _ = _; rfl) <|
    .cons (m1 := strip3) (by show _ = _; rfl) <| .cons (m1 := strip4) (by show _ = _; rfl) (.nil _)⟩

/-! ## C43 -/

/-- `faceContaining` on a mesh with in-range connectivity returns `-1` if no face contains the point
and otherwise the first face that does. -/
theorem C43_faceContaining (contains : (Fin N → α) → Bool) (m : FVM α N) (h : InRange m) :
    ∃ k, faceContaining contains m = some k ∧
      (k = -1 ↔ ∀ c ∈ m.fv, ∀ f, loadFace m.v c = some f → contains f = false) ∧
      (∀ i : Nat, k = (i : ℤ) ↔ (∃ c f, m.fv[i]? = some c ∧ loadFace m.v c = some f ∧ contains f = true) ∧
        ∀ i' c f, i' < i → m.fv[i']? = some c → loadFace m.v c = some f → contains f = false) := by
  have key : ∀ (l : List (Fin N → Nat)) (s : Nat), (∀ c ∈ l, ∀ j, c j < m.v.length) →
      (faceContainingLoop contains m.v s l = some (-1) ∧
        ∀ c ∈ l, ∀ f, loadFace m.v c = some f → contains f = false) ∨
      ∃ i : Nat, faceContainingLoop contains m.v s l = some ((s + i : Nat) : ℤ) ∧
        (∃ c f, l[i]? = some c ∧ loadFace m.v c = some f ∧ contains f = true) ∧
        ∀ i' c f, i' < i → l[i']? = some c → loadFace m.v c = some f → contains f = false := by
    intro l
    induction l with
    | nil => intro s _; left; exact ⟨rfl, by simp⟩
    | cons c l ih =>
      intro s hl
      have hc := loadFace_some m.v c (hl c (by simp))
      unfold faceContainingLoop
      rw [hc]
      simp only [Option.bind_eq_bind, Option.bind_some]
      by_cases hcon : contains (fun j => m.v[c j]'(hl c (by simp) j)) = true
      · right
        refine ⟨0, by rw [if_pos hcon]; rfl, ⟨c, _, rfl, hc, hcon⟩, by intro i' c f hi; omega⟩
      · rw [if_neg hcon]
        rcases ih (s + 1) (fun c hc => hl c (by simp [hc])) with ⟨e1, e2⟩ | ⟨i, e1, ⟨d, f, d1, d2, d3⟩, e3⟩
        · left
          refine ⟨e1, ?_⟩
          intro c' hc' f hf
          rcases List.mem_cons.1 hc' with rfl | hc'
          · rw [hc] at hf
            cases hf
            simpa using hcon
          · exact e2 c' hc' f hf
        · right
          refine ⟨i + 1, by rw [e1]; congr 2; omega, ⟨d, f, by simpa using d1, d2, d3⟩, ?_⟩
          intro i' c' f' hi' hc' hf'
          cases i' with
          | zero =>
            simp only [List.getElem?_cons_zero, Option.some.injEq] at hc'
            subst hc'
            rw [hc] at hf'
            cases hf'
            simpa using hcon
          | succ i' => exact e3 i' c' f' (by omega) (by simpa using hc') hf'
  rcases key m.fv 0 h with ⟨e1, e2⟩ | ⟨i, e1, ⟨c, f, c1, c2, c3⟩, e3⟩
  · refine ⟨-1, e1, by simp only [true_iff]; exact e2, ?_⟩
    intro i
    constructor
    · intro hi; omega
    · rintro ⟨⟨c, f, c1, c2, c3⟩, -⟩
      rw [e2 c (List.mem_of_getElem? c1) f c2] at c3
      cases c3
  · refine ⟨(i : ℤ), by simpa [faceContaining] using e1, ?_, ?_⟩
    · constructor
      · intro hi; omega
      · intro hall
        rw [hall c (List.mem_of_getElem? c1) f c2] at c3
        cases c3
    · intro i'
      constructor
      · intro hi
        have : i' = i := by omega
        subst this
        exact ⟨⟨c, f, c1, c2, c3⟩, e3⟩
      · rintro ⟨⟨c', f', g1, g2, g3⟩, g4⟩
        rcases Nat.lt_trichotomy i i' with hlt | heq | hlt
        · rw [g4 i c f hlt c1 c2] at c3
          cases c3
        · rw [heq]
        · rw [e3 i' c' f' hlt g1 g2] at g3
          cases g3

/-- For a mesh of triangles of positive area, `faceContaining` finds a face whenever the point is in
the convex hull of the corners of some face, and the face it returns has the point in its hull. -/
theorem C43_triangles {K : Type} [Field K] [LinearOrder K] [IsStrictOrderedRing K]
    (m : FVM (Geom.Pt 2 K) 3) (p : Geom.Pt 2 K) (h : InRange m)
    (hpos : ∀ c ∈ m.fv, ∀ f, loadFace m.v c = some f → 0 < Geom.triArea f) :
    ∃ k, faceContaining (fun t => Geom.triContains t p) m = some k ∧
      (k = -1 ↔ ∀ c ∈ m.fv, ∀ f, loadFace m.v c = some f → ¬ Geom.InHull f p) ∧
      (∀ i : Nat, k = (i : ℤ) → ∃ c f, m.fv[i]? = some c ∧ loadFace m.v c = some f ∧ Geom.InHull f p) := by
  obtain ⟨k, k1, k2, k3⟩ := C43_faceContaining (fun t => Geom.triContains t p) m h
  refine ⟨k, k1, ?_, ?_⟩
  · rw [k2]
    constructor
    · intro hall c hc f hf hh
      have := hall c hc f hf
      rw [(Geom.C28_contains f p (hpos c hc f hf)).2 hh] at this
      cases this
    · intro hall c hc f hf
      have := hall c hc f hf
      rw [← Geom.C28_contains f p (hpos c hc f hf)] at this
      simpa using this
  · intro i hi
    obtain ⟨⟨c, f, c1, c2, c3⟩, -⟩ := (k3 i).1 hi
    exact ⟨c, f, c1, c2, (Geom.C28_contains f p (hpos c (List.mem_of_getElem? c1) f c2)).1 c3⟩

example : faceContaining (fun t => Geom.triContains t ![3/4, 1/4]) square = some 1 ∧
    faceContaining (fun t => Geom.triContains t ![1/2, 1/2]) square = some 0 ∧
    faceContaining (fun t => Geom.triContains t ![2, 0]) square = some (-1) := by decide +kernel
example : ∀ c ∈ square.fv, ∀ f, loadFace square.v c = some f → 0 < Geom.triArea f := by
  intro c hc f hf
  simp only [square, List.mem_cons, List.not_mem_nil, or_false] at hc
  rcases hc with rfl | rfl <;>
  · unfold loadFace at hf
    rw [dif_pos (by intro j; fin_cases j <;> decide)] at hf
    cases hf
    decide +kernel

end Verif.Mesh
