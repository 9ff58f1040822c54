import Verif.Props.Soup
import Verif.Props.Mesh
import Verif.Props.Quadratic
import Verif.Model.MeshSoup

/-!
# C82 A mesh and its soup are the same mesh; C83 the orientation pass of `validate`
-/

namespace Verif.Mesh

open Verif.Polytope Verif.ElemTypes Verif.Geom

variable {K : Type} [Field K] [LinearOrder K] {N : Nat} {α Nm D : Type}

/-! ### C82 lemmas -/

theorem copyVerts_planar (eps z : K) (junk : Nat → Pt 2 K) (l : List (Pt 3 K)) (h : ∀ p ∈ l, |p 2 - z| ≤ eps) :
    ∀ i, copyVerts eps z junk i l = l.map fun p => ![p 0, p 1] := by
  induction l with
  | nil => intro i; rfl
  | cons p l ih =>
    intro i
    rw [copyVerts, if_neg (not_lt.2 (h p (by simp))), ih fun q hq => h q (by simp [hq])]
    rfl

theorem flatten_uniform (n : Nat) (bs : List (List Nat)) (h : ∀ b ∈ bs, b.length = n) (i : Nat) (b : List Nat)
    (hb : bs[i]? = some b) (j : Nat) (hj : j < n) : bs.flatten[i * n + j]? = b[j]? := by
  induction bs generalizing i with
  | nil => simp at hb
  | cons a bs ih =>
    have ha := h a (by simp)
    rw [List.flatten_cons]
    cases i with
    | zero =>
      simp only [List.getElem?_cons_zero, Option.some.injEq] at hb
      subst hb
      rw [List.getElem?_append_left (by omega)]
      simp
    | succ i =>
      rw [List.getElem?_cons_succ] at hb
      have e : (i + 1) * n + j = a.length + (i * n + j) := by rw [ha]; ring
      rw [e, List.getElem?_append_right (by omega), Nat.add_sub_cancel_left]
      exact ih (fun b hb => h b (by simp [hb])) i hb

theorem readFace_uniform (bs : List (List Nat)) (h : ∀ b ∈ bs, b.length = N) (i : Nat) (b : List Nat)
    (hb : bs[i]? = some b) : ∃ c : Fin N → Nat, readFace N bs.flatten i = some c ∧ List.ofFn c = b := by
  have hlen : b.length = N := h b (List.mem_of_getElem? hb)
  have hall : ∀ j : Fin N, bs.flatten[i * N + j.val]? = some (b[j.val]'(by omega)) := by
    intro j
    rw [flatten_uniform N bs h i b hb j.val j.isLt, List.getElem?_eq_getElem]
  have hl : ∀ j : Fin N, i * N + j.val < bs.flatten.length := by
    intro j
    by_contra hc
    have := hall j
    rw [List.getElem?_eq_none (by omega)] at this
    cases this
  refine ⟨fun j => bs.flatten[i * N + j.val]'(hl j), ?_, ?_⟩
  · unfold readFace
    rw [dif_pos hl]
  · apply List.ext_getElem
    · simp [hlen]
    · intro k h1 h2
      rw [List.getElem_ofFn]
      have := hall ⟨k, by simpa using h1⟩
      rw [List.getElem?_eq_getElem (hl ⟨k, by simpa using h1⟩)] at this
      simpa using this

theorem mapM_each {β γ : Type} (l : List β) (f : β → Option γ) (h : ∀ x ∈ l, ∃ y, f x = some y) :
    ∃ ys, l.mapM f = some ys ∧ List.Forall₂ (fun x y => f x = some y) l ys := by
  induction l with
  | nil => exact ⟨[], rfl, .nil⟩
  | cons a l ih =>
    obtain ⟨y, hy⟩ := h a (by simp)
    obtain ⟨ys, h1, h2⟩ := ih fun x hx => h x (by simp [hx])
    refine ⟨y :: ys, ?_, .cons hy h2⟩
    rw [List.mapM_cons, hy, h1]
    rfl

theorem types_single {V : Type} (s : Soup V VTK Nm D) (ty : VTK) (hne : s.types ≠ []) (hall : ∀ t ∈ s.types, t = ty) :
    getElemTypes s = [ty] := by
  obtain ⟨h1, h2⟩ := C46_elemTypes s
  have hm : ∀ x, x ∈ getElemTypes s ↔ x = ty := by
    intro x
    rw [h2]
    constructor
    · exact hall x
    · rintro rfl
      obtain ⟨e, he⟩ := List.exists_mem_of_ne_nil _ hne
      rw [← hall e he]
      exact he
  match hl : getElemTypes s, h1, hm with
  | [], _, hm => exact absurd ((hm ty).2 rfl) (by simp)
  | [a], _, hm => rw [(hm a).1 (by simp)]
  | a :: b :: l, h1, hm =>
    have e1 := (hm a).1 (by simp)
    have e2 := (hm b).1 (by simp)
    rw [List.nodup_cons] at h1
    exact absurd (by rw [e1, e2]; simp) h1.1

/-! ### C82 -/

/-- **C82.**  A soup of elements of the one right type, with all vertices at the height of the first one up to `eps`, gives
the mesh with the same vertices (without the height) and the same faces, in order.

Partial: with a vertex at another height the vertices after it are lost (`C82_nonplanar_fails`). -/
theorem C82_of_soup_partial (s : Soup (Pt 3 K) VTK Nm D) (els sets) (h : Rep s els sets) (ty : VTK) (hne : els ≠ [])
    (hall : ∀ e ∈ els, e.1 = ty ∧ e.2.length = N) (p0 : Pt 3 K) (hp : s.verts.head? = some p0) (eps : K)
    (hz : ∀ p ∈ s.verts, |p 2 - p0 2| ≤ eps) (exitOnError : Bool) (junk : Nat → Pt 2 K) :
    ∃ m : FVM (Pt 2 K) N, ofSoup N ty exitOnError eps junk s = some (some m) ∧
      m.v = s.verts.map (fun p => ![p 0, p 1]) ∧ m.fv.map List.ofFn = els.map (·.2) ∧
      m.hasVF = false ∧ m.isMorton = false ∧ m.vfOffsets = [] ∧ m.vf = [] := by
  have ht : getElemTypes s = [ty] := by
    apply types_single
    · rw [h.types]; simpa using hne
    · rw [h.types]
      intro t ht
      obtain ⟨e, he, rfl⟩ := List.mem_map.1 ht
      exact (hall e he).1
  have h0 : s.verts[0]? = some p0 := by rw [← hp, List.head?_eq_getElem?]
  have hu : ∀ b ∈ els.map (·.2), b.length = N := by
    intro b hb
    obtain ⟨e, he, rfl⟩ := List.mem_map.1 hb
    exact (hall e he).2
  have hf : ∀ i ∈ List.range s.types.length, ∃ c, readFace N s.conn i = some c := by
    intro i hi
    rw [List.mem_range, h.types, List.length_map] at hi
    obtain ⟨c, hc, -⟩ := readFace_uniform (els.map (·.2)) hu i (els[i].2) (by simp [hi])
    exact ⟨c, by rw [h.conn, hc]⟩
  obtain ⟨fv, f1, f2⟩ := mapM_each _ _ hf
  refine ⟨{ v := copyVerts eps (p0 2) junk 0 s.verts, fv := fv }, ?_,
    copyVerts_planar eps (p0 2) junk s.verts hz 0, ?_, rfl, rfl, rfl, rfl⟩
  · unfold ofSoup
    dsimp only
    rw [ht, if_neg (by simp)]
    simp only [List.getElem?_cons_zero, Option.bind_some]
    rw [if_neg (by simp), h0, Option.bind_some, f1]
    rfl
  · have hl := f2.length_eq
    rw [List.length_range, h.types, List.length_map] at hl
    apply List.ext_getElem
    · simp [hl]
    · intro k k1 k2
      have hk : k < els.length := by simpa using k2
      have hkf : k < fv.length := by omega
      have hr := List.forall₂_iff_get.1 f2
      have := hr.2 k (by rw [List.length_range, h.types, List.length_map]; exact hk) hkf
      simp only [List.get_eq_getElem, List.getElem_range] at this
      obtain ⟨c, c1, c2⟩ := readFace_uniform (els.map (·.2)) hu k (els[k].2) (by simp [hk])
      rw [h.conn, c1] at this
      simp only [List.getElem_map]
      rw [← c2]
      congr 1
      exact (Option.some.inj this).symm

omit [LinearOrder K] in
/-- **C82.**  The soup of a mesh holds exactly its vertices, at height zero, and its faces. -/
theorem C82_to_soup (ty : VTK) (m : FVM (Pt 2 K) N) :
    Holds (toSoup ty m : Soup (Pt 3 K) VTK Nm D)
      ⟨m.v.map (fun p => ![p 0, p 1, 0]), m.fv.map (fun c => (ty, List.ofFn c)), []⟩ := by
  classical
  have h1 : ∀ (l : List (Pt 2 K)) (s : Soup (Pt 3 K) VTK Nm D) (a : Abs (Pt 3 K) VTK Nm D), Holds s a →
      Holds (l.foldl (fun s p => (Polytope.addVertex s ![p 0, p 1, 0]).1) s)
        { a with verts := a.verts ++ l.map fun p => ![p 0, p 1, 0] } := by
    intro l
    induction l with
    | nil => intro s a h; simpa using h
    | cons p l ih =>
      intro s a h
      have := ih _ _ (C46_step s a h (.addVertex ![p 0, p 1, 0])).1
      simpa [Abs.step, step] using this
  have h2 : ∀ (l : List (Fin N → Nat)) (s : Soup (Pt 3 K) VTK Nm D) (a : Abs (Pt 3 K) VTK Nm D), Holds s a →
      Holds (l.foldl (fun s c => (Polytope.addElement s ty (List.ofFn c)).1) s)
        { a with els := a.els ++ l.map fun c => (ty, List.ofFn c) } := by
    intro l
    induction l with
    | nil => intro s a h; simpa using h
    | cons c l ih =>
      intro s a h
      have := ih _ _ (C46_step s a h (.addElement ty (List.ofFn c))).1
      simpa [Abs.step, step] using this
  have := h2 m.fv _ _ (h1 m.v Polytope.empty _ holds_empty)
  simpa [toSoup] using this

/-- **C82.**  A mesh with a vertex and a face, made a soup and back, is the same mesh. -/
theorem C82_round_trip [IsStrictOrderedRing K] [DecidableEq Nm] (ty : VTK) (m : FVM (Pt 2 K) N) (hv : m.v ≠ []) (hf : m.fv ≠ []) (eps : K)
    (he : 0 ≤ eps) (exitOnError : Bool) (junk : Nat → Pt 2 K) :
    ofSoup N ty exitOnError eps junk (toSoup ty m : Soup (Pt 3 K) VTK Nm D) =
      some (some { v := m.v, fv := m.fv }) := by
  have H : Holds (toSoup ty m : Soup (Pt 3 K) VTK Nm D) _ := C82_to_soup ty m
  obtain ⟨p, l, hpl⟩ := List.exists_cons_of_ne_nil hv
  obtain ⟨m', e, h1, h2, h3, h4, h5, h6⟩ := C82_of_soup_partial (N := N) _ _ _ H.rep ty (by simpa using hf) (by
    intro x hx
    obtain ⟨c, hc, rfl⟩ := List.mem_map.1 hx
    exact ⟨rfl, List.length_ofFn⟩) ![p 0, p 1, 0] (by rw [H.verts, hpl]; rfl) eps (by
    intro q hq
    rw [H.verts] at hq
    obtain ⟨x, hx, rfl⟩ := List.mem_map.1 hq
    simpa using he) exitOnError junk
  rw [e]
  have hinj : m'.fv = m.fv := by
    have : Function.Injective (List.ofFn : (Fin N → Nat) → List Nat) := List.ofFn_injective
    apply List.map_injective_iff.2 this
    rw [h2, List.map_map]
    rfl
  have hvv : m'.v = m.v := by
    rw [h1, H.verts, List.map_map]
    conv_rhs => rw [← List.map_id m.v]
    apply List.map_congr_left
    intro x _
    funext i
    fin_cases i <;> rfl
  obtain ⟨a, b, c, d, e1, f⟩ := m'
  simp_all

/-- **C82.**  With the default settings a soup with elements of several types, or of another type, ends the program. -/
theorem C82_rejects (s : Soup (Pt 3 K) VTK Nm D) (ty : VTK) (hbad : ∃ t ∈ s.types, t ≠ ty) (eps : K)
    (junk : Nat → Pt 2 K) : ofSoup N ty true eps junk s = some none := by
  obtain ⟨t, ht, hty⟩ := hbad
  unfold ofSoup
  dsimp only
  obtain ⟨-, h2⟩ := C46_elemTypes s
  have hm := (h2 t).2 ht
  by_cases hl : (getElemTypes s).length = 1
  · obtain ⟨a, ha⟩ := List.length_eq_one_iff.1 hl
    rw [ha] at hm ⊢
    rw [List.mem_singleton] at hm
    subst hm
    rw [if_neg (by simp)]
    simp [hty]
  · rw [if_pos ⟨hl, rfl⟩]

/-- **C82 fails** for a vertex `p` at another height: the coordinates of all vertices after it are indeterminate. -/
theorem C82_nonplanar_fails (eps z : K) (junk : Nat → Pt 2 K) (l : List (Pt 3 K)) (p : Pt 3 K) (r : List (Pt 3 K))
    (hl : ∀ q ∈ l, |q 2 - z| ≤ eps) (hp : eps < |p 2 - z|) (k : Nat) (hk : k < r.length) :
    (copyVerts eps z junk 0 (l ++ p :: r))[l.length + 1 + k]? = some (junk (l.length + 1 + k)) := by
  have key : ∀ (l : List (Pt 3 K)) (i : Nat), (∀ q ∈ l, |q 2 - z| ≤ eps) →
      (copyVerts eps z junk i (l ++ p :: r))[l.length + 1 + k]? = some (junk (i + l.length + 1 + k)) := by
    intro l
    induction l with
    | nil =>
      intro i _
      rw [List.nil_append, copyVerts, if_pos hp, List.length_nil, Nat.zero_add, Nat.add_comm 1 k,
        List.getElem?_cons_succ, List.getElem?_map, List.getElem?_range hk]
      rfl
    | cons q l ih =>
      intro i h
      rw [List.cons_append, copyVerts, if_neg (not_lt.2 (h q (by simp))), List.length_cons]
      have e : l.length + 1 + 1 + k = (l.length + 1 + k) + 1 := by omega
      rw [e, List.getElem?_cons_succ, ih (i + 1) fun x hx => h x (by simp [hx])]
      congr 2
      omega
  have := key l 0 hl
  rwa [Nat.zero_add] at this

/-- The types of the four kinds of mesh. -/
theorem C82_types : vtkElemType 1 3 = 5 ∧ vtkElemType 1 4 = 9 ∧ vtkElemType 2 6 = 22 ∧ vtkElemType 2 8 = 23 := by decide

/-- A mesh of one triangle, to a soup and back. -/
example : ofSoup 3 (vtkElemType 1 3) true (1 / 10) (fun _ => ![0, 0])
    (toSoup (vtkElemType 1 3) { v := [![0, 0], ![1, 0], ![0, 1]], fv := [![0, 1, 2]] } : Soup (Pt 3 ℚ) VTK Nat Nat) =
    some (some { v := [![0, 0], ![1, 0], ![0, 1]], fv := [![0, 1, 2]] }) :=
  C82_round_trip _ _ (by simp) (by simp) _ (by norm_num) _ _

/-! ### C83 lemmas -/

/-- The loaded face of a mesh with valid ids. -/
theorem loadFace_of (v : List α) (c : Fin N → Nat) (h : ∀ j, c j < v.length) :
    loadFace v c = some fun j => v[c j]'(h j) := by
  unfold loadFace
  rw [dif_pos h]

/-- What the pass makes of a face. -/
def orient (isCCW : (Fin N → α) → Bool) (flip : (Fin N → Nat) → Fin N → Nat) (v : List α) (c : Fin N → Nat) : Fin N → Nat :=
  match loadFace v c with
  | some f => if isCCW f then c else flip c
  | none => c

theorem checkCCW_eq (isCCW : (Fin N → α) → Bool) (flip : (Fin N → Nat) → Fin N → Nat) (m : FVM α N) (h : InRange m) :
    ∃ m', checkCCW isCCW flip m = some m' ∧ m'.v = m.v ∧ m'.fv = m.fv.map (orient isCCW flip m.v) := by
  have key : ∀ k ≤ m.fv.length, ∃ m', (List.range k).foldlM (fun m i => do
      let c ← m.fv[i]?
      let f ← loadFace m.v c
      if isCCW f then pure m else flipFace flip m i) m = some m' ∧ m'.v = m.v ∧
      m'.fv = (m.fv.take k).map (orient isCCW flip m.v) ++ m.fv.drop k := by
    intro k
    induction k with
    | zero => intro _; exact ⟨m, rfl, rfl, by simp⟩
    | succ k ih =>
      intro hk
      obtain ⟨m1, e, hv, hfv⟩ := ih (by omega)
      rw [List.range_succ, List.foldlM_append, e]
      simp only [Option.bind_eq_bind, Option.bind_some, List.foldlM_cons, List.foldlM_nil]
      have hkl : k < m.fv.length := by omega
      have hd : m.fv.drop k = m.fv[k] :: m.fv.drop (k + 1) := List.drop_eq_getElem_cons hkl
      have htl : ((m.fv.take k).map (orient isCCW flip m.v)).length = k := by
        rw [List.length_map, List.length_take]; omega
      have hget : m1.fv[k]? = some m.fv[k] := by
        rw [hfv, hd, List.getElem?_append_right (by omega), htl, Nat.sub_self]
        rfl
      have hload := loadFace_of m.v m.fv[k] (h _ (List.getElem_mem hkl))
      have ho : orient isCCW flip m.v m.fv[k] =
          if isCCW (fun j => m.v[m.fv[k] j]'(h _ (List.getElem_mem hkl) j)) then m.fv[k] else flip m.fv[k] := by
        unfold orient
        rw [hload]
      have ht : m.fv.take (k + 1) = m.fv.take k ++ [m.fv[k]] := by rw [List.take_succ_eq_append_getElem hkl]
      rw [hget]
      simp only [Option.bind_some, hv, hload]
      by_cases hc : isCCW (fun j => m.v[m.fv[k] j]'(h _ (List.getElem_mem hkl) j)) = true
      · rw [if_pos hc]
        refine ⟨m1, rfl, hv, ?_⟩
        rw [hfv, ht, List.map_append, List.map_singleton, ho, if_pos hc, List.append_assoc, hd]
        rfl
      · rw [if_neg hc]
        unfold flipFace
        rw [hget]
        refine ⟨_, rfl, hv, ?_⟩
        dsimp only
        rw [hfv, ht, List.map_append, List.map_singleton, ho, if_neg hc, List.append_assoc, hd,
          List.set_append_right _ _ (by omega), htl, Nat.sub_self]
        rfl
  obtain ⟨m', e, hv, hfv⟩ := key m.fv.length le_rfl
  refine ⟨m', e, hv, ?_⟩
  rw [hfv]
  simp

/-- The face with these vertex ids. -/
def FaceIs (v : List α) (c : Fin N → Nat) (f : Fin N → α) : Prop := ∀ j, v[c j]? = some (f j)

theorem orient_eq (isCCW : (Fin N → α) → Bool) (flip : (Fin N → Nat) → Fin N → Nat) (v : List α) (c : Fin N → Nat)
    (f : Fin N → α) (h : FaceIs v c f) : orient isCCW flip v c = if isCCW f then c else flip c := by
  have hr : ∀ j, c j < v.length := by
    intro j
    by_contra hc
    have := h j
    rw [List.getElem?_eq_none (by omega)] at this
    cases this
  unfold orient
  rw [loadFace_of v c hr]
  have : (fun j => v[c j]'(hr j)) = f := by
    funext j
    have := h j
    rw [List.getElem?_eq_getElem (hr j)] at this
    exact Option.some.inj this
  rw [this]

/-! ### C83 -/

/-- **C83.**  The pass keeps all vertices and the order of the faces.  Each face is left alone or flipped, and is left alone
if and only if it is reported to be counter-clockwise. -/
theorem C83_pass (isCCW : (Fin N → α) → Bool) (flip : (Fin N → Nat) → Fin N → Nat) (m : FVM α N) (h : InRange m) :
    ∃ m', checkCCW isCCW flip m = some m' ∧ m'.v = m.v ∧ m'.fv.length = m.fv.length ∧
      ∀ (i : Nat) c f, m.fv[i]? = some c → FaceIs m.v c f → m'.fv[i]? = some (if isCCW f then c else flip c) := by
  obtain ⟨m', e, hv, hfv⟩ := checkCCW_eq isCCW flip m h
  refine ⟨m', e, hv, by rw [hfv, List.length_map], ?_⟩
  intro i c f hc hf
  rw [hfv, List.getElem?_map, hc, Option.map_some, orient_eq isCCW flip m.v c f hf]

variable [IsStrictOrderedRing K]

omit [IsStrictOrderedRing K] [LinearOrder K] in
theorem faceIs_swap (v : List α) (c : Fin N → Nat) (f : Fin N → α) (h : FaceIs v c f) (a b : Fin N) :
    FaceIs v (swapV c a b) (swapV f a b) := by
  intro j
  unfold swapV
  split_ifs <;> exact h _

/-- **C83.**  In a mesh of triangles each face ends with the area it had, taken positive. -/
theorem C83_triangles (m : FVM (Pt 2 K) 3) (h : InRange m) :
    ∃ m', checkCCW triIsCCW triFlip m = some m' ∧ m'.v = m.v ∧ m'.fv.length = m.fv.length ∧
      ∀ (i : Nat) c f, m.fv[i]? = some c → FaceIs m.v c f →
        ∃ c' f', m'.fv[i]? = some c' ∧ FaceIs m'.v c' f' ∧ triArea f' = |triArea f| ∧ (f' = f ∨ f' = triFlip f) := by
  obtain ⟨m', e, hv, hl, hall⟩ := C83_pass triIsCCW triFlip m h
  refine ⟨m', e, hv, hl, ?_⟩
  intro i c f hc hf
  have := hall i c f hc hf
  have ha : triArea (triFlip f) = - triArea f := by
    unfold triArea triFlip swapV
    simp only [cross_eq, Pi.sub_apply]
    simp
    ring
  by_cases hcc : triIsCCW f = true
  · rw [if_pos hcc] at this
    refine ⟨c, f, this, by rw [hv]; exact hf, ?_, Or.inl rfl⟩
    rw [abs_of_nonneg]
    unfold triIsCCW areCCW at hcc
    rw [decide_eq_true_eq] at hcc
    unfold triArea
    positivity
  · rw [if_neg hcc] at this
    refine ⟨triFlip c, triFlip f, this, by rw [hv]; exact faceIs_swap _ _ _ hf _ _, ?_, Or.inr rfl⟩
    rw [ha, abs_of_nonpos]
    unfold triIsCCW areCCW at hcc
    rw [decide_eq_true_eq, not_le] at hcc
    unfold triArea
    linarith

omit [LinearOrder K] [IsStrictOrderedRing K] in
theorem quadArea_flip (f : Poly 4 2 K) : quadArea (quadFlip f) = - quadArea f := by
  unfold quadArea quadFlip swapV
  simp only [cross_eq, Pi.sub_apply]
  simp
  ring

/-- **C83.**  In a mesh of quadrilaterals each face that is convex, in either direction, ends with the area it had, taken
positive, unless that area is at most the tolerance.

Partial: it is false of other faces (`C83_dart_fails`). -/
theorem C83_quads_partial (m : FVM (Pt 2 K) 4) (h : InRange m) (eps : K) (heps : 0 ≤ eps) :
    ∃ m', checkCCW (quadIsCCW eps) quadFlip m = some m' ∧ m'.v = m.v ∧ m'.fv.length = m.fv.length ∧
      ∀ (i : Nat) c f, m.fv[i]? = some c → FaceIs m.v c f →
        ∃ c' f', m'.fv[i]? = some c' ∧ FaceIs m'.v c' f' ∧ (f' = f ∨ f' = quadFlip f) ∧
          (quadIsConvex f ∨ quadIsConvex (quadFlip f) → quadArea f' = |quadArea f| ∨ |quadArea f| ≤ eps) := by
  obtain ⟨m', e, hv, hl, hall⟩ := C83_pass (quadIsCCW eps) quadFlip m h
  refine ⟨m', e, hv, hl, ?_⟩
  intro i c f hc hf
  have := hall i c f hc hf
  obtain ⟨a1, ha1⟩ : ∃ a1, a1 = area2 (f 0) (f 1) (f 2) := ⟨_, rfl⟩
  obtain ⟨a2, ha2⟩ : ∃ a2, a2 = area2 (f 0) (f 2) (f 3) := ⟨_, rfl⟩
  have harea : quadArea f = (a1 + a2) / 2 := by
    rw [ha1, ha2]
    unfold quadArea area2
    simp only [cross_eq, Pi.sub_apply]
    ring
  have hccw : quadIsCCW eps f = true ↔ -eps ≤ a1 ∧ -eps ≤ a2 := by
    rw [ha1, ha2]
    unfold quadIsCCW areApproxCCW area2
    rw [Bool.and_eq_true, decide_eq_true_eq, decide_eq_true_eq]
    simp only [cross_eq, Pi.sub_apply]
  have hpos : quadIsConvex f = true → 0 ≤ a1 ∧ 0 ≤ a2 := by
    intro hx
    unfold quadIsConvex at hx
    simp only [Bool.and_eq_true, areCCW_iff] at hx
    obtain ⟨⟨⟨h1, h2⟩, h3⟩, h4⟩ := hx
    refine ⟨by rw [ha1]; exact h1, ?_⟩
    rw [ha2]
    unfold area2 at h3 ⊢
    linarith
  have hneg : quadIsConvex (quadFlip f) = true → a1 ≤ 0 ∧ a2 ≤ 0 := by
    intro hx
    unfold quadIsConvex at hx
    simp only [Bool.and_eq_true, areCCW_iff] at hx
    obtain ⟨⟨⟨h1, h2⟩, h3⟩, h4⟩ := hx
    have e0 : quadFlip f 0 = f 0 := rfl
    have e1 : quadFlip f 1 = f 3 := rfl
    have e2 : quadFlip f 2 = f 2 := rfl
    have e3 : quadFlip f 3 = f 1 := rfl
    rw [e0, e1, e2] at h1
    rw [e2, e3, e0] at h3
    rw [ha1, ha2]
    unfold area2 at h1 h3 ⊢
    constructor <;> linarith
  by_cases hcc : quadIsCCW eps f = true
  · rw [if_pos hcc] at this
    refine ⟨c, f, this, by rw [hv]; exact hf, Or.inl rfl, ?_⟩
    obtain ⟨b1, b2⟩ := hccw.1 hcc
    rintro (hx | hx)
    · left
      obtain ⟨p1, p2⟩ := hpos hx
      rw [abs_of_nonneg]
      rw [harea]
      linarith
    · right
      obtain ⟨p1, p2⟩ := hneg hx
      rw [harea, abs_of_nonpos (by linarith)]
      linarith
  · rw [if_neg hcc] at this
    refine ⟨quadFlip c, quadFlip f, this, by rw [hv]; exact faceIs_swap _ _ _ hf _ _, Or.inr rfl, ?_⟩
    rintro (hx | hx)
    · exfalso
      obtain ⟨p1, p2⟩ := hpos hx
      exact hcc (hccw.2 ⟨by linarith, by linarith⟩)
    · left
      obtain ⟨p1, p2⟩ := hneg hx
      rw [quadArea_flip, abs_of_nonpos]
      rw [harea]
      linarith

/-- **C83.**  In a mesh of quadratic triangles the triangle of the corners ends with its area taken positive, and a flipped
face has the edges it had, each reversed. -/
theorem C83_tri6 (m : FVM (Pt 2 K) 6) (h : InRange m) :
    ∃ m', checkCCW tri6IsCCW tri6Flip m = some m' ∧ m'.v = m.v ∧ m'.fv.length = m.fv.length ∧
      ∀ (i : Nat) c f, m.fv[i]? = some c → FaceIs m.v c f →
        ∃ c' f', m'.fv[i]? = some c' ∧ FaceIs m'.v c' f' ∧
          triArea (linearPolygon (m := 3) f') = |triArea (linearPolygon (m := 3) f)| ∧
          (f' = f ∨ ∃ σ : Equiv.Perm (Fin 3), ∀ i, getEdge2 (m := 3) f' i = rev3 (getEdge2 (m := 3) f (σ i))) := by
  obtain ⟨m', e, hv, hl, hall⟩ := C83_pass tri6IsCCW tri6Flip m h
  refine ⟨m', e, hv, hl, ?_⟩
  intro i c f hc hf
  have := hall i c f hc hf
  have ha : triArea (linearPolygon (m := 3) (tri6Flip f)) = - triArea (linearPolygon (m := 3) f) := by
    have e0 : linearPolygon (m := 3) (tri6Flip f) 0 = f 0 := rfl
    have e1 : linearPolygon (m := 3) (tri6Flip f) 1 = f 2 := rfl
    have e2 : linearPolygon (m := 3) (tri6Flip f) 2 = f 1 := rfl
    have g0 : linearPolygon (m := 3) f 0 = f 0 := rfl
    have g1 : linearPolygon (m := 3) f 1 = f 1 := rfl
    have g2 : linearPolygon (m := 3) f 2 = f 2 := rfl
    unfold triArea
    rw [e0, e1, e2, g0, g1, g2]
    simp only [cross_eq, Pi.sub_apply]
    ring
  by_cases hcc : tri6IsCCW f = true
  · rw [if_pos hcc] at this
    refine ⟨c, f, this, by rw [hv]; exact hf, ?_, Or.inl rfl⟩
    rw [abs_of_nonneg]
    unfold tri6IsCCW triIsCCW areCCW at hcc
    rw [decide_eq_true_eq] at hcc
    unfold triArea
    positivity
  · rw [if_neg hcc] at this
    refine ⟨tri6Flip c, tri6Flip f, this, by
      rw [hv]; exact faceIs_swap _ _ _ (faceIs_swap _ _ _ hf _ _) _ _, ?_, Or.inr (C33_tri6 f).1⟩
    rw [ha, abs_of_nonpos]
    unfold tri6IsCCW triIsCCW areCCW at hcc
    rw [decide_eq_true_eq, not_le] at hcc
    unfold triArea
    linarith

/-- **C83 fails** for a quadrilateral that is not convex: a counter-clockwise one (area 6) is flipped and ends clockwise
(area -6). -/
theorem C83_dart_fails : ∃ (f : Poly 4 2 ℚ) (m : FVM (Pt 2 ℚ) 4), InRange m ∧ FaceIs m.v ![0, 1, 2, 3] f ∧
    m.fv = [![0, 1, 2, 3]] ∧ quadArea f = 6 ∧
    ∃ m', checkCCW (quadIsCCW (1 / 1000000)) quadFlip m = some m' ∧ m'.v = m.v ∧ m'.fv = [![0, 3, 2, 1]] ∧
      FaceIs m'.v ![0, 3, 2, 1] (quadFlip f) ∧ quadArea (quadFlip f) = -6 := by
  have hf : FaceIs [(![0, 0] : Pt 2 ℚ), ![1, 1], ![4, 0], ![0, 4]] (![0, 1, 2, 3] : Fin 4 → Nat)
      ![![0, 0], ![1, 1], ![4, 0], ![0, 4]] := by
    intro j
    fin_cases j <;> rfl
  have ha : quadArea (![![0, 0], ![1, 1], ![4, 0], ![0, 4]] : Poly 4 2 ℚ) = 6 := by
    unfold quadArea
    simp only [cross_eq, Pi.sub_apply]
    simp
    norm_num
  have hr : InRange ({ v := [![0, 0], ![1, 1], ![4, 0], ![0, 4]], fv := [![0, 1, 2, 3]] } : FVM (Pt 2 ℚ) 4) := by
    intro c hc j
    rw [List.mem_singleton] at hc
    subst hc
    fin_cases j <;> simp
  refine ⟨![![0, 0], ![1, 1], ![4, 0], ![0, 4]],
    { v := [![0, 0], ![1, 1], ![4, 0], ![0, 4]], fv := [![0, 1, 2, 3]] }, hr, hf, rfl, ha, ?_⟩
  obtain ⟨m', e, hv, hl, hall⟩ := C83_pass (quadIsCCW (1 / 1000000 : ℚ)) quadFlip _ hr
  have hcc : quadIsCCW (1 / 1000000 : ℚ) ![![0, 0], ![1, 1], ![4, 0], ![0, 4]] = false := by
    unfold quadIsCCW areApproxCCW
    simp only [cross_eq, Pi.sub_apply]
    simp
    norm_num
  have h0 := hall 0 _ _ rfl hf
  rw [hcc] at h0
  have hfl : quadFlip (![0, 1, 2, 3] : Fin 4 → Nat) = ![0, 3, 2, 1] := by
    funext j
    fin_cases j <;> rfl
  rw [if_neg (by simp), hfl] at h0
  have hfv : m'.fv = [![0, 3, 2, 1]] := by
    match hm : m'.fv, hl with
    | [a], _ => rw [hm] at h0; simpa using h0
  refine ⟨m', e, hv, hfv, ?_, by rw [quadArea_flip, ha]⟩
  rw [hv, ← hfl]
  exact faceIs_swap _ _ _ hf _ _

/-- **C83 fails** for quadratic quadrilaterals: a face that is flipped gets an edge that it did not have. -/
theorem C83_quad8_fails (m : FVM (Pt 2 K) 8) (h : InRange m) (eps : K) (i : Nat) (c : Fin 8 → Nat) (f : Poly 8 2 K)
    (hc : m.fv[i]? = some c) (hf : FaceIs m.v c f) (hcw : quad8IsCCW eps f = false) (hinj : Function.Injective c) :
    ∃ m' c', checkCCW (quad8IsCCW eps) quad8Flip m = some m' ∧ m'.fv[i]? = some c' ∧
      ∀ j, getEdge2 (m := 4) c' 1 ≠ rev3 (getEdge2 (m := 4) c j) ∧ getEdge2 (m := 4) c' 1 ≠ getEdge2 (m := 4) c j := by
  obtain ⟨m', e, hv, hl, hall⟩ := C83_pass (quad8IsCCW eps) quad8Flip m h
  have := hall i c f hc hf
  rw [hcw, if_neg (by simp)] at this
  exact ⟨m', _, e, this, C33_quad8_fails c hinj⟩

/-- A clockwise triangle is turned around. -/
example : ∃ m', checkCCW triIsCCW triFlip ({ v := [![0, 0], ![1, 0], ![0, 1]], fv := [![0, 2, 1]] } : FVM (Pt 2 ℚ) 3) =
    some m' ∧ m'.fv = [![0, 1, 2]] := by
  have hr : InRange ({ v := [![0, 0], ![1, 0], ![0, 1]], fv := [![0, 2, 1]] } : FVM (Pt 2 ℚ) 3) := by
    intro c hc j
    rw [List.mem_singleton] at hc
    subst hc
    fin_cases j <;> simp
  obtain ⟨m', e, hv, hl, hall⟩ := C83_pass triIsCCW triFlip _ hr
  refine ⟨m', e, ?_⟩
  have hcc : triIsCCW (![![0, 0], ![0, 1], ![1, 0]] : Poly 3 2 ℚ) = false := by
    unfold triIsCCW areCCW
    simp only [cross_eq, Pi.sub_apply]
    simp
  have h0 := hall 0 _ ![![0, 0], ![0, 1], ![1, 0]] rfl (by intro j; fin_cases j <;> rfl)
  rw [hcc, if_neg (by simp)] at h0
  have hfl : triFlip (![0, 2, 1] : Fin 3 → Nat) = ![0, 1, 2] := by
    funext j
    fin_cases j <;> rfl
  rw [hfl] at h0
  match hm : m'.fv, hl with
  | [a], _ => rw [hm] at h0; simpa using h0

/-- The hypotheses of `C83_quad8_fails` hold of a clockwise unit square. -/
example : ∃ (m : FVM (Pt 2 ℚ) 8) (c : Fin 8 → Nat) (f : Poly 8 2 ℚ), InRange m ∧ m.fv[0]? = some c ∧ FaceIs m.v c f ∧
    quad8IsCCW (1 / 1000000) f = false ∧ Function.Injective c := by
  refine ⟨{ v := [![0, 0], ![0, 2], ![2, 2], ![2, 0], ![0, 1], ![1, 2], ![2, 1], ![1, 0]],
            fv := [![0, 1, 2, 3, 4, 5, 6, 7]] }, ![0, 1, 2, 3, 4, 5, 6, 7],
    ![![0, 0], ![0, 2], ![2, 2], ![2, 0], ![0, 1], ![1, 2], ![2, 1], ![1, 0]], ?_, rfl, ?_, ?_, by decide⟩
  · intro c hc j
    rw [List.mem_singleton] at hc
    subst hc
    fin_cases j <;> simp
  · intro j; fin_cases j <;> rfl
  · unfold quad8IsCCW quadIsCCW areApproxCCW
    have e0 : linearPolygon (m := 4) (![![0, 0], ![0, 2], ![2, 2], ![2, 0], ![0, 1], ![1, 2], ![2, 1], ![1, 0]] : Poly 8 2 ℚ) =
        ![![0, 0], ![0, 2], ![2, 2], ![2, 0]] := by funext j; fin_cases j <;> rfl
    rw [e0]
    simp only [cross_eq, Pi.sub_apply]
    simp
    norm_num

end Verif.Mesh
