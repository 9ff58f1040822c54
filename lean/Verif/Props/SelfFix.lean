import Verif.Lemmas.SelfFix

/-!
# C100 A quadratic mesh that passes validation has no face that intersects itself
-/

namespace Verif.SelfFix

open Verif.Geom Verif.Mesh Verif.QCross Verif.MeshCheck

variable {K : Type} [Field K] [LinearOrder K] [IsStrictOrderedRing K]

/-- When the repair ends without a message, no two edges of a face that are compared meet twice. The faces have the vertices
they had; a vertex that is no middle vertex is where it was. -/
theorem C100_clean (tol eps2 : K) {k : Nat} (fuel : Nat) (m m' : FVM (Pt 2 K) (2 * (k + 2)))
    (h : checkSelf tol eps2 fuel m = .done m') :
    m'.fv = m.fv ∧ m'.v.length = m.v.length ∧ (∀ id, NotMid m.fv id → m'.v[id]? = m.v[id]?) ∧
      ∀ c ∈ m'.fv, ∃ f, FaceIs m'.v c f ∧
        ∀ i j, Looked k i j → (qsegCross tol eps2 (getEdge2 f i) (getEdge2 f j)).length ≤ 1 := by
  obtain ⟨h1, h2, h3, h4⟩ := checkSelf_done tol eps2 fuel m m' h
  refine ⟨h2, h3, h4, ?_⟩
  intro c hc
  obtain ⟨f, hf, hs⟩ := h1 c (h2 ▸ hc)
  refine ⟨f, hf, ?_⟩
  intro i j hl
  by_contra hn
  have : hasSelfIntersection tol eps2 f = true :=
    (self_iff tol eps2 f).2 ⟨i, j, hl, by unfold twice; exact decide_eq_true (by omega)⟩
  rw [hs] at this
  simp at this

/-- A mesh whose faces do not intersect themselves is left as it is. -/
theorem C100_unchanged (tol eps2 : K) {k : Nat} (n : Nat) (m : FVM (Pt 2 K) (2 * (k + 2)))
    (h : ∀ c ∈ m.fv, ∃ f, FaceIs m.v c f ∧
      ∀ i j, Looked k i j → (qsegCross tol eps2 (getEdge2 f i) (getEdge2 f j)).length ≤ 1) :
    checkSelf tol eps2 (n + 1) m = .done m := by
  have : round tol eps2 m m.fv = .done m := by
    refine round_clean _ fun c hc => ?_
    obtain ⟨f, hf, hs⟩ := h c hc
    refine ⟨f, hf, ?_⟩
    rw [Bool.eq_false_iff, Ne, self_iff]
    rintro ⟨i, j, hl, ht⟩
    have := hs i j hl
    unfold twice at ht
    rw [decide_eq_true_eq] at ht
    omega
  rw [checkSelf, this]

/-- Full claim: the repair leaves the extent of the mesh as it is, up to the tolerance. Every repair may use up the
tolerance anew: `n` of them move no side of the least box around the edges by more than `n` tolerances. -/
theorem C100_extent_partial (tol eps : K) (he : 0 ≤ eps) {k : Nat} (n : Nat) (m m' : FVM (Pt 2 K) (2 * (k + 2)))
    (h : checkSelf tol (eps ^ 2) (n + 1) m = .done m') (b b' : Box.AABB 2 K) (hb : Tight (OnMesh m.v m.fv) b)
    (hb' : Tight (OnMesh m'.v m'.fv) b') :
    ∀ i, |b.min i - b'.min i| ≤ n * eps ∧ |b.max i - b'.max i| ≤ n * eps :=
  checkSelf_box tol eps he n m m' h b b' hb hb'

/-- The repair is defined: it ends with the mesh or with one of its two messages, or goes on. -/
theorem C100_defined (tol eps2 : K) {k : Nat} (fuel : Nat) (m : FVM (Pt 2 K) (2 * (k + 2))) (hin : InRange m) (hp : Proper m) :
    (∃ m', checkSelf tol eps2 fuel m = .done m') ∨ checkSelf tol eps2 fuel m = .unfixed ∨
      checkSelf tol eps2 fuel m = .boxChanged ∨ checkSelf tol eps2 fuel m = .running := by
  obtain ⟨h1, h2, h3⟩ := checkSelf_defined tol eps2 fuel m hin hp
  cases hr : checkSelf tol eps2 fuel m with
  | done m' => exact Or.inl ⟨m', rfl⟩
  | moved m' => exact absurd hr (h3 m')
  | unfixed => exact Or.inr (Or.inl rfl)
  | boxChanged => exact Or.inr (Or.inr (Or.inl rfl))
  | refused => exact absurd hr h2
  | undef => exact absurd hr h1
  | running => exact Or.inr (Or.inr (Or.inr rfl))

/-- After the faces are turned, the validation of a mesh with a boundary is defined; it ends with the message about the edges exactly when an edge
belongs to more than two faces or the boundary is not one loop. -/
theorem C100_message (tol eps2 : K) {k : Nat} (isCCW : Poly (2 * (k + 2)) 2 K → Bool) (flip : (Fin (2 * (k + 2)) → Nat) → Fin (2 * (k + 2)) → Nat)
    (fuel : Nat) (m m1 : FVM (Pt 2 K) (2 * (k + 2))) (hm : checkCCW isCCW flip m = some m1) (hin : InRange m1) (hp : Proper m1)
    (hb : boundaryEdges (quadraticEdges (m := k + 2) m1.fv) ≠ []) (r : Outcome (FVM (Pt 2 K) (2 * (k + 2)))) (h : Validate tol eps2 isCCW flip fuel m r) :
    r ≠ .undef ∧ (r = .refused ↔ ¬ ((∀ e ∈ quadraticEdges (m := k + 2) m1.fv, uses (quadraticEdges (m := k + 2) m1.fv) e ≤ 2) ∧
      SingleLoop (boundaryEdges (quadraticEdges (m := k + 2) m1.fv)))) := by
  unfold Validate at h
  rw [hm] at h
  obtain ⟨v, hc, rfl⟩ := h
  have hmid := (C44_mesh_edges (N := 0) (m := k + 2) [] m1.fv).2.1
  have hok := C44_accepts_iff 1 _ _ hmid le_rfl v hc
  have hub := C44_undefined_iff 1 _ _ hmid le_rfl v hc
  obtain ⟨h1, h2, -⟩ := checkSelf_defined tol eps2 fuel m1 hin hp
  rw [← hok]
  have hv : v ≠ .ub := fun e => hb (hub.1 e).2
  by_cases h3 : v = .ok
  · rw [if_pos h3]
    exact ⟨h1, ⟨fun e => absurd e h2, fun e => absurd h3 e⟩⟩
  · rw [if_neg h3, if_neg hv]
    exact ⟨by simp, ⟨fun _ => h3, fun _ => rfl⟩⟩

theorem linear_corner {α : Type} (f : Fin (2 * (1 + 2)) → α) (i : Fin 3) :
    linearPolygon (m := 3) f i = f (cornerAt (k := 1) i) := by
  fin_cases i <;> rfl

theorem notMid_flip (fv fv' : List (Fin (2 * (1 + 2)) → Nat)) (id : Nat)
    (hs : ∀ c' ∈ fv', ∃ c ∈ fv, c' = c ∨ c' = tri6Flip c) (h : NotMid (k := 1) fv id) : NotMid (k := 1) fv' id := by
  intro c hc e
  obtain ⟨c0, hc0, rfl | rfl⟩ := hs c hc
  · exact h c hc0 e
  · have h3 := h c0 hc0 0
    have h4 := h c0 hc0 1
    have h5 := h c0 hc0 2
    fin_cases e
    · exact h5
    · exact h4
    · exact h3

/-- Full claim: the validation of a mesh of quadratic triangles ends, with a message or with a mesh as it should be. If it
ends with a mesh then: every face has the corners it had, and their triangle is counter-clockwise; every edge belongs to at
most two faces and the boundary is one loop; no two edges of a face meet twice. It need not end (`C100_endless_fails`). -/
theorem C100_validate_partial (tol eps2 : K) (fuel : Nat) (m m' : FVM (Pt 2 K) (2 * (1 + 2))) (hin : InRange m)
    (hmid : ∀ c ∈ m.fv, ∀ e, NotMid m.fv (c (cornerAt e)))
    (h : Validate (k := 1) tol eps2 tri6IsCCW tri6Flip fuel m (.done m')) :
    m'.fv.length = m.fv.length ∧ m'.v.length = m.v.length ∧ (∀ id, NotMid m.fv id → m'.v[id]? = m.v[id]?) ∧
      (∀ (i : Nat) c f, m.fv[i]? = some c → FaceIs m.v c f →
        ∃ c' f', m'.fv[i]? = some c' ∧ (c' = c ∨ c' = tri6Flip c) ∧ FaceIs m'.v c' f' ∧
          triArea (linearPolygon (m := 3) f') = |triArea (linearPolygon (m := 3) f)| ∧
          ∀ i j, Looked 1 i j → (qsegCross tol eps2 (getEdge2 f' i) (getEdge2 f' j)).length ≤ 1) ∧
      (∀ e ∈ quadraticEdges (m := 3) m'.fv, uses (quadraticEdges (m := 3) m'.fv) e ≤ 2) ∧
      SingleLoop (boundaryEdges (quadraticEdges (m := 3) m'.fv)) := by
  obtain ⟨m1, e1, hv, hl, hall⟩ := C83_tri6 m hin
  obtain ⟨m2, e2, hv2, hfv2⟩ := checkCCW_eq tri6IsCCW tri6Flip m hin
  have he : m2 = m1 := by
    have := e1.symm.trans e2
    exact (Option.some.inj this).symm
  subst he
  unfold Validate at h
  have e1' : checkCCW (N := 2 * (1 + 2)) tri6IsCCW tri6Flip m = some m2 := e1
  rw [e1'] at h
  obtain ⟨v, hc, hr⟩ := h
  by_cases hok : v = .ok
  · rw [if_pos hok] at hr
    subst hok
    obtain ⟨d1, d2, d3, d4⟩ := C100_clean tol eps2 fuel m2 m' hr.symm
    obtain ⟨q1, q2⟩ := (C44_accepts_iff 1 _ _ (C44_mesh_edges (N := 0) (m := 3) [] m2.fv).2.1 le_rfl .ok hc).1 rfl
    have hnm : ∀ id, NotMid (k := 1) m.fv id → NotMid (k := 1) m2.fv id := by
      intro id
      refine notMid_flip m.fv m2.fv id ?_
      intro c' hc'
      rw [hfv2] at hc'
      obtain ⟨c, hcm, rfl⟩ := List.mem_map.1 hc'
      refine ⟨c, hcm, ?_⟩
      unfold orient
      split
      · split
        · exact Or.inl rfl
        · exact Or.inr rfl
      · exact Or.inl rfl
    refine ⟨by rw [d1]; exact hl, by rw [d2, hv], ?_, ?_, by rw [d1]; exact q1, by rw [d1]; exact q2⟩
    · intro id hid
      rw [d3 id (hnm id hid), hv]
    · intro i c f hci hf
      obtain ⟨c', f1, hc1, hf1, ha, -⟩ := hall i c f hci hf
      have hmem : c' ∈ m'.fv := by rw [d1]; exact List.mem_of_getElem? hc1
      obtain ⟨f', hf', hs⟩ := d4 c' hmem
      have hcc : c' = c ∨ c' = tri6Flip c := by
        rw [hfv2, List.getElem?_map, hci, Option.map_some, orient_eq _ _ _ _ _ hf, Option.some.injEq] at hc1
        subst hc1
        split
        · exact Or.inl rfl
        · exact Or.inr rfl
      refine ⟨c', f', by rw [d1]; exact hc1, hcc, hf', ?_, hs⟩
      rw [← ha]
      have : linearPolygon (m := 3) f' = linearPolygon (m := 3) f1 := by
        funext i
        rw [linear_corner, linear_corner]
        have h1 := hf' (cornerAt (k := 1) i)
        have h2 := hf1 (cornerAt (k := 1) i)
        have hn : NotMid (k := 1) m2.fv (c' (cornerAt (k := 1) i)) := by
          refine hnm _ ?_
          have hcm := List.mem_of_getElem? hci
          rcases hcc with rfl | rfl
          · exact hmid _ hcm i
          · fin_cases i
            · exact hmid _ hcm 0
            · exact hmid _ hcm 2
            · exact hmid _ hcm 1
        rw [d3 _ hn, h2] at h1
        exact (Option.some.inj h1).symm
      rw [this]
  · rw [if_neg hok] at hr
    split at hr <;> simp at hr

/-! ### Where it fails -/

/-- Two triangles with the common edge from vertex 0 to vertex 1. One further edge of each crosses it when it is bent away
from the edge of the other triangle. -/
def seesaw : FVM (Pt 2 ℚ) (2 * (1 + 2)) :=
  { v := [![0, 0], ![1, 0], ![29 / 32, 3 / 16], ![5 / 32, -5 / 16], ![1 / 2, 0], ![53 / 64, 1 / 32], ![29 / 64, 3 / 32],
      ![13 / 64, -3 / 32], ![37 / 64, -5 / 32]]
    fv := [![0, 1, 2, 4, 5, 6], ![0, 3, 1, 7, 8, 4]] }

/-- The same mesh with the common edge bent. -/
def seesaw' : FVM (Pt 2 ℚ) (2 * (1 + 2)) := { seesaw with v := seesaw.v.set 4 ![3 / 8, -1 / 16] }

/-- The vertices after a repair. -/
def movedTo : Outcome (FVM (Pt 2 ℚ) (2 * (1 + 2))) → Option (List (Pt 2 ℚ))
  | .moved m => some m.v
  | _ => none

theorem round_movedTo {tol eps2 : ℚ} {m : FVM (Pt 2 ℚ) (2 * (1 + 2))} {v : List (Pt 2 ℚ)}
    (h : movedTo (round (k := 1) tol eps2 m m.fv) = some v) : round (k := 1) tol eps2 m m.fv = .moved { m with v := v } := by
  cases hr : round (k := 1) tol eps2 m m.fv with
  | moved m' =>
    rw [hr] at h
    obtain ⟨c, hc, e, p, u, b, b', hp, rfl, -⟩ := round_moved m.fv hr
    simp only [movedTo, Option.some.injEq] at h
    rw [← h]
  | done m' => rw [hr] at h; simp [movedTo] at h
  | unfixed => rw [hr] at h; simp [movedTo] at h
  | boxChanged => rw [hr] at h; simp [movedTo] at h
  | refused => rw [hr] at h; simp [movedTo] at h
  | undef => rw [hr] at h; simp [movedTo] at h
  | running => rw [hr] at h; simp [movedTo] at h

theorem seesaw_round (tol eps2 : ℚ) (h1 : tol = 1 / 10 ^ 5) (h2 : eps2 = 1 / 10 ^ 14) :
    round (k := 1) tol eps2 seesaw seesaw.fv = .moved seesaw' ∧ round (k := 1) tol eps2 seesaw' seesaw'.fv = .moved seesaw := by
  subst h1 h2
  exact ⟨round_movedTo (v := seesaw'.v) (by decide +kernel), round_movedTo (m := seesaw') (v := seesaw.v) (by decide +kernel)⟩

theorem seesaw_running (tol eps2 : ℚ) (h1 : tol = 1 / 10 ^ 5) (h2 : eps2 = 1 / 10 ^ 14) (fuel : Nat) :
    checkSelf (k := 1) tol eps2 fuel seesaw = .running ∧ checkSelf (k := 1) tol eps2 fuel seesaw' = .running := by
  obtain ⟨a, b⟩ := seesaw_round tol eps2 h1 h2
  induction fuel with
  | zero => exact ⟨rfl, rfl⟩
  | succ n ih =>
    rw [checkSelf, checkSelf, a, b]
    exact ⟨ih.2, ih.1⟩

deriving instance DecidableEq for FVM

/-- The edges of `seesaw` in sorted order. -/
def seesawSorted : List Item :=
  [(⟨0, 1, [4]⟩, -1), (⟨0, 1, [4]⟩, 1), (⟨0, 2, [6]⟩, -1), (⟨0, 3, [7]⟩, 1), (⟨1, 2, [5]⟩, 1), (⟨1, 3, [8]⟩, -1)]

/-- The edges of `seesaw`. -/
def seesawEdges : List Edge := [⟨0, 1, [4]⟩, ⟨1, 2, [5]⟩, ⟨2, 0, [6]⟩, ⟨0, 3, [7]⟩, ⟨3, 1, [8]⟩, ⟨1, 0, [4]⟩]

theorem seesaw_edges : quadraticEdges (m := 1 + 2) seesaw.fv = seesawEdges := by decide +kernel

theorem seesaw_check (v : Verdict) : Check 6 seesawEdges v ↔ v = .ok := by
  constructor
  · intro h
    refine (C44_accepts_iff 1 6 seesawEdges (by decide) (by decide) v h).2 ⟨by decide +kernel, ?_⟩
    have : boundaryEdges seesawEdges = [⟨1, 2, [5]⟩, ⟨2, 0, [6]⟩, ⟨0, 3, [7]⟩, ⟨3, 1, [8]⟩] := by decide +kernel
    rw [this]
    exact ⟨[⟨1, 2, [5]⟩, ⟨2, 0, [6]⟩, ⟨0, 3, [7]⟩, ⟨3, 1, [8]⟩], List.Perm.refl _, by decide, by decide, by decide⟩
  · rintro rfl
    exact ⟨seesawSorted, ⟨by decide +kernel, by decide +kernel⟩, by decide +kernel⟩

/-- The validation of a mesh of two triangles, counter-clockwise and with one boundary loop, never ends: the repair of one
triangle bends the common edge, which makes the other triangle intersect itself, and the repair of that one bends it back.
(All the numbers are dyadic: the displacements are exact in floating point arithmetic as well.) -/
theorem C100_endless_fails (tol eps2 : ℚ) (h1 : tol = 1 / 10 ^ 5) (h2 : eps2 = 1 / 10 ^ 14) (fuel : Nat) :
    InRange seesaw ∧ Proper (k := 1) seesaw ∧
      ∀ r, Validate (k := 1) tol eps2 tri6IsCCW tri6Flip fuel seesaw r ↔ r = .running := by
  refine ⟨by unfold InRange; decide +kernel, ⟨?_, by unfold NotMid; decide +kernel⟩, ?_⟩
  · intro c hc f hf e
    have hf := (loadFace_iff _ _ _).2 hf
    obtain rfl | rfl : c = ![0, 1, 2, 4, 5, 6] ∨ c = ![0, 3, 1, 7, 8, 4] := by simpa [seesaw] using hc
    · obtain ⟨g, hg, hd⟩ : ∃ g : Poly 6 2 ℚ, loadFace (N := 6) seesaw.v ![0, 1, 2, 4, 5, 6] = some g ∧
          ∀ e, getEdge2 (m := 3) g e 0 ≠ getEdge2 (m := 3) g e 1 :=
        ⟨![![0, 0], ![1, 0], ![29 / 32, 3 / 16], ![1 / 2, 0], ![53 / 64, 1 / 32], ![29 / 64, 3 / 32]],
          by decide +kernel, by decide +kernel⟩
      rw [Option.some.inj (hf.symm.trans hg)]
      exact hd e
    · obtain ⟨g, hg, hd⟩ : ∃ g : Poly 6 2 ℚ, loadFace (N := 6) seesaw.v ![0, 3, 1, 7, 8, 4] = some g ∧
          ∀ e, getEdge2 (m := 3) g e 0 ≠ getEdge2 (m := 3) g e 1 :=
        ⟨![![0, 0], ![5 / 32, -5 / 16], ![1, 0], ![13 / 64, -3 / 32], ![37 / 64, -5 / 32], ![1 / 2, 0]],
          by decide +kernel, by decide +kernel⟩
      rw [Option.some.inj (hf.symm.trans hg)]
      exact hd e
  · intro r
    have e1 : checkCCW (N := 2 * (1 + 2)) tri6IsCCW tri6Flip seesaw = some seesaw := by decide +kernel
    unfold Validate
    rw [e1]
    dsimp only
    rw [seesaw_edges]
    have key : ∀ v, Check seesawEdges.length seesawEdges v ↔ v = .ok := seesaw_check
    simp only [key, exists_eq_left, if_true, (seesaw_running tol eps2 h1 h2 fuel).1]

/-- A triangle whose first edge crosses the second one. -/
def sail : FVM (Pt 2 ℚ) (2 * (1 + 2)) :=
  { v := [![0, 0], ![1, 0], ![0, 1], ![5 / 8, 1 / 4], ![1 / 2, 1 / 2], ![0, 1 / 2]], fv := [![0, 1, 2, 3, 4, 5]] }

/-- The bounding box is compared "to ensure we don't modify the boundary". Here the repair bends an edge of the boundary
outwards by a quarter; the box remains, and the mesh is accepted. -/
theorem C100_boundary_fails (tol eps2 : ℚ) (h1 : tol = 1 / 10 ^ 5) (h2 : eps2 = 1 / 10 ^ 14) :
    (⟨1, 2, [4]⟩ : Edge) ∈ boundaryEdges (quadraticEdges (m := 3) sail.fv) ∧ sail.v[4]? = some ![1 / 2, 1 / 2] ∧
      ∃ m', checkSelf (k := 1) tol eps2 2 sail = .done m' ∧ m'.v[4]? = some ![1 / 2, 3 / 4] := by
  subst h1 h2
  refine ⟨by decide +kernel, by decide +kernel, { sail with v := sail.v.set 4 ![1 / 2, 3 / 4] }, ?_, by decide +kernel⟩
  rw [checkSelf, round_movedTo (m := sail) (v := sail.v.set 4 ![1 / 2, 3 / 4]) (by decide +kernel)]
  dsimp only
  refine C100_unchanged _ _ 0 _ ?_
  intro c hc
  obtain rfl : c = ![0, 1, 2, 3, 4, 5] := by simpa [sail] using hc
  exact ⟨![![0, 0], ![1, 0], ![0, 1], ![5 / 8, 1 / 4], ![1 / 2, 3 / 4], ![0, 1 / 2]],
    (loadFace_iff _ _ _).1 (by decide +kernel), by unfold Looked; decide +kernel⟩

/-! ### Cases that meet the hypotheses -/

/-- A clean mesh. -/
def plain : FVM (Pt 2 ℚ) (2 * (1 + 2)) :=
  { v := [![0, 0], ![1, 0], ![0, 1], ![1 / 2, -1 / 8], ![1 / 2, 1 / 2], ![0, 1 / 2]], fv := [![0, 1, 2, 3, 4, 5]] }

theorem plain_done : checkSelf (k := 1) (1 / 10 ^ 5 : ℚ) (1 / 10 ^ 14) 1 plain = .done plain := by
  refine C100_unchanged _ _ 0 _ ?_
  intro c hc
  obtain rfl : c = ![0, 1, 2, 3, 4, 5] := by simpa [plain] using hc
  exact ⟨![![0, 0], ![1, 0], ![0, 1], ![1 / 2, -1 / 8], ![1 / 2, 1 / 2], ![0, 1 / 2]],
    (loadFace_iff _ _ _).1 (by decide +kernel), by unfold Looked; decide +kernel⟩

example : InRange plain ∧ (∀ c ∈ plain.fv, ∀ e, NotMid (k := 1) plain.fv (c (cornerAt e))) ∧
    Validate (k := 1) (1 / 10 ^ 5 : ℚ) (1 / 10 ^ 14) tri6IsCCW tri6Flip 1 plain (.done plain) := by
  refine ⟨by unfold InRange; decide +kernel, by unfold NotMid; decide +kernel, ?_⟩
  have e1 : checkCCW (N := 2 * (1 + 2)) tri6IsCCW tri6Flip plain = some plain := by decide +kernel
  have e2 : quadraticEdges (m := 1 + 2) plain.fv = [⟨0, 1, [3]⟩, ⟨1, 2, [4]⟩, ⟨2, 0, [5]⟩] := by decide +kernel
  unfold Validate
  rw [e1]
  dsimp only
  rw [e2]
  exact ⟨.ok, ⟨[(⟨0, 1, [3]⟩, 1), (⟨0, 2, [5]⟩, -1), (⟨1, 2, [4]⟩, 1)], ⟨by decide +kernel, by decide +kernel⟩,
    by decide +kernel⟩, by rw [if_pos rfl, plain_done]⟩

example : checkCCW (N := 2 * (1 + 2)) tri6IsCCW tri6Flip plain = some plain ∧ InRange plain ∧ Proper (k := 1) plain ∧
    boundaryEdges (quadraticEdges (m := 1 + 2) plain.fv) ≠ [] := by
  refine ⟨by decide +kernel, by unfold InRange; decide +kernel, ⟨?_, by unfold NotMid; decide +kernel⟩, by decide +kernel⟩
  intro c hc f hf e
  obtain rfl : c = ![0, 1, 2, 3, 4, 5] := by simpa [plain] using hc
  have h1 : loadFace plain.v ![0, 1, 2, 3, 4, 5] = some ![![0, 0], ![1, 0], ![0, 1], ![1 / 2, -1 / 8], ![1 / 2, 1 / 2], ![0, 1 / 2]] := by decide +kernel
  obtain rfl := Option.some.inj (h1.symm.trans ((loadFace_iff _ _ _).2 hf))
  revert e
  decide +kernel

example : ∃ b, Tight (OnMesh (k := 1) plain.v plain.fv) b := by
  obtain ⟨b, hb⟩ := meshBox_some (k := 1) plain.v plain.fv (by decide) (by decide +kernel)
  exact ⟨b, tight_mesh _ _ hb⟩

end Verif.SelfFix
