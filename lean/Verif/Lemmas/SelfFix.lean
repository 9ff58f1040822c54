import Verif.Model.SelfFix
import Verif.Props.QCross
import Verif.Props.MeshSoup
import Verif.Props.MeshCheck
import Mathlib.Tactic.Linarith
import Mathlib.Tactic.Positivity

/-!
# Lemmas on the repair loop
-/

namespace Verif.SelfFix

open Verif.Geom Verif.Mesh Verif.QCross

variable {K : Type} [Field K] [LinearOrder K]

/-- The place of the middle vertex of edge `e` in a face. -/
def midAt {k : Nat} (e : Fin (k + 2)) : Fin (2 * (k + 2)) := ⟨k + 2 + e.val, by omega⟩

/-- The place of the corner where edge `e` begins. -/
def cornerAt {k : Nat} (e : Fin (k + 2)) : Fin (2 * (k + 2)) := ⟨e.val, by omega⟩

theorem repair_mid (tol eps2 : K) {k : Nat} (v : Poly (2 * (k + 2)) 2 K) (e0 e1 : Fin (k + 2)) {vid disp v'}
    (h : repair tol eps2 v e0 e1 = some (some (vid, disp, v'))) : vid = midAt e0 := by
  unfold repair at h
  dsimp only at h
  cases hp : pointClosestTo ![getEdge2 v e1 0, getEdge2 v e1 1] (getEdge2 v e1 2) with
  | none => rw [hp] at h; simp at h
  | some r =>
    rw [hp] at h
    simp only [Option.map_some, Option.some.injEq] at h
    split at h
    · simp at h
    · simp only [Option.some.injEq, Prod.mk.injEq] at h
      exact h.1.symm

theorem fix_mid (tol eps2 : K) {k : Nat} (v : Poly (2 * (k + 2)) 2 K) {vid disp v'}
    (h : fixSelfIntersection tol eps2 v = some (some (vid, disp, v'))) : ∃ e, vid = midAt e := by
  unfold fixSelfIntersection at h
  split at h
  · simp at h
  · split at h
    · split at h
      · exact ⟨_, repair_mid _ _ _ _ _ h⟩
      · exact ⟨_, repair_mid _ _ _ _ _ h⟩
    · simp at h

theorem loadFace_iff {α : Type} {N : Nat} (v : List α) (c : Fin N → Nat) (f : Fin N → α) :
    loadFace v c = some f ↔ FaceIs v c f := by
  unfold loadFace FaceIs
  constructor
  · intro h j
    split at h
    · rename_i hr
      simp only [Option.some.injEq] at h
      subst h
      exact List.getElem?_eq_getElem (hr j)
    · simp at h
  · intro h
    have hr : ∀ j, c j < v.length := fun j => (List.getElem?_eq_some_iff.1 (h j)).1
    rw [dif_pos hr]
    simp only [Option.some.injEq]
    funext j
    exact (List.getElem?_eq_some_iff.1 (h j)).2

/-- What a repair does. -/
theorem repairFace_moved {tol eps2 : K} {k : Nat} {m m' : FVM (Pt 2 K) (2 * (k + 2))} {c : Fin (2 * (k + 2)) → Nat}
    {f : Poly (2 * (k + 2)) 2 K} (h : repairFace tol eps2 m c f = .moved m') :
    ∃ e p u b b', m.v[c (midAt e)]? = some p ∧ m' = { m with v := m.v.set (c (midAt e)) (p + u) } ∧
      meshBox m.v m.fv = some b ∧ meshBox m'.v m'.fv = some b' ∧ boxApprox eps2 b b' = true := by
  unfold repairFace at h
  split at h
  · simp at h
  · rename_i b hb
    split at h
    · simp at h
    · simp at h
    · rename_i vid disp f' hf
      obtain ⟨e, rfl⟩ := fix_mid tol eps2 f hf
      split at h
      · simp at h
      · rename_i p hp
        dsimp only at h
        split at h
        · simp at h
        · rename_i b' hb'
          split at h
          · rename_i ha
            simp only [Outcome.moved.injEq] at h
            subst h
            exact ⟨e, p, disp, b, b', hp, rfl, hb, hb', ha⟩
          · simp at h

theorem repairFace_done {tol eps2 : K} {k : Nat} {m m' : FVM (Pt 2 K) (2 * (k + 2))} {c : Fin (2 * (k + 2)) → Nat}
    {f : Poly (2 * (k + 2)) 2 K} : repairFace tol eps2 m c f ≠ .done m' := by
  unfold repairFace
  intro h
  split at h
  · simp at h
  · split at h
    · simp at h
    · simp at h
    · split at h
      · simp at h
      · dsimp only at h
        split at h
        · simp at h
        · split at h <;> simp at h

theorem round_done {tol eps2 : K} {k : Nat} {m m' : FVM (Pt 2 K) (2 * (k + 2))} (l : List (Fin (2 * (k + 2)) → Nat))
    (h : round tol eps2 m l = .done m') :
    m' = m ∧ ∀ c ∈ l, ∃ f, FaceIs m.v c f ∧ hasSelfIntersection tol eps2 f = false := by
  induction l with
  | nil =>
    simp only [round, Outcome.done.injEq] at h
    exact ⟨h.symm, by simp⟩
  | cons c cs ih =>
    rw [round] at h
    cases hl : loadFace m.v c with
    | none => rw [hl] at h; simp at h
    | some f =>
      rw [hl] at h
      dsimp only at h
      by_cases hs : hasSelfIntersection tol eps2 f = true
      · rw [if_pos hs] at h
        exact absurd h repairFace_done
      · rw [if_neg hs] at h
        obtain ⟨e, hr⟩ := ih h
        refine ⟨e, ?_⟩
        intro c' hc'
        rcases List.mem_cons.1 hc' with rfl | hc'
        · exact ⟨f, (loadFace_iff _ _ _).1 hl, by simpa using hs⟩
        · exact hr c' hc'

theorem round_moved {tol eps2 : K} {k : Nat} {m m' : FVM (Pt 2 K) (2 * (k + 2))} (l : List (Fin (2 * (k + 2)) → Nat))
    (h : round tol eps2 m l = .moved m') :
    ∃ c ∈ l, ∃ e p u b b', m.v[c (midAt e)]? = some p ∧ m' = { m with v := m.v.set (c (midAt e)) (p + u) } ∧
      meshBox m.v m.fv = some b ∧ meshBox m'.v m'.fv = some b' ∧ boxApprox eps2 b b' = true := by
  induction l with
  | nil => simp [round] at h
  | cons c cs ih =>
    rw [round] at h
    cases hl : loadFace m.v c with
    | none => rw [hl] at h; simp at h
    | some f =>
      rw [hl] at h
      dsimp only at h
      by_cases hs : hasSelfIntersection tol eps2 f = true
      · rw [if_pos hs] at h
        exact ⟨c, by simp, repairFace_moved h⟩
      · rw [if_neg hs] at h
        obtain ⟨c', hc', r⟩ := ih h
        exact ⟨c', by simp [hc'], r⟩

theorem round_clean {tol eps2 : K} {k : Nat} {m : FVM (Pt 2 K) (2 * (k + 2))} (l : List (Fin (2 * (k + 2)) → Nat))
    (h : ∀ c ∈ l, ∃ f, FaceIs m.v c f ∧ hasSelfIntersection tol eps2 f = false) : round tol eps2 m l = .done m := by
  induction l with
  | nil => rfl
  | cons c cs ih =>
    obtain ⟨f, hf, hs⟩ := h c (by simp)
    rw [round, (loadFace_iff _ _ _).2 hf]
    dsimp only
    rw [hs, if_neg (by simp)]
    exact ih fun c' hc' => h c' (by simp [hc'])

/-- A vertex id that is the middle vertex of no edge. -/
def NotMid {k : Nat} (fv : List (Fin (2 * (k + 2)) → Nat)) (id : Nat) : Prop := ∀ c ∈ fv, ∀ e, c (midAt e) ≠ id

theorem checkSelf_done (tol eps2 : K) {k : Nat} (fuel : Nat) (m m' : FVM (Pt 2 K) (2 * (k + 2)))
    (h : checkSelf tol eps2 fuel m = .done m') :
    (∀ c ∈ m.fv, ∃ f, FaceIs m'.v c f ∧ hasSelfIntersection tol eps2 f = false) ∧
      m'.fv = m.fv ∧ m'.v.length = m.v.length ∧ ∀ id, NotMid m.fv id → m'.v[id]? = m.v[id]? := by
  induction fuel generalizing m with
  | zero => simp [checkSelf] at h
  | succ n ih =>
    rw [checkSelf] at h
    cases hr : round tol eps2 m m.fv with
    | moved m1 =>
      rw [hr] at h
      dsimp only at h
      obtain ⟨h1, h2, h3, h4⟩ := ih m1 h
      obtain ⟨c, hc, e, p, u, b, b', hp, rfl, -⟩ := round_moved m.fv hr
      refine ⟨h1, h2, by simpa using h3, ?_⟩
      intro id hid
      rw [h4 id hid]
      exact List.getElem?_set_ne (hid c hc e)
    | done m1 =>
      rw [hr] at h
      dsimp only at h
      simp only [Outcome.done.injEq] at h
      subst h
      obtain ⟨rfl, h1⟩ := round_done m.fv hr
      exact ⟨h1, rfl, rfl, fun _ _ => rfl⟩
    | unfixed => rw [hr] at h; simp at h
    | boxChanged => rw [hr] at h; simp at h
    | refused => rw [hr] at h; simp at h
    | undef => rw [hr] at h; simp at h
    | running => rw [hr] at h; simp at h

/-! ### The extent -/

section
variable [IsStrictOrderedRing K]

/-- The box holds all the points and is touched by them at each of its sides. -/
def Tight (S : Pt 2 K → Prop) (b : Box.AABB 2 K) : Prop :=
  (∀ p, S p → Box.Inside p b) ∧ (∀ i, ∃ p, S p ∧ p i = b.min i) ∧ ∀ i, ∃ p, S p ∧ p i = b.max i

omit [Field K] [IsStrictOrderedRing K] in
theorem tight_add {S T : Pt 2 K → Prop} {a b : Box.AABB 2 K} (ha : Tight S a) (hb : Tight T b) :
    Tight (fun p => S p ∨ T p) (Box.add a b) := by
  obtain ⟨a1, a2, a3⟩ := ha
  obtain ⟨b1, b2, b3⟩ := hb
  unfold Box.add
  simp only [Box.cmin_eq, Box.cmax_eq]
  refine ⟨?_, ?_, ?_⟩
  · rintro p (hp | hp) i
    · exact ⟨le_trans (min_le_left _ _) (a1 p hp i).1, le_trans (a1 p hp i).2 (le_max_left _ _)⟩
    · exact ⟨le_trans (min_le_right _ _) (b1 p hp i).1, le_trans (b1 p hp i).2 (le_max_right _ _)⟩
  · intro i
    rcases le_total (a.min i) (b.min i) with h | h
    · obtain ⟨p, hp, e⟩ := a2 i
      exact ⟨p, Or.inl hp, by rw [e]; simp [h]⟩
    · obtain ⟨p, hp, e⟩ := b2 i
      exact ⟨p, Or.inr hp, by rw [e]; simp [h]⟩
  · intro i
    rcases le_total (a.max i) (b.max i) with h | h
    · obtain ⟨p, hp, e⟩ := b3 i
      exact ⟨p, Or.inr hp, by rw [e]; simp [h]⟩
    · obtain ⟨p, hp, e⟩ := a3 i
      exact ⟨p, Or.inl hp, by rw [e]; simp [h]⟩

omit [Field K] [IsStrictOrderedRing K] in
theorem tight_congr {S T : Pt 2 K → Prop} {b : Box.AABB 2 K} (h : Tight S b) (e : ∀ p, S p ↔ T p) : Tight T b := by
  obtain ⟨h1, h2, h3⟩ := h
  refine ⟨fun p hp => h1 p ((e p).2 hp), fun i => ?_, fun i => ?_⟩
  · obtain ⟨p, hp, q⟩ := h2 i
    exact ⟨p, (e p).1 hp, q⟩
  · obtain ⟨p, hp, q⟩ := h3 i
    exact ⟨p, (e p).1 hp, q⟩

/-- The points of a curve. -/
def OnCurve (q : Poly 3 2 K) (p : Pt 2 K) : Prop := ∃ r, 0 ≤ r ∧ r ≤ 1 ∧ qsegAt q r = p

theorem tight_qseg (q : Poly 3 2 K) : Tight (OnCurve q) (qsegBox q) := by
  obtain ⟨h1, h2, h3⟩ := C31_boundingBox q
  refine ⟨?_, fun i => ?_, fun i => ?_⟩
  · rintro p ⟨r, r0, r1, rfl⟩
    exact h1 r r0 r1
  · obtain ⟨r, r0, r1, e⟩ := h2 i
    exact ⟨_, ⟨r, r0, r1, rfl⟩, e⟩
  · obtain ⟨r, r0, r1, e⟩ := h3 i
    exact ⟨_, ⟨r, r0, r1, rfl⟩, e⟩

omit [Field K] [IsStrictOrderedRing K] in
theorem tight_foldl {ι : Type} (S : ι → Pt 2 K → Prop) (g : ι → Box.AABB 2 K) (h : ∀ i, Tight (S i) (g i)) (l : List ι)
    {T : Pt 2 K → Prop} {b : Box.AABB 2 K} (hb : Tight T b) :
    Tight (fun p => T p ∨ ∃ i ∈ l, S i p) (l.foldl (fun a i => Box.add a (g i)) b) := by
  induction l generalizing T b with
  | nil => exact tight_congr hb (by simp)
  | cons i l ih =>
    rw [List.foldl_cons]
    refine tight_congr (ih (tight_add hb (h i))) ?_
    intro p
    simp only [List.mem_cons, exists_eq_or_imp]
    tauto

/-- The points of the edges of a face. -/
def OnFace {k : Nat} (f : Poly (2 * (k + 2)) 2 K) (p : Pt 2 K) : Prop := ∃ e, OnCurve (getEdge2 f e) p

theorem tight_face {k : Nat} (f : Poly (2 * (k + 2)) 2 K) : Tight (OnFace f) (qpolyBox (m := k + 1) f) := by
  unfold qpolyBox
  refine tight_congr (tight_foldl (fun i : Fin (k + 1) => OnCurve (getEdge2 f i.succ)) _
    (fun i => tight_qseg _) _ (tight_qseg (getEdge2 f 0))) ?_
  intro p
  unfold OnFace
  constructor
  · rintro (h | ⟨i, -, h⟩)
    · exact ⟨0, h⟩
    · exact ⟨i.succ, h⟩
  · rintro ⟨e, h⟩
    induction e using Fin.cases with
    | zero => exact Or.inl h
    | succ i => exact Or.inr ⟨i, List.mem_finRange _, h⟩

/-- The points of the edges of a mesh. -/
def OnMesh {k : Nat} (v : List (Pt 2 K)) (fv : List (Fin (2 * (k + 2)) → Nat)) (p : Pt 2 K) : Prop :=
  ∃ c ∈ fv, ∃ f, FaceIs v c f ∧ OnFace f p

theorem tight_mesh_loop {k : Nat} (v : List (Pt 2 K)) (cs : List (Fin (2 * (k + 2)) → Nat)) {T : Pt 2 K → Prop}
    {b0 b : Box.AABB 2 K} (h0 : Tight T b0)
    (h : cs.foldlM (fun b c => do
      let f ← loadFace v c
      pure (Box.add b (qpolyBox (m := k + 1) f))) b0 = some b) :
    Tight (fun p => T p ∨ OnMesh v cs p) b := by
  induction cs generalizing T b0 with
  | nil =>
    simp only [List.foldlM_nil, Option.pure_def, Option.some.injEq] at h
    subst h
    exact tight_congr h0 (by simp [OnMesh])
  | cons c cs ih =>
    rw [List.foldlM_cons] at h
    cases hl : loadFace v c with
    | none => rw [hl] at h; simp at h
    | some f =>
      rw [hl] at h
      simp only [Option.pure_def, Option.bind_eq_bind, Option.bind_some] at h
      refine tight_congr (ih (tight_add h0 (tight_face f)) h) ?_
      intro p
      have hf := (loadFace_iff _ _ _).1 hl
      have hu : ∀ g, FaceIs v c g → g = f := by
        intro g hg
        have := (loadFace_iff _ _ _).2 hg
        rw [hl] at this
        exact (Option.some.inj this).symm
      unfold OnMesh
      constructor
      · rintro ((h | h) | ⟨c', hc', r⟩)
        · exact Or.inl h
        · exact Or.inr ⟨c, by simp, f, hf, h⟩
        · exact Or.inr ⟨c', by simp [hc'], r⟩
      · rintro (h | ⟨c', hc', g, hg, r⟩)
        · exact Or.inl (Or.inl h)
        · rcases List.mem_cons.1 hc' with rfl | hc'
          · rw [hu g hg] at r
            exact Or.inl (Or.inr r)
          · exact Or.inr ⟨c', hc', g, hg, r⟩

theorem tight_mesh {k : Nat} (v : List (Pt 2 K)) (fv : List (Fin (2 * (k + 2)) → Nat)) {b : Box.AABB 2 K}
    (h : meshBox v fv = some b) : Tight (OnMesh v fv) b := by
  cases fv with
  | nil => simp [meshBox] at h
  | cons c cs =>
    simp only [meshBox, Option.bind_eq_bind] at h
    cases hl : loadFace v c with
    | none => rw [hl] at h; simp at h
    | some f =>
      rw [hl, Option.bind_some] at h
      refine tight_congr (tight_mesh_loop v cs (tight_face f) h) ?_
      intro p
      have hf := (loadFace_iff _ _ _).1 hl
      have hu : ∀ g, FaceIs v c g → g = f := by
        intro g hg
        have := (loadFace_iff _ _ _).2 hg
        rw [hl] at this
        exact (Option.some.inj this).symm
      unfold OnMesh
      constructor
      · rintro (h | ⟨c', hc', r⟩)
        · exact ⟨c, by simp, f, hf, h⟩
        · exact ⟨c', by simp [hc'], r⟩
      · rintro ⟨c', hc', g, hg, r⟩
        rcases List.mem_cons.1 hc' with rfl | hc'
        · rw [hu g hg] at r
          exact Or.inl r
        · exact Or.inr ⟨c', hc', g, hg, r⟩

omit [Field K] [IsStrictOrderedRing K] in
theorem tight_unique {S : Pt 2 K → Prop} {a b : Box.AABB 2 K} (ha : Tight S a) (hb : Tight S b) : a = b := by
  obtain ⟨a1, a2, a3⟩ := ha
  obtain ⟨b1, b2, b3⟩ := hb
  ext i
  · obtain ⟨p, hp, e⟩ := a2 i
    obtain ⟨q, hq, e'⟩ := b2 i
    exact le_antisymm (e' ▸ (a1 q hq i).1) (e ▸ (b1 p hp i).1)
  · obtain ⟨p, hp, e⟩ := a3 i
    obtain ⟨q, hq, e'⟩ := b3 i
    exact le_antisymm (e ▸ (b1 p hp i).2) (e' ▸ (a1 q hq i).2)

theorem coord_le {eps : K} (he : 0 ≤ eps) (x y : Pt 2 K) (h : sqDist x y < eps ^ 2) (i : Fin 2) : |x i - y i| ≤ eps := by
  have h1 : (x i - y i) ^ 2 ≤ sqDist x y := by
    unfold sqDist
    have : sqDist x y = (x 0 - y 0) ^ 2 + (x 1 - y 1) ^ 2 := by
      unfold sqDist; rw [Fin.sum_univ_two]; ring
    unfold sqDist at this
    rw [this]
    fin_cases i
    · simpa using sq_nonneg (x 1 - y 1)
    · simpa using sq_nonneg (x 0 - y 0)
  exact abs_le_of_sq_le_sq (by linarith) he

/-- `n` repairs move no side of the box by more than `n` tolerances. -/
theorem checkSelf_box (tol eps : K) (he : 0 ≤ eps) {k : Nat} (n : Nat) (m m' : FVM (Pt 2 K) (2 * (k + 2)))
    (h : checkSelf tol (eps ^ 2) (n + 1) m = .done m') (b b' : Box.AABB 2 K) (hb : Tight (OnMesh m.v m.fv) b)
    (hb' : Tight (OnMesh m'.v m'.fv) b') :
    ∀ i, |b.min i - b'.min i| ≤ n * eps ∧ |b.max i - b'.max i| ≤ n * eps := by
  induction n generalizing m b with
  | zero =>
    rw [checkSelf] at h
    cases hr : round tol (eps ^ 2) m m.fv with
    | moved m1 => rw [hr] at h; simp [checkSelf] at h
    | done m1 =>
      rw [hr] at h
      dsimp only at h
      simp only [Outcome.done.injEq] at h
      subst h
      obtain ⟨rfl, -⟩ := round_done m.fv hr
      obtain rfl := tight_unique hb hb'
      intro i
      simp
    | unfixed => rw [hr] at h; simp at h
    | boxChanged => rw [hr] at h; simp at h
    | refused => rw [hr] at h; simp at h
    | undef => rw [hr] at h; simp at h
    | running => rw [hr] at h; simp at h
  | succ n ih =>
    rw [checkSelf] at h
    cases hr : round tol (eps ^ 2) m m.fv with
    | moved m1 =>
      rw [hr] at h
      dsimp only at h
      obtain ⟨c, hc, e, p, u, b0, b1, hp, hm, h0, h1, ha⟩ := round_moved m.fv hr
      obtain rfl := tight_unique hb (tight_mesh _ _ h0)
      have := ih m1 h b1 (tight_mesh _ _ h1)
      unfold boxApprox at ha
      rw [Bool.and_eq_true, decide_eq_true_eq, decide_eq_true_eq] at ha
      intro i
      have t1 := coord_le he _ _ ha.1 i
      have t2 := coord_le he _ _ ha.2 i
      obtain ⟨s1, s2⟩ := this i
      push_cast
      constructor
      · have := abs_sub_le (b.min i) (b1.min i) (b'.min i)
        linarith
      · have := abs_sub_le (b.max i) (b1.max i) (b'.max i)
        linarith
    | done m1 =>
      rw [hr] at h
      dsimp only at h
      simp only [Outcome.done.injEq] at h
      subst h
      obtain ⟨rfl, -⟩ := round_done m.fv hr
      obtain rfl := tight_unique hb hb'
      intro i
      simp only [sub_self, abs_zero]
      have : (0 : K) ≤ (n + 1 : ℕ) * eps := by positivity
      exact ⟨this, this⟩
    | unfixed => rw [hr] at h; simp at h
    | boxChanged => rw [hr] at h; simp at h
    | refused => rw [hr] at h; simp at h
    | undef => rw [hr] at h; simp at h
    | running => rw [hr] at h; simp at h

/-! ### Definedness -/

/-- Within every face no edge has equal ends, and no corner of a face is the middle vertex of an edge. -/
def Proper {k : Nat} (m : FVM (Pt 2 K) (2 * (k + 2))) : Prop :=
  (∀ c ∈ m.fv, ∀ f, FaceIs m.v c f → ∀ e, getEdge2 f e 0 ≠ getEdge2 f e 1) ∧
    ∀ c ∈ m.fv, ∀ e, NotMid m.fv (c (cornerAt e))

end

theorem edge_corner {k : Nat} (e : Fin (k + 2)) : ∃ a b, ∀ (α : Type) (f : Fin (2 * (k + 2)) → α),
    getEdge2 f e 0 = f (cornerAt a) ∧ getEdge2 f e 1 = f (cornerAt b) := by
  unfold getEdge2
  by_cases h : e.val < k + 2 - 1
  · refine ⟨e, ⟨e.val + 1, by omega⟩, fun α f => ?_⟩
    rw [dif_pos h]
    exact ⟨rfl, rfl⟩
  · refine ⟨⟨k + 1, by omega⟩, 0, fun α f => ?_⟩
    rw [dif_neg h]
    exact ⟨rfl, rfl⟩

omit [Field K] [LinearOrder K] in
theorem proper_set {k : Nat} {m : FVM (Pt 2 K) (2 * (k + 2))} (hin : InRange m) (hp : Proper m) {c} (hc : c ∈ m.fv)
    (e : Fin (k + 2)) (p : Pt 2 K) :
    InRange { m with v := m.v.set (c (midAt e)) p } ∧ Proper { m with v := m.v.set (c (midAt e)) p } := by
  refine ⟨fun c' hc' j => by simpa using hin c' hc' j, ?_, hp.2⟩
  intro c' hc' f' hf' a
  have hr : ∀ j, c' j < m.v.length := hin c' hc'
  have hf : FaceIs m.v c' (fun j => m.v[c' j]'(hr j)) := fun j => List.getElem?_eq_getElem (hr j)
  have hcor : ∀ a, f' (cornerAt a) = m.v[c' (cornerAt a)]'(hr _) := by
    intro a
    have h1 := hf' (cornerAt a)
    dsimp only at h1
    rw [List.getElem?_set_ne (hp.2 c' hc' a c hc e)] at h1
    exact ((List.getElem?_eq_some_iff.1 h1).2).symm
  have := hp.1 c' hc' _ hf a
  obtain ⟨x, y, hxy⟩ := edge_corner a
  obtain ⟨hx, hy⟩ := hxy _ f'
  obtain ⟨hx', hy'⟩ := hxy _ fun j => m.v[c' j]'(hr j)
  rw [hx', hy'] at this
  rw [hx, hy, hcor, hcor]
  exact this

theorem meshBox_some {k : Nat} (v : List (Pt 2 K)) (fv : List (Fin (2 * (k + 2)) → Nat)) (h0 : fv ≠ [])
    (h : ∀ c ∈ fv, ∀ j, c j < v.length) : ∃ b, meshBox v fv = some b := by
  have key : ∀ (cs : List (Fin (2 * (k + 2)) → Nat)) (b : Box.AABB 2 K), (∀ c ∈ cs, ∀ j, c j < v.length) →
      ∃ b', cs.foldlM (fun b c => do
        let f ← loadFace v c
        pure (Box.add b (qpolyBox (m := k + 1) f))) b = some b' := by
    intro cs
    induction cs with
    | nil => exact fun b _ => ⟨b, rfl⟩
    | cons c cs ih =>
      intro b hc
      rw [List.foldlM_cons, loadFace_of v c (hc c (by simp))]
      exact ih _ fun c' hc' => hc c' (by simp [hc'])
  cases fv with
  | nil => exact absurd rfl h0
  | cons c cs =>
    simp only [meshBox]
    rw [loadFace_of v c (h c (by simp))]
    exact key cs _ fun c' hc' => h c' (by simp [hc'])

variable [IsStrictOrderedRing K]

theorem round_defined (tol eps2 : K) {k : Nat} {m : FVM (Pt 2 K) (2 * (k + 2))} (hin : InRange m) (hp : Proper m)
    (l : List (Fin (2 * (k + 2)) → Nat)) (hl : ∀ c ∈ l, c ∈ m.fv) :
    round tol eps2 m l ≠ .undef ∧ round tol eps2 m l ≠ .running ∧ round tol eps2 m l ≠ .refused ∧
      ∀ m', round tol eps2 m l = .moved m' → InRange m' ∧ Proper m' := by
  induction l with
  | nil => simp [round]
  | cons c cs ih =>
    have hc := hl c (by simp)
    rw [round, loadFace_of m.v c (hin c hc)]
    obtain ⟨f, hf⟩ : ∃ f : Poly (2 * (k + 2)) 2 K, f = fun j => m.v[c j]'(hin c hc j) := ⟨_, rfl⟩
    have hface : FaceIs m.v c f := by
      rw [hf]
      exact fun j => List.getElem?_eq_getElem (hin c hc j)
    rw [← hf]
    dsimp only
    by_cases hs : hasSelfIntersection tol eps2 f = true
    · rw [if_pos hs]
      obtain ⟨res, h1, -⟩ := C78_fix tol eps2 f (hp.1 c hc f hface) hs
      obtain ⟨b, hb⟩ := meshBox_some m.v m.fv (List.ne_nil_of_mem hc) hin
      unfold repairFace
      rw [hb, h1]
      dsimp only
      cases res with
      | none => simp
      | some t =>
        obtain ⟨vid, disp, f'⟩ := t
        obtain ⟨e, rfl⟩ := fix_mid tol eps2 f h1
        dsimp only
        rw [hface (midAt e)]
        dsimp only
        obtain ⟨q1, q2⟩ := proper_set hin hp hc e (f (midAt e) + disp)
        obtain ⟨b', hb'⟩ := meshBox_some (m.v.set (c (midAt e)) (f (midAt e) + disp)) m.fv (List.ne_nil_of_mem hc) q1
        rw [hb']
        dsimp only
        split
        · refine ⟨by simp, by simp, by simp, ?_⟩
          intro m' h
          simp only [Outcome.moved.injEq] at h
          subst h
          exact ⟨q1, q2⟩
        · simp
    · rw [if_neg hs]
      exact ih fun c' hc' => hl c' (by simp [hc'])

theorem checkSelf_defined (tol eps2 : K) {k : Nat} (fuel : Nat) (m : FVM (Pt 2 K) (2 * (k + 2))) (hin : InRange m)
    (hp : Proper m) : checkSelf tol eps2 fuel m ≠ .undef ∧ checkSelf tol eps2 fuel m ≠ .refused ∧
      ∀ m', checkSelf tol eps2 fuel m ≠ .moved m' := by
  induction fuel generalizing m with
  | zero => simp [checkSelf]
  | succ n ih =>
    rw [checkSelf]
    obtain ⟨h1, h2, h3, h4⟩ := round_defined tol eps2 hin hp m.fv fun _ h => h
    cases hr : round tol eps2 m m.fv with
    | moved m' => exact ih m' (h4 m' hr).1 (h4 m' hr).2
    | undef => exact absurd hr h1
    | running => exact absurd hr h2
    | refused => exact absurd hr h3
    | done m' => simp
    | unfixed => simp
    | boxChanged => simp

end Verif.SelfFix
