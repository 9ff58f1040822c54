import Verif.Model.Mesh
import Mathlib.Tactic.Ring
import Mathlib.Data.List.GetD

/-! Helper lemmas for `populateVF`. -/

namespace Verif.Mesh

variable {α : Type} {N : Nat}

/-- All (vertex, face) incidences in the order in which the loops meet them. -/
def entries (fv : List (Fin N → Nat)) (k : Nat) : List (Nat × Nat) :=
  (fv.zipIdx k).flatMap fun (c, i) => (List.finRange N).map fun j => (c j, i)

theorem entries_cons (c : Fin N → Nat) (fv : List (Fin N → Nat)) (k : Nat) :
    entries (c :: fv) k = (List.finRange N).map (fun j => (c j, k)) ++ entries fv (k + 1) := by
  simp [entries]

theorem countVerts_eq (fv : List (Fin N → Nat)) (k : Nat) (counts : List Nat) :
    fv.foldlM (fun counts c => (List.finRange N).foldlM (fun counts j => bump counts (c j)) counts)
      counts = (entries fv k).foldlM (fun counts e => bump counts e.1) counts := by
  induction fv generalizing k counts with
  | nil => simp [entries]
  | cons c fv ih =>
    rw [entries_cons, List.foldlM_append, List.foldlM_cons, List.foldlM_map]
    congr 1
    funext x
    exact ih (k + 1) x

theorem fillVF_eq (fv : List (Fin N → Nat)) (k : Nat) (st : List Nat × List Nat) :
    (fv.zipIdx k).foldlM
      (fun st (c, i) => (List.finRange N).foldlM (fun st j => place i st (c j)) st) st =
      (entries fv k).foldlM (fun st e => place e.2 st e.1) st := by
  induction fv generalizing k st with
  | nil => simp [entries]
  | cons c fv ih =>
    rw [entries_cons, List.foldlM_append, List.zipIdx_cons, List.foldlM_cons, List.foldlM_map]
    congr 1
    funext x
    exact ih (k + 1) x

/-- Number of incidences of vertex `x`. -/
def cnt (es : List (Nat × Nat)) (x : Nat) : Nat := (es.filter fun e => e.1 == x).length
/-- Number of incidences of vertices before `x`. -/
def base (es : List (Nat × Nat)) (x : Nat) : Nat := (es.filter fun e => decide (e.1 < x)).length

theorem base_succ (es : List (Nat × Nat)) (x : Nat) : base es (x + 1) = base es x + cnt es x := by
  induction es with
  | nil => rfl
  | cons e es ih =>
    unfold base cnt at *
    simp only [List.filter_cons]
    by_cases h1 : e.1 < x
    · have h2 : e.1 < x + 1 := by omega
      have h3 : (e.1 == x) = false := by simp; omega
      simp only [h1, h2, h3, decide_true, if_true, List.length_cons, ih]
      simp
      omega
    · by_cases h4 : e.1 = x
      · have h2 : e.1 < x + 1 := by omega
        have h3 : (e.1 == x) = true := by simp [h4]
        simp only [h1, h2, h3, decide_true, decide_false, if_true, List.length_cons, ih]
        simp
        omega
      · have h2 : ¬ e.1 < x + 1 := by omega
        have h3 : (e.1 == x) = false := by simp [h4]
        simp only [h1, h2, h3, decide_false, Bool.false_eq_true, if_false]
        exact ih

theorem base_mono (es : List (Nat × Nat)) {x y : Nat} (h : x ≤ y) : base es x ≤ base es y := by
  induction h with
  | refl => exact le_refl _
  | step _ ih => rw [base_succ]; omega

theorem base_zero (es : List (Nat × Nat)) : base es 0 = 0 := by
  unfold base; simp

theorem base_top (es : List (Nat × Nat)) (n : Nat) (h : ∀ e ∈ es, e.1 < n) :
    base es n = es.length := by
  unfold base
  rw [List.filter_eq_self.2]
  intro e he
  simpa using h e he

/-- The counting loop. -/
theorem count_fold (es : List (Nat × Nat)) (n : Nat) (h : ∀ e ∈ es, e.1 < n) (c0 : List Nat)
    (hc : c0.length = n) :
    ∃ c, es.foldlM (fun counts e => bump counts e.1) c0 = some c ∧ c.length = n ∧
      ∀ x, x < n → c.getD x 0 = c0.getD x 0 + cnt es x := by
  induction es generalizing c0 with
  | nil => exact ⟨c0, rfl, hc, fun x _ => by simp [cnt]⟩
  | cons e es ih =>
    have he : e.1 < c0.length := by rw [hc]; exact h e (by simp)
    obtain ⟨c, h1, h2, h3⟩ := ih (fun e' h' => h e' (by simp [h'])) (c0.set e.1 (c0[e.1] + 1))
      (by simpa using hc)
    refine ⟨c, ?_, h2, ?_⟩
    · rw [List.foldlM_cons]
      simp only [bump, List.getElem?_eq_getElem he]
      exact h1
    · intro x hx
      rw [h3 x hx]
      have hx' : x < c0.length := by omega
      simp only [List.getD_eq_getElem?_getD, List.getElem?_set]
      unfold cnt
      rw [List.filter_cons]
      by_cases hex : e.1 = x
      · subst hex
        simp [he]
        omega
      · simp [hex]

theorem scan_length (l : List Nat) (a : Nat) : (inclusiveScan a l).length = l.length := by
  induction l generalizing a with
  | nil => rfl
  | cons x xs ih => simp [inclusiveScan, ih]

theorem scan_get (l : List Nat) (a i : Nat) (h : i < l.length) :
    (a :: inclusiveScan a l).getD (i + 1) 0 = (a :: inclusiveScan a l).getD i 0 + l.getD i 0 := by
  induction l generalizing a i with
  | nil => simp at h
  | cons x xs ih =>
    cases i with
    | zero => simp [inclusiveScan]
    | succ i =>
      have := ih (a + x) i (by simpa using h)
      simpa [inclusiveScan] using this

theorem scan_base (es : List (Nat × Nat)) (c : List Nat) (hc : ∀ x, x < c.length → c.getD x 0 = cnt es x)
    (x : Nat) (hx : x ≤ c.length) : (0 :: inclusiveScan 0 c)[x]? = some (base es x) := by
  have hl : (0 :: inclusiveScan 0 c).length = c.length + 1 := by simp [scan_length]
  have key : (0 :: inclusiveScan 0 c).getD x 0 = base es x := by
    induction x with
    | zero => simp [base_zero]
    | succ x ih =>
      rw [scan_get _ _ _ (by omega), ih (by omega), hc x (by omega), base_succ]
  rw [List.getD_eq_getElem?_getD] at key
  rw [List.getElem?_eq_getElem (by omega)] at key ⊢
  simpa using key

/-- Invariant of the filling loop after the incidences `pre` out of `es`. -/
structure FillInv (es pre : List (Nat × Nat)) (n : Nat) (st : List Nat × List Nat) : Prop where
  len : st.1.length = es.length
  offs : ∀ x, x < n → st.2[x]? = some (base es x + cnt pre x)
  vals : ∀ x k, x < n → k < cnt pre x →
    st.1[base es x + k]? = ((pre.filter fun e => e.1 == x).map (·.2))[k]?

theorem cnt_append (a b : List (Nat × Nat)) (x : Nat) : cnt (a ++ b) x = cnt a x + cnt b x := by
  simp [cnt]

theorem fill_step (es pre post : List (Nat × Nat)) (e : Nat × Nat) (n : Nat)
    (hes : es = pre ++ e :: post) (hb : ∀ e ∈ es, e.1 < n) (st : List Nat × List Nat)
    (inv : FillInv es pre n st) :
    ∃ st', place e.2 st e.1 = some st' ∧ FillInv es (pre ++ [e]) n st' := by
  have he : e.1 < n := hb e (by simp [hes])
  have ho := inv.offs e.1 he
  have hcnt : cnt es e.1 = cnt pre e.1 + (1 + cnt post e.1) := by
    rw [hes, cnt_append]
    congr 1
    simp [cnt]
    omega
  have hlt : base es e.1 + cnt pre e.1 < base es (e.1 + 1) := by rw [base_succ]; omega
  have hle : base es (e.1 + 1) ≤ es.length := by
    rw [← base_top es n hb]; exact base_mono es (by omega)
  have hbnd : base es e.1 + cnt pre e.1 < st.1.length := by rw [inv.len]; omega
  have hol : e.1 < st.2.length := by
    by_contra hcon
    rw [List.getElem?_eq_none (by omega)] at ho
    cases ho
  refine ⟨(st.1.set (base es e.1 + cnt pre e.1) e.2,
    st.2.set e.1 (base es e.1 + cnt pre e.1 + 1)), ?_, ?_, ?_, ?_⟩
  · unfold place
    rw [ho]
    simp [hbnd]
  · simpa using inv.len
  · intro x hx
    rw [cnt_append]
    by_cases hex : e.1 = x
    · subst hex
      simp [hol, cnt]
      omega
    · simp [hex, inv.offs x hx, cnt]
  · intro x k hx hk
    simp only [List.filter_append, List.map_append]
    by_cases hex : e.1 = x
    · subst hex
      have hk' : k < cnt pre e.1 + 1 := by
        rw [cnt_append] at hk
        simpa [cnt] using hk
      rw [List.getElem?_set]
      by_cases hkl : k < cnt pre e.1
      · rw [if_neg (by omega), inv.vals e.1 k hx hkl]
        rw [List.getElem?_append_left]
        simpa [cnt] using hkl
      · have hke : k = cnt pre e.1 := by omega
        subst hke
        rw [if_pos rfl, if_pos hbnd]
        rw [List.getElem?_append_right (by simp [cnt])]
        simp [cnt]
    · have hk' : k < cnt pre x := by
        rw [cnt_append] at hk
        simpa [cnt, hex] using hk
      have hsing : ([e].filter fun e => e.1 == x) = [] := by simp [hex]
      rw [hsing, List.map_nil, List.append_nil, List.getElem?_set, if_neg, inv.vals x k hx hk']
      have hpre : cnt pre x ≤ cnt es x := by rw [hes, cnt_append]; omega
      have hxs := base_succ es x
      rcases Nat.lt_or_gt_of_ne hex with h | h
      · have := base_mono es (x := e.1 + 1) (y := x) h
        omega
      · have := base_mono es (x := x + 1) (y := e.1) h
        omega

theorem fill_fold (es : List (Nat × Nat)) (n : Nat) (hb : ∀ e ∈ es, e.1 < n) :
    ∀ (post pre : List (Nat × Nat)) (st : List Nat × List Nat), es = pre ++ post →
      FillInv es pre n st →
      ∃ st', post.foldlM (fun st e => place e.2 st e.1) st = some st' ∧ FillInv es es n st'
  | [], pre, st, h, inv => ⟨st, rfl, by rw [List.append_nil] at h; rw [← h] at inv; exact inv⟩
  | e :: post, pre, st, h, inv => by
    obtain ⟨st1, h1, inv1⟩ := fill_step es pre post e n h hb st inv
    obtain ⟨st2, h2, inv2⟩ := fill_fold es n hb post (pre ++ [e]) st1 (by simp [h]) inv1
    refine ⟨st2, ?_, inv2⟩
    rw [List.foldlM_cons, h1]
    exact h2

theorem resize_length (l : List Nat) (n : Nat) : (resize l n).length = n := by
  simp [resize]; omega

theorem entries_mem (fv : List (Fin N → Nat)) (k x i : Nat) :
    (x, i) ∈ entries fv k ↔ ∃ c j, (c, i) ∈ fv.zipIdx k ∧ c j = x := by
  simp only [entries, List.mem_flatMap, List.mem_map, Prod.exists, Prod.mk.injEq]
  constructor
  · rintro ⟨c, i', hm, j, -, rfl, rfl⟩
    exact ⟨c, j, hm, rfl⟩
  · rintro ⟨c, j, hm, rfl⟩
    exact ⟨c, i, hm, j, List.mem_finRange j, rfl, rfl⟩

theorem entries_bound (fv : List (Fin N → Nat)) (k n : Nat) (h : ∀ c ∈ fv, ∀ j, c j < n) :
    ∀ e ∈ entries fv k, e.1 < n := by
  rintro ⟨x, i⟩ he
  obtain ⟨c, j, hm, rfl⟩ := (entries_mem fv k x i).1 he
  have : c ∈ fv := by
    have := List.mem_zipIdx hm
    rw [this.2.2]
    exact List.getElem_mem _
  exact h c this j

theorem entries_length (fv : List (Fin N → Nat)) (k : Nat) :
    (entries fv k).length = N * fv.length := by
  induction fv generalizing k with
  | nil => simp [entries]
  | cons c fv ih => rw [entries_cons, List.length_append, ih]; simp; ring

/-- The faces of one vertex, in order of incidence. -/
def facesOf (es : List (Nat × Nat)) (x : Nat) : List Nat :=
  (es.filter fun e => e.1 == x).map (·.2)

theorem facesOf_sorted (fv : List (Fin N → Nat)) (k x : Nat) :
    (facesOf (entries fv k) x).Pairwise (· ≤ ·) ∧ ∀ i ∈ facesOf (entries fv k) x, k ≤ i := by
  induction fv generalizing k with
  | nil => simp [facesOf, entries]
  | cons c fv ih =>
    obtain ⟨h1, h2⟩ := ih (k + 1)
    have e : facesOf (entries (c :: fv) k) x =
        ((List.finRange N).filter fun j => c j == x).map (fun _ => k) ++
          facesOf (entries fv (k + 1)) x := by
      rw [entries_cons]
      simp only [facesOf, List.filter_append, List.map_append, List.filter_map, List.map_map]
      congr 1
    rw [e]
    refine ⟨List.pairwise_append.2 ⟨?_, h1, ?_⟩, ?_⟩
    · rw [List.pairwise_map]
      exact List.pairwise_of_forall (fun _ _ => le_refl _)
    · intro a ha b hb
      simp only [List.mem_map] at ha
      obtain ⟨_, _, rfl⟩ := ha
      have := h2 b hb
      omega
    · intro i hi
      rcases List.mem_append.1 hi with hi | hi
      · simp only [List.mem_map] at hi
        obtain ⟨_, _, rfl⟩ := hi
        exact le_refl _
      · have := h2 i hi
        omega

theorem facesOf_count (fv : List (Fin N → Nat)) (k x i : Nat) :
    (facesOf (entries fv k) x).count (k + i) =
      match fv[i]? with
      | none => 0
      | some c => ((List.finRange N).filter fun j => c j == x).length := by
  induction fv generalizing k i with
  | nil => simp [facesOf, entries]
  | cons c fv ih =>
    have e : facesOf (entries (c :: fv) k) x =
        ((List.finRange N).filter fun j => c j == x).map (fun _ => k) ++
          facesOf (entries fv (k + 1)) x := by
      rw [entries_cons]
      simp only [facesOf, List.filter_append, List.map_append, List.filter_map, List.map_map]
      congr 1
    rw [e, List.count_append, List.map_const']
    cases i with
    | zero =>
      have : (facesOf (entries fv (k + 1)) x).count (k + 0) = 0 := by
        rw [List.count_eq_zero]
        intro hm
        have := (facesOf_sorted fv (k + 1) x).2 _ hm
        omega
      rw [this]
      simp
    | succ i =>
      have := ih (k + 1) i
      rw [show k + 1 + i = k + (i + 1) by omega] at this
      rw [this, List.count_replicate]
      simp

end Verif.Mesh
