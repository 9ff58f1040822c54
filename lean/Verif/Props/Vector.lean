import Verif.Lemmas.Vector

/-! # C01, C02, C03: um2::Vector -/

namespace Verif.Vector

variable {α : Type}

/-! ## Specification: sequences -/

/-- What each operation does to a sequence; `none` when the caller breaks a precondition
(`pop_back` on an empty vector, write outside the vector). `d` is the value of `T()`. -/
def absStep (d : α) (l : List α) : Op α → Option (List α)
  | .reserve _ => some l
  | .resize n => some (l.take n ++ List.replicate (n - l.length) d)
  | .clear => some []
  | .pushBack x => some (l ++ [x])
  | .popBack => if l.length = 0 then none else some l.dropLast
  | .assign m => some m
  | .set i x => if i < l.length then some (l.set i x) else none

/-- The number of elements an operation asks for. -/
def demand (d : α) (l : List α) (op : Op α) : Nat :=
  match op with
  | .reserve n => n
  | op => ((absStep d l op).getD []).length

/-- Run a history on a sequence; every requested size must be at most `M`. -/
def absRun (d : α) (M : Nat) (l : List α) (ops : List (Op α)) : Option (List α) :=
  ops.foldlM (fun l op => if demand d l op ≤ M then absStep d l op else none) l

/-- Largest number of elements for which doubling the capacity stays in `Int`. -/
def maxElems : Nat := 2 ^ 30

/-- What a caller can observe of a vector equals the sequence `l`. -/
structure Observes (v : Vec α) (l : List α) : Prop where
  size : v.size = l.length
  fits : v.size ≤ v.capacity
  index : ∀ i, get v i = l[i]?
  iterate : toList v = some l
  destroys : dtor v = some ()

theorem get_rep {v : Vec α} {l : List α} (h : Rep v l) (i : Nat) : get v i = l[i]? := by
  obtain ⟨k, rfl, -⟩ := h.mk'
  unfold get
  by_cases hi : i < l.length
  · have : (l.map Cell.live ++ List.replicate k .raw)[i]? = some (.live l[i]) := by
      rw [List.getElem?_append_left (by simpa using hi), List.getElem?_map]; simp [hi]
    simp only [hi, if_true, this, List.getElem?_eq_getElem]
  · simp [hi]

theorem Rep.observes {v : Vec α} {l : List α} (h : Rep v l) : Observes v l where
  size := h.1
  fits := by rw [h.1]; exact h.le
  index := get_rep h
  iterate := by
    have h1 : ∀ (m : List α) (f : Nat → Option α), (∀ i < m.length, f i = m[i]?) →
        (List.range m.length).mapM f = some m := by
      intro m
      induction m using List.reverseRecOn with
      | nil => intro f _; simp
      | append_singleton m x ih =>
        intro f hf
        have hx : f m.length = some x := by rw [hf m.length (by simp)]; simp
        have := ih f (fun i hi => by
          rw [hf i (by simp; omega), List.getElem?_append_left hi])
        rw [List.length_append, List.length_singleton, List.range_succ, List.mapM_append, this]
        simp [hx]
    rw [toList, h.1]
    exact h1 l (get v) (fun i _ => get_rep h i)
  destroys := rep_dtor h

theorem recommend_spec {v : Vec α} {n : Nat} (h1 : v.capacity < n) (h2 : n ≤ maxElems) :
    recommend v n = some (max (2 * v.capacity) n) := by
  unfold recommend
  have : maxElems = 1073741824 := by decide
  have : intMax = 2147483647 := rfl
  rw [if_pos (by omega)]

/-- One operation: no undefined behaviour, same sequence, capacity does not shrink and is at most
twice the largest size requested. -/
theorem step_spec (triv : Bool) (d : α) (v : Vec α) (l l' : List α) (op : Op α) (M : Nat)
    (hM : M ≤ maxElems) (hr : Rep v l) (hd : demand d l op ≤ M) (ha : absStep d l op = some l') :
    ∃ v', step triv d v op = some v' ∧ Rep v' l' ∧ v.capacity ≤ v'.capacity ∧
      v'.capacity ≤ max v.capacity (2 * M) := by
  obtain ⟨k, rfl, hcap⟩ := hr.mk'
  have capmk : ∀ (m : List α) (j n : Nat),
      Vec.capacity ⟨m.map .live ++ List.replicate j .raw, n⟩ = m.length + j := by
    intro m j n; simp [Vec.capacity]
  cases op with
  | reserve n =>
    simp only [absStep, Option.some.injEq] at ha
    subst ha
    simp only [demand] at hd
    unfold step reserve
    by_cases hn : n > Vec.capacity ⟨l.map .live ++ List.replicate k .raw, l.length⟩
    · obtain ⟨temp, h1, h2, -⟩ := swapBuffers_spec triv l k n (by omega)
      refine ⟨⟨l.map .live ++ List.replicate (n - l.length) .raw, l.length⟩, ?_, rep_mk _ _, ?_, ?_⟩
      · simp only [hn, if_true, h1, Option.bind_eq_bind, Option.bind_some, h2]; rfl
      · rw [capmk, capmk]; omega
      · rw [capmk, capmk]; omega
    · refine ⟨_, by simp only [hn, if_false]; rfl, hr, le_refl _, by omega⟩
  | resize n =>
    simp only [absStep, Option.some.injEq] at ha
    simp only [demand, absStep, Option.getD_some] at hd
    unfold step resize
    by_cases h1 : l.length < n
    · have hl' : l' = l ++ List.replicate (n - l.length) d := by
        rw [← ha, List.take_of_length_le (by omega)]
      subst hl'
      have hlen : l.length + (n - l.length) = n := by omega
      rw [List.take_of_length_le (by omega), List.length_append, List.length_replicate, hlen] at hd
      simp only [h1, if_true]
      unfold append
      have econ : ∀ j, n - l.length ≤ j →
          constructN d (n - l.length) ⟨l.map .live ++ List.replicate j .raw, l.length⟩ =
            some ⟨(l ++ List.replicate (n - l.length) d).map .live ++
              List.replicate (j - (n - l.length)) .raw, (l ++ List.replicate (n - l.length) d).length⟩ := by
        intro j hj
        have h := constructN_spec d (n - l.length) (l.map .live)
          (List.replicate (j - (n - l.length)) .raw)
        rw [List.replicate_append_replicate, show n - l.length + (j - (n - l.length)) = j by omega]
          at h
        simpa using h
      by_cases h2 : Vec.capacity ⟨l.map .live ++ List.replicate k .raw, l.length⟩ - l.length
          < n - l.length
      · have hrec := recommend_spec (v := ⟨l.map .live ++ List.replicate k .raw, l.length⟩)
          (n := l.length + (n - l.length)) (by omega) (by omega)
        rw [hlen] at hrec
        obtain ⟨temp, h3, h4, -⟩ := swapBuffers_spec triv l k _
          (show l.length ≤ max (2 * Vec.capacity
            ⟨l.map Cell.live ++ List.replicate k .raw, l.length⟩) n by omega)
        refine ⟨⟨(l ++ List.replicate (n - l.length) d).map .live ++
          List.replicate (max (2 * Vec.capacity
            ⟨l.map Cell.live ++ List.replicate k .raw, l.length⟩) n - l.length - (n - l.length))
              .raw, (l ++ List.replicate (n - l.length) d).length⟩, ?_, rep_mk _ _, ?_, ?_⟩
        · simp only [h2, if_true, hlen, hrec, Option.bind_eq_bind, Option.bind_some, h3, h4]
          exact econ _ (by omega)
        · simp only [capmk, List.length_append, List.length_replicate]; omega
        · simp only [capmk, List.length_append, List.length_replicate]; omega
      · refine ⟨⟨(l ++ List.replicate (n - l.length) d).map .live ++
          List.replicate (k - (n - l.length)) .raw, (l ++ List.replicate (n - l.length) d).length⟩,
          ?_, rep_mk _ _, ?_, ?_⟩
        · simp only [h2, if_false]; exact econ k (by omega)
        · rw [capmk, capmk]; simp only [List.length_append, List.length_replicate]; omega
        · rw [capmk, capmk]; simp only [List.length_append, List.length_replicate]; omega
    · have hl' : l' = l.take n := by
        rw [← ha, show n - l.length = 0 by omega]; simp
      subst hl'
      simp only [h1, if_false]
      by_cases h2 : n < l.length
      · refine ⟨⟨(l.take n).map .live ++ List.replicate (l.length - n + k) .raw, n⟩, ?_, ?_, ?_, ?_⟩
        · simp only [h2, if_true]
          exact destructAtEnd_spec l k n h2.le
        · have := rep_mk (l.take n) (l.length - n + k)
          rwa [List.length_take, Nat.min_eq_left h2.le] at this
        · rw [capmk, capmk, List.length_take]; omega
        · rw [capmk, capmk, List.length_take]; omega
      · refine ⟨_, by simp only [h2, if_false]; rfl, ?_, le_refl _, by omega⟩
        rw [List.take_of_length_le (by omega)]; exact hr
  | clear =>
    simp only [absStep, Option.some.injEq] at ha
    subst ha
    have h := destructAtEnd_spec l k 0 (Nat.zero_le _)
    refine ⟨_, h, ?_, ?_, ?_⟩
    · simpa using rep_mk ([] : List α) (l.length - 0 + k)
    · simp only [capmk, List.length_nil, List.length_take]; omega
    · simp only [capmk, List.length_nil, List.length_take]; omega
  | pushBack x =>
    simp only [absStep, Option.some.injEq] at ha
    subst ha
    simp only [demand, absStep, Option.getD_some, List.length_append, List.length_singleton] at hd
    unfold step pushBack
    by_cases h1 : l.length < Vec.capacity ⟨l.map .live ++ List.replicate k .raw, l.length⟩
    · obtain ⟨k', rfl⟩ : ∃ k', k = k' + 1 := ⟨k - 1, by omega⟩
      have hc := construct_append (l.map Cell.live) (List.replicate k' .raw) (.live x)
      rw [List.length_map] at hc
      refine ⟨⟨(l ++ [x]).map .live ++ List.replicate k' .raw, (l ++ [x]).length⟩, ?_, rep_mk _ _,
        ?_, ?_⟩
      · dsimp only
        rw [if_pos h1]
        simp only [argCell, Option.bind_eq_bind, Option.bind_some,
          List.replicate_succ, hc]
        simp
      · rw [capmk, capmk]; simp; omega
      · rw [capmk, capmk]; simp; omega
    · simp only [h1, if_false]
      unfold pushSlow
      have hk : k = 0 := by omega
      have hrec := recommend_spec (v := ⟨l.map .live ++ List.replicate k .raw, l.length⟩)
          (n := l.length + 1) (by omega) (by omega)
      set n := max (2 * Vec.capacity ⟨l.map Cell.live ++ List.replicate k .raw, l.length⟩)
        (l.length + 1) with hn
      obtain ⟨temp, h3, h4, -⟩ := swapBuffers_spec triv l k n (by omega)
      have hc := construct_append (l.map Cell.live) (List.replicate (n - l.length - 1) .raw)
        (.live x)
      rw [List.length_map] at hc
      have e : List.replicate (n - l.length) (Cell.raw (α := α)) =
          .raw :: List.replicate (n - l.length - 1) .raw := by
        rw [← List.replicate_succ]; congr 1; omega
      refine ⟨⟨(l ++ [x]).map .live ++ List.replicate (n - l.length - 1) .raw, (l ++ [x]).length⟩,
        ?_, rep_mk _ _, ?_, ?_⟩
      · simp only [hrec, Option.bind_eq_bind, Option.bind_some, h3, h4, argCell, e, hc]
        simp
      · simp only [capmk, List.length_append, List.length_singleton] at hn ⊢; omega
      · simp only [capmk, List.length_append, List.length_singleton] at hn ⊢; omega
  | popBack =>
    simp only [absStep] at ha
    by_cases h0 : l.length = 0
    · simp [h0] at ha
    · rw [if_neg h0] at ha
      simp only [Option.some.injEq] at ha
      subst ha
      obtain ⟨n, hn⟩ : ∃ n, l.length = n + 1 := ⟨l.length - 1, by omega⟩
      have h := destructAtEnd_spec l k n (by omega)
      refine ⟨⟨(l.take n).map .live ++ List.replicate (l.length - n + k) .raw, n⟩, ?_, ?_, ?_, ?_⟩
      · unfold step popBack
        simp only [hn]
        rw [hn] at h
        exact h
      · have := rep_mk (l.take n) (l.length - n + k)
        rw [List.length_take, Nat.min_eq_left (by omega)] at this
        rw [List.dropLast_eq_take, hn]; simpa [hn] using this
      · rw [capmk, capmk, List.length_take]; omega
      · rw [capmk, capmk, List.length_take]; omega
  | assign m =>
    simp only [absStep, Option.some.injEq] at ha
    subst ha
    simp only [demand, absStep, Option.getD_some] at hd
    unfold step assign
    by_cases h1 : m.length ≤ Vec.capacity ⟨l.map .live ++ List.replicate k .raw, l.length⟩
    · simp only [h1, if_true]
      by_cases h2 : l.length < m.length
      · have hcp := copyInto_spec (m.take l.length) 0 [] (l.map Cell.live) (List.replicate k .raw)
          rfl (by simp; omega) (isObj_live l)
        have hcl := constructList_spec (m.drop l.length) ((m.take l.length).map .live)
          (List.replicate (k - (m.length - l.length)) .raw)
        rw [List.replicate_append_replicate] at hcl
        simp only [List.length_map, List.length_take, List.length_drop,
          Nat.min_eq_left h2.le] at hcl
        rw [show m.length - l.length + (k - (m.length - l.length)) = k by omega,
          show l.length + (m.length - l.length) = m.length by omega, ← List.append_assoc,
          ← List.map_append, List.take_append_drop] at hcl
        refine ⟨⟨m.map .live ++ List.replicate (k - (m.length - l.length)) .raw, m.length⟩, ?_,
          rep_mk _ _, ?_, ?_⟩
        · simp only [List.nil_append] at hcp
          simp only [h2, if_true, hcp, Option.bind_eq_bind, Option.bind_some, hcl]
        · rw [capmk, capmk]; omega
        · rw [capmk, capmk]; omega
      · simp only [h2, if_false]
        have hcp := copyInto_spec m 0 [] ((l.take m.length).map Cell.live)
          ((l.drop m.length).map Cell.live ++ List.replicate k .raw)
          rfl (by simp; omega) (isObj_live _)
        simp only [List.nil_append] at hcp
        rw [← List.append_assoc, ← List.map_append, List.take_append_drop, ← List.append_assoc,
          ← List.map_append] at hcp
        have hlen : (m ++ l.drop m.length).length = l.length := by simp; omega
        have hda := destructAtEnd_spec (m ++ l.drop m.length) k m.length (by simp)
        rw [hlen] at hda
        refine ⟨⟨m.map .live ++ List.replicate (l.length - m.length + k) .raw, m.length⟩, ?_,
          rep_mk _ _, ?_, ?_⟩
        · simp only [hcp, Option.bind_eq_bind, Option.bind_some, hda]
          simp
        · rw [capmk, capmk]; omega
        · rw [capmk, capmk]; omega
    · simp only [h1, if_false]
      have hdel : ∃ w : Vec α, deallocate ⟨l.map .live ++ List.replicate k .raw, l.length⟩ = some w ∧
          w.capacity = 0 := by
        unfold deallocate
        by_cases h0 : Vec.capacity ⟨l.map Cell.live ++ List.replicate k .raw, l.length⟩ = 0
        · exact ⟨_, by simp only [h0, if_true]; rfl, h0⟩
        · have hcl := destructAtEnd_spec l k 0 (Nat.zero_le _)
          have hfree : free (⟨(l.take 0).map .live ++ List.replicate (l.length - 0 + k) .raw, 0⟩ :
              Vec α) = some () := by simp [free]
          refine ⟨empty, ?_, rfl⟩
          simp only [h0, if_false, clear, hcl, Option.bind_eq_bind, Option.bind_some, hfree]
          rfl
      obtain ⟨w, hw, hw0⟩ := hdel
      have hrec := recommend_spec (v := w) (n := m.length) (by omega) (by omega)
      rw [hw0] at hrec
      have hmax : max (2 * 0) m.length = m.length := by simp
      rw [hmax] at hrec
      have hcl := constructList_spec m [] ([] : List (Cell α))
      simp only [List.nil_append, List.length_nil, Nat.zero_add, List.append_nil] at hcl
      refine ⟨⟨m.map .live ++ List.replicate 0 .raw, m.length⟩, ?_, rep_mk _ _, ?_, ?_⟩
      · simp only [hw, hrec, Option.bind_eq_bind, Option.bind_some, allocate, hcl]
        simp
      · simp only [capmk] at h1 ⊢; omega
      · simp only [capmk] at h1 ⊢; omega
  | set i x =>
    simp only [absStep] at ha
    by_cases hi : i < l.length
    · rw [if_pos hi] at ha
      simp only [Option.some.injEq] at ha
      subst ha
      refine ⟨⟨(l.set i x).map .live ++ List.replicate k .raw, (l.set i x).length⟩, ?_, rep_mk _ _,
        ?_, ?_⟩
      · unfold step setAt
        have : assignAt (l.map Cell.live ++ List.replicate k .raw) i x
            = some ((l.set i x).map .live ++ List.replicate k .raw) := by
          have hg : (l.map Cell.live ++ List.replicate k .raw)[i]? = some (.live l[i]) := by
            rw [List.getElem?_append_left (by simpa using hi), List.getElem?_map]; simp [hi]
          simp only [assignAt, hg]
          rw [List.set_append_left _ _ (by simpa using hi), List.map_set]
        simp only [hi, if_true, this, Option.bind_eq_bind, Option.bind_some]
        simp
      · rw [capmk, capmk]; simp
      · rw [capmk, capmk]; simp
    · simp [hi] at ha

theorem run_spec (triv : Bool) (d : α) (M : Nat) (hM : M ≤ maxElems) (ops : List (Op α)) :
    ∀ (v : Vec α) (l l' : List α), Rep v l → absRun d M l ops = some l' →
    ∃ v', run triv d v ops = some v' ∧ Rep v' l' ∧ v.capacity ≤ v'.capacity ∧
      v'.capacity ≤ max v.capacity (2 * M) := by
  induction ops with
  | nil =>
    intro v l l' hr h
    simp only [absRun, List.foldlM_nil] at h
    cases h
    exact ⟨v, rfl, hr, le_refl _, by omega⟩
  | cons op ops ih =>
    intro v l l' hr h
    simp only [absRun, List.foldlM_cons] at h
    by_cases hd : demand d l op ≤ M
    · rw [if_pos hd] at h
      cases ha : absStep d l op with
      | none => simp [ha] at h
      | some l1 =>
        rw [ha] at h
        obtain ⟨v1, h1, h2, h3, h4⟩ := step_spec triv d v l l1 op M hM hr hd ha
        obtain ⟨v2, h5, h6, h7, h8⟩ := ih v1 l1 l' h2 h
        refine ⟨v2, ?_, h6, h3.trans h7, by omega⟩
        simp only [run, List.foldlM_cons, h1]
        exact h5
    · simp [hd] at h

theorem rep_empty : Rep (empty : Vec α) [] := by
  refine ⟨rfl, ?_⟩; simp [empty, Vec.capacity]

theorem rep_ofCount (d : α) (n : Nat) : ∃ v, ofCount d n = some v ∧ Rep v (List.replicate n d) := by
  have h := constructN_spec d n [] ([] : List (Cell α))
  refine ⟨_, by simpa [ofCount, allocate] using h, ?_⟩
  have := rep_mk (List.replicate n d) 0
  simpa using this

theorem rep_ofList (d : α) (l : List α) : ∃ v, ofList d l = some v ∧ Rep v l := by
  unfold ofList
  by_cases h0 : l.length = 0
  · have : l = [] := List.eq_nil_of_length_eq_zero h0
    subst this
    exact ⟨empty, by simp, rep_empty⟩
  · have h := constructN_spec d l.length [] ([] : List (Cell α))
    simp only [List.nil_append, List.length_nil, Nat.zero_add, List.append_nil] at h
    have hcp := copyInto_spec l 0 [] (List.replicate l.length (Cell.live d)) [] rfl (by simp)
      (by intro c hc; rw [List.eq_of_mem_replicate hc]; trivial)
    simp only [List.nil_append, List.append_nil] at hcp
    refine ⟨⟨l.map .live ++ List.replicate 0 .raw, l.length⟩, ?_, rep_mk _ _⟩
    simp only [h0, if_false, allocate, h, Option.bind_eq_bind, Option.bind_some, hcp]
    simp

/-! ## C01 -/

/-- C01: whatever constructor a vector came from and whatever history of operations follows, if
the history respects the documented preconditions and never asks for more than `2^30` elements,
no operation has undefined behaviour (no access outside the buffer or to storage without an
object, no double construction or destruction, no leak, no `Int` overflow) and the observable
contents are those of the abstract sequence. -/
theorem C01_history (triv : Bool) (d : α) (M : Nat) (hM : M ≤ 2 ^ 30) (init : Option (Vec α))
    (l l' : List α)
    (hinit : (init = some empty ∧ l = []) ∨ (∃ n, init = ofCount d n ∧ l = List.replicate n d) ∨
      (∃ x n, init = ofCount x n ∧ l = List.replicate n x) ∨ init = ofList d l)
    (ops : List (Op α)) (h : absRun d M l ops = some l') :
    ∃ v v', init = some v ∧ Observes v l ∧ run triv d v ops = some v' ∧ Observes v' l' ∧
      v.capacity ≤ v'.capacity ∧ v'.capacity ≤ max v.capacity (2 * M) := by
  have key : ∃ v, init = some v ∧ Rep v l := by
    rcases hinit with ⟨h1, rfl⟩ | ⟨n, h1, rfl⟩ | ⟨x, n, h1, rfl⟩ | h1
    · exact ⟨_, h1, rep_empty⟩
    · obtain ⟨v, hv, hr⟩ := rep_ofCount d n; exact ⟨v, by rw [h1, hv], hr⟩
    · obtain ⟨v, hv, hr⟩ := rep_ofCount x n; exact ⟨v, by rw [h1, hv], hr⟩
    · obtain ⟨v, hv, hr⟩ := rep_ofList d l; exact ⟨v, by rw [h1, hv], hr⟩
  obtain ⟨v, hv, hr⟩ := key
  obtain ⟨v', h1, h2, h3, h4⟩ := run_spec triv d M hM ops v l l' hr h
  exact ⟨v, v', hv, hr.observes, h1, h2.observes, h3, h4⟩

/-- C01: copies and moves. Copying reproduces the sequence; moving transfers it and leaves the
source empty; move assignment first releases the target's own objects. -/
theorem C01_copy_move (d : α) (opsA opsB : List (Op α)) (triv : Bool) (M : Nat) (hM : M ≤ 2 ^ 30)
    (a b : List α) (ha : absRun d M [] opsA = some a) (hb : absRun d M [] opsB = some b) :
    ∃ va vb, run triv d empty opsA = some va ∧ run triv d empty opsB = some vb ∧
      (∃ c, ofList d b = some c ∧ Observes c b) ∧
      (moveCtor vb).1 = vb ∧ Observes (moveCtor vb).1 b ∧ Observes (moveCtor vb).2 [] ∧
      (∃ r, moveAssign va vb = some r ∧ Observes r.1 b ∧ Observes r.2 []) ∧
      (b.length ≤ 2 ^ 30 → ∃ r, assign va b = some r ∧ Observes r b) := by
  obtain ⟨va, h1, h2, -, -⟩ := run_spec triv d M hM opsA empty [] a rep_empty ha
  obtain ⟨vb, h3, h4, -, -⟩ := run_spec triv d M hM opsB empty [] b rep_empty hb
  refine ⟨va, vb, h1, h3, ?_, rfl, h4.observes, rep_empty.observes, ?_, ?_⟩
  · obtain ⟨c, hc, hr⟩ := rep_ofList d b; exact ⟨c, hc, hr.observes⟩
  · have hdel : ∃ w, deallocate va = some w := by
      obtain ⟨k, rfl, -⟩ := h2.mk'
      unfold deallocate
      by_cases h0 : Vec.capacity ⟨a.map Cell.live ++ List.replicate k .raw, a.length⟩ = 0
      · exact ⟨_, by simp only [h0, if_true]; rfl⟩
      · have hcl := destructAtEnd_spec a k 0 (Nat.zero_le _)
        have hfree : free (⟨(a.take 0).map .live ++ List.replicate (a.length - 0 + k) .raw, 0⟩ :
            Vec α) = some () := by simp [free]
        refine ⟨empty, ?_⟩
        simp only [h0, if_false, clear, hcl, Option.bind_eq_bind, Option.bind_some, hfree]
        rfl
    obtain ⟨w, hw⟩ := hdel
    refine ⟨(vb, empty), ?_, h4.observes, rep_empty.observes⟩
    simp [moveAssign, hw]
  · intro hlen
    obtain ⟨r, hr1, hr2, -, -⟩ := step_spec triv d va a b (.assign b) (2 ^ 30) (le_refl _) h2
      (by simpa [demand, absStep] using hlen) rfl
    exact ⟨r, hr1, hr2.observes⟩

example : absRun 0 10 [] [.pushBack 5, .pushBack 6, .reserve 7, .resize 4, .set 1 9, .popBack] =
    some [5, 9, 0] ∧
    (run false 0 (empty : Vec Nat)
      [.pushBack 5, .pushBack 6, .reserve 7, .resize 4, .set 1 9, .popBack]).bind toList =
      some [5, 9, 0] := by decide

/-! ## C02 -/

/-- C02 (trivially movable element types): appending an own element appends its value, whether or
not the vector is full. -/
theorem C02_own_element_trivial (v : Vec α) (l : List α) (hrep : Rep v l)
    (hM : l.length < 2 ^ 30) (i : Nat) (x : α) (hi : l[i]? = some x) :
    ∃ v', pushBack true v (.own i) = some v' ∧ Observes v' (l ++ [x]) := by
  have hil : i < l.length := (List.getElem?_eq_some_iff.1 hi).1
  obtain ⟨v', h1, h2, -, -⟩ := step_spec true x v l (l ++ [x]) (.pushBack x) (2 ^ 30) (le_refl _)
    hrep (by simp [demand, absStep]; omega) rfl
  refine ⟨v', ?_, h2.observes⟩
  rw [← h1]
  obtain ⟨k, rfl, hcap⟩ := hrep.mk'
  have hcell : ∀ r : List (Cell α), argCell (l.map .live ++ r) (.own i) = some (.live x) := by
    intro r
    have : (l.map Cell.live ++ r)[i]? = some (.live x) := by
      rw [List.getElem?_append_left (by simpa using hil), List.getElem?_map, hi]; rfl
    simp [argCell, this]
  unfold step pushBack
  split_ifs with hc
  · simp only [hcell, Option.bind_eq_bind, Option.bind_some]
    simp [argCell]
  · unfold pushSlow
    have hrec := recommend_spec (v := ⟨l.map .live ++ List.replicate k .raw, l.length⟩)
          (n := l.length + 1) (by simp only at hc; omega) (by have : maxElems = 2 ^ 30 := rfl; omega)
    obtain ⟨temp, h3, h4, h5⟩ := swapBuffers_spec true l k
      (max (2 * Vec.capacity ⟨l.map Cell.live ++ List.replicate k .raw, l.length⟩) (l.length + 1))
      (by omega)
    simp only [if_true] at h5
    simp only [hrec, h3, h5, hcell, Option.bind_eq_bind, Option.bind_some]
    simp [argCell]

/-- C02 (any element type): appending an own element appends its value when the vector is not
full. What is missing for the full claim: a full vector with a non-trivially movable element
type, where the claim is false (`C02_own_element_fails`). -/
theorem C02_own_element_partial (triv : Bool) (v : Vec α) (l : List α) (hrep : Rep v l)
    (hroom : v.size < v.capacity) (i : Nat) (x : α) (hi : l[i]? = some x) :
    ∃ v', pushBack triv v (.own i) = some v' ∧ Observes v' (l ++ [x]) := by
  have hil : i < l.length := (List.getElem?_eq_some_iff.1 hi).1
  obtain ⟨k, rfl, hcap⟩ := hrep.mk'
  obtain ⟨k', rfl⟩ : ∃ k', k = k' + 1 := by
    simp only at hroom
    exact ⟨k - 1, by omega⟩
  have hcell : argCell (l.map .live ++ List.replicate (k' + 1) .raw) (.own i)
      = some (.live x) := by
    have : (l.map Cell.live ++ List.replicate (k' + 1) .raw)[i]? = some (.live x) := by
      rw [List.getElem?_append_left (by simpa using hil), List.getElem?_map, hi]; rfl
    simp [argCell, this]
  have hc := construct_append (l.map Cell.live) (List.replicate k' .raw) (.live x)
  rw [List.length_map] at hc
  refine ⟨⟨(l ++ [x]).map .live ++ List.replicate k' .raw, (l ++ [x]).length⟩, ?_,
    (rep_mk _ _).observes⟩
  unfold pushBack
  rw [if_pos hroom]
  simp only [hcell, Option.bind_eq_bind, Option.bind_some]
  simp only [List.replicate_succ, hc, Option.bind_some]
  simp

/-- C02 fails: for every full, non-empty vector of a type with a destructive move, `push_back` of
an own element appends a moved-from object instead of the element's value. -/
theorem C02_own_element_fails (l : List α) (i : Nat) (hi : i < l.length) (hM : l.length < 2 ^ 30)
    (v : Vec α) (hrep : Rep v l) (hfull : v.size = v.capacity) :
    ∃ v', pushBack false v (.own i) = some v' ∧ v'.slots[l.length]? = some .moved ∧
      get v' l.length = none ∧ ∀ x, ¬ Observes v' (l ++ [x]) := by
  obtain ⟨k, rfl, hcap⟩ := hrep.mk'
  simp only at hfull
  have hrec := recommend_spec (v := ⟨l.map .live ++ List.replicate k .raw, l.length⟩)
        (n := l.length + 1) (by omega) (by have : maxElems = 2 ^ 30 := rfl; omega)
  set n := max (2 * Vec.capacity ⟨l.map Cell.live ++ List.replicate k .raw, l.length⟩)
    (l.length + 1) with hn
  obtain ⟨temp, h3, h4, h5⟩ := swapBuffers_spec false l k n (by omega)
  have hcell : argCell temp.slots (.own i) = some .moved := by
    have : temp.slots[i]? = some .moved := by
      rw [h5]; simp [hi, List.getElem?_append_left]
    simp [argCell, this]
  have e : List.replicate (n - l.length) (Cell.raw (α := α)) =
      .raw :: List.replicate (n - l.length - 1) .raw := by
    rw [← List.replicate_succ]; congr 1; omega
  have hc := construct_append (l.map Cell.live) (List.replicate (n - l.length - 1) .raw)
    (Cell.moved)
  rw [List.length_map] at hc
  have hslot : (l.map Cell.live ++ Cell.moved :: List.replicate (n - l.length - 1) .raw)[l.length]?
      = some .moved := by simp
  have hget : get (⟨l.map .live ++ .moved :: List.replicate (n - l.length - 1) .raw,
      l.length + 1⟩ : Vec α) l.length = none := by
    simp [get]
  refine ⟨⟨l.map .live ++ .moved :: List.replicate (n - l.length - 1) .raw, l.length + 1⟩, ?_,
    hslot, hget, ?_⟩
  · unfold pushBack
    rw [if_neg (by simp only; omega)]
    unfold pushSlow
    simp only [hrec, h3, hcell, e, hc, h4, Option.bind_eq_bind, Option.bind_some]
    rfl
  · intro x hobs
    have := hobs.index l.length
    rw [hget] at this
    simp at this

/-- A full vector of two elements: the hypotheses of the three theorems above are satisfiable. -/
example : Rep (⟨[.live 'a', .live 'b'], 2⟩ : Vec Char) ['a', 'b'] ∧
    (⟨[.live 'a', .live 'b'], 2⟩ : Vec Char).size =
      (⟨[.live 'a', .live 'b'], 2⟩ : Vec Char).capacity ∧
    Rep (⟨[.live 'a', .live 'b', .raw], 2⟩ : Vec Char) ['a', 'b'] := by
  refine ⟨⟨rfl, rfl⟩, rfl, ⟨rfl, rfl⟩⟩

/-! ## C03 -/

/-- Total relocations of `n` successive `push_back`s of external values. -/
def pushAll (triv : Bool) : List α → Vec α → Option (Vec α × Nat)
  | [], v => some (v, 0)
  | x :: xs, v => do
    let c := pushRelocations v
    let v ← pushBack triv v (.ext x)
    let (v, c') ← pushAll triv xs v
    pure (v, c + c')

theorem pushAll_spec (triv : Bool) (xs : List α) : ∀ (v : Vec α) (l : List α), Rep v l →
    l.length + xs.length ≤ 2 ^ 30 → (v.capacity = 0 ∨ v.capacity < 2 * l.length) →
    ∃ v' c, pushAll triv xs v = some (v', c) ∧ Rep v' (l ++ xs) ∧ v.capacity ≤ v'.capacity ∧
      (v'.capacity = 0 ∨ v'.capacity < 2 * (l.length + xs.length)) ∧
      c + v.capacity ≤ v'.capacity := by
  induction xs with
  | nil =>
    intro v l hr _ hc
    exact ⟨v, 0, rfl, by simpa using hr, le_refl _, by simpa using hc, by omega⟩
  | cons x xs ih =>
    intro v l hr hM hc
    simp only [List.length_cons] at hM
    obtain ⟨v1, h1, h2, h3, h4⟩ := step_spec triv x v l (l ++ [x]) (.pushBack x) (l.length + 1)
      (by have : maxElems = 2 ^ 30 := rfl; omega) hr (by simp [demand, absStep]) rfl
    have hsz := hr.1
    have hle := hr.le
    -- exact capacity after the step
    have hcap1 : v1.capacity = if v.size < v.capacity then v.capacity
        else max (2 * v.capacity) (v.size + 1) := by
      obtain ⟨k, rfl, hcap⟩ := hr.mk'
      unfold step pushBack at h1
      split_ifs at h1 ⊢ with hroom
      · simp only [argCell, Option.bind_eq_bind, Option.bind_some] at h1
        cases hcon : construct (l.map Cell.live ++ List.replicate k .raw) l.length (.live x) with
        | none => simp [hcon] at h1
        | some s =>
          simp only [hcon, Option.bind_some, Option.pure_def, Option.some.injEq] at h1
          subst h1
          unfold construct at hcon
          split at hcon
          · simp only [Option.some.injEq] at hcon
            subst hcon; simp [Vec.capacity]
          · simp at hcon
      · have hrec := recommend_spec (v := ⟨l.map .live ++ List.replicate k .raw, l.length⟩)
          (n := l.length + 1) (by simp only at hroom; omega)
          (by have : maxElems = 2 ^ 30 := rfl; omega)
        obtain ⟨temp, h5, h6, -⟩ := swapBuffers_spec triv l k
          (max (2 * Vec.capacity ⟨l.map Cell.live ++ List.replicate k .raw, l.length⟩)
            (l.length + 1)) (by omega)
        simp only [pushSlow, hrec, h5, h6, argCell, Option.bind_eq_bind, Option.bind_some] at h1
        set n := max (2 * Vec.capacity ⟨l.map Cell.live ++ List.replicate k .raw, l.length⟩)
            (l.length + 1)
        cases hcon : construct (l.map Cell.live ++ List.replicate (n - l.length) .raw) l.length
            (.live x) with
        | none => simp [hcon] at h1
        | some s =>
          simp only [hcon, Option.bind_some, Option.pure_def, Option.some.injEq] at h1
          subst h1
          unfold construct at hcon
          split at hcon
          · simp only [Option.some.injEq] at hcon
            subst hcon; simp [Vec.capacity]; omega
          · simp at hcon
    obtain ⟨v2, c, h5, h6, h7, h8, h9⟩ := ih v1 (l ++ [x]) h2 (by simp; omega) (by
      simp only [List.length_append, List.length_singleton]
      right
      rw [hcap1]; split_ifs <;> omega)
    refine ⟨v2, pushRelocations v + c, ?_, by simpa using h6, h3.trans h7, ?_, ?_⟩
    · have h1' : pushBack triv v (.ext x) = some v1 := h1
      simp only [pushAll, h1', h5, Option.bind_eq_bind, Option.bind_some]
      rfl
    · simp only [List.length_append, List.length_nil, List.length_cons] at h8 ⊢; omega
    · unfold pushRelocations
      rw [hcap1] at h9
      split_ifs at h9 ⊢ <;> omega

/-- C03: pushing `n` elements (`n ≤ 2^30`, so that doubling the capacity never leaves `Int`) onto
an empty vector succeeds, relocates fewer than `2n` elements in total, and ends with a capacity of
less than `2n`. -/
theorem C03_amortised (triv : Bool) (xs : List α) (h0 : xs ≠ []) (hM : xs.length ≤ 2 ^ 30) :
    ∃ v c, pushAll triv xs empty = some (v, c) ∧ Observes v xs ∧ c < 2 * xs.length ∧
      v.capacity < 2 * xs.length := by
  obtain ⟨v, c, h1, h2, h3, h4, h5⟩ := pushAll_spec triv xs empty [] rep_empty (by simpa using hM)
    (Or.inl rfl)
  have hpos : 0 < xs.length := List.length_pos_iff.2 h0
  have := h2.le
  simp only [List.nil_append, List.length_nil, Nat.zero_add] at *
  have h6 : (empty : Vec α).capacity = 0 := rfl
  exact ⟨v, c, h1, h2.observes, by omega, by omega⟩

/-- C03: capacity never shrinks, under any history of operations. -/
theorem C03_capacity_monotone (triv : Bool) (d : α) (M : Nat) (hM : M ≤ 2 ^ 30)
    (ops more : List (Op α)) (l l' : List α) (h1 : absRun d M [] ops = some l)
    (h2 : absRun d M l more = some l') :
    ∃ v v', run triv d empty ops = some v ∧ run triv d v more = some v' ∧
      v.capacity ≤ v'.capacity := by
  obtain ⟨v, a1, a2, -, -⟩ := run_spec triv d M hM ops empty [] l rep_empty h1
  obtain ⟨v', b1, -, b3, -⟩ := run_spec triv d M hM more v l l' a2 h2
  exact ⟨v, v', a1, b1, b3⟩

/-- C03: the growth computation overflows `Int` exactly from capacity `2^30` on. -/
theorem C03_growth_range (v : Vec α) (n : Nat) (hn : n ≤ intMax) :
    (v.capacity < 2 ^ 30 → recommend v n = some (max (2 * v.capacity) n)) ∧
    (2 ^ 30 ≤ v.capacity → recommend v n = none) := by
  have : intMax = 2147483647 := rfl
  unfold recommend
  constructor
  · intro h; rw [if_pos (by omega)]
  · intro h; rw [if_neg (by omega)]

example : (pushAll false ['a', 'b', 'c', 'd', 'e'] empty).map (fun r => (r.1.capacity, r.2)) =
    some (8, 7) := by decide

end Verif.Vector
