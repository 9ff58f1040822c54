import Verif.Lemmas.Str

/-! # C04, C05: um2::String as a character sequence, and heap ownership -/

namespace Verif.Str

/-! ## Specification -/

/-- A set of strings: index to text, `none` once destroyed. -/
abbrev Texts := List (Option (List Byte))

/-- The text of the live string `i`. -/
def text (A : Texts) (i : Nat) : Option (List Byte) := (A[i]?).join

/-- What each operation does to the texts; `none` when a precondition is broken (no such live
string, `substr` position beyond the end). -/
def absStep (A : Texts) : Op → Option Texts
  | .mkEmpty => some (A ++ [some []])
  | .ofText l => some (A ++ [some l])
  | .copy i => (text A i).map fun l => A ++ [some l]
  | .move i => (text A i).map fun l => A.set i (some []) ++ [some l]
  | .substr i pos count => (text A i).bind fun l =>
      if pos ≤ l.length then some (A ++ [some ((l.drop pos).take count)]) else none
  | .assignText i l => (text A i).map fun _ => A.set i (some l)
  | .assignCopy i j => (text A i).bind fun _ => (text A j).map fun l => A.set i (some l)
  | .assignMove i j => (text A i).bind fun _ => (text A j).map fun l =>
      if i = j then A else (A.set i (some l)).set j (some [])
  | .appendText i t => (text A i).map fun l => A.set i (some (l ++ t))
  | .appendStr i j => (text A i).bind fun l => (text A j).map fun t => A.set i (some (l ++ t))
  | .destroy i => (text A i).map fun _ => A.set i none

/-- Every text is shorter than `2^30` characters. -/
def Small (A : Texts) : Bool := A.all fun o => match o with
  | some l => decide (l.length < 2 ^ 30)
  | none => true

/-- Run a history on texts; all texts stay below `2^30` characters. -/
def absRun (A : Texts) (ops : List Op) : Option Texts :=
  ops.foldlM (fun A op => (absStep A op).bind fun A' => if Small A' then some A' else none) A

/-- What a caller can observe of a string equals the text `l`. -/
structure Observes (h : Heap) (r : Rep) (l : List Byte) : Prop where
  size : r.size = l.length
  chars : contents h r = some l
  terminator : ∃ b, dataBuf h r = some b ∧ rdBytes b l.length 1 = some [0]
  capacity : ∃ c, r.capacity = some c ∧ r.size ≤ c ∧ 22 ≤ c
  heap : 23 ≤ l.length → r.isLong = true

theorem RepOK.observes {h : Heap} {r : Rep} {l : List Byte} (hr : RepOK h r l) :
    Observes h r l where
  size := hr.size
  chars := hr.contents
  terminator := by
    obtain ⟨t, ht⟩ := hr.dataBuf
    refine ⟨_, ht, ?_⟩
    have := rdBytes_text (l ++ [0]) t l.length 1 (by simp)
    simpa using this
  capacity := by
    obtain ⟨c, h1, h2, -, h4, h5⟩ := hr.capacity
    refine ⟨c, h1, by rw [hr.size]; exact h2, ?_⟩
    cases hl : r.isLong
    · have := h4 hl; omega
    · have := h5 hl; omega
  heap := by
    intro hl
    cases r with
    | short d n =>
      obtain ⟨h1, -, t, rfl⟩ := hr
      simp [minCap] at h1; omega
    | long p cap n => rfl

theorem inv_text {st : St} {A : Texts} (hI : Inv st A) {i : Nat} {l : List Byte}
    (h : text A i = some l) : ∃ r, obj st i = some r ∧ st.objs[i]? = some (some r) ∧
      RepOK st.heap r l ∧ A[i]? = some (some l) := by
  unfold text at h
  cases ha : A[i]? with
  | none => simp [ha] at h
  | some a =>
    rw [ha] at h
    simp only [Option.join_some] at h
    subst h
    have hi : i < st.objs.length := by rw [hI.len]; exact (List.getElem?_eq_some_iff.1 ha).1
    have ho : st.objs[i]? = some st.objs[i] := List.getElem?_eq_getElem hi
    have hok := hI.ok i _ _ ho ha
    cases hr : st.objs[i] with
    | none => rw [hr] at hok; exact absurd hok (by simp [ObjOK])
    | some r =>
      rw [hr] at ho hok
      exact ⟨r, by simp [obj, ho], ho, hok, rfl⟩

theorem small_at {A : Texts} (h : Small A = true) {i : Nat} {l : List Byte}
    (hl : A[i]? = some (some l)) : l.length < 2 ^ 30 := by
  have := List.all_eq_true.1 h _ (List.mem_of_getElem? hl)
  simpa using this

theorem step_inv {st : St} {A A' : Texts} {op : Op} (hI : Inv st A)
    (hs : absStep A op = some A') (hsm : Small A' = true) :
    ∃ st', step st op = some st' ∧ Inv st' A' := by
  have hmax : 2 ^ 30 < intMax := by decide
  have push_lt : ∀ (B : Texts) (l : List Byte), Small (B ++ [some l]) = true → l.length < intMax := by
    intro B l h
    have := small_at (i := B.length) (l := l) h (by simp)
    omega
  have set_lt : ∀ (i : Nat) (l : List Byte), i < A.length → Small (A.set i (some l)) = true →
      l.length < 2 ^ 30 := by
    intro i l hi h
    exact small_at (i := i) h (List.getElem?_set_self hi)
  have zeroFrame : Frame st.heap none st.heap ((some Rep.zero).bind Rep.owned) :=
    Frame.refl _ _
  cases op with
  | mkEmpty =>
    simp only [absStep, Option.some.injEq] at hs
    subst hs
    exact ⟨_, rfl, inv_push hI zeroFrame (a' := some []) (repOK_zero st.heap)⟩
  | ofText l =>
    simp only [absStep, Option.some.injEq] at hs
    subst hs
    obtain ⟨h', r, h1, h2, h3, -⟩ := init_spec st.heap l (push_lt _ _ hsm)
    exact ⟨⟨h', st.objs ++ [some r]⟩, by simp [step, h1], inv_push hI h3 h2⟩
  | copy i =>
    simp only [absStep, Option.map_eq_some_iff] at hs
    obtain ⟨l, hl, rfl⟩ := hs
    obtain ⟨r, h1, h2, h3, -⟩ := inv_text hI hl
    cases r with
    | short d n =>
      refine ⟨⟨st.heap, st.objs ++ [some (.short d n)]⟩, by simp [step, h1, copyCtor], ?_⟩
      exact inv_push hI (Frame.refl _ _) h3
    | long p cap n =>
      obtain ⟨h', r', k1, k2, k3, -⟩ := init_spec st.heap l (push_lt _ _ hsm)
      refine ⟨⟨h', st.objs ++ [some r']⟩, ?_, inv_push hI k3 k2⟩
      have hc : contents st.heap (.long p cap n) = some l := h3.contents
      have : copyCtor st.heap (.long p cap n) = some (h', r') := by
        simp only [contents, dataBuf, Rep.size, Option.bind_eq_bind] at hc
        cases hb : block st.heap p with
        | none => simp [hb] at hc
        | some b =>
          rw [hb] at hc; simp only [Option.bind_some] at hc
          simp [copyCtor, hb, hc, k1]
      simp [step, h1, this]
  | move i =>
    simp only [absStep, Option.map_eq_some_iff] at hs
    obtain ⟨l, hl, rfl⟩ := hs
    obtain ⟨r, h1, h2, h3, h4⟩ := inv_text hI hl
    refine ⟨⟨st.heap, st.objs.set i (some .zero) ++ [some r]⟩, by simp [step, h1], ?_⟩
    have hi := (List.getElem?_eq_some_iff.1 h2).1
    have hiA := (List.getElem?_eq_some_iff.1 h4).1
    have k := inv_push hI (o' := some .zero) (a' := some []) zeroFrame (repOK_zero st.heap)
    have k2 := inv_swap k (i := i) (j := st.objs.length) (o := some r) (o' := some .zero)
      (a := some l) (a' := some []) (by rw [List.getElem?_append_left hi]; exact h2) (by simp)
      (by rw [List.getElem?_append_left hiA]; exact h4) (by rw [hI.len]; simp)
    simp only at k2
    rw [List.set_append_left _ _ hi, List.set_append_right _ _ (by simp),
      List.set_append_left _ _ hiA, List.set_append_right _ _ (by rw [hI.len]; simp)] at k2
    simpa [hI.len] using k2
  | substr i pos count =>
    simp only [absStep] at hs
    cases hl : text A i with
    | none => simp [hl] at hs
    | some l =>
      rw [hl] at hs
      simp only [Option.bind_some] at hs
      by_cases hpos : pos ≤ l.length
      · rw [if_pos hpos] at hs
        simp only [Option.some.injEq] at hs
        subst hs
        obtain ⟨r, h1, h2, h3, h4⟩ := inv_text hI hl
        obtain ⟨h', r', k1, k2, k3, -⟩ := init_spec st.heap _ (push_lt _ _ hsm)
        refine ⟨⟨h', st.objs ++ [some r']⟩, ?_, inv_push hI k3 k2⟩
        obtain ⟨t, ht⟩ := h3.dataBuf
        have hrd := rdBytes_text l (some 0 :: t) pos (min count (l.length - pos)) (by omega)
        have e : (l.drop pos).take (min count (l.length - pos)) = (l.drop pos).take count := by
          rw [List.take_eq_take_iff]; simp
        rw [e] at hrd
        have : substr st.heap r pos count = some (h', r') := by
          simp only [substr, h3.size, hpos, if_true, ht, Option.bind_eq_bind, Option.bind_some, hrd,
            k1]
        simp [step, h1, this]
      · simp [hpos] at hs
  | assignText i l =>
    simp only [absStep, Option.map_eq_some_iff] at hs
    obtain ⟨l0, hl, rfl⟩ := hs
    obtain ⟨r, h1, h2, h3, h4⟩ := inv_text hI hl
    have hlt := set_lt i l (List.getElem?_eq_some_iff.1 h4).1 hsm
    obtain ⟨h', r', k1, k2, k3⟩ := assign_spec st.heap r l0 l h3 (by omega)
    exact ⟨⟨h', st.objs.set i (some r')⟩, by simp [step, h1, k1], inv_set hI h2 k3 k2⟩
  | assignCopy i j =>
    simp only [absStep] at hs
    cases hl : text A i with
    | none => simp [hl] at hs
    | some l0 =>
      rw [hl] at hs
      simp only [Option.bind_some, Option.map_eq_some_iff] at hs
      obtain ⟨l, hlj, rfl⟩ := hs
      obtain ⟨r, h1, h2, h3, h4⟩ := inv_text hI hl
      obtain ⟨s, g1, g2, g3, g4⟩ := inv_text hI hlj
      by_cases hij : i = j
      · subst hij
        refine ⟨st, by simp [step, h1], ?_⟩
        have : A.set i (some l) = A := by
          apply List.ext_getElem?
          intro k
          by_cases hk : i = k
          · subst hk; rw [List.getElem?_set_self (List.getElem?_eq_some_iff.1 h4).1, g4]
          · rw [List.getElem?_set_ne hk]
        rw [this]; exact hI
      · have hlt := set_lt i l (List.getElem?_eq_some_iff.1 h4).1 hsm
        obtain ⟨h', r', k1, k2, k3⟩ := assign_spec st.heap r l0 l h3 (by omega)
        refine ⟨⟨h', st.objs.set i (some r')⟩, ?_, inv_set hI h2 k3 k2⟩
        simp [step, h1, g1, hij, g3.contents, k1]
  | assignMove i j =>
    simp only [absStep] at hs
    cases hl : text A i with
    | none => simp [hl] at hs
    | some l0 =>
      rw [hl] at hs
      simp only [Option.bind_some, Option.map_eq_some_iff] at hs
      obtain ⟨l, hlj, hA⟩ := hs
      obtain ⟨r, h1, h2, h3, h4⟩ := inv_text hI hl
      obtain ⟨s, g1, g2, g3, g4⟩ := inv_text hI hlj
      by_cases hij : i = j
      · rw [if_pos hij] at hA
        subst hA
        exact ⟨st, by simp [step, h1, g1, hij], hI⟩
      · rw [if_neg hij] at hA
        subst hA
        have hfree : ∃ h', (match r with
            | .long p _ _ => free st.heap p
            | .short .. => some st.heap) = some h' ∧
            Frame st.heap ((some r).bind Rep.owned) h' ((some Rep.zero).bind Rep.owned) := by
          cases r with
          | short d n => exact ⟨_, rfl, Frame.refl _ _⟩
          | long p cap n =>
            obtain ⟨-, -, -, t, k4, -⟩ := h3
            exact ⟨_, free_of k4, Frame.free _ _ (List.getElem?_eq_some_iff.1 k4).1⟩
        obtain ⟨h', k1, k2⟩ := hfree
        have k3 := inv_set hI h2 (a' := some []) k2 (repOK_zero h')
        have hi := (List.getElem?_eq_some_iff.1 h2).1
        have hiA := (List.getElem?_eq_some_iff.1 h4).1
        have k4 := inv_swap k3 (i := i) (j := j) (o := some .zero) (o' := some s) (a := some [])
          (a' := some l) (List.getElem?_set_self hi)
          (by simp only; rw [List.getElem?_set_ne hij]; exact g2) (List.getElem?_set_self hiA)
          (by rw [List.getElem?_set_ne hij]; exact g4)
        simp only [List.set_set] at k4
        refine ⟨_, ?_, k4⟩
        simp only [step, h1, g1, Option.bind_eq_bind, Option.bind_some, hij, if_false]
        cases r with
        | short d n => simp only at k1 ⊢; cases k1; rfl
        | long p cap n => simp only at k1 ⊢; rw [k1]; rfl
  | appendText i t =>
    simp only [absStep, Option.map_eq_some_iff] at hs
    obtain ⟨l, hl, rfl⟩ := hs
    obtain ⟨r, h1, h2, h3, h4⟩ := inv_text hI hl
    have hlt := set_lt i (l ++ t) (List.getElem?_eq_some_iff.1 h4).1 hsm
    obtain ⟨h', r', k1, k2, k3⟩ := append_spec st.heap r l t (.ext t) h3 rfl (by simpa using hlt)
      (by intro _ _ _ _ h; cases h) (by intro _ _ _ h; cases h)
    exact ⟨⟨h', st.objs.set i (some r')⟩, by simp [step, h1, k1], inv_set hI h2 k3 k2⟩
  | appendStr i j =>
    simp only [absStep] at hs
    cases hl : text A i with
    | none => simp [hl] at hs
    | some l =>
      rw [hl] at hs
      simp only [Option.bind_some, Option.map_eq_some_iff] at hs
      obtain ⟨t, hlj, rfl⟩ := hs
      obtain ⟨r, h1, h2, h3, h4⟩ := inv_text hI hl
      obtain ⟨s, g1, g2, g3, g4⟩ := inv_text hI hlj
      have hlt := set_lt i (l ++ t) (List.getElem?_eq_some_iff.1 h4).1 hsm
      -- if both are the same object the lengths agree
      have hsame : i = j → t = l := by
        rintro rfl; rw [hl] at hlj; exact (Option.some.inj hlj).symm
      have hsrc : ∃ src, srcOf i j s = some src ∧ SrcOK st.heap r src t ∧
          (∀ p cap n, r = .long p cap n → src = .heap p → t.length ≤ l.length) ∧
          (∀ d n, r = .short d n → src = .inline → t.length ≤ l.length) := by
        cases s with
        | long p cap n =>
          obtain ⟨-, -, -, u, k4, -⟩ := g3
          refine ⟨.heap p, rfl, ⟨_, k4⟩, ?_, (by intro _ _ _ h; cases h)⟩
          intro p' cap' n' hr hp
          cases hp
          have : i = j := hI.inj i j p (by rw [owner_of h2, hr]; rfl) (by rw [owner_of g2]; rfl)
          rw [hsame this]
        | short d n =>
          obtain ⟨k1, k2, u, k3⟩ := g3
          by_cases hij : i = j
          · refine ⟨.inline, by simp [srcOf, hij], ?_, (by intro _ _ _ _ h; cases h),
              fun _ _ _ _ => by rw [hsame hij]⟩
            have : r = .short d n := by
              subst hij; rw [h1] at g1; exact Option.some.inj g1
            exact ⟨d, n, _, this, k3⟩
          · refine ⟨.ext t, ?_, rfl, (by intro _ _ _ _ h; cases h), (by intro _ _ _ h; cases h)⟩
            simp [srcOf, hij, k2, k3, rdBytes_all]
      obtain ⟨src, e1, e2, e3, e4⟩ := hsrc
      obtain ⟨h', r', k1, k2, k3⟩ := append_spec st.heap r l t src h3 e2 (by simpa using hlt) e3 e4
      refine ⟨⟨h', st.objs.set i (some r')⟩, ?_, inv_set hI h2 k3 k2⟩
      simp [step, h1, g1, e1, g3.size, k1]
  | destroy i =>
    simp only [absStep, Option.map_eq_some_iff] at hs
    obtain ⟨l, hl, rfl⟩ := hs
    obtain ⟨r, h1, h2, h3, h4⟩ := inv_text hI hl
    have hfree : ∃ h', dtor st.heap r = some h' ∧
        Frame st.heap ((some r).bind Rep.owned) h' ((none : Option Rep).bind Rep.owned) := by
      cases r with
      | short d n => exact ⟨_, rfl, Frame.refl _ _⟩
      | long p cap n =>
        obtain ⟨-, -, -, t, k4, -⟩ := h3
        exact ⟨_, free_of k4, Frame.free _ _ (List.getElem?_eq_some_iff.1 k4).1⟩
    obtain ⟨h', k1, k2⟩ := hfree
    refine ⟨⟨h', st.objs.set i none⟩, by simp [step, h1, k1], inv_set hI h2 k2 trivial⟩

theorem run_inv (ops : List Op) : ∀ (st : St) (A A' : Texts), Inv st A →
    absRun A ops = some A' → ∃ st', ops.foldlM step st = some st' ∧ Inv st' A' := by
  induction ops with
  | nil =>
    intro st A A' hI h
    simp only [absRun, List.foldlM_nil] at h
    cases h
    exact ⟨st, rfl, hI⟩
  | cons op ops ih =>
    intro st A A' hI h
    simp only [absRun, List.foldlM_cons] at h
    cases hs : absStep A op with
    | none => simp [hs] at h
    | some A1 =>
      rw [hs] at h
      simp only [Option.bind_some] at h
      by_cases hsm : Small A1 = true
      · rw [if_pos hsm] at h
        obtain ⟨st1, h1, h2⟩ := step_inv hI hs hsm
        obtain ⟨st2, h3, h4⟩ := ih st1 A1 A' h2 h
        refine ⟨st2, ?_, h4⟩
        rw [List.foldlM_cons, h1]; exact h3
      · simp [hsm] at h

theorem inv_init : Inv ⟨[], []⟩ [] where
  len := rfl
  ok := by intro i o a h; simp at h
  inj := by intro i j p h; simp [owner] at h
  noLeak := by intro p b h; simp at h

/-- C04: after every history that keeps the preconditions and all texts below `2^30` characters,
no operation has had undefined behaviour, the same strings are alive, and every one of them shows
exactly the abstract text: size, characters, terminator, a capacity of at least the size; texts
of 23 or more characters are on the heap. -/
theorem C04_history (ops : List Op) (A : Texts) (h : absRun [] ops = some A) :
    ∃ st, run ops = some st ∧ st.objs.length = A.length ∧
      (∀ i, (obj st i).isSome ↔ (text A i).isSome) ∧
      ∀ i r l, obj st i = some r → text A i = some l → Observes st.heap r l := by
  obtain ⟨st, h1, h2⟩ := run_inv ops ⟨[], []⟩ [] A inv_init h
  refine ⟨st, h1, h2.len, ?_, ?_⟩
  · intro i
    constructor
    · intro hi
      cases ho : st.objs[i]? with
      | none => simp [obj, ho] at hi
      | some o =>
        cases o with
        | none => simp [obj, ho] at hi
        | some r =>
          have hiA : i < A.length := by rw [← h2.len]; exact (List.getElem?_eq_some_iff.1 ho).1
          have hok := h2.ok i _ A[i] ho (List.getElem?_eq_getElem hiA)
          cases ha : A[i] with
          | none => rw [ha] at hok; exact absurd hok (by simp [ObjOK])
          | some l => simp [text, hiA, ha]
    · intro hi
      obtain ⟨l, hl⟩ := Option.isSome_iff_exists.1 hi
      obtain ⟨r, k1, -⟩ := inv_text h2 hl
      simp [k1]
  · intro i r l hr hl
    obtain ⟨r', k1, -, k3, -⟩ := inv_text h2 hl
    rw [k1] at hr
    cases hr
    exact k3.observes

/-- C04: a freshly constructed string is stored inline exactly when it is shorter than 23
characters, and constructing never fails below `INT32_MAX` characters. -/
theorem C04_inline (h : Heap) (l : List Byte) (hl : l.length < 2 ^ 31 - 1) :
    ∃ h' r, init h l = some (h', r) ∧ Observes h' r l ∧ (r.isLong = false ↔ l.length < 23) := by
  obtain ⟨h', r, h1, h2, -, h4⟩ := init_spec h l hl
  refine ⟨h', r, h1, h2.observes, ?_⟩
  cases hr : r.isLong
  · simp [hr] at h4 ⊢; omega
  · simp [hr] at h4 ⊢; omega

/-- C05: after every such history, each allocated block belongs to exactly one live string, each
heap string owns an allocated block; so nothing is leaked, shared or freed twice (a double free or
a free of an inline buffer would make `run` fail). -/
theorem C05_ownership (ops : List Op) (A : Texts) (h : absRun [] ops = some A) :
    ∃ st, run ops = some st ∧
      (∀ (p : Nat) (b : Buf), st.heap[p]? = some (some b) →
        ∃ i, ((obj st i).bind Rep.owned = some p) ∧
          ∀ j, (obj st j).bind Rep.owned = some p → j = i) ∧
      (∀ i p, (obj st i).bind Rep.owned = some p → ∃ b, st.heap[p]? = some (some b)) := by
  obtain ⟨st, h1, h2⟩ := run_inv ops ⟨[], []⟩ [] A inv_init h
  have e : ∀ i, (obj st i).bind Rep.owned = owner st.objs i := by
    intro i
    unfold obj owner
    rcases st.objs[i]? with _ | _ | r <;> rfl
  refine ⟨st, h1, ?_, ?_⟩
  · intro p b hb
    obtain ⟨i, hi⟩ := h2.noLeak p b hb
    exact ⟨i, by rw [e, hi], fun j hj => h2.inj j i p (by rw [← e, hj]) hi⟩
  · intro i p hi
    exact (inv_owner_lt h2 (by rw [← e]; exact hi)).2

/-- C05: when all strings have been destroyed, no block remains allocated. -/
theorem C05_no_leak (ops : List Op) (A : Texts) (h : absRun [] ops = some A)
    (hdead : ∀ i l, text A i ≠ some l) :
    ∃ st, run ops = some st ∧ ∀ (p : Nat) (b : Buf), st.heap[p]? ≠ some (some b) := by
  obtain ⟨st, h1, h2⟩ := run_inv ops ⟨[], []⟩ [] A inv_init h
  refine ⟨st, h1, ?_⟩
  intro p b hb
  obtain ⟨i, hi⟩ := h2.noLeak p b hb
  unfold owner at hi
  cases ho : st.objs[i]? with
  | none => simp [ho] at hi
  | some o =>
    cases o with
    | none => simp [ho] at hi
    | some r =>
      have hiA : i < A.length := by rw [← h2.len]; exact (List.getElem?_eq_some_iff.1 ho).1
      have hok := h2.ok i _ A[i] ho (List.getElem?_eq_getElem hiA)
      cases ha : A[i] with
      | none => rw [ha] at hok; exact absurd hok (by simp [ObjOK])
      | some l => exact hdead i l (by simp [text, hiA, ha])

/-- A history crossing the 22/23 boundary, with copies, moves, self-append and destruction. -/
def demo : List Op :=
  [.ofText (List.replicate 22 65), .appendText 0 [66], .copy 0, .appendStr 0 0, .move 0,
   .assignCopy 1 2, .assignMove 2 1, .substr 2 3 5, .assignText 2 [67],
   .destroy 0, .destroy 1, .destroy 2, .destroy 3]

example : (absRun [] (demo.take 9)).map (·.map (·.map List.length)) =
    some [some 0, some 0, some 1, some 5] := by decide

example : (absRun [] demo) = some [none, none, none, none] := by decide

example : ((run demo).map fun st => st.heap.map Option.isSome) =
    some [false, false, false, false] := by decide

end Verif.Str
