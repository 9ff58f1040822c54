import Verif.Model.Algorithm
import Mathlib.Data.List.Perm.Basic
import Mathlib.Data.List.Induction
import Mathlib.Data.List.GetD
import Mathlib.Tactic.Ring
import Mathlib.Logic.Function.Iterate
import Mathlib.Data.Fintype.Card
import Mathlib.Data.Fintype.Basic
import Mathlib.Tactic.Linarith

/-! Helper lemmas for sorting and permutations. -/

namespace Verif

theorem rd_append_right {α : Type} (p : List (Option α)) (x : α) (r : List (Option α)) :
    rd (p ++ some x :: r) p.length = some x := by
  simp [rd]

theorem wr_append {α : Type} (p : List (Option α)) (x v : Option α) (r : List (Option α)) :
    wr (p ++ x :: r) p.length v = some (p ++ v :: r) := by
  simp [wr]

theorem mv_append {α : Type} (p : List (Option α)) (x : α) (r : List (Option α)) :
    mv (p ++ some x :: r) p.length = some (x, p ++ none :: r) := by
  simp [mv, rd_append_right, wr_append]

namespace StrictWeak

variable {α : Type} {lt : α → α → Bool}

theorem irrefl (h : StrictWeak lt) (a : α) : lt a a = false := by
  by_contra c
  have c' : lt a a = true := by simpa using c
  rw [h.asymm a a c'] at c'
  exact absurd c' (by simp)

theorem trans (h : StrictWeak lt) {a b c : α} (h1 : lt a b = true) (h2 : lt b c = true) :
    lt a c = true := by
  by_contra n
  have n' : lt a c = false := by simpa using n
  have := h.negTrans a c b n' (h.asymm _ _ h2)
  rw [h1] at this
  exact absurd this (by simp)

end StrictWeak

namespace Alg

variable {α : Type}

/-- Ascending: no later element is less than an earlier one. -/
abbrev Asc (lt : α → α → Bool) (l : List α) : Prop := l.Pairwise fun a b => lt b a = false

/-- What the inner loop does: it shifts the maximal tail of elements greater than `t`. -/
theorem insertLoop_spec (lt : α → α → Bool) (t : α) (q : List α) (x : α) (rest : List (Option α))
    (hx : lt t x = true) :
    ∃ q1 q2, q ++ [x] = q1 ++ q2 ∧ (∀ y ∈ q2, lt t y = true) ∧ q2 ≠ [] ∧
      (∀ y, q1.getLast? = some y → lt t y = false) ∧
      insertLoop lt t (q.map some ++ some x :: none :: rest) q.length =
        some (q1.map some ++ none :: (q2.map some ++ rest), q1.length) := by
  induction q using List.reverseRecOn generalizing x rest with
  | nil =>
    refine ⟨[], [x], rfl, by simpa using hx, by simp, by simp, ?_⟩
    simp [insertLoop, mv, rd, wr]
  | append_singleton q z ih =>
    have e1 : (q ++ [z]).map some ++ some x :: none :: rest
        = (q ++ [z]).map some ++ (some x :: none :: rest) := rfl
    have m1 : mv ((q ++ [z]).map some ++ some x :: none :: rest) (q.length + 1)
        = some (x, (q ++ [z]).map some ++ none :: none :: rest) := by
      have := mv_append ((q ++ [z]).map some) x (none :: rest)
      simpa using this
    have w1 : wr ((q ++ [z]).map some ++ none :: none :: rest) (q.length + 2) (some x)
        = some ((q ++ [z]).map some ++ none :: some x :: rest) := by
      have := wr_append ((q ++ [z]).map some ++ [none]) none (some x) rest
      simpa using this
    have r1 : rd ((q ++ [z]).map some ++ none :: some x :: rest) q.length = some z := by
      have := rd_append_right (q.map some) z (none :: some x :: rest)
      simpa using this
    have step : insertLoop lt t ((q ++ [z]).map some ++ some x :: none :: rest) (q ++ [z]).length
        = if lt t z then insertLoop lt t ((q ++ [z]).map some ++ none :: some x :: rest) q.length
          else some ((q ++ [z]).map some ++ none :: some x :: rest, q.length + 1) := by
      rw [List.length_append, List.length_singleton, insertLoop, m1]
      simp only [Option.bind_eq_bind, Option.bind_some, w1, r1]
      rfl
    rw [step]
    by_cases hz : lt t z = true
    · obtain ⟨q1, q2, h1, h2, h3, h4, h5⟩ := ih z (some x :: rest) hz
      refine ⟨q1, q2 ++ [x], ?_, ?_, by simp, h4, ?_⟩
      · rw [h1]; simp
      · intro y hy
        rcases List.mem_append.1 hy with h | h
        · exact h2 y h
        · simp at h; subst h; exact hx
      · rw [if_pos hz]
        have : (q ++ [z]).map some ++ none :: some x :: rest
            = q.map some ++ some z :: none :: (some x :: rest) := by simp
        rw [this, h5]; simp
    · have hz' : lt t z = false := by simpa using hz
      refine ⟨q ++ [z], [x], by simp, by simpa using hx, by simp, ?_, ?_⟩
      · intro y hy; simp at hy; subst hy; exact hz'
      · rw [if_neg (by simp [hz'])]; simp

/-- One outer step turns a sorted prefix of length `i` into one of length `i+1`. -/
theorem insertStep_spec {lt : α → α → Bool} (hw : StrictWeak lt) (p : List α) (t : α)
    (rest : List α) (hp : p ≠ []) (hs : Asc lt p) :
    ∃ p', p'.Perm (p ++ [t]) ∧ Asc lt p' ∧
      insertStep lt ((p ++ t :: rest).map some) p.length = some ((p' ++ rest).map some) := by
  obtain ⟨q, x, rfl⟩ : ∃ q x, p = q ++ [x] := by
    rcases List.eq_nil_or_concat p with h | ⟨q, x, h⟩
    · exact absurd h hp
    · exact ⟨q, x, by simpa using h⟩
  have r1 : rd ((q ++ [x] ++ t :: rest).map some) (q ++ [x]).length = some t := by
    have := rd_append_right ((q ++ [x]).map some) t (rest.map some)
    simpa using this
  have r2 : rd ((q ++ [x] ++ t :: rest).map some) ((q ++ [x]).length - 1) = some x := by
    have := rd_append_right (q.map some) x (some t :: rest.map some)
    simpa using this
  have m1 : mv ((q ++ [x] ++ t :: rest).map some) (q ++ [x]).length
      = some (t, q.map some ++ some x :: none :: rest.map some) := by
    have := mv_append ((q ++ [x]).map some) t (rest.map some)
    simpa using this
  unfold insertStep
  simp only [r1, r2, Option.bind_eq_bind, Option.bind_some]
  by_cases hx : lt t x = true
  · rw [if_pos hx, m1]
    obtain ⟨q1, q2, h1, h2, h3, h4, h5⟩ := insertLoop_spec lt t q x (rest.map some) hx
    refine ⟨q1 ++ t :: q2, ?_, ?_, ?_⟩
    · rw [h1]
      calc q1 ++ t :: q2 = q1 ++ ([t] ++ q2) := by simp
        _ |>.Perm (q1 ++ (q2 ++ [t])) := (List.perm_append_comm).append_left q1
        _ = q1 ++ q2 ++ [t] := by simp
    · rw [h1] at hs
      have hs' := List.pairwise_append.1 hs
      refine List.pairwise_append.2 ⟨hs'.1, ?_, ?_⟩
      · refine List.pairwise_cons.2 ⟨fun y hy => hw.asymm _ _ (h2 y hy), hs'.2.1⟩
      · intro a ha b hb
        rcases List.mem_cons.1 hb with rfl | hb
        · -- a is at or before the last element of q1, which is not greater than t
          rcases List.eq_nil_or_concat q1 with h | ⟨q1', y, h⟩
          · subst h; simp at ha
          · have h' : q1 = q1' ++ [y] := by simpa using h
            subst h'
            have ly : lt b y = false := h4 y (by simp)
            rcases List.mem_append.1 ha with ha | ha
            · have := (List.pairwise_append.1 hs'.1).2.2 a ha y (by simp)
              exact hw.negTrans _ _ _ ly this
            · simp at ha; subst ha; exact ly
        · exact hs'.2.2 a ha b hb
    · have e : (q ++ [x]).length - 1 = q.length := by simp
      simp only [Option.bind_some, e, h5]
      have := wr_append (q1.map some) none (some t) (q2.map some ++ rest.map some)
      simp only [List.length_map] at this
      rw [this]; simp
  · have hx' : lt t x = false := by simpa using hx
    rw [if_neg hx]
    refine ⟨q ++ [x] ++ [t], List.Perm.refl _, ?_, by simp⟩
    refine List.pairwise_append.2 ⟨hs, by simp, ?_⟩
    intro a ha b hb
    simp only [List.mem_singleton] at hb
    subst hb
    rcases List.mem_append.1 ha with ha | ha
    · exact hw.negTrans _ _ _ hx' ((List.pairwise_append.1 hs).2.2 a ha x (by simp))
    · simp at ha; subst ha; exact hx'

theorem insertFold_spec {lt : α → α → Bool} (hw : StrictWeak lt) (rest : List α) :
    ∀ (p : List α), p ≠ [] → Asc lt p →
    ∃ out, out.Perm (p ++ rest) ∧ Asc lt out ∧
      (List.range' p.length rest.length).foldlM (insertStep lt) ((p ++ rest).map some)
        = some (out.map some) := by
  induction rest with
  | nil =>
    intro p _ hs
    exact ⟨p, by simp, hs, by simp⟩
  | cons t rest ih =>
    intro p hp hs
    obtain ⟨p', h1, h2, h3⟩ := insertStep_spec hw p t rest hp hs
    have hl : p'.length = p.length + 1 := by simpa using h1.length_eq
    have hp' : p' ≠ [] := by intro h; simp [h] at hl
    obtain ⟨out, o1, o2, o3⟩ := ih p' hp' h2
    refine ⟨out, ?_, o2, ?_⟩
    · exact o1.trans (by simpa using h1.append_right rest)
    · rw [List.length_cons, List.range'_succ, List.foldlM_cons, h3]
      simpa [hl] using o3

/-! `applyPermutation` -/

/-- The permutation as a function, the identity outside the list. -/
def pf (perm : List Nat) (k : Nat) : Nat := perm.getD k k

variable {perm : List Nat} {n : Nat}

theorem pf_of_lt {k : Nat} (hk : k < perm.length) : perm[k]? = some (pf perm k) := by
  simp [pf, hk]

theorem pf_lt (hp : perm.Perm (List.range n)) {k : Nat} (hk : k < n) : pf perm k < n := by
  have hl : perm.length = n := by simpa using hp.length_eq
  have : pf perm k ∈ perm := by
    simp only [pf]
    rw [List.getD_eq_getElem _ _ (by omega)]
    exact List.getElem_mem _
  simpa using hp.mem_iff.1 this

theorem pf_inj (hp : perm.Perm (List.range n)) : Function.Injective (pf perm) := by
  have hl : perm.length = n := by simpa using hp.length_eq
  have hn : perm.Nodup := hp.nodup_iff.2 List.nodup_range
  intro a b h
  by_cases ha : a < n <;> by_cases hb : b < n
  · simp only [pf] at h
    rw [List.getD_eq_getElem _ _ (by omega), List.getD_eq_getElem _ _ (by omega)] at h
    exact (List.Nodup.getElem_inj_iff hn).1 h
  · have h1 := pf_lt hp ha
    rw [h] at h1
    simp only [pf] at h1
    rw [List.getD_eq_default _ _ (by omega)] at h1
    omega
  · have h1 := pf_lt hp hb
    rw [← h] at h1
    simp only [pf] at h1
    rw [List.getD_eq_default _ _ (by omega)] at h1
    omega
  · simp only [pf] at h
    rwa [List.getD_eq_default _ _ (by omega), List.getD_eq_default _ _ (by omega)] at h

theorem iter_lt (hp : perm.Perm (List.range n)) {k : Nat} (hk : k < n) (s : Nat) :
    (pf perm)^[s] k < n := by
  induction s generalizing k with
  | zero => simpa
  | succ s ih => rw [Function.iterate_succ_apply]; exact ih (pf_lt hp hk)

theorem chase_eq (i : Nat) (hi : i ≤ perm.length) (s : Nat) :
    ∀ (fuel m : Nat), (∀ t < s, (pf perm)^[t] m < i) → i ≤ (pf perm)^[s] m → s < fuel →
      chase perm i fuel m = some ((pf perm)^[s] m) := by
  induction s with
  | zero =>
    intro fuel m _ h hf
    obtain ⟨f, rfl⟩ : ∃ f, fuel = f + 1 := ⟨fuel - 1, by omega⟩
    have : ¬ m < i := by simpa using h
    simp [chase, this]
  | succ s ih =>
    intro fuel m h1 h2 hf
    obtain ⟨f, rfl⟩ : ∃ f, fuel = f + 1 := ⟨fuel - 1, by omega⟩
    have hm : m < i := by simpa using h1 0 (by omega)
    rw [chase, if_pos hm, pf_of_lt (by omega)]
    simp only [Option.bind_eq_bind, Option.bind_some]
    rw [ih f (pf perm m) _ _ (by omega), Function.iterate_succ_apply]
    · intro t ht
      have := h1 (t + 1) (by omega)
      rwa [Function.iterate_succ_apply] at this
    · rwa [Function.iterate_succ_apply] at h2

theorem chase_exists (hp : perm.Perm (List.range n)) (i m : Nat)
    (hm : ∀ k < i, pf perm k ≠ m) :
    ∃ s ≤ i, (∀ t < s, (pf perm)^[t] m < i) ∧ i ≤ (pf perm)^[s] m := by
  by_contra hcon
  push Not at hcon
  have hall : ∀ s ≤ i, (pf perm)^[s] m < i := by
    intro s
    induction s using Nat.strong_induction_on with
    | _ s ih => intro hs; exact hcon s hs fun t ht => ih t ht (by omega)
  have hni : ¬ Function.Injective
      (fun s : Fin (i + 1) => (⟨(pf perm)^[s.1] m, hall s.1 (by omega)⟩ : Fin i)) := by
    intro hinj
    have := Fintype.card_le_of_injective _ hinj
    simp at this
  have key : ∀ s t : Nat, s < t → t ≤ i → (pf perm)^[s] m ≠ (pf perm)^[t] m := by
    intro s t hst ht e
    have e2 : (pf perm)^[s] m = (pf perm)^[s] ((pf perm)^[t - s] m) := by
      rw [← Function.iterate_add_apply, show s + (t - s) = t by omega]; exact e
    have e3 := (pf_inj hp).iterate s e2
    rw [show t - s = (t - s - 1) + 1 by omega, Function.iterate_succ_apply'] at e3
    exact hm _ (hall (t - s - 1) (by omega)) e3.symm
  apply hni
  intro a b hab
  have hab' : (pf perm)^[a.1] m = (pf perm)^[b.1] m := by simpa using hab
  rcases lt_trichotomy a.1 b.1 with h | h | h
  · exact absurd hab' (key _ _ h (by omega))
  · exact Fin.ext h
  · exact absurd hab'.symm (key _ _ h (by omega))

/-- Loop invariant of `applyPermutation` before iteration `i`. -/
structure ApplyInv (perm : List Nat) (v a : List α) (i : Nat) : Prop where
  len : a.length = v.length
  done : ∀ k < i, a[k]? = v[pf perm k]?
  rest : ∀ m < v.length, (∀ k < i, pf perm k ≠ m) → ∀ s, (∀ t < s, (pf perm)^[t] m < i) →
    i ≤ (pf perm)^[s] m → a[(pf perm)^[s] m]? = v[m]?

theorem applyInv_zero (v : List α) : ApplyInv perm v v 0 where
  len := rfl
  done := by intro k hk; omega
  rest := by
    intro m _ _ s hs _
    rcases Nat.eq_zero_or_pos s with rfl | h
    · rfl
    · have := hs 0 h; omega

theorem applyInv_step (v : List α) (hp : perm.Perm (List.range v.length)) (a : List α) (i : Nat)
    (hi : i < v.length) (inv : ApplyInv perm v a i) :
    ∃ a', applyStep perm a i = some a' ∧ ApplyInv perm v a' (i + 1) := by
  have hl : perm.length = v.length := by simpa using hp.length_eq
  have inj := pf_inj hp
  have hun : ∀ k < i, pf perm k ≠ pf perm i := fun k hk e => by have := inj e; omega
  obtain ⟨s0, hs0i, hs0, hs0'⟩ := chase_exists hp i (pf perm i) hun
  have hm0 : pf perm i < v.length := pf_lt hp hi
  have hloc : (pf perm)^[s0] (pf perm i) < v.length := iter_lt hp hm0 s0
  have hchase := chase_eq i (by omega) s0 (a.length + 1) (pf perm i) hs0 hs0' (by
    have := inv.len; omega)
  have hval := inv.rest (pf perm i) hm0 hun s0 hs0 hs0'
  set loc := (pf perm)^[s0] (pf perm i) with hlocdef
  have hla := inv.len
  have gi : a[i]? = some a[i] := by simp
  have gl : a[loc]? = some a[loc] := by simp
  refine ⟨(a.set i a[loc]).set loc a[i], ?_, ?_⟩
  · unfold applyStep swapAt
    rw [pf_of_lt (by omega)]
    simp only [Option.bind_eq_bind, Option.bind_some, hchase, gi, gl]
    rfl
  · have gnew : ∀ k, ((a.set i a[loc]).set loc a[i])[k]? =
        if k = loc then a[i]? else if k = i then a[loc]? else a[k]? := by
      intro k
      by_cases h1 : k = loc
      · subst h1; rw [if_pos rfl, gi, List.getElem?_set_self (by simp; omega)]
      · rw [if_neg h1, List.getElem?_set_ne (fun h => h1 h.symm)]
        by_cases h2 : k = i
        · subst h2; rw [if_pos rfl, gl, List.getElem?_set_self (by omega)]
        · rw [if_neg h2, List.getElem?_set_ne (fun h => h2 h.symm)]
    constructor
    · simp [hla]
    · intro k hk
      rw [gnew]
      by_cases h1 : k = i
      · subst h1
        by_cases h2 : k = loc
        · rw [if_pos h2]; rw [← hval, ← h2]
        · rw [if_neg h2, if_pos rfl]; exact hval
      · rw [if_neg (by omega), if_neg h1]
        exact inv.done k (by omega)
    · intro m hm hunm s hs1 hs2
      have hunm' : ∀ k < i, pf perm k ≠ m := fun k hk => hunm k (by omega)
      have hmi : pf perm i ≠ m := hunm i (by omega)
      rw [gnew]
      by_cases hall : ∀ t < s, (pf perm)^[t] m < i
      · have hne : (pf perm)^[s] m ≠ loc := by
          intro e
          rw [hlocdef] at e
          rcases Nat.lt_or_ge s s0 with hlt | hge
          · have e2 : (pf perm)^[s] m = (pf perm)^[s] ((pf perm)^[s0 - s] (pf perm i)) := by
              rw [← Function.iterate_add_apply, show s + (s0 - s) = s0 by omega]; exact e
            have e3 := inj.iterate s e2
            rw [show s0 - s = (s0 - s - 1) + 1 by omega, Function.iterate_succ_apply'] at e3
            exact hunm' _ (hs0 _ (by omega)) e3.symm
          · have e2 : (pf perm)^[s0] ((pf perm)^[s - s0] m) = (pf perm)^[s0] (pf perm i) := by
              rw [← Function.iterate_add_apply, show s0 + (s - s0) = s by omega]; exact e
            have e3 := inj.iterate s0 e2
            rcases Nat.eq_zero_or_pos (s - s0) with h0 | hpos
            · rw [h0] at e3; exact hmi e3.symm
            · rw [show s - s0 = (s - s0 - 1) + 1 by omega, Function.iterate_succ_apply'] at e3
              have := hall (s - s0 - 1) (by omega)
              have := inj e3
              omega
        rw [if_neg hne, if_neg (by omega)]
        exact inv.rest m hm hunm' s hall (by omega)
      · push Not at hall
        obtain ⟨t0, ⟨ht0, ht0'⟩, hmin⟩ := Nat.find_spec hall |> fun _ =>
          (⟨Nat.find hall, Nat.find_spec hall, fun t h => Nat.find_min hall h⟩ :
            ∃ t0, (t0 < s ∧ i ≤ (pf perm)^[t0] m) ∧
              ∀ t < t0, ¬ (t < s ∧ i ≤ (pf perm)^[t] m))
        have hti : (pf perm)^[t0] m = i := by have := hs1 t0 ht0; omega
        have hbefore : ∀ t < t0, (pf perm)^[t] m < i := by
          intro t ht
          have := hmin t ht
          by_contra c
          exact this ⟨by omega, by omega⟩
        have hai : a[i]? = v[m]? := by
          have := inv.rest m hm hunm' t0 hbefore (by omega)
          rwa [hti] at this
        have shift : ∀ t, (pf perm)^[t] (pf perm i) = (pf perm)^[t + t0 + 1] m := by
          intro t
          rw [show t + t0 + 1 = (t + 1) + t0 by omega, Function.iterate_add_apply, hti,
            Function.iterate_succ_apply]
        have hs1' : (pf perm)^[s] m = (pf perm)^[s - t0 - 1] (pf perm i) := by
          rw [shift, show s - t0 - 1 + t0 + 1 = s by omega]
        have hpre : ∀ t < s - t0 - 1, (pf perm)^[t] (pf perm i) < i := by
          intro t ht
          have h1 := hs1 (t + t0 + 1) (by omega)
          rw [shift]
          by_contra c
          have e : (pf perm)^[t0] ((pf perm)^[t + 1] m) = (pf perm)^[t0] m := by
            rw [← Function.iterate_add_apply, show t0 + (t + 1) = t + t0 + 1 by omega, hti]
            omega
          have e3 := inj.iterate t0 e
          rw [Function.iterate_succ_apply'] at e3
          exact hunm _ (hs1 t (by omega)) e3
        have hEq : s - t0 - 1 = s0 := by
          rcases lt_trichotomy (s - t0 - 1) s0 with h | h | h
          · have := hs0 _ h; rw [← hs1'] at this; omega
          · exact h
          · have := hpre _ h; rw [← hlocdef] at this; omega
        rw [hs1', hEq, ← hlocdef, if_pos rfl]
        exact hai

theorem applyFold (v : List α) (hp : perm.Perm (List.range v.length)) (k : Nat) :
    ∀ (i : Nat) (a : List α), i + k ≤ v.length → ApplyInv perm v a i →
      ∃ a', (List.range' i k).foldlM (applyStep perm) a = some a' ∧ ApplyInv perm v a' (i + k) := by
  induction k with
  | zero => intro i a _ inv; exact ⟨a, by simp, inv⟩
  | succ k ih =>
    intro i a h inv
    obtain ⟨a1, h1, inv1⟩ := applyInv_step v hp a i (by omega) inv
    obtain ⟨a2, h2, inv2⟩ := ih (i + 1) a1 (by omega) inv1
    refine ⟨a2, ?_, ?_⟩
    · rw [List.range'_succ, List.foldlM_cons, h1]; exact h2
    · rwa [show i + (k + 1) = i + 1 + k by omega]

/-! `invertPermutation` -/

theorem invertFold (p : List Nat) (hn : p.Nodup) : ∀ (start : Nat) (inv : List Nat),
    (∀ x ∈ p, x < inv.length) →
    ∃ out, (p.zipIdx start).foldlM
        (fun inv (q : Nat × Nat) => if q.1 < inv.length then some (inv.set q.1 q.2) else none) inv
          = some out ∧ out.length = inv.length ∧
      (∀ i (h : i < p.length), out[p[i]]? = some (start + i)) ∧
      (∀ k, k ∉ p → out[k]? = inv[k]?) := by
  induction p with
  | nil => intro start inv _; exact ⟨inv, by simp⟩
  | cons x p ih =>
    intro start inv hb
    have hx : x < inv.length := hb x (by simp)
    obtain ⟨hxp, hn'⟩ := List.nodup_cons.1 hn
    obtain ⟨out, h1, h2, h3, h4⟩ := ih hn' (start + 1) (inv.set x start) (by
      intro y hy; simpa using hb y (by simp [hy]))
    refine ⟨out, ?_, by simpa using h2, ?_, ?_⟩
    · rw [List.zipIdx_cons, List.foldlM_cons]
      simp only [hx, if_true]
      exact h1
    · intro i hi
      cases i with
      | zero =>
        simp only [List.getElem_cons_zero, Nat.add_zero]
        rw [h4 x hxp]; simp [hx]
      | succ i =>
        simp only [List.getElem_cons_succ]
        rw [h3 i (by simpa using hi)]
        congr 1; omega
    · intro k hk
      simp only [List.mem_cons, not_or] at hk
      rw [h4 k hk.2, List.getElem?_set_ne (fun h => hk.1 h.symm)]

end Alg
end Verif
