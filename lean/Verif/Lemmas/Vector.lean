import Verif.Model.Vector
import Mathlib.Data.List.Induction
import Mathlib.Tactic.Ring
import Mathlib.Tactic.Linarith

/-! Helper lemmas for `um2::Vector`. -/

namespace Verif.Vector

variable {α : Type}

/-- The cell holds an object. -/
def IsObj : Cell α → Prop
  | .raw => False
  | _ => True

theorem construct_append (p : List (Cell α)) (r : List (Cell α)) (c : Cell α) :
    construct (p ++ .raw :: r) p.length c = some (p ++ c :: r) := by
  simp [construct]

theorem destroy_append (p : List (Cell α)) (r : List (Cell α)) (c : Cell α) (hc : IsObj c) :
    destroy (p ++ c :: r) p.length = some (p ++ .raw :: r) := by
  cases c with
  | raw => exact absurd hc (by simp [IsObj])
  | moved => simp [destroy]
  | live v => simp [destroy]

theorem assignAt_append (p : List (Cell α)) (r : List (Cell α)) (c : Cell α) (hc : IsObj c)
    (x : α) : assignAt (p ++ c :: r) p.length x = some (p ++ .live x :: r) := by
  cases c with
  | raw => exact absurd hc (by simp [IsObj])
  | moved => simp [assignAt]
  | live v => simp [assignAt]

theorem constructN_spec (d : α) (n : Nat) : ∀ (p r : List (Cell α)),
    constructN d n ⟨p ++ (List.replicate n .raw ++ r), p.length⟩ =
      some ⟨p ++ (List.replicate n (.live d) ++ r), p.length + n⟩ := by
  induction n with
  | zero => intro p r; simp [constructN]
  | succ n ih =>
    intro p r
    rw [constructN, List.replicate_succ]
    have := construct_append p (List.replicate n .raw ++ r) (.live d)
    simp only [List.cons_append] at *
    rw [this]
    simp only [Option.bind_eq_bind, Option.bind_some]
    have := ih (p ++ [.live d]) r
    simp only [List.append_assoc, List.cons_append, List.nil_append, List.length_append,
      List.length_cons, List.length_nil] at this
    rw [this]
    simp [List.replicate_succ]; omega

theorem constructList_spec (l : List α) : ∀ (p r : List (Cell α)),
    constructList l ⟨p ++ (List.replicate l.length .raw ++ r), p.length⟩ =
      some ⟨p ++ (l.map .live ++ r), p.length + l.length⟩ := by
  induction l with
  | nil => intro p r; simp [constructList]
  | cons x l ih =>
    intro p r
    rw [constructList, List.length_cons, List.replicate_succ]
    have := construct_append p (List.replicate l.length .raw ++ r) (.live x)
    simp only [List.cons_append] at *
    rw [this]
    simp only [Option.bind_eq_bind, Option.bind_some]
    have := ih (p ++ [.live x]) r
    simp only [List.append_assoc, List.cons_append, List.nil_append, List.length_append,
      List.length_cons, List.length_nil] at this
    rw [this]
    simp; omega

theorem destructN_spec (o : List (Cell α)) : ∀ (p r : List (Cell α)), (∀ c ∈ o, IsObj c) →
    destructN o.length ⟨p ++ (o ++ r), p.length + o.length⟩ =
      some ⟨p ++ (List.replicate o.length .raw ++ r), p.length⟩ := by
  induction o using List.reverseRecOn with
  | nil => intro p r _; simp [destructN]
  | append_singleton o c ih =>
    intro p r hc
    have e : p.length + (o ++ [c]).length = (p ++ o).length + 1 := by simp; omega
    have e2 : (o ++ [c]).length = o.length + 1 := by simp
    rw [e, e2, destructN]
    have := destroy_append (p ++ o) r c (hc c (by simp))
    simp only [List.append_assoc, List.cons_append, List.nil_append] at *
    simp only [this, Option.bind_eq_bind, Option.bind_some]
    have := ih p (.raw :: r) (fun c' h' => hc c' (by simp [h']))
    rw [List.length_append, this]
    congr 2
    rw [List.replicate_succ', List.append_assoc]; rfl

theorem moveLoop_spec (triv : Bool) (cs : List (Cell α)) :
    ∀ (i : Nat) (p q ro rn : List (Cell α)), p.length = i → q.length = i → (∀ c ∈ cs, IsObj c) →
    moveLoop triv cs.length i (p ++ (cs ++ ro)) (q ++ (List.replicate cs.length .raw ++ rn)) =
      some (p ++ ((if triv then cs else List.replicate cs.length .moved) ++ ro),
        q ++ (cs ++ rn)) := by
  induction cs with
  | nil => intro i p q ro rn _ _ _; simp [moveLoop]
  | cons c cs ih =>
    intro i p q ro rn hp hq hc
    subst hp
    have hobj := hc c (by simp)
    have key : moveLoop triv (cs.length + 1) p.length (p ++ (c :: cs ++ ro))
        (q ++ (List.replicate (cs.length + 1) .raw ++ rn)) =
        (construct (q ++ (List.replicate (cs.length + 1) .raw ++ rn)) p.length c >>= fun new =>
          moveLoop triv cs.length (p.length + 1)
            (if triv then p ++ (c :: cs ++ ro) else (p ++ (c :: cs ++ ro)).set p.length .moved)
            new) := by
      rw [moveLoop]
      have : (p ++ (c :: cs ++ ro))[p.length]? = some c := by simp
      rw [this]
      cases c with
      | raw => exact absurd hobj (by simp [IsObj])
      | moved => rfl
      | live v => rfl
    rw [List.length_cons, key]
    have hcon := construct_append q (List.replicate cs.length .raw ++ rn) c
    rw [List.replicate_succ, List.cons_append, ← hq, hcon]
    simp only [Option.bind_eq_bind, Option.bind_some, hq]
    set m : Cell α := if triv then c else .moved with hm
    have eold : (if triv then p ++ (c :: cs ++ ro) else (p ++ (c :: cs ++ ro)).set p.length .moved)
        = (p ++ [m]) ++ (cs ++ ro) := by
      cases triv <;> simp [hm]
    have := ih (p.length + 1) (p ++ [m]) (q ++ [c]) ro rn (by simp) (by simp [hq])
      (fun c' h' => hc c' (by simp [h']))
    rw [eold]
    simp only [List.append_assoc, List.cons_append, List.nil_append] at this ⊢
    rw [this]
    cases triv <;> simp [hm, List.replicate_succ]

theorem copyInto_spec (l : List α) : ∀ (i : Nat) (p o r : List (Cell α)), p.length = i →
    o.length = l.length → (∀ c ∈ o, IsObj c) →
    copyInto l i (p ++ (o ++ r)) = some (p ++ (l.map .live ++ r)) := by
  induction l with
  | nil =>
    intro i p o r _ ho _
    have : o = [] := List.eq_nil_of_length_eq_zero (by simpa using ho)
    subst this; simp [copyInto]
  | cons x l ih =>
    intro i p o r hp ho hc
    cases o with
    | nil => simp at ho
    | cons c o =>
      subst hp
      rw [copyInto]
      have := assignAt_append p (o ++ r) c (hc c (by simp)) x
      simp only [List.cons_append] at *
      rw [this]
      simp only [Option.bind_eq_bind, Option.bind_some]
      have := ih (p.length + 1) (p ++ [.live x]) o r (by simp) (by simpa using ho)
        (fun c' h' => hc c' (by simp [h']))
      simp only [List.append_assoc, List.cons_append, List.nil_append] at this
      rw [this]; simp

/-- The vector represents the sequence `l`: exactly the first `size` cells are live and hold
`l`, all others are raw. -/
def Rep (v : Vec α) (l : List α) : Prop :=
  v.size = l.length ∧ v.slots = l.map .live ++ List.replicate (v.capacity - l.length) .raw

theorem Rep.le {v : Vec α} {l : List α} (h : Rep v l) : l.length ≤ v.capacity := by
  have : v.slots.length = _ := congrArg List.length h.2
  simp [Vec.capacity] at *; omega

theorem rep_mk (l : List α) (k : Nat) :
    Rep ⟨l.map .live ++ List.replicate k .raw, l.length⟩ l := by
  refine ⟨rfl, ?_⟩
  simp [Vec.capacity]

theorem Rep.mk' {v : Vec α} {l : List α} (h : Rep v l) :
    ∃ k, v = ⟨l.map .live ++ List.replicate k .raw, l.length⟩ ∧ v.capacity = l.length + k := by
  obtain ⟨s, n⟩ := v
  have := h.le
  refine ⟨Vec.capacity ⟨s, n⟩ - l.length, ?_, by omega⟩
  obtain ⟨h1, h2⟩ := h
  simp only at h1 h2
  subst h1
  rw [← h2]

theorem isObj_live (l : List α) : ∀ c ∈ l.map Cell.live, IsObj c := by
  intro c hc
  simp only [List.mem_map] at hc
  obtain ⟨x, _, rfl⟩ := hc
  trivial

theorem isObj_moved (n : Nat) : ∀ c ∈ List.replicate n (Cell.moved (α := α)), IsObj c := by
  intro c hc
  rw [List.eq_of_mem_replicate hc]; trivial

theorem dtor_objs (o : List (Cell α)) (ho : ∀ c ∈ o, IsObj c) (k : Nat) :
    dtor ⟨o ++ List.replicate k .raw, o.length⟩ = some () := by
  unfold dtor
  have h := destructN_spec o [] (List.replicate k .raw) ho
  simp only [List.nil_append, List.length_nil, Nat.zero_add] at h
  have hc : clear (⟨o ++ List.replicate k .raw, o.length⟩ : Vec α)
      = some ⟨List.replicate o.length .raw ++ List.replicate k .raw, 0⟩ := by
    simp [clear, destructAtEnd, h]
  have hf : free (⟨List.replicate o.length .raw ++ List.replicate k .raw, 0⟩ : Vec α) = some () := by
    simp [free]
  split_ifs
  · rfl
  · rw [hc]; exact hf

theorem rep_dtor {v : Vec α} {l : List α} (h : Rep v l) : dtor v = some () := by
  obtain ⟨k, rfl, -⟩ := h.mk'
  have := dtor_objs (l.map Cell.live) (isObj_live l) k
  simpa using this

/-- Growing into a buffer of at least the same size preserves the sequence, the old buffer can be
destroyed, and the old cells are either intact (trivial types) or moved-from. -/
theorem swapBuffers_spec (triv : Bool) (l : List α) (k n : Nat) (hn : l.length ≤ n) :
    ∃ temp, swapBuffers triv ⟨l.map .live ++ List.replicate k .raw, l.length⟩ (allocate n) =
        some (⟨l.map .live ++ List.replicate (n - l.length) .raw, l.length⟩, temp) ∧
      dtor temp = some () ∧
      temp.slots = (if triv then l.map .live else List.replicate l.length .moved) ++
        List.replicate k .raw := by
  have h := moveLoop_spec triv (l.map Cell.live) 0 [] [] (List.replicate k .raw)
    (List.replicate (n - l.length) .raw) rfl rfl (isObj_live l)
  have hr : List.replicate n (Cell.raw (α := α)) =
      List.replicate l.length .raw ++ List.replicate (n - l.length) .raw := by
    rw [List.replicate_append_replicate]; congr 1; omega
  simp only [List.nil_append, List.length_map] at h
  refine ⟨⟨(if triv then l.map .live else List.replicate l.length .moved) ++
        List.replicate k .raw, l.length⟩, ?_, ?_, rfl⟩
  · unfold swapBuffers allocate
    simp only [hr, h, Option.bind_eq_bind, Option.bind_some]
    rfl
  · cases triv
    · have := dtor_objs (List.replicate l.length (Cell.moved (α := α))) (isObj_moved _) k
      simpa using this
    · have := dtor_objs (l.map Cell.live) (isObj_live l) k
      simpa using this

theorem destructAtEnd_spec (l : List α) (k n : Nat) (hn : n ≤ l.length) :
    destructAtEnd n ⟨l.map .live ++ List.replicate k .raw, l.length⟩ =
      some ⟨(l.take n).map .live ++ List.replicate (l.length - n + k) .raw, n⟩ := by
  have h := destructN_spec ((l.drop n).map Cell.live) ((l.take n).map .live)
    (List.replicate k .raw) (isObj_live _)
  simp only [destructAtEnd, hn, if_true]
  have e : l.map Cell.live = (l.take n).map .live ++ (l.drop n).map .live := by
    rw [← List.map_append, List.take_append_drop]
  simp only [List.length_map, List.length_take, List.length_drop, Nat.min_eq_left hn,
    show n + (l.length - n) = l.length by omega] at h
  rw [e, List.append_assoc, h, ← List.append_assoc, ← List.replicate_append_replicate,
    List.append_assoc]

end Verif.Vector
