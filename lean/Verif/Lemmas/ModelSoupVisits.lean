import Verif.Lemmas.ModelSoup

/-! Helper lemmas for the soup of a model: counting the visits. -/

set_option linter.unusedSectionVars false
set_option linter.unusedVariables false

namespace Verif.ModelSoup

open Verif.Mpact Verif.ModelXdmf Verif.CmfdInfo

section
variable {κ : Type}

/-- How often an object is visited. -/
def times (V : List (κ × Nat)) (id : Nat) : Nat := (V.filter fun w => w.2 == id).length

theorem times_append (V W : List (κ × Nat)) (id : Nat) : times (V ++ W) id = times V id + times W id := by simp [times]

theorem numbered_snoc (V : List (κ × Nat)) (v : κ × Nat) : numbered (V ++ [v]) = numbered V ++ [(v.1, v.2, times V v.2)] := by
  unfold numbered times
  rw [List.zipIdx_append, List.map_append]
  congr 1
  · apply List.map_congr_left
    intro x hx
    have := List.snd_lt_of_mem_zipIdx hx
    rw [List.take_append_of_le_length (by omega)]
  · simp

theorem mem_numbered_append (V W : List (κ × Nat)) (x : κ × Nat × Nat) (h : x ∈ numbered V) : x ∈ numbered (V ++ W) := by
  induction W using List.reverseRecOn with
  | nil => simpa using h
  | append_singleton W w ih => rw [← List.append_assoc, numbered_snoc]; exact List.mem_append_left _ ih

theorem numbered_lt (V : List (κ × Nat)) (o : κ) (id k : Nat) (h : (o, id, k) ∈ numbered V) : k < times V id ∧ (o, id) ∈ V := by
  induction V using List.reverseRecOn with
  | nil => simp [numbered] at h
  | append_singleton V v ih =>
    rw [numbered_snoc, List.mem_append, List.mem_singleton] at h
    rw [times_append]
    rcases h with h | h
    · exact ⟨by have := (ih h).1; omega, List.mem_append_left _ (ih h).2⟩
    · simp only [Prod.mk.injEq] at h
      obtain ⟨h1, h2, h3⟩ := h
      subst h1 h2 h3
      exact ⟨by simp [times], by simp⟩

theorem numbered_of_mem (V : List (κ × Nat)) (v : κ × Nat) (h : v ∈ V) : ∃ k, (v.1, v.2, k) ∈ numbered V := by
  induction V using List.reverseRecOn with
  | nil => simp at h
  | append_singleton V w ih =>
    rw [numbered_snoc]
    rcases List.mem_append.1 h with h | h
    · obtain ⟨k, hk⟩ := ih h
      exact ⟨k, List.mem_append_left _ hk⟩
    · rw [List.mem_singleton] at h
      subst h
      exact ⟨times V v.2, by simp⟩

/-- A visit is determined by the object and the number. -/
theorem numbered_of_lt (V : List (κ × Nat)) (id k : Nat) (h : k < times V id) : ∃ o, (o, id, k) ∈ numbered V := by
  induction V using List.reverseRecOn with
  | nil => simp [times] at h
  | append_singleton V v ih =>
    rw [numbered_snoc]
    rw [times_append] at h
    by_cases hk : k < times V id
    · obtain ⟨o, ho⟩ := ih hk
      exact ⟨o, List.mem_append_left _ ho⟩
    · have hv : v.2 = id := by
        by_contra hne
        have : times [v] id = 0 := by simp [times, hne]
        omega
      have : times [v] id ≤ 1 := by unfold times; exact List.length_filter_le _ _
      refine ⟨v.1, List.mem_append_right _ ?_⟩
      rw [hv, List.mem_singleton]
      have : k = times V id := by omega
      rw [this]

theorem numbered_inj (V : List (κ × Nat)) (o o' : κ) (id k : Nat) (h : (o, id, k) ∈ numbered V) (h' : (o', id, k) ∈ numbered V) :
    o = o' := by
  induction V using List.reverseRecOn with
  | nil => simp [numbered] at h
  | append_singleton V v ih =>
    rw [numbered_snoc, List.mem_append, List.mem_singleton] at h h'
    simp only [Prod.mk.injEq] at h h'
    rcases h with h | ⟨h1, h2, h3⟩
    · rcases h' with h' | ⟨h1', h2', h3'⟩
      · exact ih h h'
      · have := (numbered_lt V o id k h).1
        rw [← h2'] at h3'
        omega
    · rcases h' with h' | ⟨h1', h2', h3'⟩
      · have := (numbered_lt V o' id k h').1
        rw [← h2] at h3
        omega
      · rw [h1, h1']

/-- A visit is determined by the place. -/
theorem numbered_fun (V : List (κ × Nat)) (hn : (V.map (·.1)).Nodup) (o : κ) (id id' k k' : Nat) (h : (o, id, k) ∈ numbered V)
    (h' : (o, id', k') ∈ numbered V) : id = id' ∧ k = k' := by
  induction V using List.reverseRecOn with
  | nil => simp [numbered] at h
  | append_singleton V v ih =>
    rw [numbered_snoc, List.mem_append, List.mem_singleton] at h h'
    rw [List.map_append, List.nodup_append] at hn
    simp only [Prod.mk.injEq] at h h'
    rcases h with h | ⟨h1, h2, h3⟩
    · rcases h' with h' | ⟨h1', h2', h3'⟩
      · exact ih hn.1 h h'
      · exfalso
        exact hn.2.2 o (List.mem_map_of_mem (numbered_lt V o id k h).2) v.1 (by simp) h1'
    · rcases h' with h' | ⟨h1', h2', h3'⟩
      · exfalso
        exact hn.2.2 o (List.mem_map_of_mem (numbered_lt V o id' k' h').2) v.1 (by simp) h1
      · exact ⟨by rw [h2, h2'], by rw [h3, h3']⟩

/-- The table of counters after the visits. -/
def Ctr (l : List ℤ) (n : Nat) (V : List (κ × Nat)) : Prop :=
  l.length = n ∧ ∀ i < n, l[i]? = some ((times V i : ℤ) - 1)

theorem ctr_init (n : Nat) : Ctr (List.replicate n (-1)) n ([] : List (κ × Nat)) := by
  refine ⟨by simp, fun i hi => ?_⟩
  rw [List.getElem?_replicate, if_pos hi]
  rfl

theorem bump_ok (l : List ℤ) (n : Nat) (V : List (κ × Nat)) (h : Ctr l n V) (o : κ) (id : Nat) (hid : id < n) :
    ∃ l', bump l (id : ℤ) = some (l', (times V id : ℤ)) ∧ Ctr l' n (V ++ [(o, id)]) := by
  refine ⟨l.set id (times V id : ℤ), ?_, by rw [List.length_set]; exact h.1, ?_⟩
  · unfold bump
    rw [at_nat, h.2 id hid, Option.bind_some, Int.toNat_natCast]
    simp
  · intro i hi
    rw [List.getElem?_set, times_append]
    by_cases e : id = i
    · subst e
      rw [if_pos rfl, if_pos (by rw [h.1]; exact hid)]
      simp [times]
    · rw [if_neg e, h.2 i hi]
      simp [times, e]

end

/-! ### The lists of visits -/

section
variable {K M κ : Type} [Field K] [LinearOrder K]

theorem rows_eq (nx ny : Nat) : rows nx ny = places nx ny := rfl

/-- The child at a place. -/
def kid {κ : Type} (o : κ) (nx : Nat) (ch : List ℤ) (p : Nat × Nat) : List ((κ × Nat × Nat) × Nat) :=
  ((childAt nx ch p).map fun c => ((o, p), c.toNat)).toList

theorem kids_eq {κ : Type} (o : κ) (nx ny : Nat) (ch : List ℤ) : kids o nx ny ch = (places nx ny).flatMap (kid o nx ch) := by
  unfold kids kid
  rw [List.filterMap_eq_flatMap_toList, rows_eq]
  rfl

theorem latKids_eq (s : Model K M) (o : AsyAt) (id : Nat) (a : Assembly K) (h : s.assemblies[id]? = some a) :
    latKids s (o, id) = (List.range a.children.length).flatMap fun k => ((a.children[k]?).map fun c => ((o, k), c.toNat)).toList := by
  unfold latKids
  simp only [h]
  generalize a.children = l
  induction l using List.reverseRecOn with
  | nil => rfl
  | append_singleton l c ih =>
    rw [List.zipIdx_append, List.map_append, ih, List.length_append, List.length_singleton, List.range_succ, List.flatMap_append]
    congr 1
    · apply List.flatMap_congr
      intro k hk
      rw [List.getElem?_append_left (List.mem_range.1 hk)]
    · simp

/-! Different visits have different places. -/

theorem kids_nodup (o : κ) (nx ny : Nat) (ch : List ℤ) : ((kids o nx ny ch).map (·.1)).Nodup := by
  unfold kids
  rw [List.map_filterMap]
  refine List.Nodup.filterMap ?_ (places_nodup nx ny)
  intro p p' b h h'
  simp only [Option.map_map, Option.mem_def, Option.map_eq_some_iff, Function.comp] at h h'
  obtain ⟨_, _, rfl⟩ := h
  obtain ⟨_, _, h'⟩ := h'
  exact (congrArg (·.2) h').symm

theorem kids_pre (o : κ) (nx ny : Nat) (ch : List ℤ) (v) (h : v ∈ kids o nx ny ch) : v.1.1 = o := by
  unfold kids at h
  obtain ⟨p, -, h⟩ := List.mem_filterMap.1 h
  obtain ⟨c, -, rfl⟩ := Option.map_eq_some_iff.1 h
  rfl

theorem flat_nodup {μ : Type} (V : List (κ × Nat)) (f : κ × Nat → List ((κ × μ) × Nat)) (hV : (V.map (·.1)).Nodup)
    (h1 : ∀ v ∈ V, ((f v).map (·.1)).Nodup) (h2 : ∀ v, ∀ w ∈ f v, w.1.1 = v.1) : ((V.flatMap f).map (·.1)).Nodup := by
  induction V with
  | nil => simp
  | cons v V ih =>
    rw [List.map_cons, List.nodup_cons] at hV
    rw [List.flatMap_cons, List.map_append, List.nodup_append]
    refine ⟨h1 v (by simp), ih hV.2 fun w hw => h1 w (by simp [hw]), ?_⟩
    intro a ha b hb e
    obtain ⟨x, hx, rfl⟩ := List.mem_map.1 ha
    obtain ⟨y, hy, rfl⟩ := List.mem_map.1 hb
    obtain ⟨w, hw, hy⟩ := List.mem_flatMap.1 hy
    apply hV.1
    rw [← h2 v x hx, e, h2 w y hy]
    exact List.mem_map_of_mem hw

theorem asyVisits_nodup (s : Model K M) : ((asyVisits s).map (·.1)).Nodup := by
  unfold asyVisits
  rw [List.map_map]
  have h := kids_nodup () (s.core.xs.length - 1) (s.core.ys.length - 1) s.core.children
  have e : ∀ l : List ((Unit × Nat × Nat) × Nat), l.map ((fun v : (Nat × Nat) × Nat => v.1) ∘ fun v => (v.1.2, v.2)) = (l.map (·.1)).map (·.2) := by
    intro l; simp [Function.comp_def]
  rw [e]
  exact h.map fun a b h => Prod.ext rfl h

theorem latKids_pre (s : Model K M) (v w) (h : w ∈ latKids s v) : w.1.1 = v.1 := by
  unfold latKids at h
  split at h
  · simp at h
  · obtain ⟨c, -, rfl⟩ := List.mem_map.1 h; rfl

theorem latVisits_nodup (s : Model K M) : ((latVisits s).map (·.1)).Nodup := by
  refine flat_nodup _ _ (asyVisits_nodup s) ?_ (latKids_pre s)
  intro v _
  unfold latKids
  split
  · simp
  · rename_i a _
    rw [List.map_map]
    have e : a.children.zipIdx.map ((fun w : LatAt × Nat => w.1) ∘ fun c => ((v.1, c.2), c.1.toNat)) = (List.range a.children.length).map fun k => (v.1, k) := by
      rw [List.range_eq_range', ← List.zipIdx_map_snd 0 a.children, List.map_map]
      rfl
    rw [e]
    exact List.nodup_range.map fun a b h => congrArg (·.2) h

theorem rtmKids_pre (s : Model K M) (v w) (h : w ∈ rtmKids s v) : w.1.1 = v.1 := by
  unfold rtmKids at h
  split at h
  · simp at h
  · exact kids_pre _ _ _ _ w h

theorem cellKids_pre (s : Model K M) (v w) (h : w ∈ cellKids s v) : w.1.1 = v.1 := by
  unfold cellKids at h
  split at h
  · simp at h
  · exact kids_pre _ _ _ _ w h

theorem rtmVisits_nodup (s : Model K M) : ((rtmVisits s).map (·.1)).Nodup := by
  refine flat_nodup _ _ (latVisits_nodup s) ?_ (rtmKids_pre s)
  intro v _
  unfold rtmKids
  split
  · simp
  · exact kids_nodup _ _ _ _

theorem cellVisits_nodup (s : Model K M) : ((cellVisits s).map (·.1)).Nodup := by
  refine flat_nodup _ _ (rtmVisits_nodup s) ?_ (cellKids_pre s)
  intro v _
  unfold cellKids
  split
  · simp
  · exact kids_nodup _ _ _ _

end

end Verif.ModelSoup
