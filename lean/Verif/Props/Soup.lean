import Verif.Lemmas.Soup

/-!
# C46 PolytopeSoup stays well-formed under every history
-/

namespace Verif.Polytope

variable {V T N D : Type}

/-! ### Specification: a soup as lists of vertices, elements and named sets -/

/-- An element set: its name, element ids, and either one datum per id or no data. -/
structure ElSet (N D : Type) where
  name : N
  ids : List Nat
  data : List D

/-- The soup's arrays hold these elements and sets. -/
structure Rep (s : Soup V T N D) (els : List (T × List Nat)) (sets : List (ElSet N D)) : Prop where
  types : s.types = els.map (·.1)
  conn : s.conn = (els.map (·.2)).flatten
  eoffs : s.eoffs = offsOf (els.map (·.2))
  names : s.names = sets.map (·.name)
  sids : s.sids = (sets.map (·.ids)).flatten
  soffs : s.soffs = offsOf (sets.map (·.ids))
  sdata : s.sdata = sets.map (·.data)

/-- Distinct names, no empty set, data for all ids or for none. -/
structure GoodSets (sets : List (ElSet N D)) : Prop where
  nodup : (sets.map (·.name)).Nodup
  ids : ∀ e ∈ sets, e.ids ≠ []
  data : ∀ e ∈ sets, e.data = [] ∨ e.data.length = e.ids.length

/-- The modifying operations of a history. -/
inductive Op (V T N D : Type)
  | addVertex (v : V)
  | addElement (t : T) (conn : List Nat)
  | addElset (name : N) (ids : List Nat) (data : List D)

/-- Running one operation of the code. -/
def step [DecidableEq N] (s : Soup V T N D) : Op V T N D → Soup V T N D × Int
  | .addVertex v => addVertex s v
  | .addElement t c => addElement s t c
  | .addElset n i d => addElset s n i d

/-- What was put in so far. -/
structure Abs (V T N D : Type) where
  verts : List V
  els : List (T × List Nat)
  sets : List (ElSet N D)

/-- A call of `addElset` that is to be accepted. -/
def Accepts (a : Abs V T N D) (name : N) (ids : List Nat) (data : List D) : Prop :=
  name ∉ a.sets.map (·.name) ∧ ids ≠ [] ∧ (data = [] ∨ data.length = ids.length)

open Classical in
/-- What one operation is meant to do, and to return. -/
noncomputable def Abs.step (a : Abs V T N D) : Op V T N D → Abs V T N D × Int
  | .addVertex v => ({ a with verts := a.verts ++ [v] }, a.verts.length)
  | .addElement t c => ({ a with els := a.els ++ [(t, c)] }, a.els.length)
  | .addElset n i d =>
    if Accepts a n i d then ({ a with sets := a.sets ++ [⟨n, i, d⟩] }, a.sets.length) else (a, -1)

/-- A soup that holds exactly what was put in. -/
structure Holds (s : Soup V T N D) (a : Abs V T N D) : Prop where
  verts : s.verts = a.verts
  rep : Rep s a.els a.sets
  good : GoodSets a.sets

theorem holds_empty : Holds (empty : Soup V T N D) ⟨[], [], []⟩ :=
  ⟨rfl, ⟨rfl, rfl, rfl, rfl, rfl, rfl, rfl⟩, ⟨List.nodup_nil, by simp, by simp⟩⟩

theorem Rep.addElement {s : Soup V T N D} {els sets} (h : Rep s els sets) (t : T) (c : List Nat) :
    Rep (addElement s t c).1 (els ++ [(t, c)]) sets := by
  unfold Polytope.addElement
  constructor
  · simp [h.types]
  · simp [h.conn]
  · dsimp only
    rw [h.eoffs, getLastD_start, List.map_append, List.map_cons, List.map_nil, offsOf_append]
  · exact h.names
  · exact h.sids
  · exact h.soffs
  · exact h.sdata

theorem addElset_accept [DecidableEq N] (s : Soup V T N D) (name : N) (ids : List Nat) (data : List D)
    (h1 : name ∉ s.names) (h2 : ids ≠ []) (h3 : data = [] ∨ data.length = ids.length) :
    addElset s name ids data =
      ({ s with names := s.names ++ [name], soffs := startOffsets s.soffs ++ [s.sids.length + ids.length],
                sids := s.sids ++ ids, sdata := s.sdata ++ [data] }, (s.names.length : Int)) := by
  unfold Polytope.addElset
  rw [if_neg h1, if_neg (by simpa using h2), if_neg]
  · simp
  · simp only [Bool.and_eq_true, Bool.not_eq_true', decide_eq_true_eq, not_and, ne_eq, not_not]
    intro h
    rcases h3 with h3 | h3
    · rw [h3] at h; simp at h
    · exact h3

theorem addElset_reject [DecidableEq N] (s : Soup V T N D) (name : N) (ids : List Nat) (data : List D)
    (h : ¬ (name ∉ s.names ∧ ids ≠ [] ∧ (data = [] ∨ data.length = ids.length))) :
    addElset s name ids data = (s, -1) := by
  unfold Polytope.addElset
  split_ifs with h1 h2 h3
  · rfl
  · rfl
  · rfl
  · exfalso
    apply h
    refine ⟨h1, by simpa using h2, ?_⟩
    simp only [Bool.and_eq_true, Bool.not_eq_true', decide_eq_true_eq, not_and, ne_eq, not_not] at h3
    by_cases hd : data = []
    · exact Or.inl hd
    · exact Or.inr (h3 (by simpa using hd))

theorem Rep.addElset {s : Soup V T N D} {els} {sets : List (ElSet N D)} (h : Rep s els sets) (name : N)
    (ids : List Nat) (data : List D) :
    Rep { s with names := s.names ++ [name], soffs := startOffsets s.soffs ++ [s.sids.length + ids.length],
                 sids := s.sids ++ ids, sdata := s.sdata ++ [data] } els (sets ++ [⟨name, ids, data⟩]) := by
  constructor
  · exact h.types
  · exact h.conn
  · exact h.eoffs
  · simp [h.names]
  · simp [h.sids]
  · dsimp only
    rw [h.soffs, h.sids, List.map_append, List.map_cons, List.map_nil, offsOf_append]
  · simp [h.sdata]

/-- Each operation does, and returns, what it is meant to. -/
theorem C46_step [DecidableEq N] (s : Soup V T N D) (a : Abs V T N D) (h : Holds s a) (op : Op V T N D) :
    Holds (step s op).1 (a.step op).1 ∧ (step s op).2 = (a.step op).2 := by
  cases op with
  | addVertex v =>
    refine ⟨⟨?_, ⟨h.rep.types, h.rep.conn, h.rep.eoffs, h.rep.names, h.rep.sids, h.rep.soffs, h.rep.sdata⟩,
      h.good⟩, ?_⟩
    · simp [step, addVertex, Abs.step, h.verts]
    · simp [step, addVertex, Abs.step, h.verts]
  | addElement t c =>
    refine ⟨⟨h.verts, h.rep.addElement t c, h.good⟩, ?_⟩
    simp [step, Polytope.addElement, Abs.step, h.rep.types]
  | addElset n i d =>
    have hn : s.names = a.sets.map (·.name) := h.rep.names
    by_cases hacc : Accepts a n i d
    · have e := addElset_accept s n i d (by rw [hn]; exact hacc.1) hacc.2.1 hacc.2.2
      simp only [step, Abs.step, if_pos hacc, e]
      refine ⟨⟨h.verts, h.rep.addElset n i d, ?_⟩, by simp [hn]⟩
      constructor
      · rw [List.map_append, List.nodup_append]
        refine ⟨h.good.nodup, by simp, ?_⟩
        intro x hx y hy hxy
        simp only [List.map_cons, List.map_nil, List.mem_singleton] at hy
        rw [hxy, hy] at hx
        exact hacc.1 hx
      · intro e he
        rcases List.mem_append.1 he with he | he
        · exact h.good.ids e he
        · rw [List.mem_singleton.1 he]; exact hacc.2.1
      · intro e he
        rcases List.mem_append.1 he with he | he
        · exact h.good.data e he
        · rw [List.mem_singleton.1 he]; exact hacc.2.2
    · have e := addElset_reject s n i d (by rw [hn]; exact hacc)
      simp only [step, Abs.step, if_neg hacc, e]
      exact ⟨h, trivial⟩

/-- After any history, the soup holds exactly what was put in: the k-th vertex, the k-th element and the
k-th accepted element set are those given, with distinct names. -/
theorem C46_history [DecidableEq N] (ops : List (Op V T N D)) :
    Holds (ops.foldl (fun s op => (step s op).1) empty)
      (ops.foldl (fun a op => (a.step op).1) (⟨[], [], []⟩ : Abs V T N D)) := by
  have key : ∀ (s : Soup V T N D) (a : Abs V T N D), Holds s a →
      Holds (ops.foldl (fun s op => (step s op).1) s) (ops.foldl (fun a op => (a.step op).1) a) := by
    induction ops with
    | nil => intro s a h; exact h
    | cons op ops ih => intro s a h; exact ih _ _ (C46_step s a h op).1
  exact key _ _ holds_empty

/-- Reading back: `getElement k` is the k-th element; reading past the end is undefined. -/
theorem C46_getElement (s : Soup V T N D) (els : List (T × List Nat)) (sets : List (ElSet N D))
    (h : Rep s els sets) (k : Nat) : getElement s k = els[k]? := by
  unfold getElement
  rw [h.types, List.getElem?_map]
  cases hk : els[k]? with
  | none => rfl
  | some e =>
    simp only [Option.map_some, Option.bind_some]
    obtain ⟨a, h1, h2, -, h3⟩ := offsOf_read (els.map (·.2)) k e.2 (by simp [hk])
    rw [h.eoffs, h1, h2, h.conn]
    simp [h3]

/-- `getElset k` gives the name and ids of the k-th set, and its data if it has any; otherwise the
caller's vector keeps what it held. -/
theorem C46_getElset (s : Soup V T N D) (els : List (T × List Nat)) (sets : List (ElSet N D))
    (h : Rep s els sets) (k : Nat) (old : List D) :
    getElset s k old = (sets[k]?).map fun e => (e.name, e.ids, if e.data = [] then old else e.data) := by
  unfold getElset
  rw [h.names, List.getElem?_map]
  cases hk : sets[k]? with
  | none => rfl
  | some e =>
    simp only [Option.map_some, Option.bind_some]
    obtain ⟨a, h1, h2, -, h3⟩ := offsOf_read (sets.map (·.ids)) k e.ids (by simp [hk])
    rw [h.soffs, h1, h2, h.sids, h.sdata]
    simp [h3, hk]

/-- Looking up by name finds the one set of that name. -/
theorem C46_getElsetByName [DecidableEq N] (s : Soup V T N D) (els : List (T × List Nat))
    (sets : List (ElSet N D)) (h : Rep s els sets) (hg : GoodSets sets) (name : N) (old : List D) :
    (∀ e ∈ sets, e.name = name →
      getElsetByName s name old = some (some (e.ids, if e.data = [] then old else e.data))) ∧
    (name ∉ sets.map (·.name) → getElsetByName s name old = some none) := by
  unfold getElsetByName
  rw [h.names]
  constructor
  · intro e he hname
    have hex : ∃ i, (sets.map (·.name)).findIdx? (fun n => decide (n = name)) = some i := by
      rw [← Option.isSome_iff_exists, List.findIdx?_isSome]
      simp only [List.any_map, List.any_eq_true, Function.comp, decide_eq_true_eq]
      exact ⟨e, he, hname⟩
    obtain ⟨i, hi⟩ := hex
    rw [hi]
    dsimp only
    rw [List.findIdx?_eq_some_iff_getElem] at hi
    obtain ⟨hl, hi1, -⟩ := hi
    simp only [List.length_map] at hl
    simp only [List.getElem_map, decide_eq_true_eq] at hi1
    have heq : sets[i] = e := by
      obtain ⟨j, hj, rfl⟩ := List.getElem_of_mem he
      have := (List.Nodup.getElem_inj_iff (l := sets.map (·.name)) (i := i) (j := j)
        (hi := by simpa using hl) (hj := by simpa using hj) hg.nodup).1 (by simp [hi1, hname])
      subst this; rfl
    rw [C46_getElset s els sets h i old, List.getElem?_eq_getElem hl, heq]
    rfl
  · intro hn
    have : (sets.map (·.name)).findIdx? (fun n => decide (n = name)) = none := by
      rw [List.findIdx?_eq_none_iff]
      intro x hx
      simp only [decide_eq_false_iff_not]
      rintro rfl
      exact hn hx
    rw [this]

/-- The stale result the two lookups can give: the caller's old data is returned as the data of a set that
has none. -/
theorem C46_stale_data_fails : ∃ (ops : List (Op Unit Unit Nat Nat)) (old : List Nat),
    getElset (ops.foldl (fun s op => (step s op).1) empty) 0 old = some (7, [0], [5]) ∧
      (ops.foldl (fun s op => (step s op).1) empty).sdata = [[]] :=
  ⟨[.addVertex (), .addElement () [0], .addElset 7 [0] []], [5], by decide, by decide⟩

/-- `getElemTypes` lists every type that occurs, once. -/
theorem C46_elemTypes [DecidableEq T] (s : Soup V T N D) :
    (getElemTypes s).Nodup ∧ ∀ t, t ∈ getElemTypes s ↔ t ∈ s.types := by
  have key : ∀ (l acc : List T), acc.Nodup →
      (l.foldl (fun acc t => if t ∈ acc then acc else acc ++ [t]) acc).Nodup ∧
      ∀ t, t ∈ l.foldl (fun acc t => if t ∈ acc then acc else acc ++ [t]) acc ↔ t ∈ acc ∨ t ∈ l := by
    intro l
    induction l with
    | nil => intro acc h; exact ⟨h, by simp⟩
    | cons a l ih =>
      intro acc h
      rw [List.foldl_cons]
      by_cases ha : a ∈ acc
      · rw [if_pos ha]
        obtain ⟨h1, h2⟩ := ih acc h
        refine ⟨h1, fun t => ?_⟩
        rw [h2, List.mem_cons]
        constructor
        · tauto
        · rintro (h | rfl | h)
          · exact Or.inl h
          · exact Or.inl ha
          · exact Or.inr h
      · rw [if_neg ha]
        obtain ⟨h1, h2⟩ := ih (acc ++ [a]) (by
          rw [List.nodup_append]
          exact ⟨h, by simp, fun x hx y hy hxy => ha (by simp at hy; rw [← hy, ← hxy]; exact hx)⟩)
        refine ⟨h1, fun t => ?_⟩
        rw [h2]
        simp [List.mem_append, or_assoc]
  obtain ⟨h1, h2⟩ := key s.types [] List.nodup_nil
  exact ⟨h1, fun t => by rw [getElemTypes, h2]; simp⟩

/-- A history with a rejected call. -/
example : (addElset (addElset (addElement (addVertex (empty : Soup Nat Nat Nat Nat) 0).1 5 [0]).1 1 [0] []).1 1 [0]
    [2]).2 = -1 := by decide

end Verif.Polytope
