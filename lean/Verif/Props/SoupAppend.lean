import Verif.Props.Soup
import Mathlib.Tactic.IntervalCases

/-!
# C48 Appending soups is a disjoint union
-/

namespace Verif.Polytope

variable {V T N D : Type}

/-- Ids and data of the set with the given name. -/
def lookup [DecidableEq N] (sets : List (ElSet N D)) (n : N) : Option (List Nat × List D) :=
  (sets.find? fun e => decide (e.name = n)).map fun e => (e.ids, e.data)

/-- The union of two sets of the same name, the ids of the second one shifted by `k`. -/
def union (k : Nat) : Option (List Nat × List D) → Option (List Nat × List D) → Option (List Nat × List D)
  | none, none => none
  | some a, none => some a
  | none, some b => some (b.1.map (· + k), b.2)
  | some a, some b => some (a.1 ++ b.1.map (· + k), a.2 ++ b.2)

/-! ### Element offsets -/

theorem take_sum_append (ns ms : List Nat) (i : Nat) :
    ((ns ++ ms).take (ns.length + i)).sum = ns.sum + (ms.take i).sum := by
  rw [List.take_append, List.sum_append, List.take_of_length_le (by omega), Nat.add_sub_cancel_left]

theorem appendOffsets_eq {α : Type} (bs bs' : List (List α)) (h : bs' ≠ []) :
    appendOffsets (offsOf bs) (offsOf bs') bs.length bs'.length = some (offsOf (bs ++ bs')) := by
  let ns := bs.map List.length
  let ms := bs'.map List.length
  have hnl : ns.length = bs.length := by simp [ns]
  have hml : ms.length = bs'.length := by simp [ms]
  have hl' : offsOf bs' = psum ms := offsOf_ne _ h
  have hlast : (offsOf bs).getLastD 0 = ns.sum := by
    unfold offsOf
    cases bs with
    | nil => rfl
    | cons b bs =>
      rw [if_neg (by simp)]
      exact psum_getLast _
  have hres : offsOf (bs ++ bs') = psum (ns ++ ms) := by
    rw [offsOf_ne _ (by simp [h]), List.map_append]
  have hget : ∀ i, i ≤ ns.length + ms.length → (psum (ns ++ ms))[i]? = some ((ns ++ ms).take i).sum :=
    fun i hi => psum_get _ _ (by simpa using hi)
  have hloop : ∀ k, k ≤ bs'.length + 1 → ∃ l, (List.range k).foldlM
      (fun l i => ((offsOf bs')[i]?).bind fun v => put l (bs.length + i) (v + (offsOf bs).getLastD 0))
      (resize0 (offsOf bs) (bs.length + bs'.length + 1)) = some l ∧ l.length = bs.length + bs'.length + 1 ∧
      ∀ i, i < bs.length + k → i < bs.length + bs'.length + 1 → l[i]? = (psum (ns ++ ms))[i]? := by
    intro k
    induction k with
    | zero =>
      intro _
      have hlen : (offsOf bs).length ≤ bs.length + bs'.length + 1 := by
        unfold offsOf
        split_ifs
        · simp
        · rw [psum_length]; simp
      refine ⟨_, rfl, ?_, ?_⟩
      · unfold resize0
        rw [List.length_append, List.length_take, List.length_replicate]; omega
      · intro i hi _
        have hb : bs ≠ [] := by rintro rfl; simp at hi
        unfold resize0
        rw [List.take_of_length_le hlen]
        rw [offsOf_ne _ hb, List.getElem?_append_left (by rw [psum_length]; simp; omega),
          psum_get _ _ (by simp; omega), hget i (by omega), List.take_append_of_le_length (by omega)]
    | succ k ih =>
      intro hk
      obtain ⟨l, e, hl, hi⟩ := ih (by omega)
      have hk' : (offsOf bs')[k]? = some (ms.take k).sum := by
        rw [hl']; exact psum_get _ _ (by omega)
      refine ⟨l.set (bs.length + k) ((ms.take k).sum + ns.sum), ?_, by simpa using hl, ?_⟩
      · rw [List.range_succ, List.foldlM_append, e]
        simp only [Option.bind_eq_bind, Option.bind_some, List.foldlM_cons, List.foldlM_nil, hk', put, hlast]
        rw [if_pos (by omega)]
        rfl
      · intro i h1 h2
        rcases Nat.lt_or_ge i (bs.length + k) with hlt | hge
        · rw [List.getElem?_set_ne (by omega)]; exact hi i hlt h2
        · have : i = bs.length + k := by omega
          subst this
          rw [List.getElem?_set_self (by omega), hget _ (by omega), ← hnl, take_sum_append, Nat.add_comm]
  obtain ⟨l, e, hl, hi⟩ := hloop (bs'.length + 1) le_rfl
  unfold appendOffsets
  rw [e, hres]
  congr 1
  apply List.ext_getElem?
  intro i
  rcases Nat.lt_or_ge i (bs.length + bs'.length + 1) with h1 | h1
  · exact hi i (by omega) h1
  · rw [List.getElem?_eq_none (by omega), List.getElem?_eq_none (by rw [psum_length]; simp; omega)]

/-! ### Element sets -/

theorem sets_fold [DecidableEq N] {A : Type} (s : Soup V T N D) (els : List (T × List Nat)) (sets : List (ElSet N D))
    (h : Rep s els sets) (name : N) (g : A → List Nat → List D → A) (acc : A) :
    ∀ k, k ≤ sets.length → (List.range k).foldlM
      (fun (acc : A) j => (s.names[j]?).bind fun nm =>
        if nm = name then
          (s.soffs[j]?).bind fun a => (s.soffs[j + 1]?).bind fun b => (readBlock s.sids a b).bind fun blk =>
            (s.sdata[j]?).map fun d => g acc blk d
        else some acc) acc
      = some (((sets.take k).filter fun e => decide (e.name = name)).foldl (fun a e => g a e.ids e.data) acc) := by
  intro k
  induction k with
  | zero => intro _; rfl
  | succ k ih =>
    intro hk
    rw [List.range_succ, List.foldlM_append, ih (by omega)]
    have hk' : sets[k]? = some sets[k] := List.getElem?_eq_getElem (by omega)
    obtain ⟨a, r1, r2, -, r4⟩ := offsOf_read (sets.map (·.ids)) k sets[k].ids (by simp [hk'])
    rw [← h.soffs] at r1 r2
    rw [← h.sids] at r4
    have hn : s.names[k]? = some sets[k].name := by rw [h.names]; simp [hk']
    have hd : s.sdata[k]? = some sets[k].data := by rw [h.sdata]; simp [hk']
    simp only [Option.bind_eq_bind, Option.bind_some, List.foldlM_cons, List.foldlM_nil, hn]
    rw [List.take_add_one, hk', Option.toList_some, List.filter_append, List.foldl_append]
    by_cases hname : sets[k].name = name
    · rw [if_pos hname, r1, r2]
      simp only [Option.bind_some, r4, hd, Option.map_some]
      rw [List.filter_cons_of_pos (by simpa using hname)]
      rfl
    · rw [if_neg hname, List.filter_cons_of_neg (by simpa using hname)]
      rfl

theorem filter_nodup [DecidableEq N] (sets : List (ElSet N D)) (h : (sets.map (·.name)).Nodup) (n : N) :
    sets.filter (fun e => decide (e.name = n)) = (sets.find? fun e => decide (e.name = n)).toList := by
  induction sets with
  | nil => rfl
  | cons e sets ih =>
    rw [List.map_cons, List.nodup_cons] at h
    by_cases he : e.name = n
    · rw [List.filter_cons_of_pos (by simpa using he), List.find?_cons_of_pos (by simpa using he)]
      have : sets.filter (fun e => decide (e.name = n)) = [] := by
        rw [List.filter_eq_nil_iff]
        intro x hx hxn
        simp only [decide_eq_true_eq] at hxn
        exact h.1 (List.mem_map.2 ⟨x, hx, by rw [hxn, he]⟩)
      rw [this]; rfl
    · rw [List.filter_cons_of_neg (by simpa using he), List.find?_cons_of_neg (by simpa using he)]
      exact ih h.2

theorem thisSets_eq [DecidableEq N] (s : Soup V T N D) (els : List (T × List Nat)) (sets : List (ElSet N D))
    (h : Rep s els sets) (hg : GoodSets sets) (name : N) :
    thisSets s name = some ((lookup sets name).getD ([], [])) := by
  have hl : s.names.length = sets.length := by rw [h.names]; simp
  unfold thisSets
  rw [hl, sets_fold s els sets h name (fun acc blk d => (acc.1 ++ blk, if d.isEmpty then acc.2 else d)) ([], [])
    sets.length le_rfl, List.take_length, filter_nodup sets hg.nodup]
  unfold lookup
  cases sets.find? fun e => decide (e.name = name) with
  | none => rfl
  | some e =>
    simp only [Option.toList_some, List.foldl_cons, List.foldl_nil, List.nil_append, Option.map_some, Option.getD_some]
    by_cases hd : e.data = []
    · simp [hd]
    · simp [hd]

theorem otherSets_eq [DecidableEq N] (o : Soup V T N D) (els : List (T × List Nat)) (sets : List (ElSet N D))
    (h : Rep o els sets) (hg : GoodSets sets) (k : Nat) (name : N) (acc : List Nat × List D) :
    otherSets o k name acc = some (match lookup sets name with
      | none => acc
      | some b => (acc.1 ++ b.1.map (· + k), acc.2 ++ b.2)) := by
  have hl : o.names.length = sets.length := by rw [h.names]; simp
  unfold otherSets
  rw [hl, sets_fold o els sets h name (fun acc blk d => (acc.1 ++ blk.map (· + k), acc.2 ++ d)) acc
    sets.length le_rfl, List.take_length, filter_nodup sets hg.nodup]
  unfold lookup
  cases sets.find? fun e => decide (e.name = name) with
  | none => rfl
  | some e => rfl

theorem lookup_isSome [DecidableEq N] (sets : List (ElSet N D)) (n : N) :
    n ∈ sets.map (·.name) ↔ ∃ r, lookup sets n = some r := by
  unfold lookup
  constructor
  · intro h
    obtain ⟨e, he, rfl⟩ := List.mem_map.1 h
    cases hf : sets.find? fun x => decide (x.name = e.name) with
    | none =>
      rw [List.find?_eq_none] at hf
      exact absurd (by simp) (hf e he)
    | some x => exact ⟨_, rfl⟩
  · rintro ⟨r, hr⟩
    cases hf : sets.find? fun x => decide (x.name = n) with
    | none => rw [hf] at hr; simp at hr
    | some x =>
      have h1 := List.find?_some hf
      have h2 := List.mem_of_find?_eq_some hf
      exact List.mem_map.2 ⟨x, h2, by simpa using h1⟩

theorem lookup_mem [DecidableEq N] (sets : List (ElSet N D)) (n : N) (r : List Nat × List D)
    (h : lookup sets n = some r) : ∃ e ∈ sets, e.name = n ∧ e.ids = r.1 ∧ e.data = r.2 := by
  unfold lookup at h
  cases hf : sets.find? fun x => decide (x.name = n) with
  | none => rw [hf] at h; simp at h
  | some x =>
    have h1 := List.find?_some hf
    rw [hf] at h
    simp only [Option.map_some, Option.some.injEq] at h
    exact ⟨x, List.mem_of_find?_eq_some hf, by simpa using h1, by rw [← h], by rw [← h]⟩

/-- Offsets, ids and data produced by the loop over the names. -/
theorem names_fold (f : N → List Nat × List D) (names : List N) (bs : List (List Nat)) (ds : List (List D)) :
    names.foldlM (fun (acc : List Nat × List Nat × List (List D)) name =>
        (some (acc.1 ++ [acc.1.getLastD 0 + (f name).1.length], acc.2.1 ++ (f name).1, acc.2.2 ++ [(f name).2]) :
          Option (List Nat × List Nat × List (List D))))
      (psum (bs.map List.length), bs.flatten, ds)
      = some (psum ((bs ++ names.map fun n => (f n).1).map List.length), (bs ++ names.map fun n => (f n).1).flatten,
          ds ++ names.map fun n => (f n).2) := by
  induction names generalizing bs ds with
  | nil => simp
  | cons n names ih =>
    rw [List.foldlM_cons]
    simp only [Option.bind_eq_bind, Option.bind_some]
    have := ih (bs ++ [(f n).1]) (ds ++ [(f n).2])
    rw [List.map_append, List.map_cons, List.map_nil, psum_append, List.flatten_append] at this
    rw [psum_getLast]
    simp only [List.flatten_cons, List.flatten_nil, List.append_nil] at this
    rw [this]
    simp

/-- `a += b` for a soup `b` with at least one element: vertices and elements are those of `a` followed by those
of `b` with shifted vertex ids; every element set is the union of the equally named ones; if `b` has sets, the
sets of the result are ordered by name. -/
theorem C48_append [DecidableEq N] (lt : N → N → Bool) (sortNames : List N → List N)
    (hsort : ∀ l, IsStdSort lt l (sortNames l)) (s o : Soup V T N D) (els els' : List (T × List Nat))
    (sets sets' : List (ElSet N D)) (hs : Rep s els sets) (ho : Rep o els' sets') (hg : GoodSets sets)
    (hg' : GoodSets sets') (hne : els' ≠ []) :
    ∃ r out, append sortNames s o = some r ∧ r.verts = s.verts ++ o.verts ∧
      Rep r (els ++ els'.map fun e => (e.1, e.2.map (· + s.verts.length))) out ∧
      (out.map (·.name)).Nodup ∧
      (∀ n, lookup out n = union els.length (lookup sets n) (lookup sets' n)) ∧
      (sets' ≠ [] → out.Pairwise fun a b => lt b.name a.name = false) := by
  have htl : s.types.length = (els.map (·.2)).length := by rw [hs.types]; simp
  have htl' : o.types.length = (els'.map (·.2)).length := by rw [ho.types]; simp
  have hoff := appendOffsets_eq (els.map (·.2)) (els'.map (·.2)) (by simpa using hne)
  have hoffs : appendOffsets s.eoffs o.eoffs s.types.length o.types.length
      = some (offsOf (els.map (·.2) ++ els'.map (·.2))) := by
    rw [hs.eoffs, ho.eoffs, htl, htl']; exact hoff
  have hshift : offsOf (els.map (·.2) ++ els'.map (·.2))
      = offsOf ((els ++ els'.map fun e => (e.1, e.2.map (· + s.verts.length))).map (·.2)) := by
    rw [offsOf_ne _ (by simp [hne]), offsOf_ne _ (by simp [hne])]
    congr 1
    simp [Function.comp_def]
  have htypes : s.types ++ o.types
      = (els ++ els'.map fun e => (e.1, e.2.map (· + s.verts.length))).map (·.1) := by
    rw [hs.types, ho.types]; simp [Function.comp_def]
  have hconn : s.conn ++ o.conn.map (· + s.verts.length)
      = ((els ++ els'.map fun e => (e.1, e.2.map (· + s.verts.length))).map (·.2)).flatten := by
    rw [hs.conn, ho.conn, List.map_append, List.flatten_append, List.map_flatten]
    simp [Function.comp_def]
  unfold append
  rw [hoffs]
  simp only [Option.bind_some]
  by_cases hempty : o.names.isEmpty
  · rw [if_pos hempty]
    have hs' : sets' = [] := by
      rw [ho.names] at hempty
      simpa using hempty
    refine ⟨_, sets, rfl, rfl, ⟨htypes, hconn, hshift, hs.names, hs.sids, hs.soffs, hs.sdata⟩, hg.nodup, ?_, ?_⟩
    · intro n
      subst hs'
      have : lookup ([] : List (ElSet N D)) n = none := rfl
      rw [this]
      cases lookup sets n <;> rfl
    · intro h; exact absurd hs' h
  · rw [if_neg hempty]
    have hne' : sets' ≠ [] := by
      rintro rfl
      rw [ho.names] at hempty
      simp at hempty
    let L := sortNames (s.names ++ o.names.filter fun n => decide (n ∉ s.names))
    have hLp : L.Perm (s.names ++ o.names.filter fun n => decide (n ∉ s.names)) := (hsort _).perm
    have hLmem : ∀ n, n ∈ L ↔ n ∈ s.names ∨ n ∈ o.names := by
      intro n
      rw [hLp.mem_iff, List.mem_append, List.mem_filter]
      simp only [decide_eq_true_eq]
      tauto
    have hLnd : L.Nodup := by
      rw [hLp.nodup_iff, List.nodup_append]
      refine ⟨by rw [hs.names]; exact hg.nodup, (by rw [ho.names]; exact hg'.nodup : o.names.Nodup).filter _, ?_⟩
      intro a ha b hb hab
      rw [List.mem_filter] at hb
      simp only [decide_eq_true_eq] at hb
      exact hb.2 (hab ▸ ha)
    let f : N → List Nat × List D := fun n => (union els.length (lookup sets n) (lookup sets' n)).getD ([], [])
    have hstep : ∀ (acc : List Nat × List Nat × List (List D)) (name : N),
        ((thisSets s name).bind fun a => (otherSets o s.types.length name a).map fun b =>
          (acc.1 ++ [acc.1.getLastD 0 + b.1.length], acc.2.1 ++ b.1, acc.2.2 ++ [b.2]))
        = some (acc.1 ++ [acc.1.getLastD 0 + (f name).1.length], acc.2.1 ++ (f name).1, acc.2.2 ++ [(f name).2]) := by
      intro acc name
      have htl2 : s.types.length = els.length := by rw [hs.types]; simp
      rw [thisSets_eq s els sets hs hg name, Option.bind_some, otherSets_eq o els' sets' ho hg', htl2]
      simp only [Option.map_some]
      have hf : f name = (match lookup sets' name with
          | none => (lookup sets name).getD ([], [])
          | some b => (((lookup sets name).getD ([], [])).1 ++ b.1.map (· + els.length),
              ((lookup sets name).getD ([], [])).2 ++ b.2)) := by
        simp only [f]
        cases lookup sets name <;> cases lookup sets' name <;> rfl
      rw [hf]
    have hfold := names_fold f L [] []
    simp only [List.nil_append, List.map_nil, List.flatten_nil, psum_nil] at hfold
    have hfun : (fun (acc : List Nat × List Nat × List (List D)) name =>
          (thisSets s name).bind fun a => (otherSets o s.types.length name a).map fun b =>
            (acc.1 ++ [acc.1.getLastD 0 + b.1.length], acc.2.1 ++ b.1, acc.2.2 ++ [b.2]))
        = fun (acc : List Nat × List Nat × List (List D)) name =>
          some (acc.1 ++ [acc.1.getLastD 0 + (f name).1.length], acc.2.1 ++ (f name).1, acc.2.2 ++ [(f name).2]) := by
      funext acc name
      exact hstep acc name
    let out : List (ElSet N D) := L.map fun n => ⟨n, (f n).1, (f n).2⟩
    have hLne : L ≠ [] := by
      intro h
      cases hsets : sets' with
      | nil => exact hne' hsets
      | cons e es =>
        have : e.name ∈ L := (hLmem _).2 (Or.inr (by rw [ho.names, hsets]; simp))
        rw [h] at this
        simp at this
    have hon : out.map (·.name) = L := by simp [out, Function.comp_def]
    refine ⟨{ verts := s.verts ++ o.verts, types := s.types ++ o.types,
              eoffs := offsOf (els.map (·.2) ++ els'.map (·.2)),
              conn := s.conn ++ o.conn.map (· + s.verts.length), names := L,
              soffs := psum ((L.map fun n => (f n).1).map List.length), sids := (L.map fun n => (f n).1).flatten,
              sdata := L.map fun n => (f n).2 }, out, ?_, rfl, ⟨htypes, hconn, hshift, ?_, ?_, ?_, ?_⟩, ?_, ?_, ?_⟩
    · rw [hfun, hfold]
      rfl
    · exact hon.symm
    · simp [out, Function.comp_def]
    · dsimp only
      rw [offsOf_ne _ (by simpa [out] using hLne)]
      simp [out, Function.comp_def]
    · simp [out, Function.comp_def]
    · rw [hon]; exact hLnd
    · intro n
      by_cases hn : n ∈ L
      · have : lookup out n = some (f n) := by
          have h1 : ∃ r, lookup out n = some r := (lookup_isSome out n).1 (by rw [hon]; exact hn)
          obtain ⟨r, hr⟩ := h1
          obtain ⟨e, he, e1, e2, e3⟩ := lookup_mem out n r hr
          obtain ⟨m, -, rfl⟩ := List.mem_map.1 he
          dsimp only at e1 e2 e3
          subst e1
          rw [hr]
          congr 1
          exact Prod.ext e2.symm e3.symm
        rw [this]
        simp only [f]
        have hsome : ∃ r, union els.length (lookup sets n) (lookup sets' n) = some r := by
          rcases (hLmem n).1 hn with h | h
          · rw [hs.names] at h
            obtain ⟨r, hr⟩ := (lookup_isSome sets n).1 h
            rw [hr]
            cases lookup sets' n <;> exact ⟨_, rfl⟩
          · rw [ho.names] at h
            obtain ⟨r, hr⟩ := (lookup_isSome sets' n).1 h
            rw [hr]
            cases lookup sets n <;> exact ⟨_, rfl⟩
        obtain ⟨r, hr⟩ := hsome
        rw [hr]; rfl
      · have h1 : lookup out n = none := by
          cases h : lookup out n with
          | none => rfl
          | some r => exact absurd (by rw [← hon]; exact (lookup_isSome out n).2 ⟨r, h⟩) hn
        have h2 : lookup sets n = none := by
          cases h : lookup sets n with
          | none => rfl
          | some r =>
            exact absurd ((hLmem n).2 (Or.inl (by rw [hs.names]; exact (lookup_isSome sets n).2 ⟨r, h⟩))) hn
        have h3 : lookup sets' n = none := by
          cases h : lookup sets' n with
          | none => rfl
          | some r =>
            exact absurd ((hLmem n).2 (Or.inr (by rw [ho.names]; exact (lookup_isSome sets' n).2 ⟨r, h⟩))) hn
        rw [h1, h2, h3]; rfl
    · intro _
      have : L.Pairwise fun a b => lt b a = false := (hsort _).sorted
      show out.Pairwise _
      rw [← hon, List.pairwise_map] at this
      exact this

/-- The sets of the result are well-formed again provided that equally named sets agree on whether they carry
data.  (This is what the code does not check, see `C48_data_mismatch_fails`.) -/
theorem C48_wellformed_partial [DecidableEq N] (sets sets' out : List (ElSet N D)) (k : Nat) (hg : GoodSets sets)
    (hg' : GoodSets sets') (hnd : (out.map (·.name)).Nodup)
    (hout : ∀ n, lookup out n = union k (lookup sets n) (lookup sets' n))
    (hdata : ∀ e ∈ sets, ∀ e' ∈ sets', e.name = e'.name → (e.data = [] ↔ e'.data = [])) : GoodSets out := by
  have key : ∀ e ∈ out, e.ids ≠ [] ∧ (e.data = [] ∨ e.data.length = e.ids.length) := by
    intro e he
    have hl : lookup out e.name = some (e.ids, e.data) := by
      obtain ⟨r, hr⟩ := (lookup_isSome out e.name).1 (List.mem_map_of_mem he)
      obtain ⟨e', he', h1, h2, h3⟩ := lookup_mem out e.name r hr
      have : e' = e := List.inj_on_of_nodup_map hnd he' he h1
      subst this
      rw [hr, h2, h3]
    rw [hout] at hl
    cases h1 : lookup sets e.name with
    | none =>
      cases h2 : lookup sets' e.name with
      | none => rw [h1, h2] at hl; simp [union] at hl
      | some b =>
        rw [h1, h2] at hl
        obtain ⟨x, hx, -, q1, q2⟩ := lookup_mem _ _ _ h2
        simp only [union, Option.some.injEq, Prod.mk.injEq] at hl
        rw [← hl.1, ← hl.2, ← q1, ← q2]
        refine ⟨by simpa using hg'.ids x hx, by simpa using hg'.data x hx⟩
    | some a =>
      obtain ⟨x, hx, xn, p1, p2⟩ := lookup_mem _ _ _ h1
      cases h2 : lookup sets' e.name with
      | none =>
        rw [h1, h2] at hl
        simp only [union, Option.some.injEq] at hl
        rw [hl] at p1 p2
        dsimp only at p1 p2
        rw [← p1, ← p2]
        exact ⟨hg.ids x hx, hg.data x hx⟩
      | some b =>
        obtain ⟨y, hy, yn, q1, q2⟩ := lookup_mem _ _ _ h2
        rw [h1, h2] at hl
        simp only [union, Option.some.injEq, Prod.mk.injEq] at hl
        rw [← hl.1, ← hl.2, ← q1, ← q2, ← p1, ← p2]
        refine ⟨by simp [hg.ids x hx], ?_⟩
        have hd := hdata x hx y hy (by rw [xn, yn])
        rcases hg.data x hx with h | h
        · left; rw [h, hd.1 h]; rfl
        · rcases hg'.data y hy with h' | h'
          · left; rw [hd.2 h', h']; rfl
          · right; simp [h, h']
  exact ⟨hnd, fun e he => (key e he).1, fun e he => (key e he).2⟩

/-- Appending a soup without elements reads the first entry of its empty offset array. -/
theorem C48_empty_other_fails [DecidableEq N] (sortNames : List N → List N) (s o : Soup V T N D)
    (sets' : List (ElSet N D)) (ho : Rep o [] sets') : append sortNames s o = none := by
  have h1 : o.eoffs = [] := ho.eoffs
  have h2 : o.types = [] := ho.types
  unfold append appendOffsets
  rw [h1, h2]
  rfl

/-- Appending a soup with vertices to itself writes past the end of the vertex array. -/
theorem C48_self_append_fails (verts pad : List V) (h : verts ≠ []) (hp : pad.length = verts.length) :
    appendSelfVerts verts pad = none := by
  have hpos : 0 < verts.length := List.length_pos_iff.2 h
  unfold appendSelfVerts
  have hl : (verts ++ pad).length = verts.length + (1 + (verts.length - 1)) := by
    rw [List.length_append, hp]; omega
  have hkeep : ∀ (l : List Nat) (w r : List V),
      l.foldlM (fun w i => (w[i]?).bind fun x => put w (verts.length + i) x) w = some r → r.length = w.length := by
    intro l
    induction l with
    | nil => intro w r hr; simp at hr; rw [hr]
    | cons a l ih =>
      intro w r hr
      rw [List.foldlM_cons] at hr
      cases hx : w[a]? with
      | none => rw [hx] at hr; simp at hr
      | some x =>
        rw [hx] at hr
        simp only [Option.bind_eq_bind, Option.bind_some, put] at hr
        split_ifs at hr with hlt
        · simp only [Option.bind_some] at hr
          rw [ih _ _ hr]; simp
        · simp at hr
  dsimp only
  rw [hl, List.range_add, List.foldlM_append]
  cases hf : (List.range verts.length).foldlM (fun w i => (w[i]?).bind fun x => put w (verts.length + i) x)
      (verts ++ pad) with
  | none => rfl
  | some w =>
    have hwl : w.length = verts.length + verts.length := by
      rw [hkeep _ _ _ hf, List.length_append, hp]
    simp only [Option.bind_eq_bind, Option.bind_some]
    rw [Nat.add_comm 1, List.range_succ_eq_map, List.map_cons, List.foldlM_cons]
    simp only [Nat.add_zero]
    cases w[verts.length]? with
    | none => rfl
    | some x =>
      simp only [Option.bind_eq_bind, Option.bind_some, put]
      rw [if_neg (by omega)]
      rfl

/-- One element in each soup, in sets of the same name, only the first with data. -/
def withData : Soup Nat Nat Nat Nat := ⟨[0], [1], [0, 1], [0], [7], [0, 1], [0], [[5]]⟩
def withoutData : Soup Nat Nat Nat Nat := ⟨[0], [1], [0, 1], [0], [7], [0, 1], [0], [[]]⟩

/-- The merged set then has two ids but one datum. -/
theorem C48_data_mismatch_fails :
    Rep withData [(1, [0])] [⟨7, [0], [5]⟩] ∧ Rep withoutData [(1, [0])] [⟨7, [0], []⟩] ∧
      (append id withData withoutData).map (fun r => (r.sids, r.sdata)) = some ([0, 1], [[5]]) := by
  refine ⟨⟨rfl, rfl, rfl, rfl, rfl, rfl, rfl⟩, ⟨rfl, rfl, rfl, rfl, rfl, rfl, rfl⟩, ?_⟩
  decide

/-- The hypotheses of `C48_append` hold of these two soups. -/
example : GoodSets ([⟨7, [0], [5]⟩] : List (ElSet Nat Nat)) := ⟨by decide, by simp, by simp⟩
example : (append id withData withData).map (fun r => (r.conn, r.eoffs, r.sids, r.sdata))
    = some ([0, 1], [0, 1, 2], [0, 1], [[5, 5]]) := by decide

end Verif.Polytope
