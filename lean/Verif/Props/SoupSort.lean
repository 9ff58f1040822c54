import Verif.Props.Soup
import Verif.Props.Algorithm

/-!
# C47 Sorting element sets changes only their order
-/

namespace Verif.Polytope

variable {V T N D : Type}

/-- `operator<` on `Int`. -/
def ltNat (a b : Nat) : Bool := decide (a < b)

/-- The (id, datum) pairs of a set; without data the datum is `none`. -/
def ElSet.pairs (e : ElSet N D) : List (Nat × Option D) :=
  if e.data = [] then e.ids.map (·, none) else e.ids.zip (e.data.map some)

/-! ### Permuting -/

theorem filterMap_of_map {α β : Type} (l : List α) (f : α → Option β) (g : List β)
    (h : l.map f = g.map some) : l.filterMap f = g := by
  induction l generalizing g with
  | nil => cases g with
    | nil => rfl
    | cons _ _ => simp at h
  | cons a l ih =>
    cases g with
    | nil => simp at h
    | cons x g =>
      simp only [List.map_cons, List.cons.injEq] at h
      rw [List.filterMap_cons_some h.1, ih g h.2]

theorem apply_eq {α : Type} (v : List α) (p : List Nat) (hp : p.Perm (List.range v.length)) :
    Alg.applyPermutation v p = some (p.filterMap fun i => v[i]?) := by
  obtain ⟨out, h1, h2, h3⟩ := Alg.C12_applyPermutation v p hp
  rw [h1]
  congr 1
  symm
  apply filterMap_of_map
  have hl : p.length = v.length := by simpa using hp.length_eq
  apply List.ext_getElem (by simp; omega)
  intro i a b
  simp only [List.length_map] at a b
  simp only [List.getElem_map]
  rw [← h3 i a, List.getElem?_eq_getElem b]

theorem permute_perm {α : Type} (v : List α) (p : List Nat) (hp : p.Perm (List.range v.length)) :
    (p.filterMap fun i => v[i]?).Perm v := by
  refine (hp.filterMap _).trans (List.Perm.of_eq ?_)
  apply filterMap_of_map
  apply List.ext_getElem (by simp)
  intro i a b
  simp only [List.length_map] at b
  simp [b]

theorem permute_length {α : Type} (v : List α) (p : List Nat) (hp : p.Perm (List.range v.length)) :
    (p.filterMap fun i => v[i]?).length = v.length := (permute_perm v p hp).length_eq

theorem permute_get {α : Type} (v : List α) (p : List Nat) (hp : ∀ i ∈ p, i < v.length) (k : Nat) (j : Nat)
    (hk : p[k]? = some j) : (p.filterMap fun i => v[i]?)[k]? = v[j]? := by
  have key : ∀ p : List Nat, (∀ i ∈ p, i < v.length) →
      (p.filterMap fun i => v[i]?).map some = p.map (fun i => v[i]?) := by
    intro p
    induction p with
    | nil => intro _; rfl
    | cons b p ih =>
      intro hp'
      have hb := List.getElem?_eq_getElem (hp' b (by simp))
      rw [List.filterMap_cons_some hb, List.map_cons, List.map_cons, hb, ih fun i hi => hp' i (by simp [hi])]
  have this := key p hp
  have h2 := congrArg (fun l => l[k]?) this
  simp only [List.getElem?_map, hk, Option.map_some] at h2
  have hj := List.getElem?_eq_getElem (hp j (List.mem_of_getElem? hk))
  rw [hj] at h2 ⊢
  cases hx : (p.filterMap fun i => v[i]?)[k]? with
  | none => rw [hx] at h2; simp at h2
  | some x => rw [hx] at h2; simpa using h2

theorem permute_zip {α β : Type} (v : List α) (w : List β) (p : List Nat) (h1 : ∀ i ∈ p, i < v.length)
    (h2 : ∀ i ∈ p, i < w.length) :
    (p.filterMap fun i => v[i]?).zip (p.filterMap fun i => w[i]?) = p.filterMap fun i => (v.zip w)[i]? := by
  induction p with
  | nil => rfl
  | cons a p ih =>
    have ha := List.getElem?_eq_getElem (h1 a (by simp))
    have hb := List.getElem?_eq_getElem (h2 a (by simp))
    have hc : (v.zip w)[a]? = some (v[a]'(h1 a (by simp)), w[a]'(h2 a (by simp))) := by
      have : a < (v.zip w).length := by
        have := h1 a (by simp); have := h2 a (by simp); simp; omega
      rw [List.getElem?_eq_getElem this, List.getElem_zip]
    rw [List.filterMap_cons_some ha, List.filterMap_cons_some hb, List.filterMap_cons_some hc, List.zip_cons_cons,
      ih (fun i hi => h1 i (by simp [hi])) fun i hi => h2 i (by simp [hi])]

/-- What the loop makes of one set. -/
def sortedSet (sortPerm : List Nat → List Nat) (e : ElSet N D) : ElSet N D where
  name := e.name
  ids := (sortPerm e.ids).filterMap fun i => e.ids[i]?
  data := (sortPerm e.ids).filterMap fun i => e.data[i]?

theorem sortedSet_spec {sortPerm : List Nat → List Nat} (hs : ∀ v, Alg.IsSortPermutation ltNat v (sortPerm v))
    (e : ElSet N D) (hd : e.data = [] ∨ e.data.length = e.ids.length) :
    (sortedSet sortPerm e).ids.Perm e.ids ∧ (sortedSet sortPerm e).pairs.Perm e.pairs ∧
      (sortedSet sortPerm e).ids.Pairwise (· ≤ ·) ∧
      (sortedSet sortPerm e).data.length = e.data.length := by
  have hp : (sortPerm e.ids).Perm (List.range e.ids.length) := (hs e.ids).perm
  have hb : ∀ i ∈ sortPerm e.ids, i < e.ids.length := fun i hi => by simpa using hp.mem_iff.1 hi
  have hids : (sortedSet sortPerm e).ids.Perm e.ids := permute_perm e.ids _ hp
  have hdl : (sortedSet sortPerm e).data.length = e.data.length := by
    rcases hd with hd | hd
    · simp [sortedSet, hd]
    · exact permute_length e.data _ (by rw [hd]; exact hp)
  refine ⟨hids, ?_, ?_, hdl⟩
  · unfold ElSet.pairs
    rcases hd with hd | hd
    · have : (sortedSet sortPerm e).data = [] := by simpa [hd] using hdl
      rw [if_pos hd, if_pos this]
      exact hids.map _
    · by_cases h0 : e.data = []
      · have : (sortedSet sortPerm e).data = [] := by simpa [h0] using hdl
        rw [if_pos h0, if_pos this]
        exact hids.map _
      · have : (sortedSet sortPerm e).data ≠ [] := by
          intro h; rw [h] at hdl; exact h0 (List.eq_nil_of_length_eq_zero hdl.symm)
        rw [if_neg h0, if_neg this]
        have e1 : (sortedSet sortPerm e).data.map some = (sortPerm e.ids).filterMap fun i => (e.data.map some)[i]? := by
          simp only [sortedSet, List.map_filterMap, List.getElem?_map]
        rw [e1]
        show ((sortPerm e.ids).filterMap fun i => e.ids[i]?).zip _ |>.Perm _
        rw [permute_zip e.ids (e.data.map some) _ hb (by simpa [hd] using hb)]
        apply permute_perm
        simpa [hd] using hp
  · show ((sortPerm e.ids).filterMap fun i => e.ids[i]?).Pairwise _
    rw [List.pairwise_filterMap]
    refine (hs e.ids).sorted.imp ?_
    intro i j hij a ha b hb'
    unfold Alg.permLess at hij
    rw [ha, hb'] at hij
    simp only [ltNat, decide_eq_false_iff_not, not_lt] at hij
    exact hij

/-- `sortElsets` on a soup with at least one element set: the sets come out ordered by name, each with its
ids in increasing order and with the same (id, datum) pairs; vertices and elements are untouched. -/
theorem C47_sortElsets (lt : N → N → Bool) (sortPairs : List (N × Nat) → List (N × Nat))
    (sortPerm : List Nat → List Nat) (hsp : ∀ l, IsStdSort (Alg.pairLt lt ltNat) l (sortPairs l))
    (hs : ∀ v, Alg.IsSortPermutation ltNat v (sortPerm v))
    (s : Soup V T N D) (els : List (T × List Nat)) (sets : List (ElSet N D)) (hrep : Rep s els sets)
    (hg : GoodSets sets) (hne : sets ≠ []) :
    ∃ s' sets', sortElsets sortPairs sortPerm s = some s' ∧ Rep s' els sets' ∧ GoodSets sets' ∧
      s'.verts = s.verts ∧ sets'.Pairwise (fun a b => lt b.name a.name = false) ∧
      ∃ order, order.Perm sets ∧ List.Forall₂ (fun e e' : ElSet N D =>
        e'.name = e.name ∧ e'.pairs.Perm e.pairs ∧ e'.ids.Pairwise (· ≤ ·)) order sets' := by
  -- the permutation found by sorting the names
  let P := sortPairs s.names.zipIdx
  have hPp : P.Perm s.names.zipIdx := (hsp _).perm
  have hnl : s.names.length = sets.length := by rw [hrep.names]; simp
  have hPl : P.length = sets.length := by rw [hPp.length_eq]; simp [hnl]
  let q := P.map (·.2)
  have hq : q.Perm (List.range sets.length) := by
    refine (hPp.map _).trans (List.Perm.of_eq ?_)
    rw [← hnl, List.zipIdx_map_snd, List.range_eq_range']
  have hqb : ∀ i ∈ q, i < sets.length := fun i hi => by simpa using hq.mem_iff.1 hi
  let es := q.filterMap fun i => sets[i]?
  have hesp : es.Perm sets := permute_perm sets q hq
  have hesl : es.length = sets.length := hesp.length_eq
  have hPk : ∀ k (hk : k < es.length), ∃ j, P[k]? = some (es[k].name, j) ∧ q[k]? = some j ∧ sets[j]? = some es[k] := by
    intro k hk
    have hk' : k < P.length := by omega
    have hqk : q[k]? = some P[k].2 := by simp [q, hk']
    have h1 := permute_get sets q hqb k _ hqk
    have h2 : es[k]? = some es[k] := List.getElem?_eq_getElem hk
    have h3 : sets[P[k].2]? = some es[k] := by rw [← h1]; exact h2
    refine ⟨P[k].2, ?_, hqk, h3⟩
    have hm : P[k] ∈ s.names.zipIdx := hPp.mem_iff.1 (List.getElem_mem hk')
    have h4 := List.mem_zipIdx_iff_getElem?.1 hm
    rw [hrep.names, List.getElem?_map, h3] at h4
    simp only [Option.map_some, Option.some.injEq] at h4
    rw [List.getElem?_eq_getElem hk', h4]
  let out := es.map (sortedSet sortPerm)
  have hol : out.length = sets.length := by simp [out, hesl]
  have hgd : ∀ e ∈ es, e.data = [] ∨ e.data.length = e.ids.length := fun e he => hg.data e (hesp.mem_iff.1 he)
  have hidl : ∀ e ∈ es, (sortedSet sortPerm e).ids.length = e.ids.length :=
    fun e he => (sortedSet_spec hs e (hgd e he)).1.length_eq
  have htotal : (out.map (·.ids)).flatten.length = s.sids.length := by
    rw [hrep.sids, List.length_flatten, List.length_flatten, List.map_map, List.map_map]
    simp only [List.map_map]
    have e1 : es.map ((List.length ∘ fun x => x.ids) ∘ sortedSet sortPerm) = es.map (List.length ∘ fun x => x.ids) := by
      apply List.map_congr_left
      intro e he
      exact hidl e he
    rw [e1]
    exact (hesp.map _).sum_nat
  have hsoffl : s.soffs.length = sets.length + 1 := by
    rw [hrep.soffs, offsOf_ne _ (by simpa using hne), psum_length]; simp
  have hput0 : put (List.replicate s.soffs.length 0) 0 0 = some (List.replicate s.soffs.length 0) := by
    unfold put
    rw [if_pos (by simp; omega), hsoffl, List.replicate_succ, List.set_cons_zero]
  -- the loop
  have hloop : ∀ k, k ≤ sets.length → ∃ st,
      (List.range k).foldlM (sortStep sortPerm s.soffs s.sids P)
        { names := s.names, offs := List.replicate s.soffs.length 0, ids := List.replicate s.sids.length 0,
          data := List.replicate s.sdata.length [], old := s.sdata, offset := 0 } = some st ∧
      st.names = (out.take k).map (·.name) ++ s.names.drop k ∧
      st.offs = psum ((out.take k).map fun e => e.ids.length) ++ List.replicate (sets.length - k) 0 ∧
      (∃ rest, st.ids = ((out.take k).map (·.ids)).flatten ++ rest) ∧ st.ids.length = s.sids.length ∧
      st.data = (out.take k).map (·.data) ++ List.replicate (sets.length - k) [] ∧
      (∀ (j : Nat) (e : ElSet N D), sets[j]? = some e → j ∉ q.take k → st.old[j]? = some e.data) ∧
      st.offset = ((out.take k).map fun e => e.ids.length).sum := by
    intro k
    induction k with
    | zero =>
      intro _
      refine ⟨_, rfl, by simp, ?_, ⟨_, rfl⟩, by simp, ?_, ?_, rfl⟩
      · simp only [List.take_zero, List.map_nil, psum_nil, hsoffl, List.replicate_succ, Nat.sub_zero]
        rfl
      · simp [hrep.sdata]
      · intro j e he _
        simp [hrep.sdata, he]
    | succ k ih =>
      intro hk
      obtain ⟨st, i1, i2, i3, ⟨rest, i4⟩, i5, i6, i7, i8⟩ := ih (by omega)
      have hke : k < es.length := by omega
      obtain ⟨j, hP, hqk, hj⟩ := hPk k hke
      have hmem : es[k] ∈ es := List.getElem_mem hke
      have hokk : out[k]? = some (sortedSet sortPerm es[k]) := by simp [out, hke]
      have htake : out.take (k + 1) = out.take k ++ [sortedSet sortPerm es[k]] := by
        rw [List.take_add_one, hokk]; rfl
      obtain ⟨a, r1, r2, r3, r4⟩ := offsOf_read (sets.map (·.ids)) j es[k].ids (by simp [hj])
      rw [← hrep.soffs] at r1 r2
      rw [← hrep.sids] at r4
      have hsz : a + es[k].ids.length - a = es[k].ids.length := by omega
      have hperm : (sortPerm es[k].ids).Perm (List.range es[k].ids.length) := (hs _).perm
      -- names
      have n1 : ((out.take k).map (·.name)).length = k := by simp; omega
      have n2 : put st.names k es[k].name
          = some ((out.take (k + 1)).map (·.name) ++ s.names.drop (k + 1)) := by
        unfold put
        rw [i2, if_pos (by rw [List.length_append, n1, List.length_drop]; omega)]
        rw [List.set_append_right _ _ (by omega), n1, Nat.sub_self, List.drop_eq_getElem_cons (by omega),
          List.set_cons_zero, htake, List.map_append]
        simp [sortedSet]
      -- offsets
      have o1 : (psum ((out.take k).map fun e => e.ids.length)).length = k + 1 := by
        rw [psum_length]; simp; omega
      have o2 : put st.offs (k + 1) (st.offset + es[k].ids.length)
          = some (psum ((out.take (k + 1)).map fun e => e.ids.length) ++ List.replicate (sets.length - (k + 1)) 0) := by
        have hr : sets.length - k = (sets.length - (k + 1)) + 1 := by omega
        unfold put
        rw [i3, if_pos (by rw [List.length_append, o1, List.length_replicate]; omega)]
        rw [List.set_append_right _ _ (by omega), o1, Nat.sub_self, hr, List.replicate_succ,
          List.set_cons_zero, htake, List.map_append, List.map_cons, List.map_nil, psum_append, i8,
          hidl _ hmem]
        simp
      have o3 : (psum ((out.take (k + 1)).map fun e => e.ids.length) ++ List.replicate (sets.length - (k + 1)) 0)[k]?
          = some ((out.take k).map (·.ids)).flatten.length := by
        rw [List.getElem?_append_left (by rw [psum_length]; simp; omega), psum_get _ _ (by simp; omega),
          ← List.map_take, List.take_take, Nat.min_eq_left (by omega), List.length_flatten, List.map_map]
        rfl
      -- room for the ids
      have hroom : ((out.take k).map (·.ids)).flatten.length + es[k].ids.length ≤ s.sids.length := by
        rw [← htotal]
        have h1 : (out.map (·.ids)).flatten.length
            = ((out.take (k + 1)).map (·.ids)).flatten.length + ((out.drop (k + 1)).map (·.ids)).flatten.length := by
          rw [← List.length_append, ← List.flatten_append, ← List.map_append, List.take_append_drop]
        rw [h1, htake, List.map_append, List.flatten_append, List.length_append]
        simp [hidl _ hmem]
      -- data
      have hnotin : j ∉ q.take k := by
        intro hmem'
        have hnd : q.Nodup := hq.nodup_iff.2 List.nodup_range
        obtain ⟨i, hi, hij⟩ := List.getElem_of_mem hmem'
        rw [List.getElem_take] at hij
        have hi' : i < k := by simp at hi; omega
        obtain ⟨hkq, hkq'⟩ := List.getElem?_eq_some_iff.1 hqk
        have := (List.Nodup.getElem_inj_iff hnd (hi := by simp at hi; omega) (hj := hkq)).1 (hij.trans hkq'.symm)
        omega
      have hold := i7 j es[k] hj hnotin
      have hd' : (if es[k].data.isEmpty then some es[k].data else Alg.applyPermutation es[k].data (sortPerm es[k].ids))
          = some (sortedSet sortPerm es[k]).data := by
        rcases hgd _ hmem with h | h
        · simp [h, sortedSet]
        · split_ifs with h0
          · simp only [List.isEmpty_iff] at h0
            simp [h0, sortedSet]
          · rw [apply_eq _ _ (by rw [h]; exact hperm)]; rfl
      have d1 : ((out.take k).map (·.data)).length = k := by simp; omega
      have d2 : put st.data k (sortedSet sortPerm es[k]).data
          = some ((out.take (k + 1)).map (·.data) ++ List.replicate (sets.length - (k + 1)) []) := by
        have hr : sets.length - k = (sets.length - (k + 1)) + 1 := by omega
        unfold put
        rw [i6, if_pos (by rw [List.length_append, d1, List.length_replicate]; omega)]
        rw [List.set_append_right _ _ (by omega), d1, Nat.sub_self, hr, List.replicate_succ,
          List.set_cons_zero, htake, List.map_append]
        simp
      have hstep : sortStep sortPerm s.soffs s.sids P st k = some
          { names := (out.take (k + 1)).map (·.name) ++ s.names.drop (k + 1)
            offs := psum ((out.take (k + 1)).map fun e => e.ids.length) ++ List.replicate (sets.length - (k + 1)) 0
            ids := st.ids.take ((out.take k).map (·.ids)).flatten.length ++ (sortedSet sortPerm es[k]).ids ++
              st.ids.drop (((out.take k).map (·.ids)).flatten.length + es[k].ids.length)
            data := (out.take (k + 1)).map (·.data) ++ List.replicate (sets.length - (k + 1)) []
            old := st.old.set j []
            offset := st.offset + es[k].ids.length } := by
        unfold sortStep
        rw [hP]
        simp only [Option.bind_some]
        rw [n2]
        simp only [Option.bind_some]
        rw [r1, r2]
        simp only [Option.bind_some]
        rw [r4, hsz]
        simp only [Option.bind_some]
        rw [o2]
        simp only [Option.bind_some]
        rw [o3]
        simp only [Option.bind_some]
        rw [apply_eq _ _ hperm]
        simp only [Option.bind_some]
        rw [if_neg (by omega), hold]
        simp only [Option.bind_some]
        rw [hd']
        simp only [Option.bind_some]
        rw [d2]
        rfl
      refine ⟨{ names := (out.take (k + 1)).map (·.name) ++ s.names.drop (k + 1)
                offs := psum ((out.take (k + 1)).map fun e => e.ids.length) ++
                  List.replicate (sets.length - (k + 1)) 0
                ids := st.ids.take ((out.take k).map (·.ids)).flatten.length ++ (sortedSet sortPerm es[k]).ids ++
                  st.ids.drop (((out.take k).map (·.ids)).flatten.length + es[k].ids.length)
                data := (out.take (k + 1)).map (·.data) ++ List.replicate (sets.length - (k + 1)) []
                old := st.old.set j []
                offset := st.offset + es[k].ids.length }, ?_, rfl, rfl, ?_, ?_, rfl, ?_, ?_⟩
      · rw [List.range_succ, List.foldlM_append, i1]
        simp only [Option.bind_eq_bind, Option.bind_some, List.foldlM_cons, List.foldlM_nil, hstep]
        rfl
      · refine ⟨st.ids.drop (((out.take k).map (·.ids)).flatten.length + es[k].ids.length), ?_⟩
        dsimp only
        have : st.ids.take ((out.take k).map (·.ids)).flatten.length = ((out.take k).map (·.ids)).flatten := by
          rw [i4, List.take_left]
        rw [this, htake, List.map_append, List.flatten_append]
        simp
      · dsimp only
        simp only [List.length_append, List.length_take, List.length_drop, hidl _ hmem]
        omega
      · intro j' e he hnot
        dsimp only
        have hqt : q.take (k + 1) = q.take k ++ [j] := by rw [List.take_add_one, hqk]; rfl
        rw [hqt] at hnot
        simp only [List.mem_append, List.mem_singleton, not_or] at hnot
        rw [List.getElem?_set_ne (fun h => hnot.2 h.symm)]
        exact i7 j' e he hnot.1
      · dsimp only
        rw [i8, htake, List.map_append, List.sum_append]
        simp [hidl _ hmem]
  obtain ⟨st, l1, l2, l3, ⟨rest, l4⟩, l5, l6, -, -⟩ := hloop sets.length le_rfl
  have hot : out.take sets.length = out := List.take_of_length_le (by omega)
  rw [hot] at l2 l3 l4 l6
  have hrest : rest = [] := by
    have := congrArg List.length l4
    rw [List.length_append, htotal, l5] at this
    exact List.eq_nil_of_length_eq_zero (by omega)
  rw [hrest, List.append_nil] at l4
  rw [Nat.sub_self, List.replicate_zero, List.append_nil] at l3 l6
  rw [List.drop_eq_nil_of_le (by omega), List.append_nil] at l2
  have hone : out ≠ [] := by
    intro h; rw [h] at hol; simp at hol; exact hne (List.eq_nil_of_length_eq_zero (by simpa using hol.symm))
  have hnames : out.map (·.name) = es.map (·.name) := by simp [out, sortedSet]
  refine ⟨{ s with names := st.names, soffs := st.offs, sids := st.ids, sdata := st.data }, out, ?_, ?_, ?_, rfl,
    ?_, es, hesp, ?_⟩
  · show (put (List.replicate s.soffs.length 0) 0 0).bind _ = _
    rw [hput0]
    simp only [Option.bind_some, hnl]
    rw [l1]
    rfl
  · constructor
    · exact hrep.types
    · exact hrep.conn
    · exact hrep.eoffs
    · exact l2
    · exact l4
    · dsimp only
      rw [l3, offsOf_ne _ (by simpa using hone)]
      congr 1
      simp [Function.comp_def]
    · exact l6
  · constructor
    · rw [hnames, (hesp.map _).nodup_iff]; exact hg.nodup
    · intro e he
      obtain ⟨e0, he0, rfl⟩ := List.mem_map.1 he
      intro h
      have := hidl e0 he0
      rw [h] at this
      exact hg.ids e0 (hesp.mem_iff.1 he0) (List.eq_nil_of_length_eq_zero this.symm)
    · intro e he
      obtain ⟨e0, he0, rfl⟩ := List.mem_map.1 he
      obtain ⟨-, -, -, h4⟩ := sortedSet_spec hs e0 (hgd e0 he0)
      rw [hidl e0 he0]
      rcases hgd e0 he0 with h | h
      · left; rw [h] at h4; exact List.eq_nil_of_length_eq_zero h4
      · right; omega
  · -- names in order
    have hsorted : P.Pairwise fun a b => lt b.1 a.1 = false := by
      refine (hsp _).sorted.imp ?_
      intro a b hab
      unfold Alg.pairLt at hab
      rw [Bool.or_eq_false_iff] at hab
      exact hab.1
    have hPn : P.map (·.1) = out.map (·.name) := by
      rw [hnames]
      apply List.ext_getElem (by simp [hPl, hesl])
      intro i h1 h2
      simp only [List.length_map] at h1 h2
      obtain ⟨j, hP, -, -⟩ := hPk i h2
      rw [List.getElem?_eq_getElem h1] at hP
      simp only [Option.some.injEq] at hP
      simp [hP]
    have : (out.map (·.name)).Pairwise fun a b => lt b a = false := by
      rw [← hPn, List.pairwise_map]; exact hsorted
    rwa [List.pairwise_map] at this
  · have : ∀ l : List (ElSet N D), (∀ e ∈ l, e ∈ es) → List.Forall₂ (fun e e' : ElSet N D =>
        e'.name = e.name ∧ e'.pairs.Perm e.pairs ∧ e'.ids.Pairwise (· ≤ ·)) l (l.map (sortedSet sortPerm)) := by
      intro l
      induction l with
      | nil => intro _; exact .nil
      | cons e l ih =>
        intro h
        obtain ⟨-, h2, h3, -⟩ := sortedSet_spec hs e (hgd e (h e (by simp)))
        exact .cons ⟨rfl, h2, h3⟩ (ih fun x hx => h x (by simp [hx]))
    exact this es fun e he => he

/-- Without element sets the function writes to the first entry of an empty vector. -/
theorem C47_no_sets_fails (sortPairs : List (N × Nat) → List (N × Nat)) (sortPerm : List Nat → List Nat)
    (s : Soup V T N D) (els : List (T × List Nat)) (hrep : Rep s els []) :
    sortElsets sortPairs sortPerm s = none := by
  unfold sortElsets
  have : s.soffs = [] := hrep.soffs
  rw [this]
  rfl

/-- A soup with two sets in the wrong order. -/
example : Rep (⟨[], [], [], [], [2, 1], [0, 2, 3], [1, 0, 0], [[5, 6], []]⟩ : Soup Nat Nat Nat Nat) []
    [⟨2, [1, 0], [5, 6]⟩, ⟨1, [0], []⟩] := ⟨rfl, rfl, rfl, rfl, rfl, rfl, rfl⟩
example : GoodSets ([⟨2, [1, 0], [5, 6]⟩, ⟨1, [0], []⟩] : List (ElSet Nat Nat)) :=
  ⟨by decide, by simp, by simp⟩

end Verif.Polytope
