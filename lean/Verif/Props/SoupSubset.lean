import Verif.Props.Soup
import Verif.Props.SoupSort
import Mathlib.Data.List.Pairwise

/-!
# C49 Element-set extraction yields the sub-mesh
-/

namespace Verif.Polytope

variable {V T N D : Type}

/-! ### The standard algorithms -/

theorem isSorted_iff (l : List Nat) : isSorted l = true ↔ l.Pairwise (· ≤ ·) := by
  induction l with
  | nil => simp [isSorted]
  | cons a l ih =>
    cases l with
    | nil => simp [isSorted]
    | cons b l =>
      rw [isSorted, Bool.and_eq_true, ih, List.pairwise_cons (a := a) (l := b :: l)]
      simp only [decide_eq_true_eq, not_lt]
      constructor
      · rintro ⟨h1, h2⟩
        refine ⟨?_, h2⟩
        intro c hc
        rcases List.mem_cons.1 hc with rfl | hc
        · exact h1
        · exact h1.trans ((List.pairwise_cons.1 h2).1 c hc)
      · rintro ⟨h1, h2⟩
        exact ⟨h1 b (by simp), h2⟩

theorem unique_spec (l : List Nat) (h : l.Pairwise (· ≤ ·)) :
    (unique l).Pairwise (· < ·) ∧ (∀ x, x ∈ unique l ↔ x ∈ l) := by
  induction l with
  | nil => simp [unique]
  | cons a l ih =>
    cases l with
    | nil => simp [unique]
    | cons b l =>
      obtain ⟨h1, h2⟩ := List.pairwise_cons.1 h
      obtain ⟨i1, i2⟩ := ih h2
      rw [unique]
      split_ifs with hab
      · refine ⟨i1, fun x => ?_⟩
        rw [i2, hab]; simp
      · refine ⟨?_, fun x => ?_⟩
        · rw [List.pairwise_cons]
          refine ⟨?_, i1⟩
          intro c hc
          have hc' := (i2 c).1 hc
          have hle := h1 c hc'
          have hb : b ≤ c := by
            rcases List.mem_cons.1 hc' with rfl | hc''
            · exact le_rfl
            · exact (List.pairwise_cons.1 h2).1 c hc''
          have := h1 b (by simp)
          omega
        · rw [List.mem_cons, i2, List.mem_cons (a := x) (b := a)]

theorem lowerBound_spec (l : List Nat) (h : l.Pairwise (· < ·)) (k x : Nat) (hk : l[k]? = some x) :
    lowerBound l x = k := by
  unfold lowerBound
  obtain ⟨hlt, hx⟩ := List.getElem?_eq_some_iff.1 hk
  rw [List.findIdx_eq hlt]
  refine ⟨by simp [hx], ?_⟩
  intro j hj
  have := List.pairwise_iff_getElem.1 h j k (by omega) hlt hj
  simp only [not_lt, decide_eq_false_iff_not, not_le]
  omega

theorem lowerBound_get (l : List Nat) (h : l.Pairwise (· < ·)) (x : Nat) (hx : x ∈ l) :
    l[lowerBound l x]? = some x := by
  obtain ⟨k, hk, rfl⟩ := List.getElem_of_mem hx
  rw [lowerBound_spec l h k _ (List.getElem?_eq_getElem hk), List.getElem?_eq_getElem hk]

theorem setIntersection_spec (l m : List Nat) (hl : l.Pairwise (· < ·)) (hm : m.Pairwise (· < ·)) :
    setIntersection l m = l.filter fun x => decide (x ∈ m) := by
  induction l, m using setIntersection.induct with
  | case1 m => simp [setIntersection]
  | case2 a l => simp [setIntersection]
  | case3 a l b m hab ih =>
    rw [setIntersection, if_pos hab, ih (List.pairwise_cons.1 hl).2 hm, List.filter_cons_of_neg]
    simp only [List.mem_cons, decide_eq_true_eq, not_or]
    refine ⟨by omega, fun h => ?_⟩
    have := (List.pairwise_cons.1 hm).1 a h
    omega
  | case4 a l b m hab hba ih =>
    rw [setIntersection, if_neg hab, if_pos hba, ih hl (List.pairwise_cons.1 hm).2]
    apply List.filter_congr
    intro x hx
    have : x ≠ b := by
      rintro rfl
      rcases List.mem_cons.1 hx with h | h
      · omega
      · have := (List.pairwise_cons.1 hl).1 x h; omega
    simp [this]
  | case5 a l b m hab hba ih =>
    have : a = b := by omega
    subst this
    rw [setIntersection, if_neg hab, if_neg hba, ih (List.pairwise_cons.1 hl).2 (List.pairwise_cons.1 hm).2,
      List.filter_cons_of_pos (by simp)]
    congr 1
    apply List.filter_congr
    intro x hx
    have : x ≠ a := by
      have := (List.pairwise_cons.1 hl).1 x hx
      omega
    simp [this]

/-! ### Specification -/

/-- `r` is the set `o` restricted to the elements `ids`, renumbered by their position in `ids`. -/
structure IsRestriction (ids : List Nat) (o r : ElSet N D) : Prop where
  name : r.name = o.name
  sorted : r.ids.Pairwise (· < ·)
  mem : ∀ k, k ∈ r.ids ↔ ∃ i, ids[k]? = some i ∧ i ∈ o.ids
  nodata : o.data = [] → r.data = []
  data : o.data ≠ [] → r.data.length = r.ids.length ∧ ∀ (m k : Nat), r.ids[m]? = some k →
    ∃ (i p : Nat), ids[k]? = some i ∧ o.ids[p]? = some i ∧ r.data[m]? = o.data[p]?

/-- What the code makes of another set. -/
def restr (ids : List Nat) (o : ElSet N D) : ElSet N D where
  name := o.name
  ids := (ids.filter fun x => decide (x ∈ o.ids)).map (lowerBound ids)
  data := (ids.filter fun x => decide (x ∈ o.ids)).filterMap fun e => o.data[lowerBound o.ids e]?

theorem restr_data (ids : List Nat) (o : ElSet N D) (ho : o.ids.Pairwise (· < ·))
    (hd : o.data.length = o.ids.length) :
    (restr ids o).data.map some = (ids.filter fun x => decide (x ∈ o.ids)).map fun e => o.data[lowerBound o.ids e]? := by
  unfold restr
  dsimp only
  generalize hl : (ids.filter fun x => decide (x ∈ o.ids)) = l
  have hmem : ∀ x ∈ l, x ∈ o.ids := by
    intro x hx
    rw [← hl, List.mem_filter] at hx
    simpa using hx.2
  clear hl
  induction l with
  | nil => rfl
  | cons a l ih =>
    have hg := lowerBound_get o.ids ho a (hmem a (by simp))
    have hlt : lowerBound o.ids a < o.data.length := by
      rw [hd]; exact (List.getElem?_eq_some_iff.1 hg).1
    have h1 := List.getElem?_eq_getElem hlt
    rw [List.filterMap_cons_some (f := fun e => o.data[lowerBound o.ids e]?) h1, List.map_cons, List.map_cons, h1,
      ih fun x hx => hmem x (by simp [hx])]

theorem restr_spec (ids : List Nat) (o : ElSet N D) (hi : ids.Pairwise (· < ·)) (ho : o.ids.Pairwise (· < ·))
    (hd : o.data = [] ∨ o.data.length = o.ids.length) : IsRestriction ids o (restr ids o) := by
  have hmono : ∀ x ∈ ids, ∀ y ∈ ids, x < y → lowerBound ids x < lowerBound ids y := by
    intro x hx y hy hxy
    have h1 := lowerBound_get ids hi x hx
    have h2 := lowerBound_get ids hi y hy
    by_contra hle
    push Not at hle
    obtain ⟨l1, e1⟩ := List.getElem?_eq_some_iff.1 h1
    obtain ⟨l2, e2⟩ := List.getElem?_eq_some_iff.1 h2
    rcases Nat.lt_or_ge (lowerBound ids y) (lowerBound ids x) with h | h
    · have := List.pairwise_iff_getElem.1 hi _ _ l2 l1 h
      omega
    · have he : lowerBound ids x = lowerBound ids y := by omega
      rw [he, h2] at h1
      simp only [Option.some.injEq] at h1
      omega
  constructor
  · rfl
  · unfold restr
    dsimp only
    rw [List.pairwise_map]
    refine List.Pairwise.imp_of_mem ?_ (hi.filter _)
    intro a b ha hb hab
    exact hmono a (List.mem_filter.1 ha).1 b (List.mem_filter.1 hb).1 hab
  · intro k
    unfold restr
    simp only [List.mem_map, List.mem_filter, decide_eq_true_eq]
    constructor
    · rintro ⟨x, ⟨h1, h2⟩, rfl⟩
      exact ⟨x, lowerBound_get ids hi x h1, h2⟩
    · rintro ⟨i, h1, h2⟩
      exact ⟨i, ⟨List.mem_of_getElem? h1, h2⟩, lowerBound_spec ids hi k i h1⟩
  · intro h
    simp [restr, h]
  · intro hne
    have hd' : o.data.length = o.ids.length := hd.resolve_left hne
    have hmap := restr_data ids o ho hd'
    refine ⟨?_, ?_⟩
    · have := congrArg List.length hmap
      simpa [restr] using this
    · intro m k hmk
      have hm : m < (ids.filter fun x => decide (x ∈ o.ids)).length := by
        have := (List.getElem?_eq_some_iff.1 hmk).1
        simpa [restr] using this
      let i := (ids.filter fun x => decide (x ∈ o.ids))[m]
      have hi' : i ∈ ids.filter fun x => decide (x ∈ o.ids) := List.getElem_mem hm
      have hi1 := (List.mem_filter.1 hi').1
      have hi2 : i ∈ o.ids := by simpa using (List.mem_filter.1 hi').2
      have hk : k = lowerBound ids i := by
        have : (restr ids o).ids[m]? = some (lowerBound ids i) := by
          simp [restr, List.getElem?_eq_getElem hm, i]
        rw [hmk] at this
        exact Option.some.inj this
      refine ⟨i, lowerBound o.ids i, by rw [hk]; exact lowerBound_get ids hi i hi1, lowerBound_get o.ids ho i hi2, ?_⟩
      have h1 := congrArg (fun l => l[m]?) hmap
      simp only [List.getElem?_map, List.getElem?_eq_getElem hm, Option.map_some] at h1
      have hlt : lowerBound o.ids i < o.data.length := by
        rw [hd']; exact (List.getElem?_eq_some_iff.1 (lowerBound_get o.ids ho i hi2)).1
      have h2 := List.getElem?_eq_getElem hlt
      cases hr : (restr ids o).data[m]? with
      | none => rw [hr] at h1; simp at h1
      | some x =>
        rw [hr] at h1
        simp only [Option.map_some, Option.some.injEq] at h1
        exact h1

/-! ### The loops -/

theorem foldl_addVertex (vs : List V) (sub : Soup V T N D) :
    vs.foldl (fun sub v => (addVertex sub v).1) sub = { sub with verts := sub.verts ++ vs } := by
  induction vs generalizing sub with
  | nil => simp
  | cons v vs ih =>
    rw [List.foldl_cons, ih]
    simp [addVertex]

theorem foldl_addElement (f : List Nat → List Nat) (es : List (T × List Nat)) (sub : Soup V T N D)
    (els : List (T × List Nat)) (sets : List (ElSet N D)) (h : Rep sub els sets) :
    Rep (es.foldl (fun sub e => (addElement sub e.1 (f e.2)).1) sub) (els ++ es.map fun e => (e.1, f e.2)) sets ∧
      (es.foldl (fun sub e => (addElement sub e.1 (f e.2)).1) sub).verts = sub.verts := by
  induction es generalizing sub els with
  | nil => simpa using h
  | cons e es ih =>
    rw [List.foldl_cons]
    obtain ⟨h1, h2⟩ := ih (addElement sub e.1 (f e.2)).1 (els ++ [(e.1, f e.2)]) (h.addElement e.1 (f e.2))
    refine ⟨by simpa using h1, ?_⟩
    rw [h2]; rfl

theorem filter_isEmpty (ids oids : List Nat) :
    (ids.filter fun x => decide (x ∈ oids)).isEmpty = true ↔ ¬ ∃ i ∈ ids, i ∈ oids := by
  rw [List.isEmpty_iff, List.filter_eq_nil_iff]
  simp

/-- `getSubset` into an empty soup.  `e` is the element set asked for; the ids of every set are strictly
increasing and refer to elements, the connectivities refer to vertices. -/
theorem C49_subset [DecidableEq N] (sortIds : List Nat → List Nat) (hsort : ∀ l, IsStdSort ltNat l (sortIds l))
    (s : Soup V T N D) (els : List (T × List Nat)) (sets : List (ElSet N D)) (hrep : Rep s els sets)
    (hg : GoodSets sets) (hconn : ∀ el ∈ els, ∀ v ∈ el.2, v < s.verts.length)
    (hinc : ∀ o ∈ sets, o.ids.Pairwise (· < ·)) (hids : ∀ o ∈ sets, ∀ i ∈ o.ids, i < els.length)
    (e : ElSet N D) (he : e ∈ sets) :
    ∃ (sub : Soup V T N D) (uniq : List Nat) (subEls : List (T × List Nat)) (subSets : List (ElSet N D)),
      getSubset sortIds s e.name empty = some sub ∧
      Rep sub subEls subSets ∧ GoodSets subSets ∧
      uniq.Pairwise (· < ·) ∧ (∀ v, v ∈ uniq ↔ ∃ i ∈ e.ids, ∃ el, els[i]? = some el ∧ v ∈ el.2) ∧
      sub.verts.map some = uniq.map (fun v => s.verts[v]?) ∧
      List.Forall₂ (fun i el' => ∃ el, els[i]? = some el ∧ el'.1 = el.1 ∧
        el'.2.map (fun v => uniq[v]?) = el.2.map some) e.ids subEls ∧
      List.Forall₂ (IsRestriction e.ids)
        (sets.filter fun o => decide (o.name ≠ e.name ∧ ∃ i ∈ e.ids, i ∈ o.ids)) subSets := by
  -- the position of the set
  obtain ⟨k, hk, hke⟩ := List.getElem_of_mem he
  have hfind : s.names.findIdx? (fun n => decide (n = e.name)) = some k := by
    rw [List.findIdx?_eq_some_iff_getElem]
    refine ⟨by rw [hrep.names]; simpa using hk, ?_, ?_⟩
    · simp only [hrep.names, List.getElem_map, hke, decide_true]
    · intro j hj
      simp only [hrep.names, List.getElem_map, decide_eq_true_eq]
      intro h
      have hj' : j < sets.length := by omega
      have := (List.Nodup.getElem_inj_iff (l := sets.map (·.name)) (i := j) (j := k)
        (hi := by simpa using hj') (hj := by simpa using hk) hg.nodup).1 (by simp [h, hke])
      omega
  have hnl : s.names.length = sets.length := by rw [hrep.names]; simp
  have hread : ∀ (j : Nat) (hj : j < sets.length), ∃ a b, s.soffs[j]? = some a ∧ s.soffs[j + 1]? = some b ∧
      readBlock s.sids a b = some sets[j].ids ∧ s.names[j]? = some sets[j].name ∧
      s.sdata[j]? = some sets[j].data := by
    intro j hj
    have hj' : sets[j]? = some sets[j] := List.getElem?_eq_getElem hj
    obtain ⟨a, r1, r2, -, r4⟩ := offsOf_read (sets.map (·.ids)) j sets[j].ids (by simp [hj'])
    rw [← hrep.soffs] at r1 r2
    rw [← hrep.sids] at r4
    exact ⟨a, _, r1, r2, r4, by rw [hrep.names]; simp [hj'], by rw [hrep.sdata]; simp [hj']⟩
  obtain ⟨a, b, r1, r2, r3, -, -⟩ := hread k hk
  rw [hke] at r3
  have hei := hinc e he
  have hsorted : isSorted e.ids = true := (isSorted_iff _).2 (hei.imp (fun h => Nat.le_of_lt h))
  -- the elements
  let sel : List (T × List Nat) := e.ids.filterMap fun i => els[i]?
  have hselmap : e.ids.map (fun i => els[i]?) = sel.map some := by
    have : ∀ l : List Nat, (∀ i ∈ l, i < els.length) →
        l.map (fun i => els[i]?) = (l.filterMap fun i => els[i]?).map some := by
      intro l
      induction l with
      | nil => intro _; rfl
      | cons i l ih =>
        intro h
        have h1 := List.getElem?_eq_getElem (h i (by simp))
        rw [List.filterMap_cons_some h1, List.map_cons, List.map_cons, h1, ih fun x hx => h x (by simp [hx])]
    exact this e.ids (hids e he)
  have hselems : subsetElems s e.ids = some sel := by
    unfold subsetElems
    apply mapM_some
    rw [← hselmap]
    apply List.map_congr_left
    intro i _
    exact C46_getElement s els sets hrep i
  let uniq := unique (sortIds (sel.map (·.2)).flatten)
  have hss : (sortIds (sel.map (·.2)).flatten).Pairwise (· ≤ ·) := by
    refine (hsort _).sorted.imp ?_
    intro x y hxy
    simpa [ltNat] using hxy
  obtain ⟨hu1, hu2⟩ := unique_spec _ hss
  have hselmem : ∀ el, el ∈ sel ↔ ∃ i ∈ e.ids, els[i]? = some el := by
    intro el
    simp only [sel, List.mem_filterMap]
  have huniq : ∀ v, v ∈ uniq ↔ ∃ i ∈ e.ids, ∃ el, els[i]? = some el ∧ v ∈ el.2 := by
    intro v
    show v ∈ unique _ ↔ _
    rw [hu2, (hsort _).perm.mem_iff, List.mem_flatten]
    constructor
    · rintro ⟨l, hl, hv⟩
      obtain ⟨el, hel, rfl⟩ := List.mem_map.1 hl
      obtain ⟨i, hi, hie⟩ := (hselmem el).1 hel
      exact ⟨i, hi, el, hie, hv⟩
    · rintro ⟨i, hi, el, hie, hv⟩
      exact ⟨el.2, List.mem_map_of_mem ((hselmem el).2 ⟨i, hi, hie⟩), hv⟩
  -- the vertices
  let vs : List V := uniq.filterMap fun v => s.verts[v]?
  have hvb : ∀ v ∈ uniq, v < s.verts.length := by
    intro v hv
    obtain ⟨i, hi, el, hie, hv⟩ := (huniq v).1 hv
    exact hconn el (List.mem_of_getElem? hie) v hv
  have hvsmap : uniq.map (fun v => s.verts[v]?) = vs.map some := by
    have : ∀ l : List Nat, (∀ i ∈ l, i < s.verts.length) →
        l.map (fun i => s.verts[i]?) = (l.filterMap fun i => s.verts[i]?).map some := by
      intro l
      induction l with
      | nil => intro _; rfl
      | cons i l ih =>
        intro h
        have h1 := List.getElem?_eq_getElem (h i (by simp))
        rw [List.filterMap_cons_some h1, List.map_cons, List.map_cons, h1, ih fun x hx => h x (by simp [hx])]
    exact this uniq hvb
  have hvs : (uniq.mapM fun v => s.verts[v]?) = some vs := mapM_some _ _ _ hvsmap
  let sub1 : Soup V T N D := { (empty : Soup V T N D) with verts := vs }
  have hsub1 : vs.foldl (fun sub v => (addVertex sub v).1) (empty : Soup V T N D) = sub1 := by
    rw [foldl_addVertex]; rfl
  let subEls := sel.map fun el => (el.1, el.2.map (lowerBound uniq))
  have hrep1 : Rep sub1 ([] : List (T × List Nat)) ([] : List (ElSet N D)) := ⟨rfl, rfl, rfl, rfl, rfl, rfl, rfl⟩
  obtain ⟨hrep2, hverts2⟩ := foldl_addElement (fun c => c.map (lowerBound uniq)) sel sub1 [] [] hrep1
  rw [List.nil_append] at hrep2
  generalize hsub2 : sel.foldl (fun sub el => (addElement sub el.1 (el.2.map (lowerBound uniq))).1) sub1 = sub2 at hrep2 hverts2
  -- the element sets
  let keep : ElSet N D → Bool := fun o => decide (o.name ≠ e.name ∧ ∃ i ∈ e.ids, i ∈ o.ids)
  have hloop : ∀ m, m ≤ sets.length → ∃ sub3, (List.range m).foldlM (subsetSet s e.ids k) sub2 = some sub3 ∧
      Rep sub3 subEls (((sets.take m).filter keep).map (restr e.ids)) ∧ sub3.verts = vs := by
    intro m
    induction m with
    | zero => intro _; exact ⟨sub2, rfl, hrep2, hverts2⟩
    | succ m ih =>
      intro hm
      obtain ⟨sub3, i1, i2, i3⟩ := ih (by omega)
      have hm' : m < sets.length := by omega
      obtain ⟨a', b', q1, q2, q3, q4, q5⟩ := hread m hm'
      have hmem : sets[m] ∈ sets := List.getElem_mem hm'
      have htake : sets.take (m + 1) = sets.take m ++ [sets[m]] := by
        rw [List.take_add_one, List.getElem?_eq_getElem hm']; rfl
      have hint := setIntersection_spec e.ids sets[m].ids hei (hinc _ hmem)
      have hfold : (List.range (m + 1)).foldlM (subsetSet s e.ids k) sub2 = subsetSet s e.ids k sub3 m := by
        rw [List.range_succ, List.foldlM_append, i1]
        simp
      rw [hfold, htake, List.filter_append, List.map_append]
      unfold subsetSet
      by_cases hmk : m = k
      · subst hmk
        rw [if_pos rfl]
        have : keep sets[m] = false := by simp [keep, hke]
        refine ⟨sub3, rfl, ?_, i3⟩
        rw [List.filter_cons_of_neg (by simp [this])]
        simpa using i2
      · have hnename : sets[m].name ≠ e.name := by
          intro h
          apply hmk
          exact (List.Nodup.getElem_inj_iff (l := sets.map (·.name)) (i := m) (j := k)
            (hi := by simpa using hm') (hj := by simpa using hk) hg.nodup).1 (by simp [h, hke])
        rw [if_neg hmk, q1, q2]
        simp only [Option.bind_some]
        rw [q3]
        simp only [Option.bind_some]
        rw [hint]
        by_cases hemp : (e.ids.filter fun x => decide (x ∈ sets[m].ids)).isEmpty = true
        · rw [if_pos hemp]
          have : keep sets[m] = false := by
            have := (filter_isEmpty _ _).1 hemp
            simp only [keep, decide_eq_false_iff_not]
            exact fun h => this h.2
          refine ⟨sub3, rfl, ?_, i3⟩
          rw [List.filter_cons_of_neg (by simp [this])]
          simpa using i2
        · rw [if_neg hemp, q4, q5]
          simp only [Option.bind_some]
          have hkeep : keep sets[m] = true := by
            have := (not_iff_not.2 (filter_isEmpty e.ids sets[m].ids)).1 hemp
            simp only [keep, decide_eq_true_eq]
            exact ⟨hnename, not_not.1 this⟩
          rw [List.filter_cons_of_pos hkeep]
          have hgoal : Rep (addElset sub3 (restr e.ids sets[m]).name (restr e.ids sets[m]).ids
              (restr e.ids sets[m]).data).1 subEls
              (((sets.take m).filter keep).map (restr e.ids) ++ [restr e.ids sets[m]]) ∧
              (addElset sub3 (restr e.ids sets[m]).name (restr e.ids sets[m]).ids
                (restr e.ids sets[m]).data).1.verts = vs := by
            have hr := restr_spec e.ids sets[m] hei (hinc _ hmem) (hg.data _ hmem)
            have hacc := addElset_accept sub3 (restr e.ids sets[m]).name (restr e.ids sets[m]).ids
              (restr e.ids sets[m]).data ?_ ?_ ?_
            · rw [hacc]
              exact ⟨i2.addElset _ _ _, i3⟩
            · rw [i2.names]
              intro hin
              obtain ⟨o, ho1, ho2⟩ := List.mem_map.1 hin
              obtain ⟨o', ho3, rfl⟩ := List.mem_map.1 ho1
              have ho4 := (List.mem_filter.1 ho3).1
              obtain ⟨j, hj, rfl⟩ := List.getElem_of_mem ho4
              rw [List.getElem_take] at ho2
              have hj' : j < m := by simp at hj; omega
              have := (List.Nodup.getElem_inj_iff (l := sets.map (·.name)) (i := j) (j := m)
                (hi := by simp; omega) (hj := by simpa using hm') hg.nodup).1 (by simpa [restr] using ho2)
              omega
            · simp only [restr, ne_eq, List.map_eq_nil_iff]
              intro h
              rw [h] at hemp
              simp at hemp
            · by_cases hd : sets[m].data = []
              · left; exact hr.nodata hd
              · right; exact (hr.data hd).1
          by_cases hd : sets[m].data = []
          · rw [if_pos (by simpa using hd)]
            refine ⟨_, rfl, ?_⟩
            have hrd : (restr e.ids sets[m]).data = [] := by simp [restr, hd]
            rw [hrd] at hgoal
            exact hgoal
          · rw [if_neg (by simpa using hd)]
            have hd' : sets[m].data.length = sets[m].ids.length := (hg.data _ hmem).resolve_left hd
            have hmm : ((e.ids.filter fun x => decide (x ∈ sets[m].ids)).mapM
                fun x => sets[m].data[lowerBound sets[m].ids x]?) = some (restr e.ids sets[m]).data := by
              apply mapM_some
              exact (restr_data e.ids sets[m] (hinc _ hmem) hd').symm
            rw [hmm]
            exact ⟨_, rfl, hgoal⟩
  obtain ⟨sub, l1, l2, l3⟩ := hloop sets.length le_rfl
  rw [List.take_length] at l2
  have hFor : ∀ l : List (ElSet N D), (∀ o ∈ l, o ∈ sets) → List.Forall₂ (IsRestriction e.ids) l (l.map (restr e.ids)) := by
    intro l
    induction l with
    | nil => intro _; exact .nil
    | cons o l ih =>
      intro h
      have ho := h o (by simp)
      exact .cons (restr_spec e.ids o hei (hinc o ho) (hg.data o ho)) (ih fun x hx => h x (by simp [hx]))
  refine ⟨sub, uniq, subEls, (sets.filter keep).map (restr e.ids), ?_, l2, ?_, hu1, huniq, ?_, ?_, ?_⟩
  · unfold getSubset
    rw [hfind]
    dsimp only
    rw [r1, r2]
    simp only [Option.bind_some]
    rw [r3]
    simp only [Option.bind_some]
    rw [hsorted, hselems]
    simp only [Bool.not_true, Bool.false_eq_true, if_false, Option.bind_some]
    show ((uniq.mapM fun v => s.verts[v]?).bind _) = _
    rw [hvs]
    simp only [Option.bind_some]
    rw [hsub1]
    show ((List.range s.names.length).foldlM (subsetSet s e.ids k)
      (sel.foldl (fun sub el => (addElement sub el.1 (el.2.map (lowerBound uniq))).1) sub1)) = _
    rw [hsub2, hnl]
    exact l1
  · constructor
    · rw [List.map_map]
      have : ((fun x : ElSet N D => x.name) ∘ restr e.ids) = fun x => x.name := rfl
      rw [this]
      exact hg.nodup.sublist (List.filter_sublist.map _)
    · intro o ho
      obtain ⟨o', ho', rfl⟩ := List.mem_map.1 ho
      obtain ⟨h1, h2⟩ := List.mem_filter.1 ho'
      simp only [keep, decide_eq_true_eq] at h2
      obtain ⟨-, i, hi1, hi2⟩ := h2
      simp only [restr, ne_eq, List.map_eq_nil_iff]
      intro h
      have : i ∈ e.ids.filter fun x => decide (x ∈ o'.ids) := List.mem_filter.2 ⟨hi1, by simpa using hi2⟩
      rw [h] at this
      simp at this
    · intro o ho
      obtain ⟨o', ho', rfl⟩ := List.mem_map.1 ho
      have h1 := (List.mem_filter.1 ho').1
      have hr := restr_spec e.ids o' hei (hinc _ h1) (hg.data _ h1)
      by_cases hd : o'.data = []
      · left; exact hr.nodata hd
      · right; exact (hr.data hd).1
  · rw [l3]; exact hvsmap.symm
  · have : ∀ (l : List Nat) (sl : List (T × List Nat)), l.map (fun i => els[i]?) = sl.map some →
        (∀ el ∈ sl, ∀ v ∈ el.2, v ∈ uniq) →
        List.Forall₂ (fun i el' => ∃ el, els[i]? = some el ∧ el'.1 = el.1 ∧
          el'.2.map (fun v => uniq[v]?) = el.2.map some) l (sl.map fun el => (el.1, el.2.map (lowerBound uniq))) := by
      intro l
      induction l with
      | nil => intro sl h _; cases sl with
        | nil => exact .nil
        | cons _ _ => simp at h
      | cons i l ih =>
        intro sl h hu
        cases sl with
        | nil => simp at h
        | cons el sl =>
          simp only [List.map_cons, List.cons.injEq] at h
          refine .cons ⟨el, h.1, rfl, ?_⟩ (ih sl h.2 fun x hx => hu x (by simp [hx]))
          dsimp only
          rw [List.map_map]
          apply List.map_congr_left
          intro v hv
          exact lowerBound_get uniq hu1 v (hu el (by simp) v hv)
    refine this e.ids sel hselmap ?_
    intro el hel v hv
    obtain ⟨i, hi, hie⟩ := (hselmem el).1 hel
    exact (huniq v).2 ⟨i, hi, el, hie, hv⟩
  · exact hFor _ fun o ho => (List.mem_filter.1 ho).1

/-- An unknown name, and a set whose ids are not sorted, leave the target as it is. -/
theorem C49_rejected [DecidableEq N] (sortIds : List Nat → List Nat) (s sub : Soup V T N D)
    (els : List (T × List Nat)) (sets : List (ElSet N D)) (hrep : Rep s els sets) (hg : GoodSets sets) (name : N) :
    (name ∉ sets.map (·.name) → getSubset sortIds s name sub = some sub) ∧
    (∀ e ∈ sets, e.name = name → ¬ e.ids.Pairwise (· ≤ ·) → getSubset sortIds s name sub = some sub) := by
  constructor
  · intro hn
    have : s.names.findIdx? (fun n => decide (n = name)) = none := by
      rw [List.findIdx?_eq_none_iff, hrep.names]
      intro x hx
      simp only [decide_eq_false_iff_not]
      rintro rfl
      exact hn hx
    unfold getSubset
    rw [this]
  · intro e he hname hns
    obtain ⟨k, hk, hke⟩ := List.getElem_of_mem he
    have hfind : s.names.findIdx? (fun n => decide (n = name)) = some k := by
      rw [List.findIdx?_eq_some_iff_getElem]
      refine ⟨by rw [hrep.names]; simpa using hk, ?_, ?_⟩
      · simp only [hrep.names, List.getElem_map, hke, hname, decide_true]
      · intro j hj
        simp only [hrep.names, List.getElem_map, decide_eq_true_eq]
        intro h
        have hj' : j < sets.length := by omega
        have := (List.Nodup.getElem_inj_iff (l := sets.map (·.name)) (i := j) (j := k)
          (hi := by simpa using hj') (hj := by simpa using hk) hg.nodup).1 (by simp [h, hke, hname])
        omega
    have hk' : sets[k]? = some sets[k] := List.getElem?_eq_getElem hk
    obtain ⟨a, r1, r2, -, r4⟩ := offsOf_read (sets.map (·.ids)) k sets[k].ids (by simp [hk'])
    rw [← hrep.soffs] at r1 r2
    rw [← hrep.sids] at r4
    unfold getSubset
    rw [hfind]
    dsimp only
    rw [r1, r2]
    simp only [Option.bind_some]
    rw [r4, hke]
    simp only [Option.bind_some]
    have : isSorted e.ids = false := by
      rw [Bool.eq_false_iff]
      intro h
      exact hns ((isSorted_iff _).1 h)
    rw [this]
    rfl

/-- A soup with one element, on its second vertex. -/
def oneElem : Soup Nat Nat Nat Nat := ⟨[10, 20], [1], [0, 1], [1], [7], [0, 1], [0], [[]]⟩

/-- The target has to be empty: the vertex ids written do not take its vertices into account.  Here the element
on vertex 20 arrives as an element on vertex 99. -/
theorem C49_nonempty_target_fails :
    (getSubset id oneElem 7 { (empty : Soup Nat Nat Nat Nat) with verts := [99] }).map (fun r => (r.verts, r.conn))
      = some ([99, 20], [0]) := by decide

example : Rep oneElem [(1, [1])] [⟨7, [0], []⟩] := ⟨rfl, rfl, rfl, rfl, rfl, rfl, rfl⟩
/-- Two elements and two sets; the second set is restricted to the first element of the subset. -/
example : (getSubset id (⟨[10, 20, 30], [1, 1], [0, 1, 2], [0, 2], [7, 8], [0, 1, 3], [1, 0, 1], [[], [5, 6]]⟩ :
    Soup Nat Nat Nat Nat) 7 empty).map (fun r => (r.verts, r.conn, r.names, r.sids, r.sdata))
      = some ([30], [0], [8], [0], [[6]]) := by decide +kernel

end Verif.Polytope
