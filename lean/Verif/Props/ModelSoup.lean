import Verif.Lemmas.ModelSoupFinal
import Verif.Props.CmfdInfo

/-!
# C99: an MPACT model as one soup
-/

set_option linter.unusedSectionVars false

namespace Verif.ModelSoup

open Verif.Mpact Verif.ModelXdmf Verif.Polytope Verif.Phys Verif.CmfdInfo
open Verif.Pin (Mesh)
open Verif.Str (Byte)
open Verif.XSLib (Res)

section
variable {K M : Type} [Field K] [LinearOrder K]

/-- The model is built from existing parts, every coarse cell has a mesh and materials, the materials have cross sections. -/
structure Sound (xsec : M → XSec K) (s : Model K M) : Prop where
  built : Built s s.cells.length
  meshed : Meshed s
  sections : ∀ m ∈ s.materials, ∃ ng, 0 < ng ∧ (xsec m).WF ng

/-- What the loops give, sorted. -/
theorem sorted_ok (E : Env K) (lt : Name → Name → Bool) (hE : Sorts E lt) (xsec : M → XSec K) (s : Model K M) (h : Sound xsec s) :
    ∃ soup ms sets, modelSoup E xsec s = .ok soup ∧ ms ≠ [] ∧ (∀ m ∈ ms, Tag ⟨asyVisits s, latVisits s, rtmVisits s, cellVisits s⟩ m) ∧
      ms.map Mark.visit = cellVisits s ∧ (∀ t, t ∈ ms.map (·.tile) ↔ IsTile s t) ∧
      (∀ m ∈ ms, GoodPart IsData (partOf E xsec s m)) ∧ soup.verts = allVerts (ms.map (partOf E xsec s)) ∧
      Rep soup (allEls 0 (ms.map (partOf E xsec s))) sets ∧ GoodSets sets ∧ (∀ n, lookup sets n = look n (ms.map (partOf E xsec s))) ∧
      sets.Pairwise fun x y => lt y.name x.name = false := by
  obtain ⟨xs, e1, hxs⟩ := sections_ok s xsec h.sections
  obtain ⟨st, ms, e2, inv, n, c, q⟩ := core_ok E lt hE xsec s xs h.built h.meshed hxs
  obtain ⟨m, hm⟩ := List.exists_mem_of_ne_nil ms n
  have hlook : look m.nC (ms.map (partOf E xsec s)) ≠ none := by
    obtain ⟨r, hr⟩ := look_some m.nC _ _ (List.mem_map_of_mem (f := partOf E xsec s) hm) ((data_ne_none E xsec s m m.nC).2 (by simp))
    rw [hr]; simp
  obtain ⟨r, e3, made, out, hr, hg, hl, hs⟩ := inv.made.sort IsData E lt hE.pairs hE.perm st.2 _ ⟨m.nC, hlook⟩
  refine ⟨r, ms, out, ?_, n, inv.tags, c, q, ?_, made.2.1, hr, hg, hl, hs⟩
  · unfold modelSoup
    rw [if_neg h.built.core.1, e1, of_some, ok_bind, e2, ok_bind, if_neg, e3, of_some]
    intro h0
    obtain ⟨-, -, o, ro, -, lo⟩ := inv.made
    have : o = [] := by
      rw [ro.names, List.length_map] at h0
      exact List.length_eq_zero_iff.1 h0
    subst this
    exact hlook (lo m.nC).symm
  · intro m hm
    exact made.1 _ (List.mem_map_of_mem hm)

/-- **C99.**  The soup of a model is the meshes of its coarse cells at their places, one after another, with the sets of the places
and the values of the faces. -/
theorem C99_soup_partial (E : Env K) (lt : Name → Name → Bool) (hE : Sorts E lt) (xsec : M → XSec K) (s : Model K M) (h : Sound xsec s)
    (fewA : Few (asyVisits s)) (fewL : Few (latVisits s)) (fewR : Few (rtmVisits s)) (fewC : Few (cellVisits s)) :
    ∃ soup L els sets, modelSoup E xsec s = .ok soup ∧ IsSoup E.chord E.recip lt xsec s soup L els sets := by
  obtain ⟨soup, ms, sets, e, hne, tags, c, q, good, hv, hr, hg, hl, hs⟩ := sorted_ok E lt hE xsec s h
  have hsm := h.built.small
  have hheads : ∀ m ∈ ms, ∀ n, ((partOf E xsec s m).data n ≠ none ↔ n ∈ [m.nC, m.nR, m.nL, m.nA] ++ dataNames) := fun m _ n =>
    data_ne_none E xsec s m n
  have hcells : ∀ w ∈ cellVisits s, ∃ m ∈ ms, cellAt m.tile.path = w.1 := by
    intro w hw
    rw [← c] at hw
    obtain ⟨m, hm, rfl⟩ := List.mem_map.1 hw
    exact ⟨m, hm, rfl⟩
  have hlen : (allEls 0 (ms.map (partOf E xsec s))).length = ((ms.map (·.tile)).map (nf s)).sum := by
    rw [allEls_length, count_marks]
  refine ⟨soup, ms.map (·.tile), allEls 0 (ms.map (partOf E xsec s)), sets, e, q, ?_, ?_, hr, hg, hs, hlen, ?_, ?_, ?_, ?_, ?_, ?_, ?_, ?_,
    ?_, ?_⟩
  · rw [List.map_map]; exact c
  · rw [hv, allVerts, List.flatMap_map, List.flatMap_map]; rfl
  · intro A t B hL f cn hf
    obtain ⟨A', m, B', rfl, rfl, rfl, rfl⟩ := split_marks ms A B t hL
    have := allEls_get 0 (A'.map (partOf E xsec s)) (B'.map (partOf E xsec s)) (partOf E xsec s m) f (typeOf s m.tile.id, cn)
      (by simp [partOf, hf])
    rw [List.map_append, List.map_cons, ← count_marks E xsec s, this]
    congr 4
    simp [allVerts, partOf, nv, List.length_flatMap, Function.comp_def]
  · refine fun o id k ho => level E xsec s ms (asyVisits s) (asyVisits_nodup s)
      (fun v hv => lt_of_lt_of_le (asy_range s h.built v hv) hsm.1) fewA preAsy "Assembly_" (by decide) (fun t => asyAt t.path) (·.nA)
      (fun m hm => (tags m hm).1) 65 rfl ?_ (by decide) good ?_ sets hl o id k ho
    · intro m hm n hn
      rw [hheads m hm]
      exact ⟨fun hmem => (head_of_mem m (tags m hm).heads n hmem).2.2.2 hn, fun hmem => by simp [hmem]⟩
    · intro v hv
      obtain ⟨w, hw, e⟩ := asy_has s h.built v hv
      obtain ⟨m, hm, e'⟩ := hcells w hw
      exact ⟨m, hm, by rw [← e, ← e']; rfl⟩
  · refine fun o id k ho => level E xsec s ms (latVisits s) (latVisits_nodup s)
      (fun v hv => lt_of_lt_of_le (lat_range s h.built v hv) hsm.2.1) fewL preLat "Lattice_" (by decide) (fun t => latAt t.path) (·.nL)
      (fun m hm => (tags m hm).2.1) 76 rfl ?_ (by decide) good ?_ sets hl o id k ho
    · intro m hm n hn
      rw [hheads m hm]
      exact ⟨fun hmem => (head_of_mem m (tags m hm).heads n hmem).2.2.1 hn, fun hmem => by simp [hmem]⟩
    · intro v hv
      obtain ⟨w, hw, e⟩ := lat_has s h.built v hv
      obtain ⟨m, hm, e'⟩ := hcells w hw
      exact ⟨m, hm, by rw [← e, ← e']; rfl⟩
  · refine fun o id k ho => level E xsec s ms (rtmVisits s) (rtmVisits_nodup s)
      (fun v hv => lt_of_lt_of_le (rtm_range s h.built v hv) hsm.2.2.1) fewR preRtm "RTM_" (by decide) (fun t => rtmAt t.path) (·.nR)
      (fun m hm => (tags m hm).2.2.1) 82 rfl ?_ (by decide) good ?_ sets hl o id k ho
    · intro m hm n hn
      rw [hheads m hm]
      exact ⟨fun hmem => (head_of_mem m (tags m hm).heads n hmem).2.1 hn, fun hmem => by simp [hmem]⟩
    · intro v hv
      obtain ⟨w, hw, e⟩ := rtm_has s h.built v hv
      obtain ⟨m, hm, e'⟩ := hcells w hw
      exact ⟨m, hm, by rw [← e, ← e']; rfl⟩
  · refine fun o id k ho => level E xsec s ms (cellVisits s) (cellVisits_nodup s)
      (fun v hv => lt_of_lt_of_le (cell_range s h.built v hv) hsm.2.2.2) fewC preCell "Coarse_Cell_" (by decide)
      (fun t => cellAt t.path) (·.nC) (fun m hm => ⟨m.tile.id, (tags m hm).2.2.2⟩) 67 rfl ?_ (by decide) good ?_ sets hl o id k ho
    · intro m hm n hn
      rw [hheads m hm]
      exact ⟨fun hmem => (head_of_mem m (tags m hm).heads n hmem).1 hn, fun hmem => by simp [hmem]⟩
    · intro v hv
      exact hcells v hv
  · rw [hlen]
    refine field E xsec s ms hne sets hl "Material_ID" (by simp [IsData, dataNames]) (fun t => (matsOf s t.id).map fun i : ℤ => (i : K)) ?_ good _ ?_
    · intro m _; simp [partOf]
    · intro t f _; simp
  · rw [hlen]
    refine field E xsec s ms hne sets hl "One_Group_XS" (by simp [IsData, dataNames]) (fun t => (matsOf s t.id).map (sigma xsec s)) ?_ good _ ?_
    · intro m _; simp [partOf]
    · intro t f _; simp
  · rw [hlen]
    refine field E xsec s ms hne sets hl "Mean_Chord_Length" (by simp [IsData, dataNames]) (fun t => (List.range (nf s t)).map (E.chord (meshOf s t.id)))
      ?_ good _ ?_
    · intro m _; simp [partOf]
    · intro t f hf; rw [List.getElem?_map, List.getElem?_range hf]; rfl
  · rw [hlen]
    refine field E xsec s ms hne sets hl "Knudsen_Number" (by simp [IsData, dataNames]) (fun t =>
      List.zipWith (fun x c => E.recip (x * c)) ((matsOf s t.id).map (sigma xsec s)) ((List.range (nf s t)).map (E.chord (meshOf s t.id))))
      ?_ good _ ?_
    · intro m _; simp [partOf]
    · intro t f hf
      rw [List.getElem?_zipWith, List.getElem?_map, List.getElem?_map, List.getElem?_range hf]
      cases (matsOf s t.id)[f]? <;> rfl
  · intro x hx
    have hlx := hl x.name
    rw [look_of_mem sets hg.nodup x hx] at hlx
    have : ∃ m ∈ ms, (partOf E xsec s m).data x.name ≠ none := by
      by_contra hno
      push Not at hno
      rw [look_none x.name _ (by simpa using hno)] at hlx
      cases hlx
    obtain ⟨m, hm, hd⟩ := this
    rw [hheads m hm] at hd
    obtain ⟨⟨ia, ka, a1, a2⟩, ⟨il, kl, l1, l2⟩, ⟨ir, kr, r1, r2⟩, ⟨kc, c1, c2⟩⟩ := tags m hm
    simp only [List.cons_append, List.nil_append, List.mem_cons] at hd
    rcases hd with hd | hd | hd | hd | hd
    · obtain ⟨b1, b2⟩ := numbered_lt _ _ _ _ c1
      refine Or.inr (Or.inr (Or.inr (Or.inl ⟨_, _, _, c1, ?_⟩)))
      rw [hd, c2]
      exact visit_eq _ _ (by decide) _ _ (lt_of_lt_of_le (cell_range s h.built _ b2) hsm.2.2.2) (lt_of_lt_of_le b1 (fewC _))
    · obtain ⟨b1, b2⟩ := numbered_lt _ _ _ _ r1
      refine Or.inr (Or.inr (Or.inl ⟨_, _, _, r1, ?_⟩))
      rw [hd, r2]
      exact visit_eq _ _ (by decide) _ _ (lt_of_lt_of_le (rtm_range s h.built _ b2) hsm.2.2.1) (lt_of_lt_of_le b1 (fewR _))
    · obtain ⟨b1, b2⟩ := numbered_lt _ _ _ _ l1
      refine Or.inr (Or.inl ⟨_, _, _, l1, ?_⟩)
      rw [hd, l2]
      exact visit_eq _ _ (by decide) _ _ (lt_of_lt_of_le (lat_range s h.built _ b2) hsm.2.1) (lt_of_lt_of_le b1 (fewL _))
    · obtain ⟨b1, b2⟩ := numbered_lt _ _ _ _ a1
      refine Or.inl ⟨_, _, _, a1, ?_⟩
      rw [hd, a2]
      exact visit_eq _ _ (by decide) _ _ (lt_of_lt_of_le (asy_range s h.built _ b2) hsm.1) (lt_of_lt_of_le b1 (fewA _))
    · exact Or.inr (Or.inr (Or.inr (Or.inr hd)))

/-- **C99** is false for a coarse cell at more than 100000 places: the set of its first place also holds the elements of another. -/
theorem C99_many_fails (E : Env K) (lt : Name → Name → Bool) (hE : Sorts E lt) (xsec : M → XSec K) (s : Model K M) (h : Sound xsec s)
    (many : ¬ Few (cellVisits s)) :
    ∃ soup L els sets, modelSoup E xsec s = .ok soup ∧ (∀ t, t ∈ L ↔ IsTile s t) ∧ Rep soup els sets ∧
      ∃ e ∈ sets, ∃ id, e.name = setName "Coarse_Cell_" id 0 ∧ ∃ i t f i' t' f', IsFace s L i t f ∧ IsFace s L i' t' f' ∧
        cellAt t.path ≠ cellAt t'.path ∧ i ∈ e.ids ∧ i' ∈ e.ids := by
  obtain ⟨soup, ms, sets, e, hne, tags, c, q, good, hv, hr, hg, hl, hs⟩ := sorted_ok E lt hE xsec s h
  obtain ⟨id, hid⟩ : ∃ id, 100000 < times (cellVisits s) id := by
    unfold Few at many
    push Not at many
    exact many
  have hmarks : ∀ k, k < times (cellVisits s) id → ∃ m ∈ ms, (cellAt m.tile.path, id, k) ∈ numbered (cellVisits s) ∧
      m.nC = visitName preCell id k := by
    intro k hk
    obtain ⟨o, ho⟩ := numbered_of_lt (cellVisits s) id k hk
    have hmem := (numbered_lt _ _ _ _ ho).2
    rw [← c] at hmem
    obtain ⟨m, hm, hmv⟩ := List.mem_map.1 hmem
    simp only [Mark.visit, Prod.mk.injEq] at hmv
    obtain ⟨k', h1, h2⟩ := (tags m hm).2.2.2
    rw [hmv.1, hmv.2] at h1
    rw [hmv.2] at h2
    obtain ⟨-, rfl⟩ := numbered_fun _ (cellVisits_nodup s) o id id k k' ho h1
    exact ⟨m, hm, by rw [hmv.1]; exact ho, h2⟩
  obtain ⟨m, hm, o1, n1⟩ := hmarks 0 (by omega)
  obtain ⟨m', hm', o2, n2⟩ := hmarks 100000 hid
  have hid' : id < 100000 := lt_of_lt_of_le (cell_range s h.built _ (numbered_lt _ _ _ _ o1).2) h.built.small.2.2.2
  have hnames : m'.nC = m.nC := by
    rw [n1, n2]
    unfold visitName
    have := Names.C63_wrap_fails 0
    simp only [Nat.zero_add] at this
    rw [this]
  obtain ⟨r, hrl⟩ := look_some m.nC _ _ (List.mem_map_of_mem (f := partOf E xsec s) hm) ((data_ne_none E xsec s m m.nC).2 (by simp))
  obtain ⟨x, hx, x1, x2, x3⟩ := lookup_mem sets m.nC r (by rw [hl, hrl])
  have hface : ∀ y ∈ ms, y.nC = m.nC → ∃ i f, IsFace s (ms.map (·.tile)) i y.tile f ∧ i ∈ x.ids := by
    intro y hy hyn
    obtain ⟨A, B, rfl⟩ := List.append_of_mem hy
    have hpos : 0 < nf s y.tile := by
      have := (good y (by simp)).ne
      exact List.length_pos_iff.2 (by simpa [partOf] using this)
    refine ⟨((A.map (·.tile)).map (nf s)).sum + 0, 0, ⟨A.map (·.tile), B.map (·.tile), by simp, hpos, rfl⟩, ?_⟩
    rw [x2, look_ids m.nC _ r hrl]
    refine ⟨A.map (partOf E xsec s), partOf E xsec s y, B.map (partOf E xsec s), 0, by simp, ?_, ?_, ?_⟩
    · rw [data_ne_none]; simp [hyn]
    · simpa [partOf, nf] using hpos
    · rw [count_marks]
  obtain ⟨i, f, f1, f2⟩ := hface m hm rfl
  obtain ⟨i', f', f3, f4⟩ := hface m' hm' hnames
  refine ⟨soup, _, _, sets, e, q, hr, x, hx, id, ?_, i, m.tile, f, i', m'.tile, f', f1, f3, ?_, f2, f4⟩
  · rw [x1, n1]
    exact visit_eq _ _ (by decide) _ _ hid' (by omega)
  · intro heq
    rw [heq] at o1
    have := (numbered_fun _ (cellVisits_nodup s) _ id id 0 100000 o1 o2).2
    omega

/-- **C99.**  A core without assemblies is refused. -/
theorem C99_refused (E : Env K) (xsec : M → XSec K) (s : Model K M) (h : s.core.children = []) : modelSoup E xsec s = .refused := by
  unfold modelSoup
  rw [if_pos h]

end

/-! ### Cases -/

/-- Sorting by insertion. -/
def sortBy {α : Type} (lt : α → α → Bool) (l : List α) : List α := l.insertionSort fun a b => lt b a = false

theorem sortBy_ok {α : Type} (lt : α → α → Bool) (hw : StrictWeak lt) (l : List α) : IsStdSort lt l (sortBy lt l) := by
  have : Std.Total fun a b : α => lt b a = false := ⟨fun a b => by
    by_cases h : lt b a = true
    · exact Or.inr (hw.asymm _ _ h)
    · exact Or.inl (by simpa using h)⟩
  have : IsTrans α fun a b : α => lt b a = false := ⟨fun a b c h1 h2 => hw.negTrans _ _ _ h2 h1⟩
  exact ⟨List.perm_insertionSort _ _, List.pairwise_insertionSort (fun a b => lt b a = false) l⟩

/-- Names in the order of their bytes. -/
def nameLt (a b : Name) : Bool := decide (a.map (·.toNat) < b.map (·.toNat))

theorem nameLt_weak : StrictWeak nameLt where
  asymm a b h := by
    simp only [nameLt, decide_eq_true_eq, decide_eq_false_iff_not] at *
    exact lt_asymm h
  negTrans a b c h1 h2 := by
    simp only [nameLt, decide_eq_false_iff_not, not_lt] at *
    exact h2.trans h1

theorem pairLt_weak : StrictWeak (Alg.pairLt nameLt ltNat) where
  asymm a b h := by
    simp only [Alg.pairLt, nameLt, ltNat, Bool.or_eq_true, Bool.and_eq_true, Bool.not_eq_true', decide_eq_true_eq, decide_eq_false_iff_not,
      Bool.or_eq_false_iff, Bool.and_eq_false_iff, Bool.not_eq_false'] at *
    rcases h with h | ⟨h1, h2⟩
    · exact ⟨lt_asymm h, Or.inl h⟩
    · exact ⟨h1, Or.inr (by omega)⟩
  negTrans a b c h1 h2 := by
    simp only [Alg.pairLt, nameLt, ltNat, decide_eq_true_eq, decide_eq_false_iff_not,
      Bool.or_eq_false_iff, Bool.and_eq_false_iff, Bool.not_eq_false', not_lt] at *
    refine ⟨h2.1.trans h1.1, ?_⟩
    rcases h1.2 with h | h
    · exact Or.inl (lt_of_le_of_lt h2.1 h)
    · rcases h2.2 with h' | h'
      · exact Or.inl (lt_of_lt_of_le h' h1.1)
      · exact Or.inr (h'.trans h)

/-- An implementation. -/
def demoEnv : Env ℚ where
  sortNames := sortBy nameLt
  sortPairs := sortBy (Alg.pairLt nameLt ltNat)
  sortPerm v := sortBy (fun i j => ltNat (v.getD i 0) (v.getD j 0)) (Alg.iota v.length)
  chord _ i := (i : ℚ) + 1
  recip x := 1 / x

theorem demo_sorts : Sorts demoEnv nameLt where
  names := sortBy_ok _ nameLt_weak
  pairs := sortBy_ok _ pairLt_weak
  perm v := by
    have h := sortBy_ok (fun i j => ltNat (v.getD i 0) (v.getD j 0))
      ⟨fun a b h => by simp only [ltNat, decide_eq_true_eq, decide_eq_false_iff_not] at *; omega,
        fun a b c h1 h2 => by simp only [ltNat, decide_eq_false_iff_not] at *; omega⟩ (Alg.iota v.length)
    refine ⟨h.perm, h.sorted.imp ?_⟩
    intro a b hab
    unfold Alg.permLess
    cases ha : v[b]? with
    | none => rfl
    | some x =>
      cases hb : v[a]? with
      | none => rfl
      | some y => simpa [List.getD, ha, hb] using hab

/-- Two cells with one mesh of two quadrilaterals. -/
def soup2 : Model ℚ Unit :=
  { core2 with materials := [()], quads := [⟨[(0, 0), (1, 0), (1, 1), (0, 1), (0, 2), (1, 2)], [[0, 1, 2, 3], [3, 2, 5, 4]]⟩] }

theorem sound2 : Sound (fun _ => demo) soup2 where
  built := by
    have : Built PropsModelXdmf.twoLattices 2 := by apply PropsModelXdmf.built_sample <;> simp [InRange]
    exact ⟨this.core, this.asy, this.lat, this.rtm, this.small⟩
  meshed := by
    intro c hc
    have : c = ⟨(1, 1), 4, 0, [0, 0]⟩ := by simpa [soup2, core2] using hc
    subst this
    exact ⟨_, _, rfl, by decide, rfl, by simp, rfl, by decide⟩
  sections := fun m _ => ⟨2, by omega, wf_demo.1⟩

theorem few_of_length {κ : Type} (V : List (κ × Nat)) (h : V.length ≤ 100000) : Few V := fun _ => (List.length_filter_le _ _).trans h

/-- The hypotheses of `C99_soup_partial` are met. -/
example : ∃ soup L els sets, modelSoup demoEnv (fun _ => demo) soup2 = .ok soup ∧
    IsSoup demoEnv.chord demoEnv.recip nameLt (fun _ => demo) soup2 soup L els sets :=
  C99_soup_partial demoEnv nameLt demo_sorts _ soup2 sound2 (few_of_length _ (by decide +kernel)) (few_of_length _ (by decide +kernel))
    (few_of_length _ (by decide +kernel)) (few_of_length _ (by decide +kernel))

/-- The cells of the core in order: the first lattice has one module, the second two. -/
example : (cellVisits soup2).map (·.2) = [0, 1, 0, 1, 1, 1] := by decide +kernel
example : ((((0, 0), 1), (0, 1)), 1, 0) ∈ numbered (rtmVisits soup2) := by decide +kernel
example : (((((0, 0), 1), (0, 1)), (0, 0)), 1, 2) ∈ numbered (cellVisits soup2) := by decide +kernel
/-- The total cross section of the material, in the mean over the two groups. -/
example : sigma (fun _ => demo) soup2 0 = 9 / 2 := by decide +kernel

/-- One module of `n` times the same cell. -/
def long (n : Nat) : Model ℚ Unit :=
  { soup2 with
    core := ⟨[0, 1], [0, 1], [0]⟩
    assemblies := [⟨[0, 1], [0]⟩]
    lattices := [⟨(1, 1), 1, 1, [0]⟩]
    rtms := [⟨(List.range (n + 1)).map fun i : Nat => (i : ℚ), [0, 1], List.replicate n 0⟩] }

theorem long_visits (n : Nat) : (cellVisits (long n)).map (·.2) = List.replicate n 0 := by
  have h : cellVisits (long n) = kids ((((0, 0), 0), (0, 0)) : RtmAt) n 1 (List.replicate n 0) := by
    have h1 : asyVisits (long n) = [((0, 0), 0)] := rfl
    have h2 : latVisits (long n) = [(((0, 0), 0), 0)] := rfl
    have h3 : rtmVisits (long n) = [((((0, 0), 0), (0, 0)), 0)] := rfl
    unfold cellVisits
    rw [h3, List.flatMap_singleton]
    unfold cellKids
    have : (long n).rtms[0]? = some ⟨(List.range (n + 1)).map fun i : Nat => (i : ℚ), [0, 1], List.replicate n 0⟩ := rfl
    simp only [this, List.length_map, List.length_range]
    rfl
  rw [h]
  unfold kids rows
  rw [List.range_one, List.flatMap_singleton, List.filterMap_map, List.map_filterMap,
    show List.replicate n 0 = (List.range n).filterMap fun _ => some 0 by
      rw [List.filterMap_eq_map' (f := fun _ => 0)]; simp]
  apply List.filterMap_congr
  intro x hx
  have := List.mem_range.1 hx
  simp [this]

theorem long_sound (n : Nat) (h0 : 0 < n) (hn : n < 2 ^ 31) : Sound (fun _ => demo) (long n) := by
  refine ⟨⟨?_, ?_, ?_, ?_, ?_⟩, sound2.meshed, sound2.sections⟩
  · simp [long, InRange]
  · simp [long, InRange]
  · simp [long, InRange]
  · intro r hr
    have : r = ⟨(List.range (n + 1)).map fun i : Nat => (i : ℚ), [0, 1], List.replicate n 0⟩ := by simpa [long] using hr
    subst this
    refine ⟨by simp; omega, by simp, ?_, by simp; omega, by simp⟩
    intro c hc
    rw [List.eq_of_mem_replicate hc]
    exact ⟨le_rfl, by simp [long, soup2, core2]⟩
  · simp [long, soup2, core2]

/-- The hypotheses of `C99_many_fails` are met. -/
example : Sound (fun _ => demo) (long 100001) ∧ ¬ Few (cellVisits (long 100001)) := by
  refine ⟨long_sound _ (by omega) (by norm_num), fun h => ?_⟩
  have h0 := h 0
  have : ((cellVisits (long 100001)).filter fun w => w.2 == 0).length = ((cellVisits (long 100001)).map (·.2)).countP (· == 0) := by
    rw [List.countP_map, List.countP_eq_length_filter]; rfl
  rw [this, long_visits, List.countP_replicate] at h0
  rw [if_pos (by rfl)] at h0
  omega

end Verif.ModelSoup
