import Verif.Props.ModelSoupSpec
import Verif.Lemmas.CmfdInfo
import Verif.Props.SoupAppend
import Verif.Props.SoupSort
import Verif.Props.Stats
import Verif.Props.Soup

/-! Helper lemmas for the soup of a model. -/

set_option linter.unusedSectionVars false
set_option linter.unusedVariables false

namespace Verif.ModelSoup

open Verif.Mpact Verif.ModelXdmf Verif.Polytope Verif.Phys Verif.CmfdInfo
open Verif.Pin (Mesh)
open Verif.Str (Byte)
open Verif.XSLib (Res)

/-! ### Parts -/

/-- A part of a soup whose sets hold all its elements. -/
structure Part (K : Type) where
  verts : List (K × K × K)
  els : List (ℤ × List Nat)
  sets : List (Name × List K)

section
variable {K : Type}

/-- The data of a set of a part. -/
def Part.data (p : Part K) (n : Name) : Option (List K) := (p.sets.find? fun x => decide (x.1 = n)).map (·.2)

def Part.look (p : Part K) (n : Name) : Option (List Nat × List K) := (p.data n).map fun d => (List.range p.els.length, d)

def allVerts (ps : List (Part K)) : List (K × K × K) := ps.flatMap (·.verts)

def allEls : Nat → List (Part K) → List (ℤ × List Nat)
  | _, [] => []
  | k, p :: ps => p.els.map (fun e => (e.1, e.2.map (· + k))) ++ allEls (k + p.verts.length) ps

def look (n : Name) : List (Part K) → Option (List Nat × List K)
  | [] => none
  | p :: ps => union p.els.length (p.look n) (look n ps)

def count (ps : List (Part K)) : Nat := (ps.map fun p => p.els.length).sum

/-- A part has an element; its sets have different names; sets with a name in `D` have data for all elements, others have
none. -/
structure GoodPart (D : Name → Prop) (p : Part K) : Prop where
  ne : p.els ≠ []
  nodup : (p.sets.map (·.1)).Nodup
  data : ∀ x ∈ p.sets, (D x.1 → x.2.length = p.els.length) ∧ (¬ D x.1 → x.2 = [])

theorem union_none (k : Nat) (a : Option (List Nat × List K)) : union k a none = a := by cases a <;> rfl

theorem union_assoc (k m : Nat) (a b c : Option (List Nat × List K)) :
    union k a (union m b c) = union (k + m) (union k a b) c := by
  cases a <;> cases b <;> cases c <;> simp [union, Function.comp_def] <;> intros <;> omega

theorem look_append (n : Name) (ps qs : List (Part K)) : look n (ps ++ qs) = union (count ps) (look n ps) (look n qs) := by
  induction ps with
  | nil =>
    simp only [List.nil_append, look, count, List.map_nil, List.sum_nil]
    cases look n qs <;> simp [union]
  | cons p ps ih => rw [List.cons_append, look, ih, union_assoc, look]; simp [count]

theorem allEls_shift (j k : Nat) (ps : List (Part K)) :
    allEls (k + j) ps = (allEls k ps).map fun e => (e.1, e.2.map (· + j)) := by
  induction ps generalizing k with
  | nil => rfl
  | cons p ps ih =>
    rw [allEls, allEls, List.map_append, ← ih]
    congr 1
    · simp [Function.comp_def, Nat.add_assoc]
    · congr 1; omega

theorem allEls_append (k : Nat) (ps qs : List (Part K)) :
    allEls k (ps ++ qs) = allEls k ps ++ allEls (k + (allVerts ps).length) qs := by
  induction ps generalizing k with
  | nil => simp [allEls, allVerts]
  | cons p ps ih =>
    rw [List.cons_append, allEls, ih, allEls, List.append_assoc]
    congr 3
    simp [allVerts]; omega

theorem allEls_length (k : Nat) (ps : List (Part K)) : (allEls k ps).length = count ps := by
  induction ps generalizing k with
  | nil => rfl
  | cons p ps ih => rw [allEls, List.length_append, List.length_map, ih]; simp [count]

/-- The soup is the parts, one after another. -/
def Made (D : Name → Prop) (soup : CSoup K) (ps : List (Part K)) : Prop :=
  (∀ p ∈ ps, GoodPart D p) ∧ soup.verts = allVerts ps ∧
    ∃ out, Rep soup (allEls 0 ps) out ∧ GoodSets out ∧ (∀ n, lookup out n = look n ps)

theorem made_empty (D : Name → Prop) : Made D (empty : CSoup K) [] :=
  ⟨by simp, rfl, [], holds_empty.rep, ⟨List.nodup_nil, by simp, by simp⟩, fun _ => rfl⟩

theorem Part.data_some (p : Part K) (n : Name) (d : List K) (h : p.data n = some d) : (n, d) ∈ p.sets := by
  unfold Part.data at h
  cases hf : p.sets.find? fun x => decide (x.1 = n) with
  | none => rw [hf] at h; simp at h
  | some x =>
    have h1 := List.find?_some hf
    have h2 := List.mem_of_find?_eq_some hf
    rw [hf, Option.map_some, Option.some.injEq] at h
    have h1 : x.1 = n := by simpa using h1
    rw [← h1, ← h]
    exact h2

/-- The data of a set in the whole. -/
theorem look_data (D : Name → Prop) (n : Name) (ps : List (Part K)) (hg : ∀ p ∈ ps, GoodPart D p) (r : List Nat × List K)
    (h : look n ps = some r) : (D n → r.2.length = r.1.length ∧ r.1 ≠ []) ∧ (¬ D n → r.2 = []) := by
  induction ps generalizing r with
  | nil => cases h
  | cons p ps ih =>
    have hp := hg p (by simp)
    have ih := ih fun q hq => hg q (by simp [hq])
    rw [look] at h
    have key : ∀ a, p.look n = some a → (D n → a.2.length = a.1.length ∧ a.1 ≠ []) ∧ (¬ D n → a.2 = []) := by
      intro a ha
      unfold Part.look at ha
      cases hd : p.data n with
      | none => rw [hd] at ha; cases ha
      | some d =>
        rw [hd, Option.map_some, Option.some.injEq] at ha
        have := hp.data _ (p.data_some n d hd)
        rw [← ha]
        refine ⟨fun h => ⟨by simpa using this.1 h, ?_⟩, this.2⟩
        have := hp.ne
        simpa [List.range_eq_nil] using this
    cases h1 : p.look n with
    | none =>
      cases h2 : look n ps with
      | none => rw [h1, h2] at h; cases h
      | some b =>
        rw [h1, h2] at h
        simp only [union, Option.some.injEq] at h
        have := ih b h2
        rw [← h]
        refine ⟨fun hd => ?_, this.2⟩
        obtain ⟨a1, a2⟩ := this.1 hd
        exact ⟨by simpa using a1, by simpa using a2⟩
    | some a =>
      have ka := key a h1
      cases h2 : look n ps with
      | none =>
        rw [h1, h2] at h
        simp only [union, Option.some.injEq] at h
        rw [← h]; exact ka
      | some b =>
        rw [h1, h2] at h
        simp only [union, Option.some.injEq] at h
        have kb := ih b h2
        rw [← h]
        refine ⟨fun hd => ?_, fun hd => ?_⟩
        · obtain ⟨a1, a2⟩ := ka.1 hd
          obtain ⟨b1, b2⟩ := kb.1 hd
          exact ⟨by simp [a1, b1], by simp [a2]⟩
        · simp [ka.2 hd, kb.2 hd]

theorem look_of_mem (out : List (ElSet Name K)) (hn : (out.map (·.name)).Nodup) (e : ElSet Name K) (he : e ∈ out) :
    lookup out e.name = some (e.ids, e.data) := by
  obtain ⟨r, hr⟩ := (lookup_isSome out e.name).1 (List.mem_map_of_mem he)
  obtain ⟨e', he', h1, h2, h3⟩ := lookup_mem out e.name r hr
  have : e' = e := List.inj_on_of_nodup_map hn he' he h1
  subst this
  rw [hr, h2, h3]

/-- `a += b`. -/
theorem Made.plus (D : Name → Prop) (E : Env K) (lt : Name → Name → Bool) (hsort : ∀ l, IsStdSort lt l (E.sortNames l))
    (a b : CSoup K) (ps qs : List (Part K)) (ha : Made D a ps) (hb : Made D b qs) (hne : qs ≠ []) :
    ∃ r, append E.sortNames a b = some r ∧ Made D r (ps ++ qs) := by
  obtain ⟨g1, v1, o1, r1, s1, l1⟩ := ha
  obtain ⟨g2, v2, o2, r2, s2, l2⟩ := hb
  have hels : allEls 0 qs ≠ [] := by
    obtain ⟨q, qs', rfl⟩ := List.exists_cons_of_ne_nil hne
    have := (g2 q (by simp)).ne
    simp [allEls, this]
  obtain ⟨r, out, e, hv, hr, hnd, hl, -⟩ := C48_append lt E.sortNames hsort a b _ _ _ _ r1 r2 s1 s2 hels
  refine ⟨r, e, ?_, by rw [hv, v1, v2]; simp [allVerts], out, ?_, ?_, ?_⟩
  · intro p hp
    rcases List.mem_append.1 hp with h | h
    · exact g1 p h
    · exact g2 p h
  · rw [allEls_append, Nat.zero_add, ← v1]
    have := allEls_shift a.verts.length 0 qs
    rw [Nat.zero_add] at this
    rw [this]
    exact hr
  · refine C48_wellformed_partial o1 o2 out _ s1 s2 hnd hl ?_
    intro x hx y hy hxy
    have hx' := l1 x.name
    rw [look_of_mem o1 s1.nodup x hx] at hx'
    have hy' := l2 y.name
    rw [look_of_mem o2 s2.nodup y hy] at hy'
    have kx := look_data D _ ps g1 _ hx'.symm
    have ky := look_data D _ qs g2 _ hy'.symm
    rw [hxy] at kx
    dsimp only at kx ky
    by_cases hd : D y.name
    · have c1 := kx.1 hd
      have c2 := ky.1 hd
      constructor <;> intro h
      · rw [h] at c1; exact absurd (List.length_eq_zero_iff.1 (by simpa using c1.1.symm)) c1.2
      · rw [h] at c2; exact absurd (List.length_eq_zero_iff.1 (by simpa using c2.1.symm)) c2.2
    · rw [kx.2 hd, ky.2 hd]
  · intro n
    rw [hl, l1, l2, look_append, allEls_length]

/-! ### Sorting -/

theorem pairs_fst {N D : Type} (e : ElSet N D) (h : e.data = [] ∨ e.data.length = e.ids.length) : e.pairs.map (·.1) = e.ids := by
  unfold ElSet.pairs
  split_ifs with hd
  · simp [Function.comp_def]
  · rw [List.map_fst_zip]
    rcases h with h | h
    · exact absurd h hd
    · simp [h]

theorem eq_of_sorted {N D : Type} (e e' : ElSet N D) (h : e.data = [] ∨ e.data.length = e.ids.length) (hne : e.ids ≠ [])
    (h' : e'.data = [] ∨ e'.data.length = e'.ids.length)
    (hn : e'.name = e.name) (hp : e'.pairs.Perm e.pairs) (hs : e.ids.Pairwise (· < ·)) (hs' : e'.ids.Pairwise (· ≤ ·)) : e' = e := by
  have p1 : e'.ids.Perm e.ids := by
    have := hp.map (·.1)
    rwa [pairs_fst e h, pairs_fst e' h'] at this
  have i1 : e'.ids = e.ids := p1.eq_of_pairwise (fun a b _ _ h1 h2 => le_antisymm h1 h2) hs' (hs.imp fun h => le_of_lt h)
  have hpw : e.pairs.Pairwise fun a b => a.1 < b.1 := by
    rw [← pairs_fst e h, List.pairwise_map] at hs
    exact hs
  have hpw' : e'.pairs.Pairwise fun a b => a.1 < b.1 := by
    have : e'.ids.Pairwise (· < ·) := by rw [i1]; exact hs
    rw [← pairs_fst e' h', List.pairwise_map] at this
    exact this
  have q : e'.pairs = e.pairs := hp.eq_of_pairwise (fun a b _ _ h1 h2 => absurd h1 (by omega)) hpw' hpw
  obtain ⟨n, i, d⟩ := e
  obtain ⟨n', i', d'⟩ := e'
  simp only at hn i1 hne h h'
  subst hn i1
  simp only [ElSet.mk.injEq, true_and]
  simp only [ElSet.pairs] at q
  by_cases h1 : d = []
  · by_cases h2 : d' = []
    · rw [h1, h2]
    · exfalso
      rw [if_neg h2, if_pos h1] at q
      obtain ⟨x, i, rfl⟩ := List.exists_cons_of_ne_nil hne
      obtain ⟨y, d', rfl⟩ := List.exists_cons_of_ne_nil h2
      simp at q
  · by_cases h2 : d' = []
    · exfalso
      rw [if_pos h2, if_neg h1] at q
      obtain ⟨x, i, rfl⟩ := List.exists_cons_of_ne_nil hne
      obtain ⟨y, d, rfl⟩ := List.exists_cons_of_ne_nil h1
      simp at q
    · rw [if_neg h1, if_neg h2] at q
      have l1 := h.resolve_left h1
      have l2 := h'.resolve_left h2
      have := congrArg (List.map (·.2)) q
      rw [List.map_snd_zip (by simp [l2]), List.map_snd_zip (by simp [l1])] at this
      exact List.map_injective_iff.2 (Option.some_injective _) this

theorem lookup_perm (a b : List (ElSet Name K)) (h : a.Perm b) (hn : (b.map (·.name)).Nodup) (n : Name) : lookup a n = lookup b n := by
  have hna : (a.map (·.name)).Nodup := ((h.map _).nodup_iff).2 hn
  cases ha : lookup a n with
  | some r =>
    obtain ⟨e, he, h1, h2, h3⟩ := lookup_mem a n r ha
    have := look_of_mem b hn e (h.mem_iff.1 he)
    rw [← h1, this, h2, h3]
  | none =>
    cases hb : lookup b n with
    | none => rfl
    | some r =>
      obtain ⟨e, he, h1, h2, h3⟩ := lookup_mem b n r hb
      have := look_of_mem a hna e (h.mem_iff.2 he)
      rw [h1, ha] at this
      cases this

theorem look_sorted (n : Name) (ps : List (Part K)) (r : List Nat × List K) (h : look n ps = some r) :
    r.1.Pairwise (· < ·) ∧ ∀ i ∈ r.1, i < count ps := by
  induction ps generalizing r with
  | nil => cases h
  | cons p ps ih =>
    rw [look] at h
    have key : ∀ a, p.look n = some a → a.1 = List.range p.els.length := by
      intro a ha
      unfold Part.look at ha
      cases hd : p.data n with
      | none => rw [hd] at ha; cases ha
      | some d => rw [hd, Option.map_some, Option.some.injEq] at ha; rw [← ha]
    have hc : count (p :: ps) = p.els.length + count ps := by simp [count]
    cases h1 : p.look n with
    | none =>
      cases h2 : look n ps with
      | none => rw [h1, h2] at h; cases h
      | some b =>
        rw [h1, h2] at h
        simp only [union, Option.some.injEq] at h
        obtain ⟨b1, b2⟩ := ih b h2
        rw [← h, hc]
        refine ⟨?_, ?_⟩
        · rw [List.pairwise_map]; exact b1.imp fun h => by omega
        · intro i hi
          obtain ⟨j, hj, rfl⟩ := List.mem_map.1 hi
          have := b2 j hj
          omega
    | some a =>
      have ka := key a h1
      cases h2 : look n ps with
      | none =>
        rw [h1, h2] at h
        simp only [union, Option.some.injEq] at h
        rw [← h, ka, hc]
        exact ⟨List.pairwise_lt_range, fun i hi => by have := List.mem_range.1 hi; omega⟩
      | some b =>
        rw [h1, h2] at h
        simp only [union, Option.some.injEq] at h
        obtain ⟨b1, b2⟩ := ih b h2
        rw [← h, ka, hc]
        refine ⟨?_, ?_⟩
        · rw [List.pairwise_append]
          refine ⟨List.pairwise_lt_range, ?_, ?_⟩
          · rw [List.pairwise_map]; exact b1.imp fun h => by omega
          · intro x hx y hy
            have := List.mem_range.1 hx
            obtain ⟨j, hj, rfl⟩ := List.mem_map.1 hy
            omega
        · intro i hi
          rcases List.mem_append.1 hi with hi | hi
          · have := List.mem_range.1 hi; omega
          · obtain ⟨j, hj, rfl⟩ := List.mem_map.1 hi
            have := b2 j hj
            omega

/-- Sorting the sets. -/
theorem Made.sort (D : Name → Prop) (E : Env K) (lt : Name → Name → Bool) (hsp : ∀ l, IsStdSort (Alg.pairLt lt ltNat) l (E.sortPairs l))
    (hs : ∀ v, Alg.IsSortPermutation ltNat v (E.sortPerm v)) (a : CSoup K) (ps : List (Part K)) (ha : Made D a ps)
    (hne : ∃ n, look n ps ≠ none) :
    ∃ r, sortElsets E.sortPairs E.sortPerm a = some r ∧ Made D r ps ∧ ∃ out, Rep r (allEls 0 ps) out ∧ GoodSets out ∧
      (∀ n, lookup out n = look n ps) ∧ out.Pairwise fun x y => lt y.name x.name = false := by
  obtain ⟨g1, v1, o1, r1, s1, l1⟩ := ha
  have hne : o1 ≠ [] := by
    rintro rfl
    obtain ⟨n, hn⟩ := hne
    exact hn (l1 n).symm
  obtain ⟨r, out, e, hr, hg, hv, hsd, order, hperm, hfor⟩ := C47_sortElsets lt E.sortPairs E.sortPerm hsp hs a _ _ r1 s1 hne
  have heq : out = order := by
    have hmem : ∀ x ∈ order, x ∈ o1 := fun x hx => hperm.mem_iff.1 hx
    clear hr hsd hperm
    have hg1 := hg.ids
    have hg2 := hg.data
    clear hg
    induction hfor with
    | nil => rfl
    | cons h hf ih =>
      rename_i x y l1' l2'
      obtain ⟨h1, h2, h3⟩ := h
      have hx := hmem x (by simp)
      have hlx := l1 x.name
      rw [look_of_mem o1 s1.nodup x hx] at hlx
      have hsx := (look_sorted _ ps _ hlx.symm).1
      rw [eq_of_sorted x y (s1.data x hx) (s1.ids x hx) (hg2 y (by simp)) h1 h2 hsx h3,
        ih (fun z hz => hmem z (by simp [hz])) (fun z hz => hg1 z (by simp [hz])) fun z hz => hg2 z (by simp [hz])]
  have hl : ∀ n, lookup out n = look n ps := by
    intro n
    rw [heq, lookup_perm order o1 hperm s1.nodup, l1]
  exact ⟨r, e, ⟨g1, by rw [hv, v1], out, hr, hg, hl⟩, out, hr, hg, hl, hsd⟩

end

end Verif.ModelSoup
