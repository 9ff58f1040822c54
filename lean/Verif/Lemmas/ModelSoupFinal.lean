import Verif.Lemmas.ModelSoupCore
import Verif.Props.XSec

/-! Helper lemmas for the soup of a model: the whole. -/

set_option linter.unusedSectionVars false
set_option linter.unusedVariables false

namespace Verif.ModelSoup

open Verif.Mpact Verif.ModelXdmf Verif.Polytope Verif.Phys Verif.CmfdInfo
open Verif.Pin (Mesh)
open Verif.Str (Byte)
open Verif.XSLib (Res)

/-! ### Looking up -/

section
variable {K : Type}

theorem look_ids (n : Name) (ps : List (Part K)) (r : List Nat × List K) (h : look n ps = some r) (i : Nat) :
    i ∈ r.1 ↔ ∃ A p B f, ps = A ++ p :: B ∧ p.data n ≠ none ∧ f < p.els.length ∧ i = count A + f := by
  induction ps generalizing r i with
  | nil => cases h
  | cons p ps ih =>
    rw [look] at h
    have hsplit : (∃ A q B f, p :: ps = A ++ q :: B ∧ q.data n ≠ none ∧ f < q.els.length ∧ i = count A + f) ↔
        (p.data n ≠ none ∧ i < p.els.length) ∨
        ∃ j, i = j + p.els.length ∧ ∃ A q B f, ps = A ++ q :: B ∧ q.data n ≠ none ∧ f < q.els.length ∧ j = count A + f := by
      constructor
      · rintro ⟨A, q, B, f, e, h1, h2, rfl⟩
        cases A with
        | nil =>
          simp only [List.nil_append, List.cons.injEq] at e
          obtain ⟨rfl, rfl⟩ := e
          exact Or.inl ⟨h1, by simpa [count] using h2⟩
        | cons a A =>
          simp only [List.cons_append, List.cons.injEq] at e
          obtain ⟨rfl, rfl⟩ := e
          exact Or.inr ⟨count A + f, by simp [count]; omega, A, q, B, f, rfl, h1, h2, rfl⟩
      · rintro (⟨h1, h2⟩ | ⟨j, rfl, A, q, B, f, rfl, h1, h2, rfl⟩)
        · exact ⟨[], p, ps, i, rfl, h1, h2, by simp [count]⟩
        · exact ⟨p :: A, q, B, f, rfl, h1, h2, by simp [count]; omega⟩
    rw [hsplit]
    unfold Part.look at h
    have hnone : look n ps = none → ¬ ∃ j, i = j + p.els.length ∧ ∃ A q B f, ps = A ++ q :: B ∧ q.data n ≠ none ∧ f < q.els.length ∧ j = count A + f := by
      rintro hl ⟨j, -, A, q, B, f, rfl, h1, h2, -⟩
      rw [look_append, look] at hl
      unfold Part.look at hl
      cases hq : q.data n with
      | none => exact h1 hq
      | some d =>
        rw [hq] at hl
        cases h3 : look n B <;> cases h4 : look n A <;> rw [h3, h4] at hl <;> simp [union] at hl
    cases h1 : p.data n with
    | none =>
      cases h2 : look n ps with
      | none => rw [h1, h2] at h; cases h
      | some b =>
        rw [h1, h2] at h
        simp only [union, Option.map_none, Option.some.injEq] at h
        rw [← h]
        simp only [List.mem_map, ne_eq, not_true_eq_false, false_and, false_or]
        constructor
        · rintro ⟨j, hj, rfl⟩
          exact ⟨j, rfl, (ih b h2 j).1 hj⟩
        · rintro ⟨j, rfl, hj⟩
          exact ⟨j, (ih b h2 j).2 hj, rfl⟩
    | some d =>
      cases h2 : look n ps with
      | none =>
        have hno := hnone h2
        rw [h1, h2] at h
        simp only [union, Option.map_some, Option.some.injEq] at h
        rw [← h, List.mem_range]
        simp only [ne_eq, reduceCtorEq, not_false_eq_true, true_and]
        exact ⟨Or.inl, fun hh => hh.resolve_right hno⟩
      | some b =>
        rw [h1, h2] at h
        simp only [union, Option.map_some, Option.some.injEq] at h
        rw [← h, List.mem_append, List.mem_range]
        simp only [List.mem_map, ne_eq, reduceCtorEq, not_false_eq_true, true_and]
        refine or_congr Iff.rfl ?_
        constructor
        · rintro ⟨j, hj, rfl⟩
          exact ⟨j, rfl, (ih b h2 j).1 hj⟩
        · rintro ⟨j, rfl, hj⟩
          exact ⟨j, (ih b h2 j).2 hj, rfl⟩

theorem look_some (n : Name) (ps : List (Part K)) (p : Part K) (hp : p ∈ ps) (h : p.data n ≠ none) : ∃ r, look n ps = some r := by
  obtain ⟨A, B, rfl⟩ := List.append_of_mem hp
  cases hd : p.data n with
  | none => exact absurd hd h
  | some d =>
    rw [look_append, look, Part.look, hd]
    cases look n B <;> cases look n A <;> simp [union]

theorem look_none (n : Name) (ps : List (Part K)) (h : ∀ p ∈ ps, p.data n = none) : look n ps = none := by
  induction ps with
  | nil => rfl
  | cons p ps ih => rw [look, Part.look, h p (by simp), ih fun q hq => h q (by simp [hq])]; rfl

theorem look_full (n : Name) (g : Part K → List K) (ps : List (Part K)) (hne : ps ≠ []) (h : ∀ p ∈ ps, p.data n = some (g p)) :
    look n ps = some (List.range (count ps), ps.flatMap g) := by
  induction ps with
  | nil => exact absurd rfl hne
  | cons p ps ih =>
    rw [look, Part.look, h p (by simp)]
    by_cases h2 : ps = []
    · subst h2
      simp [look, union, count]
    · rw [ih h2 fun q hq => h q (by simp [hq])]
      simp only [union, Option.map_some, Option.some.injEq, Prod.mk.injEq]
      have hc : count (p :: ps) = p.els.length + count ps := by simp [count]
      refine ⟨?_, by simp⟩
      rw [hc, List.range_add]
      congr 1
      apply List.map_congr_left
      intro x _
      omega

theorem flatMap_get {α β : Type} (g : α → List β) (len : α → Nat) (A B : List α) (p : α) (hlen : ∀ x ∈ A ++ p :: B, (g x).length = len x) (f : Nat)
    (hf : f < len p) : ((A ++ p :: B).flatMap g)[(A.map len).sum + f]? = (g p)[f]? := by
  induction A with
  | nil =>
    simp only [List.nil_append, List.flatMap_cons, List.map_nil, List.sum_nil, Nat.zero_add]
    rw [List.getElem?_append_left (by rw [hlen p (by simp)]; exact hf)]
  | cons a A ih =>
    rw [List.cons_append, List.flatMap_cons, List.getElem?_append_right (by rw [hlen a (by simp)]; simp; omega), hlen a (by simp)]
    rw [← ih fun x hx => hlen x (by simp [hx])]
    congr 1
    simp
    omega

theorem allEls_get (k : Nat) (A B : List (Part K)) (p : Part K) (f : Nat) (e : ℤ × List Nat) (he : p.els[f]? = some e) :
    (allEls k (A ++ p :: B))[count A + f]? = some (e.1, e.2.map (· + (k + (allVerts A).length))) := by
  have hf := (List.getElem?_eq_some_iff.1 he).1
  rw [allEls_append, List.getElem?_append_right (by rw [allEls_length]; omega), allEls_length, allEls,
    List.getElem?_append_left (by rw [List.length_map]; omega), List.getElem?_map]
  have : count A + f - count A = f := by omega
  rw [this, he]
  rfl

end

/-! ### Marks and tiles -/

section
variable {K M : Type} [Field K] [LinearOrder K]

theorem count_marks (E : Env K) (xsec : M → XSec K) (s : Model K M) (ms : List (Mark K)) :
    count (ms.map (partOf E xsec s)) = ((ms.map (·.tile)).map (nf s)).sum := by
  unfold count
  rw [List.map_map, List.map_map]
  congr 1
  apply List.map_congr_left
  intro m _
  simp [partOf, nf]

theorem split_marks (ms : List (Mark K)) (A B : List (Tile K)) (t : Tile K) (h : ms.map (·.tile) = A ++ t :: B) :
    ∃ A' m B', ms = A' ++ m :: B' ∧ A'.map (·.tile) = A ∧ m.tile = t ∧ B'.map (·.tile) = B := by
  obtain ⟨A', X, rfl, h1, h2⟩ := List.map_eq_append_iff.1 h
  obtain ⟨m, B', rfl, h3, h4⟩ := List.map_eq_cons_iff.1 h2
  exact ⟨A', m, B', rfl, h1, h3, h4⟩

/-- The ids of a set, by tiles. -/
theorem look_tiles (E : Env K) (xsec : M → XSec K) (s : Model K M) (ms : List (Mark K)) (n : Name) (P : Tile K → Prop)
    (hP : ∀ m ∈ ms, (partOf E xsec s m).data n ≠ none ↔ P m.tile) (r : List Nat × List K)
    (h : look n (ms.map (partOf E xsec s)) = some r) (i : Nat) :
    i ∈ r.1 ↔ ∃ t f, IsFace s (ms.map (·.tile)) i t f ∧ P t := by
  rw [look_ids n _ r h i]
  constructor
  · rintro ⟨A, p, B, f, e, h1, h2, rfl⟩
    obtain ⟨A', X, rfl, g1, g2⟩ := List.map_eq_append_iff.1 e
    obtain ⟨m, B', rfl, g3, g4⟩ := List.map_eq_cons_iff.1 g2
    subst g1 g3 g4
    refine ⟨m.tile, f, ⟨A'.map (·.tile), B'.map (·.tile), by simp, ?_, ?_⟩, (hP m (by simp)).1 h1⟩
    · simpa [partOf, nf] using h2
    · rw [count_marks]
  · rintro ⟨t, f, ⟨A, B, e, h1, rfl⟩, hp⟩
    obtain ⟨A', m, B', rfl, rfl, rfl, rfl⟩ := split_marks ms A B t e
    refine ⟨A'.map (partOf E xsec s), partOf E xsec s m, B'.map (partOf E xsec s), f, by simp, (hP m (by simp)).2 hp, ?_, ?_⟩
    · simpa [partOf, nf] using h1
    · rw [count_marks]

theorem Tag.heads {V : Vs} {m : Mark K} (h : Tag V m) : Heads m := by
  obtain ⟨⟨_, _, _, h2⟩, ⟨_, _, _, h4⟩, ⟨_, _, _, h6⟩, ⟨_, _, h8⟩⟩ := h
  exact ⟨by rw [h8]; exact visit_head _ _ rfl _ _, by rw [h6]; exact visit_head _ _ rfl _ _,
    by rw [h4]; exact visit_head _ _ rfl _ _, by rw [h2]; exact visit_head _ _ rfl _ _⟩

/-- The data of the sets of a part, by the first byte of the name. -/
theorem data_find (p : Part K) (n : Name) (d : List K) (hn : (p.sets.map (·.1)).Nodup) (h : (n, d) ∈ p.sets) : p.data n = some d := by
  unfold Part.data
  cases hf : p.sets.find? fun x => decide (x.1 = n) with
  | none =>
    have := List.find?_eq_none.1 hf (n, d) h
    simp at this
  | some x =>
    have h1 := List.find?_some hf
    have h2 := List.mem_of_find?_eq_some hf
    have h1 : x.1 = n := by simpa using h1
    have : x = (n, d) := List.inj_on_of_nodup_map hn h2 h h1
    rw [this]; rfl

theorem data_ne_none (E : Env K) (xsec : M → XSec K) (s : Model K M) (m : Mark K) (n : Name) :
    (partOf E xsec s m).data n ≠ none ↔ n ∈ [m.nC, m.nR, m.nL, m.nA] ++ dataNames := by
  have : ((partOf E xsec s m).data n ≠ none) ↔ n ∈ (partOf E xsec s m).sets.map (·.1) := by
    constructor
    · intro h
      cases hd : (partOf E xsec s m).data n with
      | none => exact absurd hd h
      | some d => exact List.mem_map.2 ⟨_, Part.data_some _ _ _ hd, rfl⟩
    · intro h hd
      obtain ⟨x, hx, rfl⟩ := List.mem_map.1 h
      unfold Part.data at hd
      rw [Option.map_eq_none_iff] at hd
      have := List.find?_eq_none.1 hd x hx
      simp at this
  rw [this]
  simp [partOf, dataNames]

theorem head_of_mem (m : Mark K) (h : Heads m) (n : Name) (hn : n ∈ [m.nC, m.nR, m.nL, m.nA] ++ dataNames) :
    (n.head? = some 67 → n = m.nC) ∧ (n.head? = some 82 → n = m.nR) ∧ (n.head? = some 76 → n = m.nL) ∧ (n.head? = some 65 → n = m.nA) := by
  have hd : ∀ n ∈ dataNames, n.head? ≠ some 67 ∧ n.head? ≠ some 82 ∧ n.head? ≠ some 76 ∧ n.head? ≠ some 65 := by decide
  simp only [List.cons_append, List.nil_append, List.mem_cons] at hn
  rcases hn with rfl | rfl | rfl | rfl | hn
  · have := h.c; refine ⟨fun _ => rfl, ?_, ?_, ?_⟩ <;> intro h' <;> rw [this] at h' <;> simp at h'
  · have := h.r; refine ⟨?_, fun _ => rfl, ?_, ?_⟩ <;> intro h' <;> rw [this] at h' <;> simp at h'
  · have := h.l; refine ⟨?_, ?_, fun _ => rfl, ?_⟩ <;> intro h' <;> rw [this] at h' <;> simp at h'
  · have := h.a; refine ⟨?_, ?_, ?_, fun _ => rfl⟩ <;> intro h' <;> rw [this] at h' <;> simp at h'
  · obtain ⟨h1, h2, h3, h4⟩ := hd n hn
    exact ⟨fun h => absurd h h1, fun h => absurd h h2, fun h => absurd h h3, fun h => absurd h h4⟩

/-- Names as labels. -/
theorem visit_eq (pre : Name) (text : String) (hp : pre = text.toList.map fun c => UInt8.ofNat c.toNat) (id k : Nat)
    (h1 : id < 100000) (h2 : k < 100000) : visitName pre id k = setName text id k := by
  unfold visitName nodeName setName label
  rw [digits5 id h1, digits5 k h2, hp]
  rfl

theorem setName_inj (text : String) (id k id' k' : Nat) (h1 : id < 100000) (h2 : k < 100000) (h3 : id' < 100000) (h4 : k' < 100000)
    (h : setName text id k = setName text id' k') : id = id' ∧ k = k' := by
  unfold setName at h
  obtain ⟨e1, e2⟩ := List.append_inj h (by rw [label_length, label_length])
  exact ⟨label_inj text id id' h1 h3 e1, label_inj "_" k k' h2 h4 e2⟩

/-- One level. -/
theorem level {κ : Type} (E : Env K) (xsec : M → XSec K) (s : Model K M) (ms : List (Mark K)) (V : List (κ × Nat))
    (hn : (V.map (·.1)).Nodup) (small : ∀ v ∈ V, v.2 < 100000) (few : Few V) (pre : Name) (text : String)
    (hp : pre = text.toList.map fun c => UInt8.ofNat c.toNat) (key : Tile K → κ) (nm : Mark K → Name)
    (htag : ∀ m ∈ ms, ∃ id k : Nat, (key m.tile, id, k) ∈ numbered V ∧ nm m = visitName pre id k)
    (b : Byte) (hb : pre.head? = some b) (hdata : ∀ m ∈ ms, ∀ n : Name, n.head? = some b → ((partOf E xsec s m).data n ≠ none ↔ n = nm m))
    (hD : ∀ n ∈ dataNames, n.head? ≠ some b) (hgood : ∀ m ∈ ms, GoodPart IsData (partOf E xsec s m))
    (hne : ∀ v ∈ V, ∃ m ∈ ms, key m.tile = v.1) (sets : List (ElSet Name K))
    (hl : ∀ n, lookup sets n = look n (ms.map (partOf E xsec s))) (o : κ) (id k : Nat) (h : (o, id, k) ∈ numbered V) :
    HasSet s (ms.map (·.tile)) sets (setName text id k) fun t => key t = o := by
  obtain ⟨hk, hmem⟩ := numbered_lt V o id k h
  have h1 : id < 100000 := small _ hmem
  have h2 : k < 100000 := lt_of_lt_of_le hk (few id)
  rw [← visit_eq pre text hp id k h1 h2]
  have hhead := visit_head pre b hb id k
  have hiff : ∀ m ∈ ms, (partOf E xsec s m).data (visitName pre id k) ≠ none ↔ key m.tile = o := by
    intro m hm
    rw [hdata m hm _ hhead]
    obtain ⟨id', k', g1, g2⟩ := htag m hm
    rw [g2]
    constructor
    · intro e
      obtain ⟨hk', hmem'⟩ := numbered_lt V _ id' k' g1
      have h3 : id' < 100000 := small _ hmem'
      have h4 : k' < 100000 := lt_of_lt_of_le hk' (few id')
      rw [visit_eq pre text hp id k h1 h2, visit_eq pre text hp id' k' h3 h4] at e
      obtain ⟨rfl, rfl⟩ := setName_inj text id k id' k' h1 h2 h3 h4 e
      exact numbered_inj V _ _ id k g1 h
    · intro e
      rw [e] at g1
      obtain ⟨rfl, rfl⟩ := numbered_fun V hn o id id' k k' h g1
      rfl
  obtain ⟨m, hm, hkey⟩ := hne _ hmem
  obtain ⟨r, hr⟩ := look_some (visitName pre id k) (ms.map (partOf E xsec s)) _ (List.mem_map_of_mem hm) ((hiff m hm).2 hkey)
  obtain ⟨e, he, n1, n2, n3⟩ := lookup_mem sets (visitName pre id k) r (by rw [hl, hr])
  refine ⟨e, he, n1, ?_, ?_, ?_⟩
  · rw [n3]
    exact (look_data IsData _ _ (by simpa using hgood) r hr).2 fun hd => hD _ hd hhead
  · rw [n2]
    exact (look_sorted _ _ r hr).1
  · intro i
    rw [n2]
    exact look_tiles E xsec s ms _ (fun t => key t = o) hiff r hr i

/-- One field. -/
theorem field (E : Env K) (xsec : M → XSec K) (s : Model K M) (ms : List (Mark K)) (hms : ms ≠ []) (sets : List (ElSet Name K))
    (hl : ∀ n, lookup sets n = look n (ms.map (partOf E xsec s))) (name : String) (hD : IsData (bytes name)) (g : Tile K → List K)
    (hg : ∀ m ∈ ms, (bytes name, g m.tile) ∈ (partOf E xsec s m).sets) (hgood : ∀ m ∈ ms, GoodPart IsData (partOf E xsec s m))
    (v : Tile K → Nat → Option K) (hv : ∀ t f, f < nf s t → (g t)[f]? = v t f) :
    HasField s (ms.map (·.tile)) sets ((ms.map (·.tile)).map (nf s)).sum name v := by
  have hlook : look (bytes name) (ms.map (partOf E xsec s)) =
      some (List.range (count (ms.map (partOf E xsec s))), (ms.map (·.tile)).flatMap g) := by
    have := look_full (bytes name) (fun p => (p.data (bytes name)).getD []) (ms.map (partOf E xsec s)) (by simpa using hms) ?_
    · rw [this, List.flatMap_map, List.flatMap_map]
      congr 2
      apply List.flatMap_congr
      intro m hm
      rw [data_find _ _ _ (hgood m hm).nodup (hg m hm)]
      rfl
    · intro p hp
      obtain ⟨m, hm, rfl⟩ := List.mem_map.1 hp
      rw [data_find _ _ _ (hgood m hm).nodup (hg m hm)]
      rfl
  have hlen : ∀ t ∈ ms.map (·.tile), (g t).length = nf s t := by
    intro t ht
    obtain ⟨m, hm, rfl⟩ := List.mem_map.1 ht
    have := ((hgood m hm).data _ (hg m hm)).1 hD
    simpa [partOf, nf] using this
  obtain ⟨e, he, n1, n2, n3⟩ := lookup_mem sets _ _ ((hl _).trans hlook)
  refine ⟨e, he, n1, by rw [n2, count_marks], ?_, ?_⟩
  · rw [n3, List.length_flatMap]
    congr 1
    exact List.map_congr_left hlen
  · rintro i t f ⟨A, B, hL, hf, rfl⟩
    rw [n3, hL, flatMap_get g (nf s) A B t (by rw [← hL]; exact hlen) f hf]
    exact hv t f hf

/-! ### Every place has a cell -/

theorem kids_mem {κ : Type} (o : κ) (nx ny n : Nat) (ch : List ℤ) (h : InRange n ch) (v) (hv : v ∈ kids o nx ny ch) : v.2 < n := by
  unfold kids at hv
  obtain ⟨p, -, hv⟩ := List.mem_filterMap.1 hv
  obtain ⟨c, hc, rfl⟩ := Option.map_eq_some_iff.1 hv
  obtain ⟨h1, h2⟩ := h c (List.mem_of_getElem? hc)
  dsimp only
  omega

theorem kids_ne {κ : Type} (o : κ) (nx ny : Nat) (ch : List ℤ) (hne : ch ≠ []) (hl : ch.length = nx * ny) : kids o nx ny ch ≠ [] := by
  have hpos : 0 < nx * ny := by rw [← hl]; exact List.length_pos_iff.2 hne
  have h1 : 0 < nx := Nat.pos_of_mul_pos_right hpos
  have h2 : 0 < ny := Nat.pos_of_mul_pos_left hpos
  obtain ⟨c, hc⟩ := get_of_lt ch 0 (by omega)
  intro h
  have : ((o, (0, 0)), c.toNat) ∈ kids o nx ny ch := by
    unfold kids
    refine List.mem_filterMap.2 ⟨(0, 0), ?_, by simp [hc]⟩
    rw [rows_eq, mem_places]
    exact ⟨h1, h2⟩
  rw [h] at this
  cases this

variable (s : Model K M) (hB : Built s s.cells.length)

include hB in
theorem asy_range (v) (h : v ∈ asyVisits s) : v.2 < s.assemblies.length := by
  unfold asyVisits at h
  obtain ⟨w, hw, rfl⟩ := List.mem_map.1 h
  exact kids_mem _ _ _ _ _ hB.core.2.2.1 w hw

include hB in
theorem lat_range (v) (h : v ∈ latVisits s) : v.2 < s.lattices.length := by
  obtain ⟨w, hw, hv⟩ := List.mem_flatMap.1 h
  obtain ⟨a, ha⟩ := get_of_lt s.assemblies w.2 (asy_range s hB w hw)
  unfold latKids at hv
  rw [ha] at hv
  obtain ⟨c, hc, rfl⟩ := List.mem_map.1 hv
  obtain ⟨h1, h2⟩ := (hB.asy a (List.mem_of_getElem? ha)).2.2.1 c.1 (List.fst_mem_of_mem_zipIdx hc)
  dsimp only
  omega

include hB in
theorem rtm_range (v) (h : v ∈ rtmVisits s) : v.2 < s.rtms.length := by
  obtain ⟨w, hw, hv⟩ := List.mem_flatMap.1 h
  obtain ⟨a, ha⟩ := get_of_lt s.lattices w.2 (lat_range s hB w hw)
  unfold rtmKids at hv
  rw [ha] at hv
  exact kids_mem _ _ _ _ _ (hB.lat a (List.mem_of_getElem? ha)).2.2.1 v hv

include hB in
theorem cell_range (v) (h : v ∈ cellVisits s) : v.2 < s.cells.length := by
  obtain ⟨w, hw, hv⟩ := List.mem_flatMap.1 h
  obtain ⟨a, ha⟩ := get_of_lt s.rtms w.2 (rtm_range s hB w hw)
  unfold cellKids at hv
  rw [ha] at hv
  exact kids_mem _ _ _ _ _ (hB.rtm a (List.mem_of_getElem? ha)).2.2.1 v hv

include hB in
theorem rtm_has (v) (h : v ∈ rtmVisits s) : ∃ w ∈ cellVisits s, w.1.1 = v.1 := by
  obtain ⟨a, ha⟩ := get_of_lt s.rtms v.2 (rtm_range s hB v h)
  obtain ⟨b1, b2, -⟩ := hB.rtm a (List.mem_of_getElem? ha)
  obtain ⟨w, hw⟩ := List.exists_mem_of_ne_nil _ (kids_ne v.1 _ _ _ b1 b2)
  have hw' : w ∈ cellKids s v := by unfold cellKids; rw [ha]; exact hw
  exact ⟨w, List.mem_flatMap.2 ⟨v, h, hw'⟩, cellKids_pre s v w hw'⟩

include hB in
theorem lat_has (v) (h : v ∈ latVisits s) : ∃ w ∈ cellVisits s, w.1.1.1 = v.1 := by
  obtain ⟨a, ha⟩ := get_of_lt s.lattices v.2 (lat_range s hB v h)
  obtain ⟨b1, b2, -⟩ := hB.lat a (List.mem_of_getElem? ha)
  obtain ⟨w, hw⟩ := List.exists_mem_of_ne_nil _ (kids_ne v.1 _ _ _ b1 b2)
  have hw' : w ∈ rtmKids s v := by unfold rtmKids; rw [ha]; exact hw
  obtain ⟨u, hu, e⟩ := rtm_has s hB w (List.mem_flatMap.2 ⟨v, h, hw'⟩)
  exact ⟨u, hu, by rw [e]; exact rtmKids_pre s v w hw'⟩

include hB in
theorem asy_has (v) (h : v ∈ asyVisits s) : ∃ w ∈ cellVisits s, w.1.1.1.1 = v.1 := by
  obtain ⟨a, ha⟩ := get_of_lt s.assemblies v.2 (asy_range s hB v h)
  obtain ⟨b1, -⟩ := hB.asy a (List.mem_of_getElem? ha)
  have hne : latKids s v ≠ [] := by unfold latKids; rw [ha]; simpa using b1
  obtain ⟨w, hw'⟩ := List.exists_mem_of_ne_nil _ hne
  obtain ⟨u, hu, e⟩ := lat_has s hB w (List.mem_flatMap.2 ⟨v, h, hw'⟩)
  exact ⟨u, hu, by rw [e]; exact latKids_pre s v w hw'⟩

/-! ### Cross sections -/

theorem sections_ok (xsec : M → XSec K) (hx : ∀ m ∈ s.materials, ∃ ng, 0 < ng ∧ (xsec m).WF ng) :
    ∃ xs, (s.materials.mapM fun m => oneGroup (xsec m)) = some xs ∧ Sections xsec s xs := by
  refine ⟨s.materials.map fun m => ((xsec m).a.sum + (xsec m).s.sum) / ((xsec m).a.length : K), ?_, by simp, ?_⟩
  · apply mapM_some
    intro m hm
    obtain ⟨ng, h0, hw⟩ := hx m hm
    obtain ⟨r, e, -, -, -, h2, -⟩ := C54_average ng h0 (xsec m) hw
    have ha := h2 .a nofun
    have hs := h2 .s nofun
    have hl := hw.2 .a
    simp only [XSec.get, Rx.size] at ha hs hl
    unfold oneGroup
    rw [e, Option.bind_some, ha, hs, hl]
    simp [add_div]
  · intro i hi
    rw [List.getElem?_map]
    unfold sigma
    rw [Int.toNat_natCast]
    rw [List.length_map] at hi
    obtain ⟨m, hm⟩ := get_of_lt s.materials i hi
    rw [hm]
    rfl

end

end Verif.ModelSoup
