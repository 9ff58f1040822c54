import Verif.Model.Heights
import Verif.Model.Mem
import Verif.Props.MpactTotals
import Mathlib.Tactic.Linarith
import Mathlib.Algebra.Order.Ring.Rat

/-!
# C66 Height listings
-/

namespace Verif.Heights

open Verif.Mpact

set_option linter.unusedSectionVars false
variable {K M : Type} [Field K] [LinearOrder K] [IsStrictOrderedRing K]

/-! ## What is listed -/

/-- `(id, dz)` occurs in the list of occurrences `occ`; `l` lists each id once per height, up to the tolerance. -/
structure Lists (eps : K) (occ l : List (ℤ × K)) : Prop where
  /-- no pair is listed twice -/
  distinct : l.Pairwise fun p q => p.1 = q.1 → eps ≤ |p.2 - q.2|
  /-- only occurrences are listed -/
  sound : ∀ p ∈ l, p ∈ occ
  /-- every occurrence is listed, up to the tolerance -/
  complete : ∀ p ∈ occ, ∃ q ∈ l, q.1 = p.1 ∧ |q.2 - p.2| < eps

theorem lists_nil (eps : K) : Lists eps [] [] := ⟨List.Pairwise.nil, by simp, by simp⟩

theorem lists_add {eps : K} (he : 0 < eps) {occ l : List (ℤ × K)} (h : Lists eps occ l) (id : ℤ) (dz : K) :
    Lists eps (occ ++ [(id, dz)]) (addPair eps l id dz) := by
  unfold addPair
  split
  · rename_i hany
    refine ⟨h.distinct, fun p hp => List.mem_append_left _ (h.sound p hp), ?_⟩
    intro p hp
    rcases List.mem_append.1 hp with hp | hp
    · exact h.complete p hp
    · rw [List.mem_singleton] at hp
      subst hp
      obtain ⟨q, hq, h'⟩ := List.any_eq_true.1 hany
      simp only [Bool.and_eq_true, decide_eq_true_eq] at h'
      exact ⟨q, hq, h'⟩
  · rename_i hany
    refine ⟨?_, ?_, ?_⟩
    · rw [List.pairwise_append]
      refine ⟨h.distinct, List.pairwise_singleton _ _, ?_⟩
      intro p hp q hq hid
      rw [List.mem_singleton] at hq
      subst hq
      by_contra hc
      apply hany
      refine List.any_eq_true.2 ⟨p, hp, ?_⟩
      simp only [Bool.and_eq_true, decide_eq_true_eq]
      exact ⟨hid, not_le.1 hc⟩
    · intro p hp
      rcases List.mem_append.1 hp with hp | hp
      · exact List.mem_append_left _ (h.sound p hp)
      · exact List.mem_append_right _ hp
    · intro p hp
      rcases List.mem_append.1 hp with hp | hp
      · obtain ⟨q, hq, h'⟩ := h.complete p hp
        exact ⟨q, List.mem_append_left _ hq, h'⟩
      · rw [List.mem_singleton] at hp
        subst hp
        exact ⟨(id, dz), by simp, rfl, by simpa using he⟩

/-- The layers of an assembly: lattice and thickness. -/
def layers (a : Assembly K) : List (ℤ × K) := List.zipWith (fun lat (z : K × K) => (lat, z.2 - z.1)) a.children (a.zs.zip a.zs.tail)

/-- The layers of all assemblies. -/
def allLayers (s : Model K M) : List (ℤ × K) := s.assemblies.flatMap layers

/-- A function that processes the occurrences `g lat dz`. -/
def Processes (eps : K) (P : ℤ → Prop) (f : ℤ → K → List (ℤ × K) → Option (List (ℤ × K))) (g : ℤ → K → List (ℤ × K)) : Prop :=
  ∀ lat, P lat → ∀ dz occ l, Lists eps occ l → ∃ l', f lat dz l = some l' ∧ Lists eps (occ ++ g lat dz) l'

theorem processes_ids {eps : K} {P Q : ℤ → Prop} {f : ℤ → K → List (ℤ × K) → Option (List (ℤ × K))} {g : ℤ → K → List (ℤ × K)} (h : Processes eps P f g)
    {α : Type} {table : List α} {children : α → List ℤ} (hQ : ∀ i, Q i → InTable table i) (hP : ∀ x ∈ table, ∀ i ∈ children x, P i) :
    Processes eps Q (fun lat dz l => (at? table lat).bind fun x => forIds (fun i l => f i dz l) (children x) l)
      (fun lat dz => (below table children [lat]).flatMap fun i => g i dz) := by
  intro lat hlat dz occ l hl
  obtain ⟨x, hx, hm⟩ := at?_of_lt (hQ lat hlat).1 (hQ lat hlat).2
  dsimp only
  rw [hx, Option.bind_some, below_singleton hx]
  have key : ∀ (ids : List ℤ), (∀ i ∈ ids, P i) → ∀ occ l, Lists eps occ l → ∃ l', forIds (fun i l => f i dz l) ids l = some l' ∧
      Lists eps (occ ++ ids.flatMap fun i => g i dz) l' := by
    intro ids
    induction ids with
    | nil => intro _ occ l h; exact ⟨l, rfl, by simpa using h⟩
    | cons i ids ih =>
      intro hp occ l hl
      obtain ⟨l1, h1, h2⟩ := h i (hp i (by simp)) dz occ l hl
      obtain ⟨l2, h3, h4⟩ := ih (fun j hj => hp j (by simp [hj])) _ _ h2
      refine ⟨l2, ?_, ?_⟩
      · rw [forIds, h1, Option.bind_some, h3]
      · rw [List.flatMap_cons, ← List.append_assoc]; exact h4
  exact key _ (hP x hm) occ l hl

theorem overLayers_lists {eps : K} {P : ℤ → Prop} {f : ℤ → K → List (ℤ × K) → Option (List (ℤ × K))} {g : ℤ → K → List (ℤ × K)} (h : Processes eps P f g)
    (a : Assembly K) (ha : a.children.length + 1 = a.zs.length) (hp : ∀ i ∈ a.children, P i) (occ l : List (ℤ × K)) (hl : Lists eps occ l) :
    ∃ l', overLayers f a (List.range a.children.length) l = some l' ∧ Lists eps (occ ++ (layers a).flatMap fun p => g p.1 p.2) l' := by
  have hlen : (layers a).length = a.children.length := by
    unfold layers
    rw [List.length_zipWith, List.length_zip, List.length_tail]
    omega
  have hget : ∀ i, i < a.children.length → ∃ lat dz, a.children[i]? = some lat ∧ layer a i = some dz ∧ (layers a)[i]? = some (lat, dz) := by
    intro i hi
    have h1 : i < a.zs.length := by omega
    have h2 : i + 1 < a.zs.length := by omega
    refine ⟨a.children[i], a.zs[i + 1] - a.zs[i], List.getElem?_eq_getElem hi, ?_, ?_⟩
    · unfold layer
      rw [List.getElem?_eq_getElem h1, Option.bind_some, List.getElem?_eq_getElem h2, Option.bind_some]
    · unfold layers
      rw [List.getElem?_eq_getElem (by unfold layers at hlen; omega), List.getElem_zipWith, List.getElem_zip, List.getElem_tail]
  have key : ∀ (n k : Nat), k + n = a.children.length → ∀ occ l, Lists eps occ l →
      ∃ l', overLayers f a (List.range' k n) l = some l' ∧ Lists eps (occ ++ ((layers a).drop k).flatMap fun p => g p.1 p.2) l' := by
    intro n
    induction n with
    | zero =>
      intro k hk occ l hl
      refine ⟨l, rfl, ?_⟩
      rw [List.drop_of_length_le (by omega)]
      simpa using hl
    | succ n ih =>
      intro k hk occ l hl
      obtain ⟨lat, dz, e1, e2, e3⟩ := hget k (by omega)
      obtain ⟨l1, h1, h2⟩ := h lat (hp lat (List.mem_of_getElem? e1)) dz occ l hl
      obtain ⟨l2, h3, h4⟩ := ih (k + 1) (by omega) _ _ h2
      refine ⟨l2, ?_, ?_⟩
      · rw [List.range'_succ, overLayers, e2, Option.bind_some, e1, Option.bind_some, h1, Option.bind_some, h3]
      · have hk' : k < (layers a).length := by omega
        rw [List.drop_eq_getElem_cons hk', List.flatMap_cons, ← List.append_assoc]
        rw [List.getElem?_eq_getElem hk'] at e3
        rw [Option.some.inj e3]
        exact h4
  have := key a.children.length 0 (by omega) occ l hl
  rw [List.range_eq_range']
  simpa using this

theorem overAssemblies_lists {eps : K} {P : ℤ → Prop} {f : ℤ → K → List (ℤ × K) → Option (List (ℤ × K))} {g : ℤ → K → List (ℤ × K)} (h : Processes eps P f g)
    (as : List (Assembly K)) : (∀ a ∈ as, a.children.length + 1 = a.zs.length ∧ ∀ i ∈ a.children, P i) → ∀ occ l, Lists eps occ l →
    ∃ l', overAssemblies f as l = some l' ∧ Lists eps (occ ++ (as.flatMap layers).flatMap fun p => g p.1 p.2) l' := by
  induction as with
  | nil => intro _ occ l hl; exact ⟨l, rfl, by simpa using hl⟩
  | cons a as ih =>
    intro ha occ l hl
    obtain ⟨l1, h1, h2⟩ := overLayers_lists h a (ha a (by simp)).1 (ha a (by simp)).2 occ l hl
    obtain ⟨l2, h3, h4⟩ := ih (fun b hb => ha b (by simp [hb])) _ _ h2
    refine ⟨l2, ?_, ?_⟩
    · rw [overAssemblies, h1, Option.bind_some, h3]
    · rw [List.flatMap_cons, List.flatMap_append, ← List.append_assoc]
      exact h4

/-- **C66.**  Before sorting, the listings contain every lattice, RTM and coarse cell with the thickness of each layer it is used in, once up to the
tolerance. -/
theorem C66_listing {eps : K} (he : 0 < eps) (s : Model K M) (h : Valid s) :
    (∃ l, latticePairs eps s = some l ∧ Lists eps (allLayers s) l) ∧
    (∃ l, rtmPairs eps s = some l ∧ Lists eps ((allLayers s).flatMap fun p => (below s.lattices (·.children) [p.1]).map fun r => (r, p.2)) l) ∧
    (∃ l, cellPairs eps s = some l ∧ Lists eps ((allLayers s).flatMap fun p =>
      (below s.rtms (·.children) (below s.lattices (·.children) [p.1])).map fun c => (c, p.2)) l) := by
  have hA : ∀ a ∈ s.assemblies, a.children.length + 1 = a.zs.length ∧ ∀ i ∈ a.children, InTable s.lattices i :=
    fun a ha => ⟨(h.assembly a ha).1, (h.assembly a ha).2.2.2⟩
  have hR : ∀ l ∈ s.lattices, ∀ i ∈ l.children, InTable s.rtms i := fun l hl => (h.lattice l hl).2
  have hC : ∀ r ∈ s.rtms, ∀ i ∈ r.children, InTable s.cells i := h.rtm
  have leaf : ∀ P : ℤ → Prop, Processes eps P (fun lat dz l => some (addPair eps l lat dz)) (fun lat dz => [(lat, dz)]) :=
    fun P lat _ dz occ l hl => ⟨_, rfl, lists_add he hl lat dz⟩
  refine ⟨?_, ?_, ?_⟩
  · obtain ⟨l, h1, h2⟩ := overAssemblies_lists (leaf (InTable s.lattices)) s.assemblies hA [] [] (lists_nil eps)
    refine ⟨l, h1, ?_⟩
    simpa [allLayers] using h2
  · have p := processes_ids (leaf (InTable s.rtms)) (Q := InTable s.lattices) (table := s.lattices) (children := fun l : Mpact.Lattice K => l.children)
      (fun i hi => hi) hR
    obtain ⟨l, h1, h2⟩ := overAssemblies_lists p s.assemblies hA [] [] (lists_nil eps)
    refine ⟨l, h1, ?_⟩
    rw [List.nil_append] at h2
    have e : ∀ (ids : List ℤ) (dz : K), (ids.flatMap fun i => [(i, dz)]) = ids.map fun r => (r, dz) := by
      intro ids dz
      induction ids <;> simp_all
    simp only [e] at h2
    exact h2
  · have p0 := processes_ids (leaf (InTable s.cells)) (Q := InTable s.rtms) (table := s.rtms) (children := fun l : Rect K => l.children)
      (fun i hi => hi) hC
    have p := processes_ids p0 (Q := InTable s.lattices) (table := s.lattices) (children := fun l : Mpact.Lattice K => l.children)
      (fun i hi => hi) hR
    obtain ⟨l, h1, h2⟩ := overAssemblies_lists p s.assemblies hA [] [] (lists_nil eps)
    refine ⟨l, h1, ?_⟩
    rw [List.nil_append] at h2
    have e : ∀ (ids : List ℤ) (dz : K), (ids.flatMap fun i => (below s.rtms (fun l : Rect K => l.children) [i]).flatMap fun i => [(i, dz)]) =
        (below s.rtms (fun l : Rect K => l.children) ids).map fun r => (r, dz) := by
      intro ids dz
      have e0 : ∀ ids : List ℤ, (ids.flatMap fun i => [(i, dz)]) = ids.map fun r => (r, dz) := by
        intro ids
        induction ids <;> simp_all
      induction ids with
      | nil => rfl
      | cons i ids ih =>
        have : below s.rtms (fun l : Rect K => l.children) (i :: ids) = below s.rtms (fun l : Rect K => l.children) [i] ++ below s.rtms (fun l : Rect K => l.children) ids :=
          below_append _ _ [i] ids
        rw [this, List.flatMap_cons, ih, List.map_append, e0]
    simp only [e] at h2
    exact h2

/-- **C66.**  The heights of an assembly are the thicknesses of its layers. -/
theorem C66_assembly (a : Assembly K) (h : a.children.length + 1 = a.zs.length) : assemblyHeights a = some ((layers a).map (·.2)) := by
  have hx : ∀ i ∈ List.range a.children.length, ∃ y, layer a i = some y := by
    intro i hi
    rw [List.mem_range] at hi
    unfold layer
    rw [List.getElem?_eq_getElem (by omega), Option.bind_some, List.getElem?_eq_getElem (by omega), Option.bind_some]
    exact ⟨_, rfl⟩
  obtain ⟨out, h1, h2, h3⟩ := mapM_some_getElem? hx
  unfold assemblyHeights
  rw [h1]
  congr 1
  rw [List.length_range] at h2
  have hlen : (layers a).length = a.children.length := by
    unfold layers
    rw [List.length_zipWith, List.length_zip, List.length_tail]
    omega
  apply List.ext_getElem?
  intro i
  by_cases hi : i < a.children.length
  · rw [h3 i i (by rw [List.getElem?_range hi]), List.getElem?_map, List.getElem?_eq_getElem (by omega), Option.map_some]
    unfold layer
    rw [List.getElem?_eq_getElem (by omega), Option.bind_some, List.getElem?_eq_getElem (by omega), Option.bind_some]
    unfold layers
    rw [List.getElem_zipWith, List.getElem_zip, List.getElem_tail]
  · rw [List.getElem?_eq_none (by omega), List.getElem?_eq_none (by rw [List.length_map]; omega)]

/-! ## The comparator -/

/-- The comparison is not an order: three pairs in a cycle, whatever the tolerance. -/
theorem C66_cycle_fails {eps : K} (he : 0 < eps) : ∃ a b c : ℤ × K, lt eps a b = true ∧ lt eps b c = true ∧ lt eps c a = true ∧
    ¬ StrictWeak (lt eps) := by
  have h1 : lt eps (1, 6 * eps / 5) (2, 3 * eps / 5) = true := by
    unfold lt
    dsimp only
    rw [if_pos (by rw [abs_lt]; constructor <;> linarith)]
    exact decide_eq_true (by norm_num)
  have h2 : lt eps (2, 3 * eps / 5) (3, 0) = true := by
    unfold lt
    dsimp only
    rw [if_pos (by rw [abs_lt]; constructor <;> linarith)]
    exact decide_eq_true (by norm_num)
  have h3 : lt eps ((3, 0) : ℤ × K) (1, 6 * eps / 5) = true := by
    unfold lt
    dsimp only
    rw [if_neg (by rw [abs_lt]; rintro ⟨h, -⟩; linarith), decide_eq_true_eq]
    linarith
  refine ⟨_, _, _, h1, h2, h3, fun h => ?_⟩
  have h2' := h.asymm _ _ h2
  have h1' := h.asymm _ _ h1
  have := h.negTrans _ _ _ h2' h1'
  rw [h3] at this
  exact absurd this (by simp)

/-- **C66.**  On pairs whose heights fall into well separated groups (being close is transitive), the comparison is a strict weak order; there, it is the order by
height group, then by id. -/
theorem C66_order_partial {eps : K} (he : 0 < eps) (S : Set (ℤ × K))
    (hS : ∀ a ∈ S, ∀ b ∈ S, ∀ c ∈ S, |a.2 - b.2| < eps → |b.2 - c.2| < eps → |a.2 - c.2| < eps) :
    StrictWeak (fun a b : S => lt eps a.1 b.1) := by
  have near_symm : ∀ a b : K, |a - b| < eps → |b - a| < eps := fun a b h => by rwa [abs_sub_comm]
  have ltT : ∀ a b : ℤ × K, lt eps a b = true ↔ (|a.2 - b.2| < eps ∧ a.1 < b.1) ∨ (¬ |a.2 - b.2| < eps ∧ a.2 < b.2) := by
    intro a b
    unfold lt
    split
    · rename_i h; simp [h]
    · rename_i h; simp [h]
  have ltF : ∀ a b : ℤ × K, lt eps a b = false ↔ (|a.2 - b.2| < eps ∧ b.1 ≤ a.1) ∨ (¬ |a.2 - b.2| < eps ∧ b.2 ≤ a.2) := by
    intro a b
    unfold lt
    split
    · rename_i h; simp [h]
    · rename_i h; simp [h]
  constructor
  · intro a b h
    rw [ltT] at h
    rw [ltF]
    rcases h with ⟨h1, h2⟩ | ⟨h1, h2⟩
    · exact Or.inl ⟨near_symm _ _ h1, h2.le⟩
    · exact Or.inr ⟨fun hc => h1 (near_symm _ _ hc), h2.le⟩
  · intro a b c h1 h2
    rw [ltF] at h1 h2 ⊢
    have far : ∀ x y : K, ¬ |x - y| < eps → y ≤ x → y + eps ≤ x := by
      intro x y h hle
      rw [abs_of_nonneg (by linarith)] at h
      linarith
    rcases h1 with ⟨n1, i1⟩ | ⟨f1, g1⟩ <;> rcases h2 with ⟨n2, i2⟩ | ⟨f2, g2⟩
    · exact Or.inl ⟨hS _ a.2 _ b.2 _ c.2 n1 n2, i2.trans i1⟩
    · have := far _ _ f2 g2
      have hn : ¬ |a.1.2 - c.1.2| < eps := fun hc => f2 (hS _ b.2 _ a.2 _ c.2 (near_symm _ _ n1) hc)
      refine Or.inr ⟨hn, ?_⟩
      have := (abs_lt.1 n1).1
      linarith
    · have := far _ _ f1 g1
      have hn : ¬ |a.1.2 - c.1.2| < eps := fun hc => f1 (hS _ a.2 _ c.2 _ b.2 hc (near_symm _ _ n2))
      refine Or.inr ⟨hn, ?_⟩
      have := (abs_lt.1 n2).1
      linarith
    · have h1 := far _ _ f1 g1
      have h2 := far _ _ f2 g2
      refine Or.inr ⟨fun hc => ?_, by linarith⟩
      have := (abs_lt.1 hc).2
      linarith

/-- **C66.**  In that case the result of `std::sort` (which promises a sorted permutation for strict weak orders only) has ascending heights, up to the tolerance, and ascending ids among heights that agree. -/
theorem C66_sorted_partial {eps : K} (he : 0 < eps) {occ l out : List (ℤ × K)} (h : Lists eps occ l)
    (hsort : StrictWeak (fun a b : {x | x ∈ l} => lt eps a.1 b.1) → IsStdSort (lt eps) l out)
    (hS : ∀ a ∈ l, ∀ b ∈ l, ∀ c ∈ l, |a.2 - b.2| < eps → |b.2 - c.2| < eps → |a.2 - c.2| < eps) :
    Lists eps occ out ∧ out.Pairwise fun p q => (|p.2 - q.2| < eps ∧ p.1 < q.1) ∨ p.2 + eps ≤ q.2 := by
  have hs := hsort (C66_order_partial he {x | x ∈ l} hS)
  have hd : out.Pairwise fun p q => p.1 = q.1 → eps ≤ |p.2 - q.2| :=
    (List.Perm.pairwise_iff (fun {a b} hab hid => by rw [abs_sub_comm]; exact hab hid.symm) hs.perm).2 h.distinct
  refine ⟨⟨hd, fun p hp => h.sound p (hs.perm.mem_iff.1 hp), fun p hp => ?_⟩, ?_⟩
  · obtain ⟨q, hq, h'⟩ := h.complete p hp
    exact ⟨q, hs.perm.mem_iff.2 hq, h'⟩
  · refine List.Pairwise.imp₂ ?_ hd hs.sorted
    intro p q h1 h2
    unfold lt at h2
    split at h2
    · rename_i hn
      have hn' : |p.2 - q.2| < eps := by rwa [abs_sub_comm]
      have hle : p.1 ≤ q.1 := not_lt.1 (of_decide_eq_false h2)
      refine Or.inl ⟨hn', lt_of_le_of_ne hle fun hid => ?_⟩
      exact absurd (h1 hid) (not_le.2 hn')
    · rename_i hf
      have hle : p.2 ≤ q.2 := not_lt.1 (of_decide_eq_false h2)
      rw [abs_of_nonneg (by linarith)] at hf
      refine Or.inr (by linarith)

/-! ### Examples -/

def exHeights : List (Op ℚ String) :=
  [exCell, .rtm [[0, 0]], .lattice [[0]], .lattice [[0]], .assembly [0, 1] [0, 10, 20], .assembly [0] [0, 20], .core [[0]]]

/-- Two assemblies: lattice 0 of thicknesses 10 and 20, lattice 1 of thickness 10. -/
example : ((exRun exHeights).bind fun st => latticePairs (1 / 10000) st.1) = some [(0, 10), (1, 10), (0, 20)] := by
  decide +kernel

example : ((exRun exHeights).bind fun st => cellPairs (1 / 10000) st.1) = some [(0, 10), (0, 20)] := by
  decide +kernel

/-- The heights 10, 10 and 20 are well separated. -/
example : ∀ a ∈ [((0 : ℤ), (10 : ℚ)), (1, 10), (0, 20)], ∀ b ∈ [((0 : ℤ), (10 : ℚ)), (1, 10), (0, 20)], ∀ c ∈ [((0 : ℤ), (10 : ℚ)), (1, 10), (0, 20)],
    |a.2 - b.2| < 1 / 10000 → |b.2 - c.2| < 1 / 10000 → |a.2 - c.2| < 1 / 10000 := by
  decide +kernel

end Verif.Heights
