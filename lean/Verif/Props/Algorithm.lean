import Verif.Lemmas.Algorithm
import Mathlib.Order.Lattice
import Mathlib.Data.List.Lex
import Mathlib.Data.List.Sort
import Mathlib.Order.Defs.LinearOrder

/-! # C11, C12, C13: small sorts, permutation utilities, comparisons -/

namespace Verif.Alg

variable {α : Type}

/-- `operator<` of a linearly ordered type. -/
def lt' [LinearOrder α] (a b : α) : Bool := decide (a < b)

theorem strictWeak_lt' [LinearOrder α] : StrictWeak (lt' (α := α)) where
  asymm a b h := by simp only [lt', decide_eq_true_eq, decide_eq_false_iff_not] at *; exact h.asymm
  negTrans a b c h1 h2 := by
    simp only [lt', decide_eq_false_iff_not, not_lt] at *; exact h2.trans h1

/-! ## C11 -/

/-- C11: `sort3` rearranges its arguments into ascending order, for any strict weak order. -/
theorem C11_sort3 (lt : α → α → Bool) (hw : StrictWeak lt) (x y z : α) :
    ∃ a b c, sort3 lt x y z = (a, b, c) ∧ [a, b, c].Perm [x, y, z] ∧
      [a, b, c].Pairwise (fun p q => lt q p = false) := by
  unfold sort3
  dsimp only
  have T := hw.negTrans
  have A := hw.asymm
  split_ifs with h1 h2 h3 h4 h5
  · exact ⟨x, y, z, rfl, List.Perm.refl _, by simp_all; exact T _ _ _ h2 h1⟩
  · refine ⟨z, x, y, rfl, ?_, ?_⟩
    · exact ((List.Perm.swap x z [y])).trans (List.Perm.cons _ (List.Perm.swap y z []))
    · simp_all
  · refine ⟨x, z, y, rfl, List.Perm.cons _ (List.Perm.swap y z []), ?_⟩
    simp_all
  · refine ⟨z, y, x, rfl, ?_, ?_⟩
    · exact (List.Perm.swap y z [x]).trans (((List.Perm.swap x z []).cons y).trans
        (List.Perm.swap x y [z]))
    · simp_all; exact A _ _ (hw.trans h4 h1)
  · refine ⟨y, z, x, rfl, ?_, ?_⟩
    · exact ((List.Perm.swap x z []).cons y).trans (List.Perm.swap x y [z])
    · simp_all
  · refine ⟨y, x, z, rfl, List.Perm.swap x y [z], ?_⟩
    simp_all

/-- C11: `sort4` rearranges its arguments into ascending order, for any strict weak order. -/
theorem C11_sort4 (lt : α → α → Bool) (hw : StrictWeak lt) (x1 x2 x3 x4 : α) :
    ∃ a b c d, sort4 lt x1 x2 x3 x4 = (a, b, c, d) ∧ [a, b, c, d].Perm [x1, x2, x3, x4] ∧
      [a, b, c, d].Pairwise (fun p q => lt q p = false) := by
  obtain ⟨a, b, c, he, hp, hs⟩ := C11_sort3 lt hw x1 x2 x3
  have A := hw.asymm
  have T := hw.negTrans
  have hp4 : [a, b, c, x4].Perm [x1, x2, x3, x4] := by simpa using hp.append_right [x4]
  unfold sort4
  rw [he]
  simp only [List.pairwise_cons, List.mem_cons, List.not_mem_nil, or_false, forall_eq_or_imp,
    forall_eq] at hs
  obtain ⟨⟨hba, hca⟩, hcb, -⟩ := hs
  simp only
  split_ifs with h1 h2 h3
  · refine ⟨x4, a, b, c, rfl, List.Perm.trans ?_ hp4, ?_⟩
    · exact (List.Perm.swap a x4 [b, c]).trans (((List.Perm.swap b x4 [c]).cons a).trans
        (((List.Perm.swap c x4 []).cons b).cons a))
    · simp_all
  · refine ⟨a, x4, b, c, rfl, List.Perm.trans ?_ hp4, ?_⟩
    · exact ((List.Perm.swap b x4 [c]).cons a).trans (((List.Perm.swap c x4 []).cons b).cons a)
    · simp_all
  · refine ⟨a, b, x4, c, rfl, List.Perm.trans ?_ hp4, ?_⟩
    · exact ((List.Perm.swap c x4 []).cons b).cons a
    · simp_all; exact T _ _ _ h2 hba
  · refine ⟨a, b, c, x4, rfl, hp4, ?_⟩
    simp_all
    exact ⟨T _ _ _ h1 hca, T _ _ _ h1 hcb⟩

/-- C11: `insertionSort` never touches a moved-from or out-of-range slot and leaves the range
sorted and a rearrangement of the input, for any strict weak order and any length. -/
theorem C11_insertionSort (lt : α → α → Bool) (hw : StrictWeak lt) (l : List α) :
    ∃ out : List α, insertionSort lt (l.map some) = some (out.map some) ∧ out.Perm l ∧
      out.Pairwise (fun a b => lt b a = false) := by
  cases l with
  | nil => exact ⟨[], by simp [insertionSort], List.Perm.refl _, by simp⟩
  | cons x l =>
    obtain ⟨out, h1, h2, h3⟩ := insertFold_spec hw l [x] (by simp) (by simp)
    exact ⟨out, by simpa [insertionSort] using h3, h1, h2⟩

example : StrictWeak (lt' (α := Nat)) ∧
    insertionSort lt' ([3, 1, 2, 1].map some) = some ([1, 1, 2, 3].map some) ∧
    sort4 lt' 4 2 3 1 = (1, 2, 3, 4) := ⟨strictWeak_lt', by decide, by decide⟩

/-! ## C12 -/

/-- C12: `applyPermutation` terminates without any out-of-range access and gathers:
the result at position `i` is the old value at position `p[i]`. -/
theorem C12_applyPermutation (v : List α) (p : List Nat) (hp : p.Perm (List.range v.length)) :
    ∃ out, applyPermutation v p = some out ∧ out.length = v.length ∧
      ∀ i (h : i < p.length), out[i]? = v[p[i]]? := by
  have hl : p.length = v.length := by simpa using hp.length_eq
  rcases Nat.eq_zero_or_pos v.length with h0 | hpos
  · refine ⟨v, ?_, rfl, ?_⟩
    · simp [applyPermutation, h0]
    · intro i h; omega
  obtain ⟨out, h1, inv⟩ := applyFold v hp (v.length - 1) 0 v (by omega) (applyInv_zero v)
  refine ⟨out, ?_, inv.len, ?_⟩
  · rw [applyPermutation, List.range_eq_range']; exact h1
  · intro i hi
    have hpf : p[i] = pf p i := by simp [pf, hi]
    rw [hpf]
    by_cases hlast : i < v.length - 1
    · exact inv.done i (by omega)
    · have hi' : i = v.length - 1 := by omega
      obtain ⟨s, hs0, hs1, hs2⟩ := chase_exists hp i (pf p i)
        (fun k hk e => by have := pf_inj hp e; omega)
      have hlt := iter_lt hp (pf_lt hp (k := i) (by omega)) s
      have e := inv.rest (pf p i) (pf_lt hp (by omega))
        (fun k hk e => by have := pf_inj hp e; omega) s
        (by intro t ht; have := hs1 t ht; omega) (by omega)
      rw [show (pf p)^[s] (pf p i) = i by omega] at e
      exact e

/-- C12: `invertPermutation` writes inside its output and returns the inverse, on both sides. -/
theorem C12_invertPermutation (p inv : List Nat) (hp : p.Perm (List.range p.length))
    (hinv : inv.length = p.length) :
    ∃ q, invertPermutation p inv = some q ∧ q.length = p.length ∧
      (∀ i (h : i < p.length), q[p[i]]? = some i) ∧
      (∀ i, i < p.length → ∃ j, q[i]? = some j ∧ p[j]? = some i) := by
  have hn : p.Nodup := hp.nodup_iff.2 List.nodup_range
  have hb : ∀ x ∈ p, x < p.length := fun x hx => by simpa using hp.mem_iff.1 hx
  obtain ⟨out, h1, h2, h3, -⟩ := invertFold p hn 0 inv (fun x hx => by rw [hinv]; exact hb x hx)
  refine ⟨out, h1, by omega, ?_, ?_⟩
  · intro i hi; simpa using h3 i hi
  · intro i hi
    have : i ∈ p := hp.mem_iff.2 (by simpa using hi)
    obtain ⟨j, hj, rfl⟩ := List.getElem_of_mem this
    exact ⟨j, by simpa using h3 j hj, by simp⟩

/-- C12: applying a permutation and then its inverse restores the input. -/
theorem C12_apply_invert (v : List α) (p inv : List Nat) (hp : p.Perm (List.range v.length))
    (hinv : inv.length = p.length) :
    ∃ w q, applyPermutation v p = some w ∧ invertPermutation p inv = some q ∧
      applyPermutation w q = some v := by
  have hl : p.length = v.length := by simpa using hp.length_eq
  obtain ⟨w, hw, hwl, hwi⟩ := C12_applyPermutation v p hp
  obtain ⟨q, hq, hql, hqi, hqj⟩ := C12_invertPermutation p inv (by rwa [hl]) hinv
  refine ⟨w, q, hw, hq, ?_⟩
  have hqp : q.Perm (List.range w.length) := by
    have hn : q.Nodup := by
      rw [List.nodup_iff_injective_getElem]
      intro a b hab
      obtain ⟨j, h1, h2⟩ := hqj a.1 (by omega)
      obtain ⟨j', h1', h2'⟩ := hqj b.1 (by omega)
      have ha : q[a.1]? = some q[a.1] := by simp
      have hb : q[b.1]? = some q[b.1] := by simp
      simp only at hab
      have : j = j' := by
        rw [ha] at h1; rw [hb] at h1'
        simp only [Option.some.injEq] at h1 h1'
        rw [← h1, ← h1', hab]
      subst this
      rw [h2] at h2'
      exact Fin.ext (by simpa using h2')
    refine (List.perm_ext_iff_of_nodup hn List.nodup_range).2 fun x => ?_
    simp only [List.mem_range]
    constructor
    · intro hx
      obtain ⟨i, hi, rfl⟩ := List.getElem_of_mem hx
      obtain ⟨j, h1, h2⟩ := hqj i (by omega)
      rw [List.getElem?_eq_getElem hi] at h1
      simp only [Option.some.injEq] at h1
      rw [h1]
      have := (List.getElem?_eq_some_iff.1 h2).1
      omega
    · intro hx
      have := hqi x (by omega)
      exact List.mem_of_getElem? this
  obtain ⟨out, ho, hol, hoi⟩ := C12_applyPermutation w q hqp
  rw [ho]
  congr 1
  apply List.ext_getElem?
  intro i
  by_cases hi : i < v.length
  · obtain ⟨j, h1, h2⟩ := hqj i (by omega)
    have hj := (List.getElem?_eq_some_iff.1 h2)
    have e1 := hoi i (by omega)
    have e2 : q[i]'(by omega) = j := by
      rw [List.getElem?_eq_getElem (by omega)] at h1; simpa using h1
    rw [e1, e2, hwi j hj.1, hj.2]
  · rw [List.getElem?_eq_none (by omega), List.getElem?_eq_none (by omega)]

/-- C12: the comparator that `sortPermutation` hands to `std::sort` meets the contract of
`std::sort` on the indices involved. -/
theorem C12_sortPermutation_comparator (lt : α → α → Bool) (hw : StrictWeak lt) (v : List α) :
    (∀ i j, permLess lt v i j = true → permLess lt v j i = false) ∧
    (∀ i j k, i < v.length → j < v.length → k < v.length → permLess lt v i j = false →
      permLess lt v j k = false → permLess lt v i k = false) := by
  constructor
  · intro i j h
    unfold permLess at *
    cases hi : v[i]? with
    | none => simp [hi] at h
    | some a =>
      cases hj : v[j]? with
      | none => simp [hi, hj] at h
      | some b => simp [hi, hj] at h ⊢; exact hw.asymm _ _ h
  · intro i j k hi hj hk h1 h2
    simp only [permLess, List.getElem?_eq_getElem hi, List.getElem?_eq_getElem hj,
      List.getElem?_eq_getElem hk] at *
    exact hw.negTrans _ _ _ h1 h2

/-- C12: every result of `sortPermutation` is a permutation of the indices and gathers the keys
into ascending order; applying it with `applyPermutation` sorts the range. -/
theorem C12_sortPermutation (lt : α → α → Bool) (v : List α) (p : List Nat)
    (h : IsSortPermutation lt v p) :
    p.Perm (List.range v.length) ∧
    ∃ out, applyPermutation v p = some out ∧ out.Perm v ∧
      out.Pairwise (fun a b => lt b a = false) := by
  have hp : p.Perm (List.range v.length) := h.perm
  have hl : p.length = v.length := by simpa using hp.length_eq
  obtain ⟨out, ho, hol, hoi⟩ := C12_applyPermutation v p hp
  refine ⟨hp, out, ho, ?_, ?_⟩
  · have e : out.map some = p.map (fun k => v[k]?) := by
      apply List.ext_getElem (by simp; omega)
      intro i h1 h2
      simp only [List.length_map] at h1 h2
      simp only [List.getElem_map]
      rw [← hoi i h2]; simp
    have e2 : (List.range v.length).map (fun k => v[k]?) = v.map some := by
      apply List.ext_getElem (by simp)
      intro i h1 h2
      simp
    have : (out.map some).Perm (v.map some) := by
      rw [e, ← e2]; exact hp.map _
    exact (List.map_perm_map_iff (Option.some_injective _)).1 this
  · rw [List.pairwise_iff_getElem]
    intro i j hi hj hij
    have hs := List.pairwise_iff_getElem.1 h.sorted i j (by omega) (by omega) hij
    have e1 := hoi i (by omega)
    have e2 := hoi j (by omega)
    rw [List.getElem?_eq_getElem hi] at e1
    rw [List.getElem?_eq_getElem hj] at e2
    simpa [permLess, ← e1, ← e2] using hs

example : [2, 0, 3, 1].Perm (List.range 4) ∧
    applyPermutation ['a', 'b', 'c', 'd'] [2, 0, 3, 1] = some ['c', 'a', 'd', 'b'] ∧
    invertPermutation [2, 0, 3, 1] [9, 9, 9, 9] = some [1, 3, 0, 2] := by decide

example : IsSortPermutation lt' [30, 10, 20, 10] [1, 3, 2, 0] :=
  ⟨by decide, by decide⟩

end Verif.Alg
