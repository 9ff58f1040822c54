import Verif.Model.Soup
import Mathlib.Data.List.Basic
import Mathlib.Data.List.Nodup
import Mathlib.Data.List.Range

/-! # Offset-encoded lists of blocks -/

namespace Verif.Polytope

variable {α : Type}

/-- The prefix sums, starting with 0. -/
def psum (ns : List Nat) : List Nat := (List.range (ns.length + 1)).map fun i => (ns.take i).sum

/-- The offset array of a list of blocks: empty as long as there is no block. -/
def offsOf (bs : List (List α)) : List Nat := if bs.isEmpty then [] else psum (bs.map List.length)

theorem psum_length (ns : List Nat) : (psum ns).length = ns.length + 1 := by simp [psum]

theorem psum_get (ns : List Nat) (i : Nat) (hi : i ≤ ns.length) : (psum ns)[i]? = some (ns.take i).sum := by
  simp [psum, Nat.lt_succ_of_le hi]

theorem psum_append (ns : List Nat) (n : Nat) : psum (ns ++ [n]) = psum ns ++ [ns.sum + n] := by
  apply List.ext_getElem?
  intro i
  rcases Nat.lt_or_ge i (ns.length + 1) with h | h
  · rw [psum_get _ _ (by simp; omega), List.getElem?_append_left (by rw [psum_length]; omega),
      psum_get _ _ (by omega), List.take_append_of_le_length (by omega)]
  · rw [List.getElem?_append_right (by rw [psum_length]; omega), psum_length]
    rcases Nat.lt_or_ge i (ns.length + 2) with h' | h'
    · have : i = ns.length + 1 := by omega
      subst this
      rw [psum_get _ _ (by simp), List.take_of_length_le (by simp)]
      simp
    · rw [List.getElem?_eq_none (by rw [psum_length]; simp; omega)]
      rw [List.getElem?_eq_none (by simp; omega)]

theorem psum_nil : psum [] = [0] := rfl

theorem psum_getLast (ns : List Nat) : (psum ns).getLastD 0 = ns.sum := by
  have h := psum_get ns ns.length le_rfl
  rw [List.take_length] at h
  rw [List.getLastD_eq_getLast?, List.getLast?_eq_getElem?, psum_length, Nat.add_sub_cancel, h]
  rfl

theorem sum_lengths (bs : List (List α)) : (bs.map List.length).sum = bs.flatten.length :=
  List.length_flatten.symm

theorem psum_ne (ns : List Nat) : psum ns ≠ [] := by
  intro h
  have := psum_length ns
  rw [h] at this
  simp at this

theorem startOffsets_offsOf (bs : List (List α)) : startOffsets (offsOf bs) = psum (bs.map List.length) := by
  unfold startOffsets offsOf
  cases bs with
  | nil => rfl
  | cons c bs => simp [psum_ne]

theorem offsOf_ne (bs : List (List α)) (h : bs ≠ []) : offsOf bs = psum (bs.map List.length) := by
  unfold offsOf
  rw [if_neg (by simpa using h)]

theorem offsOf_append (bs : List (List α)) (b : List α) :
    offsOf (bs ++ [b]) = startOffsets (offsOf bs) ++ [bs.flatten.length + b.length] := by
  rw [startOffsets_offsOf, offsOf_ne _ (by simp), List.map_append, List.map_cons, List.map_nil, psum_append,
    sum_lengths]

theorem readBlock_append (pre b post : List α) :
    readBlock (pre ++ b ++ post) pre.length (pre.length + b.length) = some b := by
  unfold readBlock
  rw [if_neg (by omega), Nat.add_sub_cancel_left]
  have h : ∀ (l : List Nat) (f g : Nat → Option α), (∀ i ∈ l, f i = g i) → l.mapM f = l.mapM g := by
    intro l f g hfg
    induction l with
    | nil => rfl
    | cons a l ih =>
      rw [List.mapM_cons, List.mapM_cons, hfg a (by simp), ih fun i hi => hfg i (by simp [hi])]
  rw [h _ _ (fun j => b[j]?)]
  · have e : ∀ (l : List Nat) (c : List α), l.map (fun j => b[j]?) = c.map some →
        l.mapM (fun j => b[j]?) = some c := by
      intro l
      induction l with
      | nil => intro c hc; cases c with
        | nil => rfl
        | cons _ _ => simp at hc
      | cons a l ih =>
        intro c hc
        cases c with
        | nil => simp at hc
        | cons x c =>
          simp only [List.map_cons, List.cons.injEq] at hc
          rw [List.mapM_cons, hc.1, ih c hc.2]
          rfl
    apply e
    apply List.ext_getElem (by simp)
    intro i h1 h2
    simp only [List.length_map, List.length_range] at h1
    simp [h1]
  · intro i hi
    have : i < b.length := by simpa using hi
    rw [List.append_assoc, List.getElem?_append_right (by omega), Nat.add_sub_cancel_left,
      List.getElem?_append_left this]

theorem block_split (bs : List (List α)) (i : Nat) (b : List α) (h : bs[i]? = some b) :
    bs.flatten = (bs.take i).flatten ++ b ++ (bs.drop (i + 1)).flatten := by
  have hi : i < bs.length := (List.getElem?_eq_some_iff.1 h).1
  conv_lhs => rw [← List.take_append_drop i bs]
  rw [List.drop_eq_getElem_cons hi, (List.getElem?_eq_some_iff.1 h).2]
  simp

/-- Reading block `i` through the offset array. -/
theorem offsOf_read (bs : List (List α)) (i : Nat) (b : List α) (h : bs[i]? = some b) :
    ∃ a, (offsOf bs)[i]? = some a ∧ (offsOf bs)[i + 1]? = some (a + b.length) ∧
      a = (bs.take i).flatten.length ∧ readBlock bs.flatten a (a + b.length) = some b := by
  have hi : i < bs.length := (List.getElem?_eq_some_iff.1 h).1
  have hne : bs ≠ [] := by rintro rfl; simp at hi
  refine ⟨(bs.take i).flatten.length, ?_, ?_, rfl, ?_⟩
  · rw [offsOf_ne _ hne, psum_get _ _ (by simp; omega), ← List.map_take, sum_lengths]
  · rw [offsOf_ne _ hne, psum_get _ _ (by simp; omega), ← List.map_take, sum_lengths, List.take_add_one, h]
    simp
  · conv_lhs => rw [block_split bs i b h]
    exact readBlock_append _ _ _

theorem getLastD_start (bs : List (List α)) : (startOffsets (offsOf bs)).getLastD 0 = bs.flatten.length := by
  rw [startOffsets_offsOf, psum_getLast, sum_lengths]

theorem mapM_some {β : Type} (l : List α) (f : α → Option β) (g : List β)
    (h : l.map f = g.map some) : l.mapM f = some g := by
  induction l generalizing g with
  | nil => cases g with
    | nil => rfl
    | cons _ _ => simp at h
  | cons a l ih =>
    cases g with
    | nil => simp at h
    | cons x g =>
      simp only [List.map_cons, List.cons.injEq] at h
      rw [List.mapM_cons, h.1, ih g h.2]
      rfl

end Verif.Polytope
