import Verif.Model.CApi
import Mathlib.Data.List.Basic
import Mathlib.Data.List.Flatten
import Mathlib.Tactic.Ring

/-! Lemmas on the loops and arrays of the C interface (C115). -/

namespace Verif.CApi

open Verif.XSLib (Res)
open Verif.Pin (Mesh)

variable {K M α : Type}

theorem loop_ok (n : ℤ) (f : Nat → Res (List α)) (g : Nat → List α) (h : ∀ i < n.toNat, f i = .ok (g i)) :
    loop n f = .ok ((List.range n.toNat).flatMap g) := by
  unfold loop
  have : ∀ l : List Nat, (∀ i ∈ l, f i = .ok (g i)) →
      l.foldr (fun i r => (f i).bind fun a => r.bind fun b => .ok (a ++ b)) (.ok []) = .ok (l.flatMap g) := by
    intro l
    induction l with
    | nil => intro _; rfl
    | cons a l ih =>
      intro h
      rw [List.foldr_cons, ih fun i hi => h i (List.mem_cons_of_mem _ hi), h a List.mem_cons_self]
      rfl
  exact this _ fun i hi => h i (List.mem_range.1 hi)

theorem put_ok {buf : List α} {i : Nat} (v : α) (h : i < buf.length) : put buf i v = .ok (buf.set i v) := if_pos h

theorem putAll_ok (vs : List α) : ∀ (buf : List α) (n : Nat), n + vs.length ≤ buf.length →
    putAll buf n vs = .ok (buf.take n ++ vs ++ buf.drop (n + vs.length)) := by
  induction vs with
  | nil => intro buf n _; simp [putAll]
  | cons v vs ih =>
    intro buf n h
    rw [List.length_cons] at h
    rw [putAll, put_ok v (by omega)]
    show putAll (buf.set n v) (n + 1) vs = _
    rw [ih _ _ (by rw [List.length_set]; omega)]
    congr 1
    have e1 : (buf.set n v).take (n + 1) = buf.take n ++ [v] := by
      rw [List.set_eq_take_append_cons_drop, if_pos (by omega), List.take_append, List.length_take]
      rw [List.take_of_length_le (by rw [List.length_take]; omega), Nat.min_eq_left (by omega)]
      simp
    have e2 : (buf.set n v).drop (n + 1 + vs.length) = buf.drop (n + (v :: vs).length) := by
      rw [List.drop_set_of_lt (by omega), List.length_cons]
      congr 1
      omega
    rw [e1, e2]
    simp

theorem putAll_undef (vs : List α) : ∀ (buf : List α) (n : Nat), n ≤ buf.length → buf.length < n + vs.length → putAll buf n vs = .undef := by
  induction vs with
  | nil => intro buf n h1 h2; rw [List.length_nil] at h2; omega
  | cons v vs ih =>
    intro buf n h1 h2
    rw [List.length_cons] at h2
    rw [putAll]
    by_cases h : n < buf.length
    · rw [put_ok v h]
      show putAll (buf.set n v) (n + 1) vs = _
      exact ih _ _ (by rw [List.length_set]; omega) (by rw [List.length_set]; omega)
    · unfold put
      rw [if_neg h]
      rfl

theorem putAll_append (a : List α) : ∀ (buf : List α) (n : Nat) (b : List α),
    putAll buf n (a ++ b) = (putAll buf n a).bind fun buf => putAll buf (n + a.length) b := by
  induction a with
  | nil => intro buf n b; rfl
  | cons v a ih =>
    intro buf n b
    rw [List.cons_append, putAll, putAll]
    unfold put
    split
    · show putAll _ _ _ = (putAll _ _ _).bind _
      rw [ih]
      congr 1
      funext buf
      rw [List.length_cons]
      congr 1
      omega
    · rfl

theorem fillFrom_eq (f : Nat → Res α) (g : Nat → α) : ∀ (n i : Nat) (buf : List α), (∀ j, i ≤ j → j < i + n → f j = .ok (g j)) →
    fillFrom f i n buf = putAll buf i ((List.range' i n).map g) := by
  intro n
  induction n with
  | zero => intro i buf _; rfl
  | succ n ih =>
    intro i buf h
    rw [List.range'_succ, List.map_cons, fillFrom, putAll, h i le_rfl (by omega)]
    show (put buf i (g i)).bind _ = _
    congr 1
    funext buf
    exact ih (i + 1) buf fun j h1 h2 => h j (by omega) (by omega)

theorem meshHits_eq (hits : List (K × K) → List K) (mesh : Mesh K) (vs : Nat → List (K × K)) : ∀ (r i : Nat) (buf : List K) (n : Nat),
    (∀ j, i ≤ j → j < i + r → face mesh j = .ok (vs j)) → meshHits hits mesh i r buf n =
      (putAll buf n ((List.range' i r).flatMap fun j => hits (vs j))).bind fun b => .ok (b, n + ((List.range' i r).flatMap fun j => hits (vs j)).length) := by
  intro r
  induction r with
  | zero => intro i buf n _; rfl
  | succ r ih =>
    intro i buf n h
    rw [List.range'_succ, List.flatMap_cons, meshHits, h i le_rfl (by omega), putAll_append]
    show (putAll buf n (hits (vs i))).bind _ = _
    cases putAll buf n (hits (vs i)) with
    | undef => rfl
    | refused => rfl
    | ok b =>
      show meshHits hits mesh (i + 1) r b (n + (hits (vs i)).length) = (putAll b (n + (hits (vs i)).length) _).bind _
      rw [ih (i + 1) b _ fun j h1 h2 => h j (by omega) (by omega)]
      congr 1
      funext b
      rw [List.length_append]
      congr 2
      omega

theorem firstFace_spec (inside : List (K × K) → Bool) (mesh : Mesh K) (vs : Nat → List (K × K)) : ∀ (n i : Nat),
    (∀ j, i ≤ j → j < i + n → face mesh j = .ok (vs j)) → ∃ r, firstFace inside mesh i n = .ok r ∧
      ((r = -1 ∧ ∀ j, i ≤ j → j < i + n → inside (vs j) = false) ∨
        ∃ k : Nat, r = k ∧ i ≤ k ∧ k < i + n ∧ inside (vs k) = true ∧ ∀ j, i ≤ j → j < k → inside (vs j) = false) := by
  intro n
  induction n with
  | zero => intro i _; exact ⟨-1, rfl, Or.inl ⟨rfl, fun j h1 h2 => by omega⟩⟩
  | succ n ih =>
    intro i h
    rw [firstFace, h i le_rfl (by omega)]
    show ∃ r, (if inside (vs i) = true then Res.ok (i : ℤ) else firstFace inside mesh (i + 1) n) = .ok r ∧ _
    by_cases hi : inside (vs i) = true
    · rw [if_pos hi]
      exact ⟨i, rfl, Or.inr ⟨i, rfl, le_rfl, by omega, hi, fun j h1 h2 => by omega⟩⟩
    · rw [if_neg hi]
      have hi' : inside (vs i) = false := by simpa using hi
      obtain ⟨r, h1, h2⟩ := ih (i + 1) fun j h1 h2 => h j (by omega) (by omega)
      refine ⟨r, h1, ?_⟩
      rcases h2 with ⟨rfl, h2⟩ | ⟨k, rfl, k1, k2, k3, k4⟩
      · refine Or.inl ⟨rfl, fun j q1 q2 => ?_⟩
        by_cases hj : j = i
        · rw [hj]; exact hi'
        · exact h2 j (by omega) (by omega)
      · refine Or.inr ⟨k, rfl, by omega, by omega, k3, fun j q1 q2 => ?_⟩
        by_cases hj : j = i
        · rw [hj]; exact hi'
        · exact k4 j (by omega) (by omega)

/-- Going through a table row by row is going through its list. -/
theorem range_rows (nx ny : Nat) : (List.range ny).flatMap (fun y => (List.range nx).map fun x => x + y * nx) = List.range (nx * ny) := by
  induction ny with
  | zero => simp
  | succ n ih =>
    rw [List.range_succ, List.flatMap_append, ih, Nat.mul_succ, List.range_add]
    simp only [List.flatMap_cons, List.flatMap_nil, List.append_nil]
    congr 1
    refine List.map_congr_left fun x _ => ?_
    ring

theorem rows_eq {β : Type} (l : List ℤ) (nx ny : Nat) (h : l.length = nx * ny) (g : ℤ → List β) :
    (List.range ny).flatMap (fun y => (List.range nx).flatMap fun x => g (l.getD (x + y * nx) 0)) = l.flatMap g := by
  have e1 : l.flatMap g = (List.range (nx * ny)).flatMap fun i => g (l.getD i 0) := by
    rw [← h]
    conv_lhs => rw [show l = (List.range l.length).map fun i => l.getD i 0 from by
      apply List.ext_getElem?
      intro i
      rw [List.getElem?_map]
      by_cases hi : i < l.length
      · rw [List.getElem?_range hi]; simp [hi]
      · rw [List.getElem?_eq_none (by omega), List.getElem?_eq_none (by simp; omega)]; rfl]
    rw [List.flatMap_map]
  rw [e1, ← range_rows, List.flatMap_assoc]
  refine List.flatMap_congr fun y _ => ?_
  rw [List.flatMap_map]

theorem column_eq {β : Type} (l : List ℤ) (g : ℤ → List β) : (List.range l.length).flatMap (fun i => g (l.getD i 0)) = l.flatMap g := by
  have := rows_eq l l.length 1 (by omega) g
  simpa using this

end Verif.CApi
