import Verif.Model.Power
import Mathlib.Logic.Relation
import Mathlib.Data.List.Perm.Basic
import Mathlib.Data.List.Nodup

/-! # Grouping into connected components -/

set_option linter.unusedSectionVars false

namespace Verif.Power

open Geom Box

section
variable {K : Type} [LinearOrder K] {α : Type} {touch : α → α → Bool} {box : α → AABB 2 K}

/-- `a` lies in `b`. -/
def Within (a b : AABB 2 K) : Prop := ∀ i, b.min i ≤ a.min i ∧ a.max i ≤ b.max i

theorem intersects_iff {a b : AABB 2 K} : intersects a b = true ↔ ∀ i, b.min i ≤ a.max i ∧ a.min i ≤ b.max i := by
  simp [intersects]

theorem within_add_left (a b : AABB 2 K) : Within a (add a b) := by
  intro i
  simp only [add, cmin, cmax]
  constructor <;> split <;> first | exact le_refl _ | exact le_of_lt (by assumption)

theorem within_add_right (a b : AABB 2 K) : Within b (add a b) := by
  intro i
  simp only [add, cmin, cmax]
  constructor <;> split <;> first | exact le_refl _ | exact not_lt.1 (by assumption)

theorem Within.trans {a b c : AABB 2 K} (h : Within a b) (h' : Within b c) : Within a c := fun i =>
  ⟨le_trans (h' i).1 (h i).1, le_trans (h i).2 (h' i).2⟩

theorem intersects_mono {a b a' b' : AABB 2 K} (h : intersects a b = true) (ha : Within a a') (hb : Within b b') : intersects a' b' = true := by
  rw [intersects_iff] at h ⊢
  exact fun i => ⟨le_trans (hb i).1 (le_trans (h i).1 (ha i).2), le_trans (ha i).1 (le_trans (h i).2 (hb i).2)⟩

/-- The relation generated by touching within `U`. -/
abbrev Conn (touch : α → α → Bool) (U : List α) : α → α → Prop := Relation.ReflTransGen fun a b => a ∈ U ∧ b ∈ U ∧ touch a b = true

theorem Conn.symm {U : List α} (hs : ∀ a b, touch a b = true → touch b a = true) {x y : α} (h : Conn touch U x y) : Conn touch U y x := by
  have : Std.Symm fun a b => a ∈ U ∧ b ∈ U ∧ touch a b = true := ⟨fun a b h => ⟨h.2.1, h.1, hs _ _ h.2.2⟩⟩
  exact Relation.ReflTransGen.symmetric.symm _ _ h

/-- What holds of the subsets at every moment; `done` are the faces seen so far. -/
structure Inv (touch : α → α → Bool) (box : α → AABB 2 K) (U done : List α) (sets : List (List α × AABB 2 K)) : Prop where
  perm : (sets.flatMap (·.1)).Perm done
  conn : ∀ s ∈ sets, ∀ x ∈ s.1, ∀ y ∈ s.1, Conn touch U x y
  within : ∀ s ∈ sets, ∀ x ∈ s.1, Within (box x) s.2
  nonempty : ∀ s ∈ sets, s.1 ≠ []

theorem place_perm (f : α) (sets : List (List α × AABB 2 K)) : ((place touch box f sets).flatMap (·.1)).Perm (sets.flatMap (·.1) ++ [f]) := by
  induction sets with
  | nil => simp [place]
  | cons s rest ih =>
    rw [place]
    split
    · simp only [List.flatMap_cons, List.append_assoc]
      refine List.Perm.append_left _ ?_
      simp only [List.singleton_append]
      exact (List.perm_append_singleton _ _).symm
    · simp only [List.flatMap_cons, List.append_assoc]
      exact List.Perm.append_left _ ih

theorem mem_place {f : α} {sets : List (List α × AABB 2 K)} {t : List α × AABB 2 K} (h : t ∈ place touch box f sets) :
    t ∈ sets ∨ t = ([f], box f) ∨ ∃ s ∈ sets, (∃ g ∈ s.1, touch f g = true) ∧ t = (s.1 ++ [f], add s.2 (box f)) := by
  induction sets with
  | nil => rw [place, List.mem_singleton] at h; exact .inr (.inl h)
  | cons s rest ih =>
    rw [place] at h
    split at h
    · rename_i hc
      simp only [Bool.and_eq_true, List.any_eq_true] at hc
      rcases List.mem_cons.1 h with rfl | h
      · exact .inr (.inr ⟨s, by simp, hc.2, rfl⟩)
      · exact .inl (by simp [h])
    · rcases List.mem_cons.1 h with rfl | h
      · exact .inl (by simp)
      · rcases ih h with h | h | ⟨s', hs', h⟩
        · exact .inl (by simp [h])
        · exact .inr (.inl h)
        · exact .inr (.inr ⟨s', by simp [hs'], h⟩)

theorem place_inv {U done : List α} (hs : ∀ a b, touch a b = true → touch b a = true) {sets : List (List α × AABB 2 K)} (hI : Inv touch box U done sets) {f : α} (hf : f ∈ U)
    (hd : ∀ x ∈ done, x ∈ U) : Inv touch box U (done ++ [f]) (place touch box f sets) := by
  have hmem : ∀ s ∈ sets, ∀ x ∈ s.1, x ∈ U := fun s hs x hx => hd x (hI.perm.mem_iff.1 (List.mem_flatMap.2 ⟨s, hs, hx⟩))
  refine ⟨(place_perm f sets).trans (hI.perm.append_right _), ?_, ?_, ?_⟩
  · intro t ht x hx y hy
    rcases mem_place ht with h | rfl | ⟨s, hsm, ⟨g, hg, hfg⟩, rfl⟩
    · exact hI.conn t h x hx y hy
    · rw [List.mem_singleton.1 hx, List.mem_singleton.1 hy]
    · have hgf : ∀ z ∈ s.1, Conn touch U z f := fun z hz => (hI.conn s hsm z hz g hg).tail ⟨hmem s hsm g hg, hf, hs _ _ hfg⟩
      simp only [List.mem_append, List.mem_singleton] at hx hy
      rcases hx with hx | rfl <;> rcases hy with hy | rfl
      · exact hI.conn s hsm x hx y hy
      · exact hgf x hx
      · exact (hgf y hy).symm hs
      · exact .refl
  · intro t ht x hx
    rcases mem_place ht with h | rfl | ⟨s, hsm, _, rfl⟩
    · exact hI.within t h x hx
    · rw [List.mem_singleton.1 hx]; exact fun i => ⟨le_refl _, le_refl _⟩
    · simp only [List.mem_append, List.mem_singleton] at hx
      rcases hx with hx | rfl
      · exact (hI.within s hsm x hx).trans (within_add_left _ _)
      · exact within_add_right _ _
  · intro t ht
    rcases mem_place ht with h | rfl | ⟨s, hsm, _, rfl⟩
    · exact hI.nonempty t h
    · simp
    · simp

theorem pass_inv {U : List α} (hs : ∀ a b, touch a b = true → touch b a = true) : Inv touch box U U (pass touch box U) := by
  have key : ∀ (fs done : List α) (sets : List (List α × AABB 2 K)), Inv touch box U done sets → (∀ x ∈ done, x ∈ U) → (∀ x ∈ fs, x ∈ U) →
      Inv touch box U (done ++ fs) (fs.foldl (fun sets f => place touch box f sets) sets) := by
    intro fs
    induction fs with
    | nil => intro done sets h _ _; simpa using h
    | cons f fs ih =>
      intro done sets h hd hf
      have := ih (done ++ [f]) _ (place_inv hs h (hf f (by simp)) hd) (by
        intro x hx
        simp only [List.mem_append, List.mem_singleton] at hx
        rcases hx with hx | rfl
        · exact hd x hx
        · exact hf x (by simp)) fun x hx => hf x (by simp [hx])
      simpa using this
  have := key U [] [] ⟨by simp, by simp, by simp, by simp⟩ (by simp) fun x hx => hx
  simpa [pass] using this

theorem mergeAt_eq {sorter : List α → List α} {sets : List (List α × AABB 2 K)} {i j : Nat} (hi : i < sets.length) (hj : j < i) :
    mergeAt sorter sets i j = (sets.set j (sorter (sets[j].1 ++ sets[i].1), add sets[j].2 sets[i].2)).eraseIdx i := by
  unfold mergeAt
  rw [List.getElem?_eq_getElem hi, List.getElem?_eq_getElem (by omega)]

/-- The list before and after a merge. -/
theorem mergeAt_split {sorter : List α → List α} {sets : List (List α × AABB 2 K)} {i j : Nat} (hi : i < sets.length) (hj : j < i) :
    ∃ A B C, sets = A ++ sets[j] :: (B ++ sets[i] :: C) ∧
      mergeAt sorter sets i j = A ++ (sorter (sets[j].1 ++ sets[i].1), add sets[j].2 sets[i].2) :: (B ++ C) := by
  refine ⟨sets.take j, (sets.drop (j + 1)).take (i - j - 1), sets.drop (i + 1), ?_, ?_⟩
  · have h1 : sets = sets.take j ++ sets.drop j := (List.take_append_drop _ _).symm
    have h2 : sets.drop j = sets[j] :: sets.drop (j + 1) := List.drop_eq_getElem_cons _
    have h3 : sets.drop (j + 1) = (sets.drop (j + 1)).take (i - j - 1) ++ (sets.drop (j + 1)).drop (i - j - 1) := (List.take_append_drop _ _).symm
    have h4 : (sets.drop (j + 1)).drop (i - j - 1) = sets.drop i := by rw [List.drop_drop]; congr 1; omega
    have h5 : sets.drop i = sets[i] :: sets.drop (i + 1) := List.drop_eq_getElem_cons _
    rw [h4, h5] at h3
    rw [← h3, ← h2]
    exact h1
  · rw [mergeAt_eq hi hj, List.eraseIdx_eq_take_drop_succ, List.set_eq_take_append_cons_drop, if_pos (by omega)]
    rw [List.take_append, List.drop_append]
    have l1 : (sets.take j).length = j := by rw [List.length_take]; omega
    rw [l1, List.take_of_length_le (l := sets.take j) (by omega), List.drop_eq_nil_of_le (as := sets.take j) (by omega), List.append_assoc, List.nil_append]
    congr 1
    rw [show i - j = (i - j - 1) + 1 by omega, List.take_succ_cons, List.cons_append, show i + 1 - j = (i - j) + 1 by omega, List.drop_succ_cons, List.drop_drop]
    congr 3
    omega

theorem merge_inv {U done : List α} (hs : ∀ a b, touch a b = true → touch b a = true) {sorter : List α → List α} (hp : ∀ l, (sorter l).Perm l)
    {sets : List (List α × AABB 2 K)} (hI : Inv touch box U done sets) (hd : ∀ x ∈ done, x ∈ U) {i j : Nat} (h : findPair touch sets = some (i, j)) :
    Inv touch box U done (mergeAt sorter sets i j) := by
  obtain ⟨hi, hj⟩ := findPair_lt touch h
  have hjl : j < sets.length := by omega
  have htouch := List.find?_some h
  simp only [List.getElem?_eq_getElem hi, List.getElem?_eq_getElem hjl, joinable, Bool.and_eq_true, List.any_eq_true] at htouch
  obtain ⟨-, a, ha, b, hb, hab⟩ := htouch
  obtain ⟨A, B, C, hsets, hm⟩ := mergeAt_split (sorter := sorter) hi hj
  have hmi : sets[i] ∈ sets := List.getElem_mem _
  have hmj : sets[j] ∈ sets := List.getElem_mem _
  have hmem : ∀ s ∈ sets, ∀ x ∈ s.1, x ∈ U := fun s hs x hx => hd x (hI.perm.mem_iff.1 (List.mem_flatMap.2 ⟨s, hs, hx⟩))
  generalize sets[i] = si at *
  generalize sets[j] = sj at *
  have hold : ∀ t ∈ mergeAt sorter sets i j, t ∈ sets ∨ t = (sorter (sj.1 ++ si.1), add sj.2 si.2) := by
    intro t ht
    rw [hm] at ht
    rw [hsets]
    simp only [List.mem_append, List.mem_cons] at ht ⊢
    tauto
  refine ⟨?_, ?_, ?_, ?_⟩
  · refine List.Perm.trans ?_ hI.perm
    rw [hm, hsets]
    simp only [List.flatMap_append, List.flatMap_cons, List.append_assoc]
    refine List.Perm.append_left _ ?_
    refine ((hp _).append_right _).trans ?_
    rw [List.append_assoc]
    refine List.Perm.append_left _ ?_
    rw [← List.append_assoc, ← List.append_assoc]
    exact List.Perm.append_right _ List.perm_append_comm
  · intro t ht x hx y hy
    rcases hold t ht with h | rfl
    · exact hI.conn t h x hx y hy
    · replace hx := (hp _).mem_iff.1 hx
      replace hy := (hp _).mem_iff.1 hy
      have cross : ∀ u ∈ si.1, ∀ v ∈ sj.1, Conn touch U u v := fun u hu v hv =>
        ((hI.conn si hmi u hu a ha).tail ⟨hmem _ hmi _ ha, hmem _ hmj _ hb, hab⟩).trans (hI.conn sj hmj b hb v hv)
      rcases List.mem_append.1 hx with hx | hx <;> rcases List.mem_append.1 hy with hy | hy
      · exact hI.conn sj hmj x hx y hy
      · exact (cross y hy x hx).symm hs
      · exact cross x hx y hy
      · exact hI.conn si hmi x hx y hy
  · intro t ht x hx
    rcases hold t ht with h | rfl
    · exact hI.within t h x hx
    · replace hx := (hp _).mem_iff.1 hx
      rcases List.mem_append.1 hx with hx | hx
      · exact (hI.within sj hmj x hx).trans (within_add_left _ _)
      · exact (hI.within si hmi x hx).trans (within_add_right _ _)
  · intro t ht
    rcases hold t ht with h | rfl
    · exact hI.nonempty t h
    · intro h0
      have := (hp (sj.1 ++ si.1)).length_eq
      simp only at h0
      rw [h0] at this
      simp only [List.length_nil, List.length_append] at this
      exact hI.nonempty sj hmj (List.eq_nil_of_length_eq_zero (by omega))

theorem mergeAll_spec {U done : List α} (hs : ∀ a b, touch a b = true → touch b a = true) {sorter : List α → List α} (hp : ∀ l, (sorter l).Perm l)
    (hd : ∀ x ∈ done, x ∈ U) (n : Nat) (sets : List (List α × AABB 2 K)) (hn : sets.length = n) (hI : Inv touch box U done sets) :
    Inv touch box U done (mergeAll touch sorter sets) ∧ findPair touch (mergeAll touch sorter sets) = none := by
  induction n using Nat.strong_induction_on generalizing sets with
  | _ n ih =>
    rw [mergeAll]
    split
    · rename_i h
      exact ⟨hI, h⟩
    · rename_i i j h
      exact ih _ (by rw [← hn]; exact mergeAt_length (findPair_lt touch h).1) _ rfl (merge_inv hs hp hI hd h)

/-- The subsets at the end are the connected components. -/
theorem components {U : List α} (hs : ∀ a b, touch a b = true → touch b a = true) {sorter : List α → List α} (hp : ∀ l, (sorter l).Perm l)
    (hbox : ∀ a ∈ U, ∀ b ∈ U, touch a b = true → intersects (box a) (box b) = true) :
    let sets := mergeAll touch sorter (pass touch box U)
    (sets.flatMap (·.1)).Perm U ∧ (∀ s ∈ sets, s.1 ≠ []) ∧ ∀ s ∈ sets, ∀ x ∈ s.1, ∀ y, y ∈ s.1 ↔ Conn touch U x y := by
  intro sets
  obtain ⟨hI, hnone⟩ := mergeAll_spec hs hp (fun x hx => hx) _ _ rfl (pass_inv (box := box) (U := U) hs)
  refine ⟨hI.perm, hI.nonempty, fun s hsm x hx y => ⟨fun hy => hI.conn s hsm x hx y hy, fun hxy => ?_⟩⟩
  have hsep : ∀ (i j : Nat) (si sj : List α × AABB 2 K), sets[i]? = some si → sets[j]? = some sj → j < i → ∀ a ∈ si.1, ∀ b ∈ sj.1, touch a b = true → False := by
    intro i j si sj hi hj hlt a ha b hb hab
    have hil := (List.getElem?_eq_some_iff.1 hi).1
    have := List.find?_eq_none.1 hnone (i, j) (mem_pairs.2 ⟨hil, hlt⟩)
    have hi' : (mergeAll touch sorter (pass touch box U))[i]? = some si := hi
    have hj' : (mergeAll touch sorter (pass touch box U))[j]? = some sj := hj
    simp only [hi', hj'] at this
    apply this
    have hmi := List.mem_of_getElem? hi
    have hmj := List.mem_of_getElem? hj
    have haU := hI.perm.mem_iff.1 (List.mem_flatMap.2 ⟨si, hmi, ha⟩)
    have hbU := hI.perm.mem_iff.1 (List.mem_flatMap.2 ⟨sj, hmj, hb⟩)
    simp only [joinable, Bool.and_eq_true, List.any_eq_true]
    exact ⟨intersects_mono (hbox b hbU a haU (hs _ _ hab)) (hI.within sj hmj b hb) (hI.within si hmi a ha), a, ha, b, hb, hab⟩
  induction hxy with
  | refl => exact hx
  | tail _ hstep ih =>
    rename_i b c _
    obtain ⟨hbU, hcU, hbc⟩ := hstep
    obtain ⟨t, ht, hct⟩ := List.mem_flatMap.1 (hI.perm.mem_iff.2 hcU)
    obtain ⟨i, hi⟩ := List.mem_iff_getElem?.1 hsm
    obtain ⟨j, hj⟩ := List.mem_iff_getElem?.1 ht
    rcases Nat.lt_trichotomy i j with h | h | h
    · exact (hsep j i t s hj hi h c hct b ih (hs _ _ hbc)).elim
    · subst h
      rw [hi, Option.some.injEq] at hj
      rw [hj]
      exact hct
    · exact (hsep i j s t hi hj h b ih c hct hbc).elim

end
end Verif.Power
