import Mathlib.Data.List.TakeWhile
import Mathlib.Tactic.SplitIfs
import Mathlib.Tactic.Tauto
import Verif.Props.GmshGroupsSpec

/-! Lemmas about physical groups. -/

namespace Verif.Gmsh

open Verif.XSLib (Res)

variable {N C : Type} [LinearOrder N]

/-! ## Sorted vectors -/

section sorted
variable {α : Type} [LinearOrder α]

theorem lb_get (l : List α) (x : α) : l[lowerBound l x]? = (l.dropWhile (· < x)).head? := by
  have h : l = l.takeWhile (· < x) ++ l.dropWhile (· < x) := (List.takeWhile_append_dropWhile).symm
  conv_lhs => lhs; rw [h]
  rw [lowerBound, List.getElem?_append_right (Nat.le_refl _), Nat.sub_self, List.head?_eq_getElem?]

theorem insertAt_lb {β : Type} (f : β → α) (l : List β) (x : α) (b : β) :
    insertAt l (lowerBound (l.map f) x) b = l.takeWhile (fun y => f y < x) ++ b :: l.dropWhile (fun y => f y < x) := by
  have hlen : lowerBound (l.map f) x = (l.takeWhile fun y => f y < x).length := by
    rw [lowerBound, List.takeWhile_map, List.length_map]; rfl
  have h : l = l.takeWhile (fun y => f y < x) ++ l.dropWhile (fun y => f y < x) := (List.takeWhile_append_dropWhile).symm
  rw [insertAt, hlen]
  have ht : ∀ a c : List β, (a ++ c).take a.length = a ∧ (a ++ c).drop a.length = c := by intro a c; simp
  have h2 := ht (l.takeWhile fun y => f y < x) (l.dropWhile fun y => f y < x)
  rw [← h] at h2
  rw [h2.1, h2.2]

theorem mem_takeWhile_lt {β : Type} (f : β → α) (x : α) (l : List β) {y : β} (h : y ∈ l.takeWhile fun y => f y < x) : f y < x := by
  have := List.mem_takeWhile_imp h
  simpa using this

theorem mem_dropWhile_ge {β : Type} (f : β → α) (x : α) : ∀ (l : List β), (l.Pairwise fun a b => f a ≤ f b) →
    ∀ y ∈ l.dropWhile (fun y => f y < x), x ≤ f y
  | [], _, y, h => by simp at h
  | a :: l, hp, y, h => by
    rw [List.pairwise_cons] at hp
    rw [List.dropWhile_cons] at h
    split at h
    · exact mem_dropWhile_ge f x l hp.2 y h
    · rename_i hax
      have hax : x ≤ f a := by simpa using hax
      rcases List.mem_cons.1 h with rfl | h
      · exact hax
      · exact le_trans hax (hp.1 y h)

end sorted

theorem sorted_ext {l₁ l₂ : List ℤ} (h₁ : l₁.Pairwise (· < ·)) (h₂ : l₂.Pairwise (· < ·)) (h : ∀ x, x ∈ l₁ ↔ x ∈ l₂) : l₁ = l₂ :=
  ((List.perm_ext_iff_of_nodup (h₁.imp ne_of_lt) (h₂.imp ne_of_lt)).2 h).eq_of_pairwise' (h₁.imp le_of_lt) (h₂.imp le_of_lt)

theorem insertTag_eq (l : List ℤ) (x : ℤ) : insertTag l x =
    if (l.dropWhile (· < x)).head? = some x then l else l.takeWhile (· < x) ++ x :: l.dropWhile (· < x) := by
  have := insertAt_lb (f := fun y : ℤ => y) l x x
  rw [List.map_id'] at this
  rw [insertTag, lb_get, this]

theorem mem_insertTag (l : List ℤ) (x y : ℤ) : y ∈ insertTag l x ↔ y = x ∨ y ∈ l := by
  rw [insertTag_eq]
  have hl : y ∈ l ↔ y ∈ l.takeWhile (· < x) ∨ y ∈ l.dropWhile (· < x) := by
    conv_lhs => rw [← List.takeWhile_append_dropWhile (p := (· < x)) (l := l)]
    rw [List.mem_append]
  split
  · rename_i h
    constructor
    · exact Or.inr
    · rintro (rfl | h')
      · rw [hl]; right
        cases hd : l.dropWhile (· < y) with
        | nil => rw [hd] at h; cases h
        | cons a t => rw [hd] at h; simp only [List.head?_cons, Option.some.injEq] at h; simp [h]
      · exact h'
  · rw [hl]; simp only [List.mem_append, List.mem_cons]; tauto

theorem sorted_insertTag (l : List ℤ) (x : ℤ) (h : l.Pairwise (· < ·)) : (insertTag l x).Pairwise (· < ·) := by
  rw [insertTag_eq]
  split
  · exact h
  · rename_i hne
    have hle : l.Pairwise fun a b => a ≤ b := h.imp le_of_lt
    have hge := mem_dropWhile_ge (f := fun y : ℤ => y) x l hle
    have hlt : ∀ y ∈ l.takeWhile (· < x), y < x := fun y hy => mem_takeWhile_lt (f := fun y : ℤ => y) x l hy
    have hsub := h
    rw [← List.takeWhile_append_dropWhile (p := (· < x)) (l := l), List.pairwise_append] at hsub
    rw [List.pairwise_append, List.pairwise_cons]
    refine ⟨hsub.1, ⟨fun y hy => ?_, hsub.2.1⟩, fun a ha b hb => ?_⟩
    · refine lt_of_le_of_ne (hge y hy) ?_
      rintro rfl
      cases hd : l.dropWhile (· < x) with
      | nil => rw [hd] at hy; cases hy
      | cons a t =>
        rw [hd] at hy hne
        rcases List.mem_cons.1 hy with rfl | hy
        · simp at hne
        · have h1 := hge a (by rw [hd]; simp)
          have h2 := hsub.2.1
          rw [hd, List.pairwise_cons] at h2
          exact absurd (h2.1 x hy) (not_lt.2 h1)
    · rcases List.mem_cons.1 hb with rfl | hb
      · exact hlt a ha
      · exact hsub.2.2 a ha b hb

theorem mem_foldl_insertTag (xs : List ℤ) : ∀ (l : List ℤ) (y : ℤ), y ∈ xs.foldl insertTag l ↔ y ∈ l ∨ y ∈ xs := by
  induction xs with
  | nil => simp
  | cons x xs ih => intro l y; rw [List.foldl_cons, ih, mem_insertTag, List.mem_cons]; tauto

theorem sorted_foldl_insertTag (xs : List ℤ) : ∀ (l : List ℤ), l.Pairwise (· < ·) → (xs.foldl insertTag l).Pairwise (· < ·) := by
  induction xs with
  | nil => simp
  | cons x xs ih => intro l h; exact ih _ (sorted_insertTag l x h)

theorem mem_entSet (l : List ℤ) (x : ℤ) : x ∈ Gm.entSet l ↔ x ∈ l := by
  rw [Gm.entSet, List.mem_insertionSort, List.mem_dedup]

theorem sorted_entSet (l : List ℤ) : (Gm.entSet l).Pairwise (· < ·) := by
  have h1 : (Gm.entSet l).Pairwise (· ≤ ·) := List.pairwise_insertionSort _ _
  have h2 : (Gm.entSet l).Nodup := (List.perm_insertionSort _ _).nodup_iff.2 (List.nodup_dedup l)
  exact (h1.and h2).imp fun h => lt_of_le_of_ne h.1 h.2

theorem entSet_sorted (l : List ℤ) (h : l.Pairwise (· < ·)) : Gm.entSet l = l := by
  have hn : l.Nodup := h.imp ne_of_lt
  rw [Gm.entSet, hn.dedup]
  exact List.Pairwise.insertionSort_eq (h.imp le_of_lt)

theorem mem_stdMerge (as bs : List ℤ) (x : ℤ) : x ∈ stdMerge as bs ↔ x ∈ as ∨ x ∈ bs := by
  fun_induction stdMerge as bs with
  | case1 bs => simp
  | case2 => simp
  | case3 a as b bs h ih => simp only [List.mem_cons, ih]; tauto
  | case4 a as b bs h ih => simp only [List.mem_cons, ih]; tauto

theorem mem_setInter (as bs : List ℤ) (x : ℤ) (ha : as.Pairwise (· < ·)) (hb : bs.Pairwise (· < ·)) :
    x ∈ setInter as bs ↔ x ∈ as ∧ x ∈ bs := by
  fun_induction setInter as bs with
  | case1 => simp
  | case2 => simp
  | case3 a as b bs h ih =>
    rw [List.pairwise_cons] at ha
    rw [ih ha.2 hb]
    rw [List.pairwise_cons] at hb
    simp only [List.mem_cons]
    constructor
    · tauto
    · rintro ⟨rfl | h1, h2⟩
      · rcases h2 with rfl | h2
        · omega
        · have := hb.1 x h2; omega
      · exact ⟨h1, h2⟩
  | case4 a as b bs h h' ih =>
    rw [List.pairwise_cons] at hb
    rw [ih ha hb.2]
    rw [List.pairwise_cons] at ha
    simp only [List.mem_cons]
    constructor
    · tauto
    · rintro ⟨h1, rfl | h2⟩
      · rcases h1 with rfl | h1
        · omega
        · have := ha.1 x h1; omega
      · exact ⟨h1, h2⟩
  | case5 a as b bs h h' ih =>
    have hab : a = b := by omega
    subst hab
    rw [List.pairwise_cons] at ha hb
    simp only [List.mem_cons, ih ha.2 hb.2]
    constructor
    · tauto
    · rintro ⟨h1 | h1, h2 | h2⟩
      · exact Or.inl h1
      · exact Or.inl h1
      · exact Or.inl h2
      · exact Or.inr ⟨h1, h2⟩

theorem setDiff_sublist (as bs : List ℤ) : (setDiff as bs).Sublist as := by
  fun_induction setDiff as bs with
  | case1 => simp
  | case2 => simp
  | case3 a as b bs h ih => exact ih.cons_cons a
  | case4 a as b bs h h' ih => exact ih
  | case5 a as b bs h h' ih => exact ih.cons a

theorem mem_setDiff (as bs : List ℤ) (x : ℤ) (ha : as.Pairwise (· < ·)) (hb : bs.Pairwise (· < ·)) :
    x ∈ setDiff as bs ↔ x ∈ as ∧ x ∉ bs := by
  fun_induction setDiff as bs with
  | case1 => simp
  | case2 => simp
  | case3 a as b bs h ih =>
    rw [List.pairwise_cons] at ha
    rw [List.mem_cons, ih ha.2 hb]
    rw [List.pairwise_cons] at hb
    simp only [List.mem_cons]
    constructor
    · rintro (rfl | h1)
      · refine ⟨Or.inl rfl, ?_⟩
        rintro (rfl | h2)
        · omega
        · have := hb.1 x h2; omega
      · exact ⟨Or.inr h1.1, h1.2⟩
    · rintro ⟨rfl | h1, h2⟩
      · exact Or.inl rfl
      · exact Or.inr ⟨h1, h2⟩
  | case4 a as b bs h h' ih =>
    rw [List.pairwise_cons] at hb
    rw [ih ha hb.2]
    rw [List.pairwise_cons] at ha
    simp only [List.mem_cons]
    constructor
    · rintro ⟨h1, h2⟩
      refine ⟨h1, ?_⟩
      rintro (rfl | h3)
      · rcases h1 with rfl | h1
        · omega
        · have := ha.1 x h1; omega
      · exact h2 h3
    · rintro ⟨h1, h2⟩
      exact ⟨h1, fun h3 => h2 (Or.inr h3)⟩
  | case5 a as b bs h h' ih =>
    have hab : a = b := by omega
    subst hab
    rw [List.pairwise_cons] at ha hb
    rw [ih ha.2 hb.2]
    simp only [List.mem_cons]
    constructor
    · rintro ⟨h1, h2⟩
      refine ⟨Or.inr h1, ?_⟩
      rintro (rfl | h3)
      · have := ha.1 x h1; omega
      · exact h2 h3
    · rintro ⟨rfl | h1, h2⟩
      · exact absurd (Or.inl rfl) h2
      · exact ⟨h1, fun h3 => h2 (Or.inr h3)⟩

/-! ## The groups of Gmsh -/

/-- The order of the groups. -/
def Bef (g h : Group N) : Prop := g.dim < h.dim ∨ (g.dim = h.dim ∧ g.tag < h.tag)

omit [LinearOrder N] in
theorem before_iff (g h : Group N) : Gm.before g h = true ↔ Bef g h := by
  simp [Gm.before, Bef]

omit [LinearOrder N] in
/-- Adding a group with a new tag keeps the order and adds the group. -/
theorem addTagged_sorted (s : Gm N C) (d : ℤ) (l : List ℤ) (t : ℤ) (n : N) (hs : s.groups.Pairwise Bef)
    (hnew : ∀ g ∈ s.groups, ¬ (g.dim = d ∧ g.tag = t)) : (s.addTagged d l t n).groups.Pairwise Bef := by
  unfold Gm.addTagged
  split
  · exact hs
  · show List.Pairwise Bef (_ ++ _ :: _)
    have key := hs
    rw [← List.takeWhile_append_dropWhile (p := fun g => Gm.before g ⟨d, t, n, []⟩) (l := s.groups), List.pairwise_append] at key
    have hle : ∀ (L : List (Group N)), L.Pairwise Bef → (∀ g ∈ L, ¬ (g.dim = d ∧ g.tag = t)) →
        ∀ g ∈ L.dropWhile (fun g => Gm.before g ⟨d, t, n, []⟩), Bef ⟨d, t, n, Gm.entSet l⟩ g := by
      intro L
      induction L with
      | nil => intro _ _ g hg; simp at hg
      | cons a L ih =>
        intro hp hn g hg
        rw [List.pairwise_cons] at hp
        rw [List.dropWhile_cons] at hg
        split at hg
        · exact ih hp.2 (fun g hg => hn g (List.mem_cons_of_mem _ hg)) g hg
        · rename_i hb
          rw [before_iff] at hb
          have h1 : Bef ⟨d, t, n, Gm.entSet l⟩ a := by
            have := hn a (by simp)
            unfold Bef at hb ⊢
            simp only at hb ⊢
            omega
          rcases List.mem_cons.1 hg with rfl | hg
          · exact h1
          · have h2 := hp.1 g hg
            unfold Bef at h1 h2 ⊢
            simp only at h1 h2 ⊢
            omega
    rw [List.pairwise_append, List.pairwise_cons]
    refine ⟨key.1, ⟨fun g hg => hle _ hs hnew g hg, key.2.1⟩, fun a ha b hb => ?_⟩
    rcases List.mem_cons.1 hb with rfl | hb
    · have := List.mem_takeWhile_imp ha
      rw [before_iff] at this
      exact this
    · exact key.2.2 a ha b hb

theorem addTagged_mem (s : Gm N C) (d : ℤ) (l : List ℤ) (t : ℤ) (n : N) (g : Group N) :
    g ∈ (s.addTagged d l t n).groups ↔ g ∈ s.groups ∨ (l ≠ [] ∧ g = ⟨d, t, n, Gm.entSet l⟩) := by
  unfold Gm.addTagged
  split
  · rename_i h; simp [h]
  · rename_i h
    show g ∈ (_ ++ _ :: _) ↔ _
    have : g ∈ s.groups ↔ g ∈ s.groups.takeWhile (fun g => Gm.before g ⟨d, t, n, []⟩) ∨
        g ∈ s.groups.dropWhile (fun g => Gm.before g ⟨d, t, n, []⟩) := by
      conv_lhs => rw [← List.takeWhile_append_dropWhile (p := fun g => Gm.before g ⟨d, t, n, []⟩) (l := s.groups)]
      rw [List.mem_append]
    rw [this, List.mem_append, List.mem_cons]
    simp only [ne_eq, h, not_false_eq_true, true_and]
    tauto

omit [LinearOrder N] in
theorem addTagged_color (s : Gm N C) (d : ℤ) (l : List ℤ) (t : ℤ) (n : N) : (s.addTagged d l t n).color = s.color := by
  unfold Gm.addTagged; split <;> rfl

omit [LinearOrder N] in
theorem newTag_gt (s : Gm N C) (d : ℤ) : 0 < s.newTag d ∧ ∀ g ∈ s.groups, g.dim = d → g.tag < s.newTag d := by
  have key : ∀ (l : List ℤ) (a : ℤ), a ≤ l.foldl max a ∧ ∀ x ∈ l, x ≤ l.foldl max a := by
    intro l
    induction l with
    | nil => intro a; simp
    | cons y l ih =>
      intro a
      have := ih (max a y)
      refine ⟨le_trans (le_max_left _ _) this.1, fun x hx => ?_⟩
      rcases List.mem_cons.1 hx with rfl | hx
      · exact le_trans (le_max_right _ _) this.1
      · exact this.2 x hx
  have := key ((s.groups.filter (·.dim == d)).map (·.tag)) 0
  unfold Gm.newTag
  refine ⟨by omega, fun g hg hd => ?_⟩
  have h2 := this.2 g.tag (List.mem_map.2 ⟨g, List.mem_filter.2 ⟨hg, by simp [hd]⟩, rfl⟩)
  omega

/-! ## The groups sorted by name -/

theorem insertByName_perm (acc : List (Group N)) (g : Group N) : (insertByName acc g).Perm (g :: acc) := by
  rw [insertByName, insertAt_lb]
  refine List.perm_middle.trans ?_
  rw [List.takeWhile_append_dropWhile]

theorem insertByName_sorted (acc : List (Group N)) (g : Group N) (h : acc.Pairwise fun a b => a.name ≤ b.name) :
    (insertByName acc g).Pairwise fun a b => a.name ≤ b.name := by
  rw [insertByName, insertAt_lb]
  have key := h
  rw [← List.takeWhile_append_dropWhile (p := fun y : Group N => decide (y.name < g.name)) (l := acc), List.pairwise_append] at key
  rw [List.pairwise_append, List.pairwise_cons]
  refine ⟨key.1, ⟨fun y hy => mem_dropWhile_ge (fun y : Group N => y.name) g.name acc h y hy, key.2.1⟩, fun a ha b hb => ?_⟩
  rcases List.mem_cons.1 hb with rfl | hb
  · exact le_of_lt (mem_takeWhile_lt (fun y : Group N => y.name) b.name acc ha)
  · exact key.2.2 a ha b hb

theorem foldl_insertByName (l : List (Group N)) : ∀ acc : List (Group N), (acc.Pairwise fun a b => a.name ≤ b.name) →
    (l.foldl insertByName acc).Perm (acc ++ l) ∧ (l.foldl insertByName acc).Pairwise fun a b => a.name ≤ b.name := by
  induction l with
  | nil => intro acc h; simpa using h
  | cons g l ih =>
    intro acc h
    have := ih (insertByName acc g) (insertByName_sorted acc g h)
    refine ⟨this.1.trans ?_, this.2⟩
    refine ((insertByName_perm acc g).append_right l).trans ?_
    simp only [List.cons_append]
    exact List.perm_middle.symm

theorem groupInfo_perm (groups : List (Group N)) (d : ℤ) : (groupInfo groups d).Perm (groups.filter (·.dim == d)) := by
  have := (foldl_insertByName (groups.filter (·.dim == d)) [] (by simp)).1
  simpa [groupInfo] using this

theorem groupInfo_sorted (groups : List (Group N)) (d : ℤ) : (groupInfo groups d).Pairwise fun a b => a.name ≤ b.name :=
  (foldl_insertByName (groups.filter (·.dim == d)) [] (by simp)).2

theorem mem_groupInfo (groups : List (Group N)) (d : ℤ) (g : Group N) : g ∈ groupInfo groups d ↔ g ∈ groups ∧ g.dim = d := by
  rw [(groupInfo_perm groups d).mem_iff, List.mem_filter]; simp

/-! ## Adding the groups again -/

theorem addAll_mem (d : ℤ) : ∀ (info : List (Group N)) (post : List (List ℤ)) (s : Gm N C), (∀ g ∈ info, 0 ≤ g.tag) →
    ∀ g', g' ∈ (addAll d info post s).groups ↔ g' ∈ s.groups ∨
      ∃ (i : Nat) (g : Group N) (l : List ℤ), info[i]? = some g ∧ post[i]? = some l ∧ l ≠ [] ∧ g' = ⟨d, g.tag, g.name, Gm.entSet l⟩
  | [], post, s, _, g' => by simp [addAll]
  | g :: gs, [], s, _, g' => by simp [addAll]
  | g :: gs, l :: ls, s, hp, g' => by
    rw [addAll, addAll_mem d gs ls _ (fun g hg => hp g (List.mem_cons_of_mem _ hg))]
    have ht : ¬ g.tag < 0 := not_lt.2 (hp g (by simp))
    rw [Gm.add, if_neg ht, addTagged_mem]
    constructor
    · rintro ((h | ⟨h1, h2⟩) | ⟨i, a, b, h1, h2, h3, h4⟩)
      · exact Or.inl h
      · exact Or.inr ⟨0, g, l, rfl, rfl, h1, h2⟩
      · exact Or.inr ⟨i + 1, a, b, by simpa using h1, by simpa using h2, h3, h4⟩
    · rintro (h | ⟨i, a, b, h1, h2, h3, h4⟩)
      · exact Or.inl (Or.inl h)
      · cases i with
        | zero =>
          simp only [List.getElem?_cons_zero, Option.some.injEq] at h1 h2
          subst h1 h2
          exact Or.inl (Or.inr ⟨h3, h4⟩)
        | succ i => exact Or.inr ⟨i, a, b, by simpa using h1, by simpa using h2, h3, h4⟩

theorem addAll_sorted (d : ℤ) : ∀ (info : List (Group N)) (post : List (List ℤ)) (s : Gm N C), (∀ g ∈ info, 0 ≤ g.tag) →
    (info.map (·.tag)).Nodup → s.groups.Pairwise Bef → (∀ h ∈ s.groups, ∀ g ∈ info, ¬ (h.dim = d ∧ h.tag = g.tag)) →
    (addAll d info post s).groups.Pairwise Bef
  | [], post, s, _, _, h, _ => by simpa [addAll] using h
  | g :: gs, [], s, _, _, h, _ => by simpa [addAll] using h
  | g :: gs, l :: ls, s, hp, hn, h, hnew => by
    rw [addAll]
    have ht : ¬ g.tag < 0 := not_lt.2 (hp g (by simp))
    rw [List.map_cons, List.nodup_cons] at hn
    refine addAll_sorted d gs ls _ (fun g hg => hp g (List.mem_cons_of_mem _ hg)) hn.2 ?_ ?_
    · rw [Gm.add, if_neg ht]
      exact addTagged_sorted _ _ _ _ _ h (fun a ha => hnew a ha g (by simp))
    · intro a ha b hb
      rw [Gm.add, if_neg ht, addTagged_mem] at ha
      rcases ha with ha | ⟨_, rfl⟩
      · exact hnew a ha b (List.mem_cons_of_mem _ hb)
      · rintro ⟨_, h2⟩
        exact hn.1 (List.mem_map.2 ⟨b, hb, h2.symm⟩)

omit [LinearOrder N] in
theorem addAll_color (d : ℤ) : ∀ (info : List (Group N)) (post : List (List ℤ)) (s : Gm N C), (addAll d info post s).color = s.color
  | [], _, _ => by simp [addAll]
  | _ :: _, [], _ => by simp [addAll]
  | g :: gs, l :: ls, s => by rw [addAll, addAll_color d gs ls]; exact addTagged_color _ _ _ _ _

/-! ## Input checking -/

theorem neighbours_iff (r : DimTag → DimTag → Bool) : ∀ l : List DimTag, neighbours r l = true ↔ l.IsChain (fun a b => r a b = true)
  | [] => by simp [neighbours]
  | [a] => by simp [neighbours]
  | a :: b :: l => by rw [neighbours, Bool.and_eq_true, neighbours_iff r (b :: l), List.isChain_cons_cons]


theorem dt_lt_iff (a b : DimTag) : dtLt a b = true ↔ a.1 < b.1 ∨ (a.1 = b.1 ∧ a.2 < b.2) := by simp [dtLt]

/-- Both chains together: the pairs increase strictly. -/
theorem chains_iff (l : List DimTag) :
    (neighbours (fun a b => !dtLt b a) l = true ∧ neighbours (fun a b => a != b) l = true) ↔
      l.Pairwise fun a b => a.1 < b.1 ∨ (a.1 = b.1 ∧ a.2 < b.2) := by
  have htr : IsTrans DimTag (fun a b : DimTag => a.1 < b.1 ∨ (a.1 = b.1 ∧ a.2 < b.2)) := ⟨by intro a b c h1 h2; omega⟩
  rw [neighbours_iff, neighbours_iff, ← List.isChain_iff_pairwise]
  constructor
  · rintro ⟨h1, h2⟩
    induction l with
    | nil => exact List.IsChain.nil
    | cons a l ih =>
      cases l with
      | nil => exact List.IsChain.singleton a
      | cons b l =>
        rw [List.isChain_cons_cons] at h1 h2 ⊢
        refine ⟨?_, ih h1.2 h2.2⟩
        have h3 := h1.1
        have h4 := h2.1
        have h5 : ¬ (b.1 < a.1 ∨ (b.1 = a.1 ∧ b.2 < a.2)) := by
          rw [← dt_lt_iff]; simpa using h3
        have h6 : a ≠ b := by simpa using h4
        have h7 : a.1 ≠ b.1 ∨ a.2 ≠ b.2 := by
          by_contra h; push Not at h; exact h6 (Prod.ext h.1 h.2)
        omega
  · intro h
    refine ⟨h.imp ?_, h.imp ?_⟩
    · intro a b h
      have : ¬ (dtLt b a = true) := by rw [dt_lt_iff]; omega
      simpa using this
    · intro a b h
      have : a ≠ b := by rintro rfl; omega
      simpa using this

theorem same_dim (l : List DimTag) (h : l.Pairwise fun a b => a.1 < b.1 ∨ (a.1 = b.1 ∧ a.2 < b.2)) (f b : DimTag)
    (hf : l.head? = some f) (hb : l.getLast? = some b) (hfb : f.1 = b.1) : ∀ x ∈ l, x.1 = f.1 := by
  intro x hx
  obtain ⟨t, rfl⟩ : ∃ t, l = f :: t := by cases l with
    | nil => cases hf
    | cons a t => simp only [List.head?_cons, Option.some.injEq] at hf; exact ⟨t, by rw [hf]⟩
  have h1 : f.1 ≤ x.1 := by
    rcases List.mem_cons.1 hx with rfl | hx
    · exact le_refl _
    · have := (List.pairwise_cons.1 h).1 x hx; omega
  have h2 : x.1 ≤ b.1 := by
    obtain ⟨i, hi⟩ : ∃ i, (f :: t) = i ++ [b] := by
      rw [List.getLast?_eq_some_iff] at hb; exact hb
    rw [hi] at h hx
    rcases List.mem_append.1 hx with hx | hx
    · have := (List.pairwise_append.1 h).2.2 x hx b (by simp); omega
    · simp only [List.mem_singleton] at hx; rw [hx]
  omega

/-! ## The children -/

open Verif.GmshSpec

theorem advance_spec (l : List ℤ) (i : Nat) (e : ℤ) (hl : l.Pairwise (· < ·)) (hi : ∀ x ∈ l.take i, x < e) :
    (∀ x ∈ l.take (advance l i e), x < e) ∧ (l[advance l i e]? = some e ↔ e ∈ l) ∧
    (e ∈ l → l.findIdx? (· == e) = some (advance l i e)) := by
  have hsplit : l.take (advance l i e) = l.take i ++ (l.drop i).takeWhile (· < e) := by
    rw [advance, List.take_add]
    congr 1
    have h : l.drop i = (l.drop i).takeWhile (· < e) ++ (l.drop i).dropWhile (· < e) := (List.takeWhile_append_dropWhile).symm
    have ht : ∀ a c : List ℤ, (a ++ c).take a.length = a := by intro a c; simp
    have h2 := ht ((l.drop i).takeWhile (· < e)) ((l.drop i).dropWhile (· < e))
    rw [← h] at h2
    exact h2
  have hdrop : l.drop (advance l i e) = (l.drop i).dropWhile (· < e) := by
    rw [advance, ← List.drop_drop]
    have h : l.drop i = (l.drop i).takeWhile (· < e) ++ (l.drop i).dropWhile (· < e) := (List.takeWhile_append_dropWhile).symm
    have ht : ∀ a c : List ℤ, (a ++ c).drop a.length = c := by intro a c; simp
    have h2 := ht ((l.drop i).takeWhile (· < e)) ((l.drop i).dropWhile (· < e))
    rw [← h] at h2
    exact h2
  have hlt : ∀ x ∈ l.take (advance l i e), x < e := by
    intro x hx
    rw [hsplit, List.mem_append] at hx
    rcases hx with hx | hx
    · exact hi x hx
    · exact mem_takeWhile_lt (f := fun y : ℤ => y) e _ hx
  have hge : ∀ x ∈ l.drop (advance l i e), e ≤ x := by
    intro x hx
    rw [hdrop] at hx
    exact mem_dropWhile_ge (f := fun y : ℤ => y) e _ ((hl.sublist (List.drop_sublist _ _)).imp le_of_lt) x hx
  generalize advance l i e = k at *
  have hiff : l[k]? = some e ↔ e ∈ l := by
    constructor
    · exact fun h => List.mem_of_getElem? h
    · intro h
      rw [← List.take_append_drop k l, List.mem_append] at h
      rcases h with h | h
      · exact absurd (hlt e h) (lt_irrefl _)
      · have hd : l.drop k = l.drop k := rfl
        have hs := hl.sublist (List.drop_sublist k l)
        rw [← Nat.add_zero k, ← List.getElem?_drop]
        cases hdk : l.drop k with
        | nil => rw [hdk] at h; cases h
        | cons a t =>
          rw [hdk] at h hs hge
          rw [List.pairwise_cons] at hs
          rcases List.mem_cons.1 h with rfl | h
          · rfl
          · have := hs.1 e h
            have := hge a (by simp)
            omega
  refine ⟨hlt, hiff, fun h => ?_⟩
  have hk := hiff.2 h
  rw [List.findIdx?_eq_some_iff_getElem]
  have hkl : k < l.length := by
    by_contra hh
    rw [List.getElem?_eq_none (by omega)] at hk
    cases hk
  refine ⟨hkl, ?_, ?_⟩
  · rw [List.getElem?_eq_getElem hkl] at hk
    simpa using hk
  · intro j hj
    have : l[j] < e := hlt _ (by
      rw [List.mem_take_iff_getElem]
      exact ⟨j, by omega, rfl⟩)
    simp only [beq_iff_eq]
    omega

theorem take_lt_mono {l : List ℤ} {k : Nat} {e : ℤ} {es : List ℤ} (h : ∀ x ∈ l.take k, x < e) (hes : ∀ a ∈ es, e < a) :
    ∀ a ∈ es, ∀ x ∈ l.take k, x < a := fun a ha x hx => lt_trans (h x hx) (hes a ha)

/-- The loop over the entities of a group inserts what they become. -/
theorem newTagsLoop_eq (obj tool : List DimTag) (map : List (List DimTag)) (ho : (obj.map (·.2)).Pairwise (· < ·))
    (ht : (tool.map (·.2)).Pairwise (· < ·)) (hm : map.length = obj.length + tool.length) :
    ∀ (es : List ℤ) (oi ti : Nat) (acc : List ℤ), es.Pairwise (· < ·) →
    (∀ a ∈ es, ∀ x ∈ (obj.map (·.2)).take oi, x < a) → (∀ a ∈ es, ∀ x ∈ (tool.map (·.2)).take ti, x < a) →
    newTagsLoop (obj.map (·.2)) (tool.map (·.2)) map es oi ti acc =
      .ok (es.foldl (fun acc e => (become (obj ++ tool) map e).foldl insertTag acc) acc)
  | [], oi, ti, acc, _, _, _ => by rw [newTagsLoop]; rfl
  | e :: es, oi, ti, acc, hp, h1, h2 => by
    rw [List.pairwise_cons] at hp
    obtain ⟨ha, hb, hc⟩ := advance_spec _ oi e ho (h1 e (by simp))
    obtain ⟨ha', hb', hc'⟩ := advance_spec _ ti e ht (h2 e (by simp))
    have hmap : ∀ l : List DimTag, l.findIdx? (fun x => x.2 == e) = (l.map (·.2)).findIdx? (· == e) := by
      intro l; rw [List.findIdx?_map]; rfl
    have hnone : ∀ l : List DimTag, e ∉ l.map (·.2) → l.findIdx? (fun x => x.2 == e) = none := by
      intro l hl
      rw [List.findIdx?_eq_none_iff]
      intro x hx
      simp only [beq_eq_false_iff_ne, ne_eq]
      rintro rfl
      exact hl (List.mem_map.2 ⟨x, hx, rfl⟩)
    have hstep : List.foldl (fun acc e => (become (obj ++ tool) map e).foldl insertTag acc) acc (e :: es) =
      es.foldl (fun acc e => (become (obj ++ tool) map e).foldl insertTag acc) ((become (obj ++ tool) map e).foldl insertTag acc) := rfl
    rw [newTagsLoop, hstep]
    dsimp only
    by_cases ho' : e ∈ obj.map (·.2)
    · have hfind : (obj ++ tool).findIdx? (fun x => x.2 == e) = some (advance (obj.map (·.2)) oi e) := by
        rw [List.findIdx?_append, hmap obj, hc ho']; rfl
      have hlt : advance (obj.map (·.2)) oi e < map.length := by
        have := hb.2 ho'
        have hh : advance (obj.map (·.2)) oi e < (obj.map (·.2)).length := by
          by_contra hh; rw [List.getElem?_eq_none (by omega)] at this; cases this
        rw [List.length_map] at hh; omega
      have hbec : become (obj ++ tool) map e = (map[advance (obj.map (·.2)) oi e]).map (·.2) := by
        rw [become, hfind]
        simp [List.getD_eq_getElem?_getD, List.getElem?_eq_getElem hlt]
      rw [if_pos (hb.2 ho'), List.getElem?_eq_getElem hlt]
      dsimp only
      rw [newTagsLoop_eq obj tool map ho ht hm es _ _ _ hp.2 (take_lt_mono ha hp.1)
        (fun a ha => h2 a (List.mem_cons_of_mem _ ha)), hbec]
    · rw [if_neg (fun h => ho' (hb.1 h))]
      by_cases ht' : e ∈ tool.map (·.2)
      · have hfind : (obj ++ tool).findIdx? (fun x => x.2 == e) = some (advance (tool.map (·.2)) ti e + (obj.map (·.2)).length) := by
          rw [List.findIdx?_append, hnone obj ho', hmap tool, hc' ht', List.length_map]; rfl
        have hlt : advance (tool.map (·.2)) ti e + (obj.map (·.2)).length < map.length := by
          have := hb'.2 ht'
          have hh : advance (tool.map (·.2)) ti e < (tool.map (·.2)).length := by
            by_contra hh; rw [List.getElem?_eq_none (by omega)] at this; cases this
          rw [List.length_map] at hh ⊢; omega
        have hbec : become (obj ++ tool) map e = (map[advance (tool.map (·.2)) ti e + (obj.map (·.2)).length]).map (·.2) := by
          rw [become, hfind]
          simp only [List.getD_eq_getElem?_getD, List.getElem?_eq_getElem hlt, Option.getD_some]
        rw [if_pos (hb'.2 ht'), List.getElem?_eq_getElem hlt]
        dsimp only
        rw [newTagsLoop_eq obj tool map ho ht hm es _ _ _ hp.2 (take_lt_mono ha hp.1) (take_lt_mono ha' hp.1), hbec]
      · rw [if_neg (fun h => ht' (hb'.1 h))]
        have hbec : become (obj ++ tool) map e = [e] := by
          rw [become, List.findIdx?_append, hnone obj ho', hnone tool ht']; rfl
        rw [newTagsLoop_eq obj tool map ho ht hm es _ _ _ hp.2 (take_lt_mono ha hp.1) (take_lt_mono ha' hp.1), hbec]
        rfl

/-- The new entities of a group. -/
def newEnts (inputs : List DimTag) (map : List (List DimTag)) (es : List ℤ) : List ℤ :=
  es.foldl (fun acc e => (become inputs map e).foldl insertTag acc) []

theorem newGroups_eq (obj tool : List DimTag) (map : List (List DimTag)) (ho : (obj.map (·.2)).Pairwise (· < ·))
    (ht : (tool.map (·.2)).Pairwise (· < ·)) (hm : map.length = obj.length + tool.length) :
    ∀ ls : List (List ℤ), (∀ l ∈ ls, l.Pairwise (· < ·)) → newGroups obj tool map ls = .ok (ls.map (newEnts (obj ++ tool) map))
  | [], _ => rfl
  | l :: ls, h => by
    rw [newGroups, newTagsLoop_eq obj tool map ho ht hm l 0 0 [] (h l (by simp)) (by simp) (by simp),
      newGroups_eq obj tool map ho ht hm ls (fun a ha => h a (List.mem_cons_of_mem _ ha))]
    rfl

theorem newEnts_spec (inputs : List DimTag) (map : List (List DimTag)) (es : List ℤ) :
    (newEnts inputs map es).Pairwise (· < ·) ∧ ∀ x, x ∈ newEnts inputs map es ↔ ∃ e ∈ es, x ∈ become inputs map e := by
  have key : ∀ (es acc : List ℤ), acc.Pairwise (· < ·) →
      (es.foldl (fun acc e => (become inputs map e).foldl insertTag acc) acc).Pairwise (· < ·) ∧
      ∀ x, x ∈ es.foldl (fun acc e => (become inputs map e).foldl insertTag acc) acc ↔ x ∈ acc ∨ ∃ e ∈ es, x ∈ become inputs map e := by
    intro es
    induction es with
    | nil => intro acc h; simpa using h
    | cons e es ih =>
      intro acc h
      have := ih _ (sorted_foldl_insertTag (become inputs map e) acc h)
      rw [List.foldl_cons]
      refine ⟨this.1, fun x => ?_⟩
      rw [this.2, mem_foldl_insertTag]
      simp only [List.mem_cons, exists_eq_or_imp]
      tauto
  have := key es [] (by simp)
  refine ⟨this.1, fun x => ?_⟩
  rw [newEnts, this.2]
  simp

/-! ## The material hierarchy -/

theorem matIndex_iff (names : List N) (h : names.Pairwise (· < ·)) (n : N) (k : Nat) :
    matIndex names n = some k ↔ names[k]? = some n := by
  have hinj : ∀ i j : Nat, names[i]? = some n → names[j]? = some n → i = j := by
    intro i j hi hj
    obtain ⟨hi', hi⟩ := List.getElem?_eq_some_iff.1 hi
    obtain ⟨hj', hj⟩ := List.getElem?_eq_some_iff.1 hj
    have hnd : names.Nodup := h.imp ne_of_lt
    exact (List.Nodup.getElem_inj_iff hnd).1 (hi.trans hj.symm)
  unfold matIndex
  by_cases hn : names[lowerBound names n]? = some n
  · rw [if_pos hn]
    constructor
    · intro hk; cases hk; exact hn
    · intro hk; rw [hinj _ _ hn hk]
  · rw [if_neg hn]
    constructor
    · intro hk; cases hk
    · intro hk
      exfalso
      have hmem : n ∈ names := List.mem_of_getElem? hk
      rw [lb_get] at hn
      rw [← List.takeWhile_append_dropWhile (p := (· < n)) (l := names), List.mem_append] at hmem
      have hge := mem_dropWhile_ge (f := fun y : N => y) n names (h.imp le_of_lt)
      rcases hmem with hmem | hmem
      · exact absurd (mem_takeWhile_lt (f := fun y : N => y) n names hmem) (lt_irrefl _)
      · have hs := h.sublist (List.dropWhile_sublist (· < n))
        cases hd : names.dropWhile (· < n) with
        | nil => rw [hd] at hmem; cases hmem
        | cons a t =>
          rw [hd] at hmem hs hn
          rw [List.pairwise_cons] at hs
          rcases List.mem_cons.1 hmem with rfl | hmem
          · exact hn rfl
          · have h1 := hs.1 n hmem
            have h2 := hge a (by rw [hd]; simp)
            exact absurd h1 (not_lt.2 h2)

/-- All vectors are sorted. -/
def AllSorted (post : List (List ℤ)) : Prop := ∀ k, (post.getD k []).Pairwise (· < ·)

theorem getD_set (post : List (List ℤ)) (i k : Nat) (l : List ℤ) (hi : i < post.length) :
    (post.set i l).getD k [] = if k = i then l else post.getD k [] := by
  simp only [List.getD_eq_getElem?_getD, List.getElem?_set]
  by_cases h : i = k
  · subst h; simp [hi]
  · simp [h, Ne.symm h]

theorem subtract_spec (post : List (List ℤ)) (i j : Nat) (hs : AllSorted post) (hi : i < post.length) :
    AllSorted (subtract post i j) ∧ (subtract post i j).length = post.length ∧
    ∀ k e, e ∈ (subtract post i j).getD k [] ↔ e ∈ post.getD k [] ∧ (k = i → e ∉ post.getD j []) := by
  unfold subtract
  dsimp only
  have hmem := fun e => mem_setInter (post.getD i []) (post.getD j []) e (hs i) (hs j)
  split
  · rename_i h
    refine ⟨hs, rfl, fun k e => ?_⟩
    constructor
    · intro he
      refine ⟨he, ?_⟩
      rintro rfl he'
      have := (hmem e).2 ⟨he, he'⟩
      rw [h] at this; cases this
    · exact fun h => h.1
  · have hsi : (setInter (post.getD i []) (post.getD j [])).Pairwise (· < ·) := by
      have key : ∀ as bs : List ℤ, (setInter as bs).Sublist as := by
        intro as bs
        fun_induction setInter as bs with
        | case1 => simp
        | case2 => simp
        | case3 a as b bs h ih => exact ih.cons a
        | case4 a as b bs h h' ih => exact ih
        | case5 a as b bs h h' ih => exact ih.cons_cons a
      exact (hs i).sublist (key _ _)
    refine ⟨fun k => ?_, by simp, fun k e => ?_⟩
    · rw [getD_set _ _ _ _ hi]
      split
      · exact (hs i).sublist (setDiff_sublist _ _)
      · exact hs k
    · rw [getD_set _ _ _ _ hi]
      split
      · rename_i hk
        subst hk
        rw [mem_setDiff _ _ _ (hs k) hsi, hmem]
        tauto
      · rename_i hk
        constructor
        · exact fun h => ⟨h, fun h' => absurd h' hk⟩
        · exact fun h => h.1

/-- The loop over the materials before. -/
theorem subtractAll_spec (i : Nat) : ∀ (done : List (Option Nat)) (post : List (List ℤ)), AllSorted post → i < post.length →
    some i ∉ done →
    let post' := done.foldl (subtractOpt i) post
    AllSorted post' ∧ post'.length = post.length ∧
    ∀ k e, e ∈ post'.getD k [] ↔ e ∈ post.getD k [] ∧ (k = i → ∀ j, some j ∈ done → e ∉ post.getD j [])
  | [], post, hs, hi, _ => ⟨hs, rfl, fun k e => by simp⟩
  | none :: done, post, hs, hi, hn => by
    have := subtractAll_spec i done post hs hi (fun h => hn (List.mem_cons_of_mem _ h))
    simpa [subtractOpt] using this
  | some j :: done, post, hs, hi, hn => by
    obtain ⟨h1, h2, h3⟩ := subtract_spec post i j hs hi
    obtain ⟨h4, h5, h6⟩ := subtractAll_spec i done (subtract post i j) h1 (by omega) (fun h => hn (List.mem_cons_of_mem _ h))
    refine ⟨h4, h5.trans h2, fun k e => ?_⟩
    rw [List.foldl_cons]
    show e ∈ (List.foldl (subtractOpt i) (subtract post i j) done).getD k [] ↔ _
    rw [h6, h3]
    constructor
    · rintro ⟨⟨ha, hb⟩, hc⟩
      refine ⟨ha, fun hk j' hj' => ?_⟩
      rcases List.mem_cons.1 hj' with hj' | hj'
      · cases hj'; exact hb hk
      · intro he
        refine hc hk j' hj' ((h3 j' e).2 ⟨he, ?_⟩)
        rintro rfl
        exact absurd (List.mem_cons_of_mem _ hj') hn
    · rintro ⟨ha, hb⟩
      refine ⟨⟨ha, fun hk => hb hk j (by simp)⟩, fun hk j' hj' he => ?_⟩
      exact hb hk j' (List.mem_cons_of_mem _ hj') ((h3 j' e).1 he).1

theorem pair_sublist_concat {α : Type} (a b c : α) (l : List α) :
    [a, b].Sublist (l ++ [c]) ↔ [a, b].Sublist l ∨ (a ∈ l ∧ b = c) := by
  constructor
  · intro h
    rw [List.sublist_append_iff] at h
    obtain ⟨l1, l2, h1, h2, h3⟩ := h
    match l1, h1, h2 with
    | [], h1, _ =>
      have h4 : l2 = [a, b] := by simpa using h1.symm
      rw [h4] at h3
      have := h3.length_le
      simp at this
    | [x], h1, h2 =>
      simp only [List.singleton_append, List.cons.injEq] at h1
      rw [← h1.2] at h3
      have h4 : b = c := by simpa using h3
      exact Or.inr ⟨by rw [h1.1]; simpa using h2, h4⟩
    | x :: y :: l1, h1, h2 =>
      simp only [List.cons_append, List.cons.injEq, List.nil_eq, List.append_eq_nil_iff] at h1
      obtain ⟨rfl, rfl, rfl, rfl⟩ := h1
      exact Or.inl h2
  · rintro (h | ⟨h1, rfl⟩)
    · exact h.trans (List.sublist_append_left _ _)
    · have : [a, b] = [a] ++ [b] := rfl
      rw [this]
      exact List.Sublist.append (by simpa using h1) (List.Sublist.refl _)

/-- Among the materials with an entity there is a first. -/
theorem first_exists (p : Nat → Prop) (done : List (Option Nat)) : (∀ i, done.count (some i) ≤ 1) →
    (∃ j, some j ∈ done ∧ p j) → ∃ j, some j ∈ done ∧ p j ∧ ∀ j', [some j', some j].Sublist done → ¬ p j' := by
  induction done using List.reverseRecOn with
  | nil => rintro _ ⟨j, hj, _⟩; cases hj
  | append_singleton l x ih =>
    intro hc hex
    by_cases h : ∃ j, some j ∈ l ∧ p j
    · obtain ⟨j, h1, h2, h3⟩ := ih (fun i => by have := hc i; rw [List.count_append] at this; omega) h
      refine ⟨j, by simp [h1], h2, fun j' hj' => ?_⟩
      rw [pair_sublist_concat] at hj'
      rcases hj' with hj' | ⟨_, rfl⟩
      · exact h3 j' hj'
      · have h4 := hc j
        rw [List.count_append, List.count_singleton_self] at h4
        have := List.count_pos_iff.2 h1
        omega
    · obtain ⟨j, hj, hp⟩ := hex
      rw [List.mem_append, List.mem_singleton] at hj
      rcases hj with hj | rfl
      · exact absurd ⟨j, hj, hp⟩ h
      · refine ⟨j, by simp, hp, fun j' hj' hp' => ?_⟩
        rw [pair_sublist_concat] at hj'
        rcases hj' with hj' | ⟨hj', _⟩
        · exact h ⟨j', hj'.subset (by simp), hp'⟩
        · exact h ⟨j', hj', hp'⟩

/-- The loops over the materials: an entity stays in the group of the first material that has it. -/
theorem hierLoop_spec : ∀ (todo done : List (Option Nat)) (orig post : List (List ℤ)), AllSorted post →
    post.length = orig.length → (∀ i, some i ∈ todo → i < post.length) →
    (∀ i, (done ++ todo).count (some i) ≤ 1) →
    (∀ k e, e ∈ post.getD k [] ↔ e ∈ orig.getD k [] ∧ ∀ j, [some j, some k].Sublist done → e ∉ orig.getD j []) →
    let post' := hierLoop done todo post
    AllSorted post' ∧ post'.length = orig.length ∧
    ∀ k e, e ∈ post'.getD k [] ↔ e ∈ orig.getD k [] ∧ ∀ j, [some j, some k].Sublist (done ++ todo) → e ∉ orig.getD j []
  | [], done, orig, post, hs, hl, _, _, hinv => by
    rw [hierLoop, List.append_nil]; exact ⟨hs, hl, hinv⟩
  | none :: todo, done, orig, post, hs, hl, hi, hc, hinv => by
    rw [hierLoop]
    have key := hierLoop_spec todo (done ++ [none]) orig post hs hl (fun i h => hi i (List.mem_cons_of_mem _ h))
      (by simpa using hc) (fun k e => by
        rw [hinv]
        refine and_congr_right fun _ => forall_congr' fun j => ?_
        rw [pair_sublist_concat]; simp)
    rw [List.append_assoc, List.singleton_append] at key
    exact key
  | some i :: todo, done, orig, post, hs, hl, hi, hc0, hinv => by
    rw [hierLoop]
    have hnd : some i ∉ done := by
      intro h
      have h1 := hc0 i
      rw [List.count_append, List.count_cons_self] at h1
      have h2 := List.count_pos_iff.2 h
      omega
    obtain ⟨h1, h2, h3⟩ := subtractAll_spec i done post hs (hi i (by simp)) hnd
    have key := hierLoop_spec todo (done ++ [some i]) orig _ h1 (h2.trans hl)
      (fun j h => by rw [h2]; exact hi j (List.mem_cons_of_mem _ h)) (by simpa using hc0) (fun k e => by
        rw [h3, hinv]
        constructor
        · rintro ⟨⟨ha, hb⟩, hc⟩
          refine ⟨ha, fun j hj => ?_⟩
          rw [pair_sublist_concat] at hj
          rcases hj with hj | ⟨hj, hk⟩
          · exact hb j hj
          · cases hk
            intro he
            -- the first material before that has the entity still has it
            obtain ⟨j', hj', he', hf⟩ := first_exists (fun j => e ∈ orig.getD j []) done (fun i => by
              have := hc0 i
              rw [List.count_append] at this
              omega) ⟨j, hj, he⟩
            exact hc rfl j' hj' ((hinv j' e).2 ⟨he', hf⟩)
        · rintro ⟨ha, hb⟩
          refine ⟨⟨ha, fun j hj => hb j ((pair_sublist_concat _ _ _ _).2 (Or.inl hj))⟩, fun hk j hj he => ?_⟩
          subst hk
          exact hb j ((pair_sublist_concat _ _ _ _).2 (Or.inr ⟨hj, rfl⟩)) ((hinv j e).1 he).1)
    rw [List.append_assoc, List.singleton_append] at key
    exact key

theorem count_map_le {α β : Type} [BEq β] [LawfulBEq β] (f : α → β) (b : β) (hf : ∀ x y, f x = b → f y = b → x = y) :
    ∀ l : List α, l.Nodup → (l.map f).count b ≤ 1
  | [], _ => by simp
  | a :: l, h => by
    rw [List.nodup_cons] at h
    rw [List.map_cons, List.count_cons]
    have ih := count_map_le f b hf l h.2
    by_cases hab : f a = b
    · have : b ∉ l.map f := by
        intro hb
        obtain ⟨y, hy, hyb⟩ := List.mem_map.1 hb
        rw [hf a y hab hyb] at h
        exact h.1 hy
      rw [List.count_eq_zero_of_not_mem this]
      split <;> omega
    · rw [if_neg (by simpa using hab)]; omega

/-- The groups that are added again, before the colours: `post` holds their entities. -/
theorem rebuilt_mem (d : ℤ) (s : Gm N C) (hwf : WF s) (post : List (List ℤ)) (hl : post.length = (groupInfo s.groups d).length)
    (hs : AllSorted post) (g' : Group N) :
    g' ∈ (addAll d (groupInfo s.groups d) post s.removeAll).groups ↔
      ∃ (i : Nat) (g : Group N), (groupInfo s.groups d)[i]? = some g ∧ g'.dim = d ∧ g'.tag = g.tag ∧ g'.name = g.name ∧
        g'.ents = post.getD i [] ∧ g'.ents ≠ [] := by
  rw [addAll_mem d _ _ _ (fun g hg => le_of_lt (hwf.pos g ((mem_groupInfo _ _ _).1 hg).1))]
  constructor
  · rintro (h | ⟨i, g, l, h1, h2, h3, rfl⟩)
    · exact absurd h (by simp [Gm.removeAll])
    · have hpd : post.getD i [] = l := by rw [List.getD_eq_getElem?_getD, h2]; rfl
      have hls : l.Pairwise (· < ·) := hpd ▸ hs i
      exact ⟨i, g, h1, rfl, rfl, rfl, by rw [hpd, entSet_sorted l hls], by rw [entSet_sorted l hls]; exact h3⟩
  · rintro ⟨i, g, h1, h2, h3, h4, h5, h6⟩
    right
    have hi : i < post.length := by
      rw [hl]
      by_contra hh; rw [List.getElem?_eq_none (by omega)] at h1; cases h1
    refine ⟨i, g, post[i], h1, List.getElem?_eq_getElem hi, ?_, ?_⟩
    · rw [h5, List.getD_eq_getElem?_getD, List.getElem?_eq_getElem hi] at h6; exact h6
    · have hpd : post.getD i [] = post[i] := by rw [List.getD_eq_getElem?_getD, List.getElem?_eq_getElem hi]; rfl
      have hls : post[i].Pairwise (· < ·) := hpd ▸ hs i
      rw [entSet_sorted _ hls, ← hpd, ← h5, ← h2, ← h3, ← h4]

theorem rebuilt_wf (d : ℤ) (s : Gm N C) (hwf : WF s) (post : List (List ℤ)) (hl : post.length = (groupInfo s.groups d).length)
    (hs : AllSorted post) : WF (addAll d (groupInfo s.groups d) post s.removeAll) := by
  refine ⟨?_, ?_, ?_⟩
  · refine addAll_sorted d _ _ _ (fun g hg => le_of_lt (hwf.pos g ((mem_groupInfo _ _ _).1 hg).1)) ?_ (by simp [Gm.removeAll])
      (by simp [Gm.removeAll])
    have hp : ((groupInfo s.groups d).map (·.tag)).Perm ((s.groups.filter (·.dim == d)).map (·.tag)) := (groupInfo_perm _ _).map _
    rw [hp.nodup_iff]
    have h1 := hwf.sorted.sublist (List.filter_sublist (p := fun g : Group N => g.dim == d))
    refine List.pairwise_map.2 (h1.imp_of_mem ?_)
    intro a b ha hb hab
    rw [List.mem_filter] at ha hb
    have := ha.2
    have := hb.2
    simp only [beq_iff_eq] at *
    omega
  · intro g hg
    obtain ⟨i, g0, h1, _, h3, _⟩ := (rebuilt_mem d s hwf post hl hs g).1 hg
    rw [h3]
    exact hwf.pos g0 ((mem_groupInfo _ _ _).1 (List.mem_of_getElem? h1)).1
  · intro g hg
    obtain ⟨i, g0, _, _, _, _, h5, h6⟩ := (rebuilt_mem d s hwf post hl hs g).1 hg
    exact ⟨by rw [h5]; exact hs i, h6⟩

/-! ## Colours -/

/-- The groups have one dimension and distinct names: `ptag` and `entsOf` find the group. -/
theorem entsOf_ptag (s : Gm N C) (hwf : WF s) (d : ℤ) (hd : Distinct s d) (n : N) (e : ℤ) :
    (∃ t, ptag s.groups d n = some t ∧ e ∈ entsOf s.groups d t) ↔ In s d n e := by
  have huniq : ∀ g ∈ s.groups, ∀ h ∈ s.groups, g.dim = h.dim → g.tag = h.tag → g = h := by
    intro g hg h hh h1 h2
    exact List.Pairwise.forall_of_forall_of_flip (R := fun g h : Group N => g.dim = h.dim → g.tag = h.tag → g = h)
      (fun _ _ _ _ => rfl) (hwf.sorted.imp fun h _ _ => by omega) (hwf.sorted.imp fun h _ _ => by omega) hg hh h1 h2
  constructor
  · rintro ⟨t, h1, h2⟩
    rw [ptag, Option.map_eq_some_iff] at h1
    obtain ⟨g, h3, rfl⟩ := h1
    have hg := List.mem_of_find?_eq_some h3
    have hp := List.find?_some h3
    simp only [Bool.and_eq_true, beq_iff_eq] at hp
    rw [List.mem_reverse] at hg
    refine ⟨g, hg, hp.1, hp.2, ?_⟩
    unfold entsOf at h2
    split at h2
    · rename_i h hf
      have hh := List.mem_of_find?_eq_some hf
      have hp' := List.find?_some hf
      simp only [Bool.and_eq_true, beq_iff_eq] at hp'
      rw [huniq h hh g hg (by omega) hp'.2] at h2
      exact h2
    · cases h2
  · rintro ⟨g, h1, h2, h3, h4⟩
    have hsome : (s.groups.reverse.find? fun g => g.dim == d && g.name == n) = some g := by
      cases hf : s.groups.reverse.find? fun g => g.dim == d && g.name == n with
      | none =>
        rw [List.find?_eq_none] at hf
        exact absurd (by simp [h2, h3]) (hf g (List.mem_reverse.2 h1))
      | some h =>
        have hh := List.mem_of_find?_eq_some hf
        have hp := List.find?_some hf
        simp only [Bool.and_eq_true, beq_iff_eq] at hp
        rw [List.mem_reverse] at hh
        rw [hd h hh g h1 hp.1 h2 (hp.2.trans h3.symm)]
    refine ⟨g.tag, by rw [ptag, hsome]; rfl, ?_⟩
    unfold entsOf
    cases hf : s.groups.find? fun h => h.dim == d && h.tag == g.tag with
    | none =>
      rw [List.find?_eq_none] at hf
      exact absurd (by simp [h2]) (hf g h1)
    | some h =>
      have hh := List.mem_of_find?_eq_some hf
      have hp := List.find?_some hf
      simp only [Bool.and_eq_true, beq_iff_eq] at hp
      rw [huniq h hh g h1 (by omega) hp.2]
      exact h4

end Verif.Gmsh
