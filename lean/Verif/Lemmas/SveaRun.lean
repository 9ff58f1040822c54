import Verif.Lemmas.SveaBox
import Verif.Lemmas.Scene

/-! The run of the program that makes the channel box (C119). -/

namespace Verif.SveaL

open Verif.Svea Verif.SveaSpec

noncomputable section

/-! ### Runs -/

theorem always_bind {α β : Type} {Q : α → Prop} {R : β → Prop} (r : Run α) (f : α → Run β) (h : Always Q r) (hf : ∀ a, Q a → Always R (f a)) :
    Always R (r.bind f) := by
  induction r with
  | ret a => exact hf a h
  | undef => exact h.elim
  | ask q k ih => exact fun c out ha => ih c out (h c out ha)

theorem always_mono {α : Type} {Q R : α → Prop} (r : Run α) (h : ∀ a, Q a → R a) (hr : Always Q r) : Always R r := by
  induction r with
  | ret a => exact h a hr
  | undef => exact hr.elim
  | ask q k ih => exact fun c out ha => ih c out (hr c out ha)

theorem possible_always {α : Type} {Q : α → Prop} (r : Run α) (a : α) (hr : Always Q r) (h : Possible a r) : Q a := by
  induction r with
  | ret b => have h : a = b := h; subst h; exact hr
  | undef => exact hr.elim
  | ask q k ih =>
    obtain ⟨c, out, h1, h2⟩ := h
    exact ih c out (hr c out h1) h2

theorem possible_bind {α β : Type} (r : Run α) (f : α → Run β) (a : α) (b : β) (h : Possible a r) (hf : Possible b (f a)) : Possible b (r.bind f) := by
  induction r with
  | ret x => have h : a = x := h; subst h; exact hf
  | undef => exact h.elim
  | ask q k ih =>
    obtain ⟨c, out, h1, h2⟩ := h
    exact ⟨c, out, h1, ih c out h2⟩

/-- A bound for a list. -/
theorem bound_of (l : List ℤ) : ∃ N : ℤ, ∀ t ∈ l, t < N := by
  induction l with
  | nil => exact ⟨0, by simp⟩
  | cons a l ih =>
    obtain ⟨N, h⟩ := ih
    refine ⟨max N (a + 1), fun t ht => ?_⟩
    rcases List.mem_cons.1 ht with rfl | ht
    · exact lt_of_lt_of_le (by omega) (le_max_right _ _)
    · exact lt_of_lt_of_le (h t ht) (le_max_left _ _)

/-- The kernel can answer with any pieces. -/
theorem can_answer (q : Query) (pieces : List (Set Pt)) (hp : ∀ P, P ∈ q.result ↔ ∃ S ∈ pieces, P ∈ S)
    (hd : pieces.Pairwise fun A B => Disjoint A B) (h1 : IsConnected q.result → pieces.length = 1) :
    ∃ c out, Answer q c out ∧ out.map c.shape = pieces := by
  obtain ⟨N, hN⟩ := bound_of q.canvas.tags
  let shape : ℤ → Set Pt := fun t => if t < N then q.canvas.shape t else pieces.getD (t - N).toNat ∅
  let c : Canvas := ⟨q.canvas.tags.filter (· ∉ q.gone) ++ Scene.fresh N pieces.length, shape, N + pieces.length⟩
  have hs : ∀ i : Nat, shape (N + i) = pieces.getD i ∅ := by
    intro i
    show (if N + (i : ℤ) < N then _ else _) = _
    rw [if_neg (by omega)]
    congr 1
    omega
  have hmap : (Scene.fresh N pieces.length).map shape = pieces := by
    apply List.ext_getElem
    · simp [Scene.fresh]
    · intro i h1 h2
      simp only [Scene.fresh, List.getElem_map, List.getElem_range]
      rw [hs, List.getD_eq_getElem?_getD, List.getElem?_eq_getElem h2]
      rfl
  refine ⟨c, Scene.fresh N pieces.length, ⟨?_, ?_, ?_, ?_, ?_, ?_, ?_⟩, hmap⟩
  · intro P
    rw [hp]
    have : ∀ S, S ∈ pieces ↔ ∃ t ∈ Scene.fresh N pieces.length, shape t = S := fun S => by
      conv_lhs => rw [← hmap]
      exact List.mem_map
    simp only [this]
    constructor
    · rintro ⟨_, ⟨t, ht, rfl⟩, hP⟩; exact ⟨t, ht, hP⟩
    · rintro ⟨t, ht, hP⟩; exact ⟨_, ⟨t, ht, rfl⟩, hP⟩
  · have h2 : ((Scene.fresh N pieces.length).map shape).Pairwise fun A B => Disjoint A B := by rw [hmap]; exact hd
    rw [List.pairwise_map] at h2
    exact (SceneL.fresh_sorted N pieces.length).imp₂ (fun a b h h' => ⟨h.ne, h'⟩) h2
  · intro t
    show t ∈ _ ++ _ ↔ _
    rw [List.mem_append, List.mem_filter]
    simp only [decide_eq_true_eq]
    tauto
  · intro t ht h
    obtain ⟨i, -, rfl⟩ := (SceneL.mem_fresh _ _ t).1 ht
    have := hN _ h
    omega
  · intro t ht _
    show (if t < N then _ else _) = _
    rw [if_pos (hN t ht)]
  · intro t ht
    have ht : t ∈ _ ++ _ := ht
    show t < N + pieces.length
    rcases List.mem_append.1 ht with ht | ht
    · have := hN t (List.mem_filter.1 ht).1; omega
    · obtain ⟨i, hi, rfl⟩ := (SceneL.mem_fresh _ _ t).1 ht
      omega
  · intro h
    rw [SceneL.fresh_length]
    exact h1 h

theorem can_of_always {α : Type} {Q : α → Prop} (r : Run α) (h : Always Q r) : ∃ a, Possible a r ∧ Q a := by
  induction r with
  | ret a => exact ⟨a, rfl, h⟩
  | undef => exact h.elim
  | ask q k ih =>
    obtain ⟨c, out, h1, -⟩ := can_answer q [q.result] (by simp) (by simp) (by simp)
    obtain ⟨a, h2, h3⟩ := ih c out (h c out h1)
    exact ⟨a, ⟨c, out, h1, h2⟩, h3⟩

/-! ### What is known of the surfaces -/

/-- Beside the surfaces of `b` there are those of the list. -/
structure Knows (b c : Canvas) (l : List (ℤ × Set Pt)) : Prop where
  tags : ∀ t, t ∈ c.tags ↔ t ∈ b.tags ∨ t ∈ l.map Prod.fst
  kept : ∀ t ∈ b.tags, c.shape t = b.shape t
  shape : ∀ p ∈ l, c.shape p.1 = p.2
  fresh : ∀ t ∈ l.map Prod.fst, t ∉ b.tags
  nodup : (l.map Prod.fst).Nodup
  bound : ∀ t ∈ c.tags, t < c.next

theorem Knows.perm {b c : Canvas} {l l' : List (ℤ × Set Pt)} (h : Knows b c l) (hp : l.Perm l') : Knows b c l' := by
  have hm := hp.map Prod.fst
  exact ⟨fun t => by rw [h.tags, hm.mem_iff], h.kept, fun p hq => h.shape p (hp.mem_iff.2 hq), fun t ht => h.fresh t (hm.mem_iff.2 ht),
    hm.nodup_iff.1 h.nodup, h.bound⟩

theorem Knows.start (b : Canvas) (hb : ∀ t ∈ b.tags, t < b.next) : Knows b b [] :=
  ⟨by simp, fun _ _ => rfl, by simp, by simp, by simp, hb⟩

theorem Knows.add {b c : Canvas} {l : List (ℤ × Set Pt)} (h : Knows b c l) (S : Set Pt) : Knows b (c.add S).1 ((c.next, S) :: l) := by
  have hne : ∀ t ∈ c.tags, t ≠ c.next := fun t ht => (h.bound t ht).ne
  have hl : ∀ t ∈ l.map Prod.fst, t ≠ c.next := fun t ht => hne t ((h.tags t).2 (Or.inr ht))
  have hb : ∀ t ∈ b.tags, t ≠ c.next := fun t ht => hne t ((h.tags t).2 (Or.inl ht))
  refine ⟨?_, ?_, ?_, ?_, ?_, ?_⟩
  · intro t
    show t ∈ c.tags ++ [c.next] ↔ _
    rw [List.mem_append, h.tags, List.map_cons, List.mem_singleton, List.mem_cons]
    tauto
  · intro t ht
    show Function.update c.shape c.next S t = _
    rw [Function.update_of_ne (hb t ht), h.kept t ht]
  · intro p hp
    show Function.update c.shape c.next S p.1 = _
    rcases List.mem_cons.1 hp with rfl | hp
    · exact Function.update_self ..
    · rw [Function.update_of_ne (hl p.1 (List.mem_map.2 ⟨p, hp, rfl⟩)), h.shape p hp]
  · intro t ht
    rcases List.mem_cons.1 ht with rfl | ht
    · exact fun hc => hb _ hc rfl
    · exact h.fresh t ht
  · rw [List.map_cons, List.nodup_cons]
    exact ⟨fun hc => hl _ hc rfl, h.nodup⟩
  · intro t ht
    show t < c.next + 1
    have ht : t ∈ c.tags ++ [c.next] := ht
    rcases List.mem_append.1 ht with ht | ht
    · have := h.bound t ht; omega
    · rw [List.mem_singleton] at ht; omega

theorem Knows.rotate {b c : Canvas} {l : List (ℤ × Set Pt)} {t : ℤ} {S : Set Pt} (h : Knows b c ((t, S) :: l)) (a : ℝ) :
    Knows b (c.rotate t a) ((t, turned a S) :: l) := by
  have hn := h.nodup
  rw [List.map_cons, List.nodup_cons] at hn
  refine ⟨?_, ?_, ?_, ?_, ?_, h.bound⟩
  · intro x; exact h.tags x
  · intro x hx
    have : x ≠ t := by rintro rfl; exact h.fresh x (by simp) hx
    show Function.update c.shape t _ x = _
    rw [Function.update_of_ne this, h.kept x hx]
  · intro p hp
    show Function.update c.shape t _ p.1 = _
    rcases List.mem_cons.1 hp with rfl | hp
    · rw [Function.update_self, h.shape (t, S) (by simp)]
    · have : p.1 ≠ t := by rintro e; exact hn.1 (List.mem_map.2 ⟨p, hp, e⟩)
      rw [Function.update_of_ne this, h.shape p (by simp [hp])]
  · exact h.fresh
  · exact h.nodup

/-- A boolean whose result is in one piece. -/
theorem Knows.one {b c c' : Canvas} {g l : List (ℤ × Set Pt)} (h : Knows b c (g ++ l)) {gone out : List ℤ} {R : Set Pt} (hg : ∀ t, t ∈ gone ↔ t ∈ g.map Prod.fst)
    (hR : IsConnected R) (ha : Answer ⟨c, gone, R⟩ c' out) : ∃ x, out = [x] ∧ Knows b c' ((x, R) :: l) := by
  obtain ⟨x, rfl⟩ := List.length_eq_one_iff.1 (ha.one hR)
  have hn := h.nodup
  rw [List.map_append, List.nodup_append] at hn
  have hb : ∀ t ∈ b.tags, t ∉ gone := fun t ht hc => h.fresh t (by rw [List.map_append, List.mem_append]; exact Or.inl ((hg t).1 hc)) ht
  have hl : ∀ t ∈ l.map Prod.fst, t ∉ gone := fun t ht hc => hn.2.2 t ((hg t).1 hc) t ht rfl
  have hbt : ∀ t ∈ b.tags, t ∈ c.tags := fun t ht => (h.tags t).2 (Or.inl ht)
  have hlt : ∀ t ∈ l.map Prod.fst, t ∈ c.tags := fun t ht => (h.tags t).2 (Or.inr (by rw [List.map_append, List.mem_append]; exact Or.inr ht))
  have hx : ∀ t ∈ c.tags, t ∉ gone → t ≠ x := by
    rintro t ht hng rfl
    exact hng (ha.new t (by simp) ht)
  refine ⟨x, rfl, ?_, ?_, ?_, ?_, ?_, ha.bound⟩
  · intro t
    have h1 := ha.tags t
    dsimp only at h1
    rw [h1, h.tags, List.mem_singleton, List.map_append, List.mem_append, List.map_cons, List.mem_cons]
    constructor
    · rintro (rfl | ⟨k | k | k, k'⟩)
      · exact Or.inr (Or.inl rfl)
      · exact Or.inl k
      · exact absurd ((hg t).2 k) k'
      · exact Or.inr (Or.inr k)
    · rintro (k | rfl | k)
      · exact Or.inr ⟨Or.inl k, hb t k⟩
      · exact Or.inl rfl
      · exact Or.inr ⟨Or.inr (Or.inr k), hl t k⟩
  · intro t ht
    rw [ha.kept t (hbt t ht) (hb t ht)]
    exact h.kept t ht
  · intro p hp
    rcases List.mem_cons.1 hp with rfl | hp
    · ext P
      have := ha.points P
      dsimp only at this
      rw [this]
      simp
    · have hm : p.1 ∈ l.map Prod.fst := List.mem_map.2 ⟨p, hp, rfl⟩
      rw [ha.kept p.1 (hlt _ hm) (hl _ hm)]
      exact h.shape p (by rw [List.mem_append]; exact Or.inr hp)
  · intro t ht
    rcases List.mem_cons.1 ht with rfl | ht
    · intro hc
      exact hx _ (hbt _ hc) (hb _ hc) rfl
    · exact h.fresh t (by rw [List.map_append, List.mem_append]; exact Or.inr ht)
  · rw [List.map_cons, List.nodup_cons]
    refine ⟨fun hc => ?_, hn.2.1⟩
    exact hx _ (hlt _ hc) (hl _ hc) rfl

theorem points_one (c : Canvas) (t : ℤ) : c.points [t] = c.shape t := by
  ext P; simp [Canvas.points]

theorem Knows.get {b c : Canvas} {l : List (ℤ × Set Pt)} (h : Knows b c l) (t : ℤ) (S : Set Pt) (hm : (t, S) ∈ l) : c.shape t = S := h.shape (t, S) hm

/-! ### The box -/

theorem wing_copy {b c : Canvas} {l : List (ℤ × Set Pt)} {w : ℤ} (h : Knows b c ((w, wingSheet) :: l)) (angle : ℝ) :
    ∃ c' t, copyAll angle [w] c = (c', [t]) ∧ Knows b c' ((w, wingSheet) :: (t, turned angle wingSheet) :: l) := by
  refine ⟨_, _, rfl, ?_⟩
  have h1 := h.add (c.shape w)
  rw [h.get w wingSheet (by simp)] at h1
  have h2 := h1.rotate angle
  show Knows b ((c.add (c.shape w)).1.rotate c.next angle) _
  rw [h.get w wingSheet (by simp)]
  exact h2.perm (List.Perm.swap _ _ _)

theorem make_box (b : Canvas) (hb : ∀ t ∈ b.tags, t < b.next) :
    Always (fun r : Canvas × ℤ × ℤ => Knows b r.1 [(r.2.2, boxSheet), (r.2.1, coolantSurf)]) (makeBox b) := by
  have k1 := (Knows.start b hb).add coolantSurf
  have k2 := k1.add outerSurf
  have k3 := k2.add rect0
  have k4 := k3.add rect1
  unfold makeBox
  simp only []
  generalize hc1 : (b.add coolantSurf).1 = c1 at *
  rw [show (b.add coolantSurf).2 = b.next from rfl]
  generalize b.next = coolant at *
  generalize hc2 : (c1.add outerSurf).1 = c2 at *
  rw [show (c1.add outerSurf).2 = c1.next from rfl]
  generalize c1.next = outer at *
  generalize hc3 : (c2.add rect0).1 = c3 at *
  rw [show (c2.add rect0).2 = c2.next from rfl]
  generalize c2.next = r0 at *
  generalize hc4 : (c3.add rect1).1 = c4 at *
  rw [show (c3.add rect1).2 = c3.next from rfl]
  generalize c3.next = r1 at *
  have k5 := (k4.perm (List.Perm.swap (r0, rect0) (r1, rect1) _)).rotate (1 / 4 * Real.pi)
  have k6 := (k5.perm (List.Perm.swap (r1, rect1) (r0, _) _)).rotate (1 / 4 * Real.pi)
  generalize (c4.rotate r0 (1 / 4 * Real.pi)).rotate r1 (1 / 4 * Real.pi) = c5 at *
  intro c6 out6 a6
  have e6 : cut c5 [r0] [r1] false true = ⟨c5, [r1], crossRing⟩ := by
    unfold cut crossRing
    rw [points_one, points_one, k6.get r0 (turned (1 / 4 * Real.pi) rect0) (by simp), k6.get r1 (turned (1 / 4 * Real.pi) rect1) (by simp)]
    rfl
  rw [e6] at a6
  obtain ⟨cross, rfl, k7⟩ := Knows.one (g := [(r1, turned (1 / 4 * Real.pi) rect1)]) (l := _ :: _) k6 (by simp) crossRing_connected a6
  show Always _ (first [cross] _)
  unfold first
  simp only []
  have k8 := k7.add skinny
  generalize hc7 : (c6.add skinny).1 = c7 at *
  rw [show (c6.add skinny).2 = c6.next from rfl]
  generalize c6.next = thin at *
  intro c8 out8 a8
  have e8 : cut c7 [thin] [r0] true true = ⟨c7, [thin, r0], thinSheet⟩ := by
    unfold cut thinSheet
    rw [points_one, points_one, k8.get thin skinny (by simp), k8.get r0 (turned (1 / 4 * Real.pi) rect0) (by simp)]
    rfl
  rw [e8] at a8
  obtain ⟨thin', rfl, k9⟩ := Knows.one (g := [(thin, skinny), (r0, turned (1 / 4 * Real.pi) rect0)])
    (l := [(cross, crossRing), (outer, outerSurf), (coolant, coolantSurf)]) (k8.perm (by
      refine List.Perm.cons _ ?_
      exact List.Perm.swap _ _ _)) (by simp) thin_connected a8
  simp only []
  have k10 := k9.add thick
  generalize hc9 : (c8.add thick).1 = c9 at *
  rw [show (c8.add thick).2 = c8.next from rfl]
  generalize c8.next = wide at *
  intro c10 out10 a10
  have e10 : fuse c9 [thin'] [wide] = ⟨c9, [thin', wide], wideSheet⟩ := by
    unfold fuse wideSheet
    rw [points_one, points_one, k10.get thin' thinSheet (by simp), k10.get wide thick (by simp)]
    rfl
  rw [e10] at a10
  obtain ⟨wide', rfl, k11⟩ := Knows.one (g := [(wide, thick), (thin', thinSheet)]) (l := _) k10 (by intro t; simp [or_comm]) wide_connected a10
  simp only []
  have k12 := k11.add wingHole
  generalize hc11 : (c10.add wingHole).1 = c11 at *
  rw [show (c10.add wingHole).2 = c10.next from rfl]
  generalize c10.next = hole at *
  intro c12 out12 a12
  have e12 : cut c11 [wide'] [hole] true true = ⟨c11, [wide', hole], wingSheet⟩ := by
    unfold cut wingSheet
    rw [points_one, points_one, k12.get wide' wideSheet (by simp), k12.get hole wingHole (by simp)]
    rfl
  rw [e12] at a12
  obtain ⟨wing, rfl, k13⟩ := Knows.one (g := [(hole, wingHole), (wide', wideSheet)]) (l := _) k12 (by intro t; simp [or_comm]) wing_connected a12
  simp only []
  obtain ⟨c14, w1, e14, k14⟩ := wing_copy k13 (1 / 2 * (((0 : ℕ) : ℝ) + 1) * Real.pi)
  obtain ⟨c15, w2, e15, k15⟩ := wing_copy k14 (1 / 2 * (((1 : ℕ) : ℝ) + 1) * Real.pi)
  obtain ⟨c16, w3, e16, k16⟩ := wing_copy k15 (1 / 2 * (((2 : ℕ) : ℝ) + 1) * Real.pi)
  unfold copies
  rw [e14]
  simp only [first]
  unfold copies
  rw [e15]
  simp only [first]
  unfold copies
  rw [e16]
  simp only [first]
  unfold copies
  intro c17 out17 a17
  have e17 : fuse c16 [outer, cross] ([wing] ++ [w1] ++ [w2] ++ [w3]) = ⟨c16, [outer, cross, wing, w1, w2, w3], boxSheet⟩ := by
    unfold fuse boxSheet
    have g1 : c16.shape outer = outerSurf := k16.get outer outerSurf (by simp)
    have g2 : c16.shape cross = crossRing := k16.get cross crossRing (by simp)
    have g3 : c16.shape wing = wingSheet := k16.get wing wingSheet (by simp)
    have g4 := k16.get w1 (turned (1 / 2 * (((0 : ℕ) : ℝ) + 1) * Real.pi) wingSheet) (by simp)
    have g5 := k16.get w2 (turned (1 / 2 * (((1 : ℕ) : ℝ) + 1) * Real.pi) wingSheet) (by simp)
    have g6 := k16.get w3 (turned (1 / 2 * (((2 : ℕ) : ℝ) + 1) * Real.pi) wingSheet) (by simp)
    refine congrArg₂ (Query.mk c16) rfl ?_
    ext P
    simp only [Canvas.points, Set.mem_union, Set.mem_ofPred_eq, List.mem_cons, List.mem_append, List.not_mem_nil, or_false, exists_eq_or_imp, exists_eq_left, g1, g2,
      or_assoc, g3, g4, g5, g6]
  rw [e17] at a17
  obtain ⟨box, rfl, k17⟩ := Knows.one
    (g := [(wing, wingSheet), (w3, turned (1 / 2 * (((2 : ℕ) : ℝ) + 1) * Real.pi) wingSheet), (w2, turned (1 / 2 * (((1 : ℕ) : ℝ) + 1) * Real.pi) wingSheet),
      (w1, turned (1 / 2 * (((0 : ℕ) : ℝ) + 1) * Real.pi) wingSheet), (cross, crossRing), (outer, outerSurf)])
    (l := [(coolant, coolantSurf)]) k16 (by intro t; simp; tauto) box_sheet_connected a17
  exact k17

/-- What the last cut leaves. -/
structure Final (b : Canvas) (box : ℤ) (c : Canvas) (out : List ℤ) : Prop where
  tags : ∀ t, t ∈ c.tags ↔ t ∈ out ∨ t ∈ b.tags ∨ t = box
  kept : ∀ t ∈ b.tags, c.shape t = b.shape t
  shape : c.shape box = boxSheet
  fresh : box ∉ b.tags
  apart : box ∉ out
  new : ∀ t ∈ out, t ∉ b.tags
  points : ∀ P, P ∈ coolantSurf \ boxSheet ↔ ∃ t ∈ out, P ∈ c.shape t
  bound : ∀ t ∈ c.tags, t < c.next

theorem last_cut {b c : Canvas} {coolant box : ℤ} (k : Knows b c [(box, boxSheet), (coolant, coolantSurf)]) :
    cut c [coolant] [box] true false = ⟨c, [coolant], coolantSurf \ boxSheet⟩ := by
  unfold cut
  rw [points_one, points_one, k.get coolant coolantSurf (by simp), k.get box boxSheet (by simp)]
  rfl

theorem final_of {b c : Canvas} {coolant box : ℤ} (k : Knows b c [(box, boxSheet), (coolant, coolantSurf)]) {c' : Canvas} {out : List ℤ}
    (ha : Answer (cut c [coolant] [box] true false) c' out) : Final b box c' out := by
  rw [last_cut k] at ha
  have hn : box ≠ coolant := by
    have := k.nodup
    simpa using this
  have hbc : ∀ t ∈ b.tags, t ∈ c.tags ∧ t ∉ [coolant] := fun t ht => ⟨(k.tags t).2 (Or.inl ht), fun h => by
    rw [List.mem_singleton] at h; subst h
    exact k.fresh t (by simp) ht⟩
  have hbox : box ∈ c.tags ∧ box ∉ [coolant] := ⟨(k.tags box).2 (by simp), by simpa using hn⟩
  refine ⟨?_, ?_, ?_, ?_, ?_, ?_, ha.points, ha.bound⟩
  · intro t
    have h1 := ha.tags t
    dsimp only at h1
    rw [h1]
    constructor
    · rintro (h | ⟨h, h'⟩)
      · exact Or.inl h
      · rcases (k.tags t).1 h with h | h
        · exact Or.inr (Or.inl h)
        · have h : t = box ∨ t = coolant := by simpa using h
          rcases h with h | h
          · exact Or.inr (Or.inr h)
          · exact absurd (by simp [h]) h'
    · rintro (h | h | rfl)
      · exact Or.inl h
      · exact Or.inr (hbc t h)
      · exact Or.inr hbox
  · intro t ht
    rw [ha.kept t (hbc t ht).1 (hbc t ht).2]
    exact k.kept t ht
  · rw [ha.kept box hbox.1 hbox.2]
    exact k.get box boxSheet (by simp)
  · exact k.fresh box (by simp)
  · intro h
    exact hbox.2 (ha.new box h hbox.1)
  · intro t ht hb
    exact (hbc t hb).2 (ha.new t ht (hbc t hb).1)

theorem make_final (b : Canvas) (hb : ∀ t ∈ b.tags, t < b.next) :
    Always (fun r : ℤ × Canvas × List ℤ => Final b r.1 r.2.1 r.2.2) (makeChannelBox b) := by
  refine always_bind _ _ (make_box b hb) ?_
  rintro ⟨c, coolant, box⟩ k c' out ha
  exact final_of k ha

/-- The last cut can have any pieces. -/
theorem can_final (b : Canvas) (hb : ∀ t ∈ b.tags, t < b.next) (pieces : List (Set Pt)) (hp : ∀ P, P ∈ coolantSurf \ boxSheet ↔ ∃ S ∈ pieces, P ∈ S)
    (hd : pieces.Pairwise fun A B => Disjoint A B) (h1 : ¬ IsConnected (coolantSurf \ boxSheet)) :
    ∃ box c out, Possible (box, c, out) (makeChannelBox b) ∧ Final b box c out ∧ out.map c.shape = pieces := by
  obtain ⟨⟨c, coolant, box⟩, hq, k⟩ := can_of_always _ (make_box b hb)
  obtain ⟨c', out, ha, hm⟩ := can_answer (cut c [coolant] [box] true false) pieces (by rw [last_cut k]; exact hp) hd (by rw [last_cut k]; exact fun h => absurd h h1)
  exact ⟨box, c', out, possible_bind _ _ _ _ hq ⟨c', out, ha, rfl⟩, final_of k ha, hm⟩

end

end Verif.SveaL
