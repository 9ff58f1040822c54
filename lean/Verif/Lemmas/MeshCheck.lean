import Verif.Model.MeshCheck
import Verif.Props.Order
import Mathlib.Data.List.Nodup
import Mathlib.Data.List.Perm.Subperm

/-! Helper lemmas for the manifold check. -/

namespace Verif.MeshCheck

/-- The edge in its natural orientation. -/
def natural (x : Item) : Edge := if x.2 = 1 then x.1 else x.1.rev

theorem rev_rev (x : Edge) : x.rev.rev = x := rfl

theorem natural_canon (x : Edge) : natural (canon x) = x := by
  unfold canon natural
  split_ifs with h1 h2 h2
  · simp at h2
  · rfl
  · rfl
  · simp at h2

theorem canon_key (x y : Edge) : (canon x).1 = (canon y).1 ↔ y = x ∨ y = x.rev := by
  obtain ⟨a, b, m⟩ := x
  obtain ⟨c, d, n⟩ := y
  unfold canon Edge.rev
  simp only
  split_ifs with h1 h2 h2 <;> simp only [Edge.mk.injEq]
  · constructor
    · rintro ⟨rfl, rfl, rfl⟩; simp
    · rintro (⟨rfl, rfl, rfl⟩ | ⟨rfl, rfl, rfl⟩)
      · simp
      · omega
  · constructor
    · rintro ⟨rfl, rfl, rfl⟩; simp
    · rintro (⟨rfl, rfl, rfl⟩ | ⟨rfl, rfl, rfl⟩)
      · omega
      · simp
  · constructor
    · rintro ⟨rfl, rfl, rfl⟩; simp
    · rintro (⟨rfl, rfl, rfl⟩ | ⟨rfl, rfl, rfl⟩)
      · omega
      · simp
  · constructor
    · rintro ⟨rfl, rfl, rfl⟩; simp
    · rintro (⟨rfl, rfl, rfl⟩ | ⟨rfl, rfl, rfl⟩)
      · simp
      · have : c = d := by omega
        simp [this]

/-- What `runLoop` makes of a group of equal edges. -/
def summarise (g : List Item) : Run :=
  match g with
  | [] => ⟨⟨0, 0, []⟩, 0, 0⟩
  | x :: xs => xs.foldl (fun r y => bumpRun r y.2) (newRun x)

theorem summarise_snoc (g : List Item) (hg : g ≠ []) (x : Item) :
    summarise (g ++ [x]) = bumpRun (summarise g) x.2 := by
  cases g with
  | nil => exact absurd rfl hg
  | cons y ys => simp [summarise]

theorem bump_edge (r : Run) (o : Int) : (bumpRun r o).edge = r.edge := by
  unfold bumpRun; split_ifs <;> rfl

theorem bump_sum (r : Run) (o : Int) : (bumpRun r o).neg + (bumpRun r o).pos = r.neg + r.pos + 1 := by
  unfold bumpRun; split_ifs <;> dsimp only <;> omega

theorem fold_edge (xs : List Item) (r : Run) :
    (xs.foldl (fun r y => bumpRun r y.2) r).edge = r.edge := by
  induction xs generalizing r with
  | nil => rfl
  | cons x xs ih => rw [List.foldl_cons, ih, bump_edge]

theorem fold_sum (xs : List Item) (r : Run) :
    (xs.foldl (fun r y => bumpRun r y.2) r).neg + (xs.foldl (fun r y => bumpRun r y.2) r).pos =
      r.neg + r.pos + xs.length := by
  induction xs generalizing r with
  | nil => rfl
  | cons x xs ih =>
    rw [List.foldl_cons, ih, bump_sum, List.length_cons]
    omega

theorem summarise_sum (g : List Item) : (summarise g).neg + (summarise g).pos = g.length := by
  cases g with
  | nil => rfl
  | cons x xs =>
    rw [summarise, fold_sum]
    unfold newRun
    split_ifs <;> simp <;> omega

theorem summarise_edge (x : Item) (xs : List Item) : (summarise (x :: xs)).edge = natural x := by
  rw [summarise, fold_edge]
  unfold newRun natural
  split_ifs <;> rfl

/-- Key order: strict total on edges with equally many components. -/
def keyLt (a b : Edge) : Bool := Alg.vecLt (fun x y => decide (x < y)) a.comps b.comps

theorem keyLt_total {d : Nat} (a b : Edge) (ha : a.mid.length = d) (hb : b.mid.length = d)
    (h1 : keyLt a b = false) (h2 : keyLt b a = false) : a = b := by
  have hl : a.comps.length = b.comps.length := by simp [Edge.comps, ha, hb]
  have := (Order.C13_vec_strict_total (α := Nat) (d + 2)).2.2 a.comps b.comps (by simp [Edge.comps, ha])
    (by simp [Edge.comps, hb])
  unfold keyLt at h1 h2
  have hcomp : a.comps = b.comps := by
    rw [← Order.C13_vecEq_spec a.comps b.comps hl]
    rcases this with h | h | h
    · exact absurd (h.1.symm.trans h1) (by simp)
    · exact h.2.1
    · exact absurd (h.2.2.symm.trans h2) (by simp)
  obtain ⟨s, e, m⟩ := a
  obtain ⟨s', e', m'⟩ := b
  simp only [Edge.comps, List.cons.injEq] at hcomp
  obtain ⟨rfl, rfl, rfl⟩ := hcomp
  rfl

/-- Two groups have no edge in common. -/
def Apart (g h : List Item) : Prop := ∀ x ∈ g, ∀ y ∈ h, x.1 ≠ y.1

/-- The sorted list falls into groups of equal edges, and `runLoop` summarises each. -/
theorem runLoop_groups {d : Nat} (xs : List Item) : ∀ (cur : List Item) (prev : Item),
    (∀ x ∈ cur, x.1 = prev.1) → cur ≠ [] →
    (∀ x ∈ cur ++ xs, x.1.mid.length = d) →
    (∀ x ∈ xs, keyLt x.1 prev.1 = false) →
    xs.Pairwise (fun a b => keyLt b.1 a.1 = false) →
    ∃ G : List (List Item), runLoop (summarise cur) prev xs = G.map summarise ∧
      G.flatten = cur ++ xs ∧ (∀ g ∈ G, g ≠ [] ∧ ∀ x ∈ g, ∀ y ∈ g, x.1 = y.1) ∧ G.Pairwise Apart := by
  induction xs with
  | nil =>
    intro cur prev hcur hne hd _ _
    refine ⟨[cur], rfl, by simp, ?_, List.pairwise_singleton _ _⟩
    intro g hg
    rw [List.mem_singleton] at hg
    subst hg
    exact ⟨hne, fun x hx y hy => (hcur x hx).trans (hcur y hy).symm⟩
  | cons x xs ih =>
    intro cur prev hcur hne hd hge hs
    rw [List.pairwise_cons] at hs
    unfold runLoop
    by_cases hk : prev.1 = x.1
    · rw [if_pos hk, ← summarise_snoc cur hne x]
      obtain ⟨G, g1, g2, g3, g4⟩ := ih (cur ++ [x]) x
        (by
          intro y hy
          rcases List.mem_append.1 hy with hy | hy
          · exact (hcur y hy).trans hk
          · rw [List.mem_singleton.1 hy])
        (by simp) (by simpa using hd) (fun y hy => hs.1 y hy) hs.2
      exact ⟨G, g1, by rw [g2]; simp, g3, g4⟩
    · rw [if_neg hk]
      obtain ⟨G, g1, g2, g3, g4⟩ := ih [x] x (by simp) (by simp)
        (fun y hy => hd y (by simp at hy ⊢; tauto)) (fun y hy => hs.1 y hy) hs.2
      have e : newRun x = summarise [x] := rfl
      refine ⟨cur :: G, by rw [e, g1]; rfl, by simp [g2], ?_, ?_⟩
      · intro g hg
        rcases List.mem_cons.1 hg with rfl | hg
        · exact ⟨hne, fun x hx y hy => (hcur x hx).trans (hcur y hy).symm⟩
        · exact g3 g hg
      · refine List.pairwise_cons.2 ⟨?_, g4⟩
        intro g hg a ha b hb hab
        have hbm : b ∈ [x] ++ xs := by rw [← g2]; exact List.mem_flatten.2 ⟨g, hg, hb⟩
        have hprev : prev.1 = b.1 := (hcur a ha).symm.trans hab
        -- prev ≤ x ≤ b = prev, so x = prev
        have hxp : keyLt x.1 prev.1 = false := hge x (by simp)
        have hbx : keyLt b.1 x.1 = false := by
          rcases List.mem_append.1 hbm with hb' | hb'
          · rw [List.mem_singleton.1 hb']
            exact (Order.C13_vec_strict_total (α := Nat) 0).1 _
          · exact hs.1 b hb'
        rw [← hprev] at hbx
        obtain ⟨c, hc⟩ := List.exists_mem_of_ne_nil _ hne
        have hpd : prev.1.mid.length = d := by rw [← hcur c hc]; exact hd c (by simp [hc])
        exact hk (keyLt_total prev.1 x.1 hpd (hd x (by simp)) hbx hxp)

/-- How many items have the key `k`. -/
def keyCount (k : Edge) (l : List Item) : Nat := l.countP fun x => decide (x.1 = k)

theorem keyCount_group (G : List (List Item)) (g : List Item) (x : Item) (hg : g ∈ G) (hx : x ∈ g)
    (h3 : ∀ g ∈ G, g ≠ [] ∧ ∀ x ∈ g, ∀ y ∈ g, x.1 = y.1) (h4 : G.Pairwise Apart) :
    keyCount x.1 G.flatten = g.length := by
  induction G with
  | nil => cases hg
  | cons a G ih =>
    rw [List.pairwise_cons] at h4
    have h3' : ∀ g ∈ G, g ≠ [] ∧ ∀ x ∈ g, ∀ y ∈ g, x.1 = y.1 := fun g hg => h3 g (by simp [hg])
    unfold keyCount
    rw [List.flatten_cons, List.countP_append]
    rcases List.mem_cons.1 hg with rfl | hg
    · have e1 : g.countP (fun y => decide (y.1 = x.1)) = g.length := by
        rw [List.countP_eq_length]
        intro y hy
        simpa using (h3 g (by simp)).2 y hy x hx
      have e2 : G.flatten.countP (fun y => decide (y.1 = x.1)) = 0 := by
        rw [List.countP_eq_zero]
        intro y hy
        obtain ⟨g', hg', hy'⟩ := List.mem_flatten.1 hy
        simpa using (h4.1 g' hg' x hx y hy').symm
      rw [e1, e2]; rfl
    · have e1 : a.countP (fun y => decide (y.1 = x.1)) = 0 := by
        rw [List.countP_eq_zero]
        intro y hy
        simpa using h4.1 g hg y hy x hx
      rw [e1, Nat.zero_add]
      exact ih hg h3' h4.2

/-- The boundary edges of the groups are the items whose key occurs once. -/
theorem groups_filter (G : List (List Item)) 
    (h3 : ∀ g ∈ G, g ≠ [] ∧ ∀ x ∈ g, ∀ y ∈ g, x.1 = y.1) (h4 : G.Pairwise Apart) :
    ((G.map summarise).filter fun r => decide (r.neg + r.pos = 1)).map (·.edge) =
      (G.flatten.filter fun x => decide (keyCount x.1 G.flatten = 1)).map natural := by
  have key : ∀ H : List (List Item), (∀ g ∈ H, g ∈ G) →
      ((H.map summarise).filter fun r => decide (r.neg + r.pos = 1)).map (·.edge) =
        (H.flatten.filter fun x => decide (keyCount x.1 G.flatten = 1)).map natural := by
    intro H
    induction H with
    | nil => intro _; rfl
    | cons g H ih =>
      intro hH
      have hg := hH g (by simp)
      rw [List.map_cons, List.filter_cons, List.flatten_cons, List.filter_append, List.map_append,
        ← ih (fun g' hg' => hH g' (by simp [hg'])), summarise_sum]
      by_cases h1 : g.length = 1
      · obtain ⟨x, rfl⟩ := List.length_eq_one_iff.1 h1
        have : keyCount x.1 G.flatten = 1 := keyCount_group G [x] x hg (by simp) h3 h4
        have e : (summarise [x]).edge = natural x := summarise_edge x []
        simp [this, e]
      · have : (g.filter fun x => decide (keyCount x.1 G.flatten = 1)) = [] := by
          rw [List.filter_eq_nil_iff]
          intro x hx
          rw [keyCount_group G g x hg hx h3 h4]
          simpa using h1
        simp [this, h1]
  exact key G (fun g hg => hg)

/-! ## boundary -/

/-- The test of lines 382-389. -/
def Compatible (b : List Edge) : Prop := b.Pairwise fun x y => y.s ≠ x.s ∧ y.e ≠ x.e

theorem boundary_spec (rs : List Run) (b b' : List Edge) (hb : Compatible b) :
    boundary rs b = .inr b' ↔
      (∀ r ∈ rs, r.neg + r.pos ≤ 2) ∧
        b' = b ++ (rs.filter fun r => decide (r.neg + r.pos = 1)).map (·.edge) ∧ Compatible b' := by
  induction rs generalizing b with
  | nil =>
    simp only [boundary, Sum.inr.injEq, List.not_mem_nil, false_implies, implies_true, true_and,
      List.filter_nil, List.map_nil, List.append_nil]
    constructor
    · rintro rfl; exact ⟨rfl, hb⟩
    · rintro ⟨rfl, -⟩; rfl
  | cons r rs ih =>
    rw [boundary]
    by_cases h2 : r.neg + r.pos > 2
    · rw [if_pos h2]
      constructor
      · intro h; cases h
      · rintro ⟨h, -⟩
        have := h r (by simp)
        omega
    · rw [if_neg h2]
      by_cases h1 : r.neg + r.pos = 1
      · rw [if_pos h1]
        have hf : ((r :: rs).filter fun r => decide (r.neg + r.pos = 1)).map (·.edge) =
            r.edge :: (rs.filter fun r => decide (r.neg + r.pos = 1)).map (·.edge) := by
          simp [h1]
        rw [hf]
        by_cases hany : (b.any fun x => decide (r.edge.s = x.s) || decide (r.edge.e = x.e)) = true
        · rw [if_pos hany]
          constructor
          · intro h; cases h
          · rintro ⟨-, rfl, hc⟩
            exfalso
            rw [List.any_eq_true] at hany
            obtain ⟨x, hx, hxe⟩ := hany
            have := (List.pairwise_append.1 hc).2.2 x hx r.edge (by simp)
            simp only [Bool.or_eq_true, decide_eq_true_eq] at hxe
            tauto
        · rw [if_neg hany]
          have hcomp : Compatible (b ++ [r.edge]) := by
            refine List.pairwise_append.2 ⟨hb, List.pairwise_singleton _ _, ?_⟩
            intro x hx y hy
            rw [List.mem_singleton.1 hy]
            rw [List.any_eq_true] at hany
            push Not at hany
            have := hany x hx
            simpa using this
          rw [ih (b ++ [r.edge]) hcomp]
          simp only [List.append_assoc, List.singleton_append, List.forall_mem_cons]
          constructor
          · rintro ⟨h, h', h''⟩; exact ⟨⟨by omega, h⟩, h', h''⟩
          · rintro ⟨⟨-, h⟩, h', h''⟩; exact ⟨h, h', h''⟩
      · rw [if_neg h1, ih b hb]
        have hf : ((r :: rs).filter fun r => decide (r.neg + r.pos = 1)) =
            (rs.filter fun r => decide (r.neg + r.pos = 1)) := by
          simp [h1]
        rw [hf]
        simp only [List.forall_mem_cons]
        constructor
        · rintro ⟨h, h', h''⟩; exact ⟨⟨by omega, h⟩, h', h''⟩
        · rintro ⟨⟨-, h⟩, h', h''⟩; exact ⟨h, h', h''⟩

theorem boundary_inl (rs : List Run) (b : List Edge) (v : Verdict) (h : boundary rs b = .inl v) :
    v = .overlapping ∨ v = .holeOnBoundary := by
  induction rs generalizing b with
  | nil => cases h
  | cons r rs ih =>
    rw [boundary] at h
    split_ifs at h
    · cases h; exact Or.inl rfl
    · cases h; exact Or.inr rfl
    · exact ih _ h
    · exact ih _ h

/-! ## walk -/

/-- Each edge ends where the next one starts. -/
def Chain : List Edge → Prop
  | [] => True
  | [_] => True
  | x :: y :: l => x.e = y.s ∧ Chain (y :: l)

/-- A closed chain: additionally the last edge ends where the first one starts. -/
def Closed : List Edge → Prop
  | [] => False
  | x :: l => Chain (x :: l ++ [x])

theorem chain_append_singleton (l : List Edge) (x y : Edge) :
    Chain (l ++ [x] ++ [y]) ↔ Chain (l ++ [x]) ∧ x.e = y.s := by
  induction l with
  | nil => simp [Chain]
  | cons a l ih =>
    cases l with
    | nil => simp [Chain]
    | cons b l =>
      simp only [List.cons_append, Chain] at ih ⊢
      rw [ih]; tauto

theorem chain_get (l : List Edge) (h : Chain l) (i : Nat) (hi : i + 1 < l.length) :
    (l[i]'(by omega)).e = l[i + 1].s := by
  induction l generalizing i with
  | nil => simp at hi
  | cons a l ih =>
    cases l with
    | nil => simp at hi
    | cons b l =>
      cases i with
      | zero => exact h.1
      | succ i => exact ih h.2 i (by simpa using hi)

structure BoundaryOK (b : List Edge) : Prop where
  starts : ∀ x ∈ b, ∀ y ∈ b, x.s = y.s → x = y
  ends : ∀ x ∈ b, ∀ y ∈ b, x.e = y.e → x = y
  nodup : b.Nodup

theorem compatible_ok (b : List Edge) (h : Compatible b) : BoundaryOK b := by
  have hn : b.Nodup := h.imp (fun hxy e => hxy.1 (by rw [e]))
  have key : ∀ x ∈ b, ∀ y ∈ b, x ≠ y → x.s ≠ y.s ∧ x.e ≠ y.e := by
    intro x hx y hy hxy
    have h' : b.Pairwise fun x y => x.s ≠ y.s ∧ x.e ≠ y.e :=
      h.imp (fun ⟨a, b⟩ => ⟨a.symm, b.symm⟩)
    have : Std.Symm fun x y : Edge => x.s ≠ y.s ∧ x.e ≠ y.e := ⟨fun _ _ ⟨a, b⟩ => ⟨a.symm, b.symm⟩⟩
    exact h'.forall hx hy hxy
  refine ⟨?_, ?_, hn⟩
  · intro x hx y hy hs
    by_contra hne
    exact (key x hx y hy hne).1 hs
  · intro x hx y hy hs
    by_contra hne
    exact (key x hx y hy hne).2 hs

/-- From the first boundary edge the loop either hangs or returns, and it has then gone through a
closed chain of different boundary edges; a number of steps equal to the number of boundary edges is
enough. -/
theorem walk_spec (b : List Edge) (b0 : Edge) (h0 : b0 ∈ b) (ok : BoundaryOK b) :
    ∀ (fuel : Nat) (pre : List Edge) (cur : Edge), (pre ++ [cur]).Nodup →
      (∀ x ∈ pre ++ [cur], x ∈ b) → (pre ++ [cur]).head? = some b0 → Chain (pre ++ [cur]) →
      b.length ≤ fuel + pre.length →
      walk b b0.s fuel cur pre.length = .inl .hanging ∨
      ∃ post : List Edge, walk b b0.s fuel cur pre.length = .inr (pre ++ [cur] ++ post).length ∧
        (pre ++ [cur] ++ post).Nodup ∧ (∀ x ∈ pre ++ [cur] ++ post, x ∈ b) ∧
        Closed (pre ++ [cur] ++ post) := by
  intro fuel
  induction fuel with
  | zero =>
    intro pre cur hn hm _ _ hf
    exfalso
    have := (List.subperm_of_subset hn hm).length_le
    simp at this
    omega
  | succ fuel ih =>
    intro pre cur hn hm hh hc hf
    rw [walk]
    cases hfind : b.find? (fun x => decide (cur.e = x.s)) with
    | none => left; rfl
    | some x =>
      have hxb : x ∈ b := List.mem_of_find?_eq_some hfind
      have hxe : cur.e = x.s := by simpa using List.find?_some hfind
      dsimp only
      by_cases hx0 : x.s = b0.s
      · rw [if_pos hx0]
        right
        refine ⟨[], by simp, by simpa using hn, by simpa using hm, ?_⟩
        rw [List.append_nil]
        cases hpc : pre ++ [cur] with
        | nil => simp at hpc
        | cons y l =>
          rw [hpc] at hh
          simp only [List.head?_cons, Option.some.injEq] at hh
          subst hh
          show Chain (y :: l ++ [y])
          rw [← hpc, chain_append_singleton]
          exact ⟨hc, hxe.trans hx0⟩
      · rw [if_neg hx0]
        have hxn : x ∉ pre ++ [cur] := by
          intro hx
          obtain ⟨i, hi, hix⟩ := List.mem_iff_getElem.1 hx
          cases i with
          | zero =>
            have : (pre ++ [cur]).head? = some ((pre ++ [cur])[0]) := by
              rw [List.head?_eq_getElem?, List.getElem?_eq_getElem hi]
            rw [hh, hix] at this
            simp only [Option.some.injEq] at this
            exact hx0 (by rw [this])
          | succ i =>
            have hce := chain_get _ hc i hi
            rw [hix, ← hxe] at hce
            have hcur : cur ∈ b := hm cur (by simp)
            have heq := ok.ends _ (hm _ (List.getElem_mem (by omega : i < (pre ++ [cur]).length))) cur hcur hce
            have hlast : (pre ++ [cur])[pre.length]'(by simp) = cur := by simp
            have := (List.Nodup.getElem_inj_iff hn).1 (heq.trans hlast.symm)
            simp at hi
            omega
        have hn' : (pre ++ [cur] ++ [x]).Nodup := by
          rw [List.nodup_append]
          refine ⟨hn, by simp, ?_⟩
          intro a ha c hc' hac
          rw [List.mem_singleton] at hc'
          subst hc'
          exact hxn (hac ▸ ha)
        have hl : pre.length + 1 = (pre ++ [cur]).length := by simp
        rw [hl]
        rcases ih (pre ++ [cur]) x hn'
            (by
              intro y hy
              rcases List.mem_append.1 hy with hy | hy
              · exact hm y hy
              · rw [List.mem_singleton.1 hy]; exact hxb)
            (by rw [List.head?_append, hh]; rfl)
            ((chain_append_singleton pre cur x).2 ⟨hc, hxe⟩)
            (by rw [← hl]; omega) with h | ⟨post, p1, p2, p3, p4⟩
        · left; exact h
        · right
          have e : pre ++ [cur] ++ x :: post = pre ++ [cur] ++ [x] ++ post := by simp
          refine ⟨x :: post, ?_⟩
          rw [e]
          exact ⟨p1, p2, p3, p4⟩

/-- If the boundary edges can be arranged into a closed chain, the loop goes through all of them. -/
theorem walk_closed (b : List Edge) (ok : BoundaryOK b) (c : List Edge) (b0 : Edge)
    (hperm : (b0 :: c).Perm b) (hcl : Closed (b0 :: c)) :
    ∀ (post pre : List Edge) (cur : Edge) (fuel : Nat), pre ++ cur :: post = b0 :: c →
      post.length < fuel →
      walk b b0.s fuel cur pre.length = .inr b.length := by
  have hlen : b.length = c.length + 1 := by rw [← hperm.length_eq]; simp
  have hfind : ∀ (x y : Edge), y ∈ b → x.e = y.s →
      b.find? (fun z => decide (x.e = z.s)) = some y := by
    intro x y hy hxy
    cases hf : b.find? (fun z => decide (x.e = z.s)) with
    | none =>
      rw [List.find?_eq_none] at hf
      have := hf y hy
      simp [hxy] at this
    | some z =>
      have hz : x.e = z.s := by simpa using List.find?_some hf
      rw [ok.starts z (List.mem_of_find?_eq_some hf) y hy (hz.symm.trans hxy)]
  have hnd : (b0 :: c).Nodup := hperm.nodup_iff.2 ok.nodup
  intro post
  induction post with
  | nil =>
    intro pre cur fuel he hfuel
    cases fuel with
    | zero => simp at hfuel
    | succ fuel =>
      have hch : Chain (pre ++ [cur] ++ [b0]) := by
        have : pre ++ [cur] ++ [b0] = (b0 :: c) ++ [b0] := by rw [he]
        rw [this]; exact hcl
      have hce := ((chain_append_singleton pre cur b0).1 hch).2
      rw [walk, hfind cur b0 (hperm.mem_iff.1 (by simp)) hce]
      dsimp only
      rw [if_pos rfl]
      congr 1
      have := congrArg List.length he
      simp at this
      omega
  | cons y post ih =>
    intro pre cur fuel he hfuel
    cases fuel with
    | zero => simp at hfuel
    | succ fuel =>
      have hch : Chain (pre ++ [cur] ++ [y]) := by
        have h1 : (pre ++ cur :: y :: post) ++ [b0] = (b0 :: c) ++ [b0] := by rw [he]
        have h2 : Chain ((pre ++ [cur] ++ [y]) ++ (post ++ [b0])) := by
          have : (pre ++ [cur] ++ [y]) ++ (post ++ [b0]) = (b0 :: c) ++ [b0] := by rw [← h1]; simp
          rw [this]; exact hcl
        have prefix_chain : ∀ l m : List Edge, Chain (l ++ m) → Chain l := by
          intro l
          induction l with
          | nil => intro _ _; trivial
          | cons a l ih =>
            intro m hm
            cases l with
            | nil => trivial
            | cons a' l => exact ⟨hm.1, ih m hm.2⟩
        exact prefix_chain _ _ h2
      have hce := ((chain_append_singleton pre cur y).1 hch).2
      have hy : y ∈ b := hperm.mem_iff.1 (by rw [← he]; simp)
      rw [walk, hfind cur y hy hce]
      dsimp only
      have hy0 : y.s ≠ b0.s := by
        intro hs
        have hyb := ok.starts y hy b0 (hperm.mem_iff.1 (by simp)) hs
        cases pre with
        | nil =>
          simp only [List.nil_append, List.cons.injEq] at he
          obtain ⟨rfl, rfl⟩ := he
          rw [hyb] at hnd
          simp at hnd
        | cons p pre =>
          simp only [List.cons_append, List.cons.injEq] at he
          obtain ⟨rfl, rfl⟩ := he
          rw [hyb] at hnd
          simp at hnd
      rw [if_neg hy0]
      have := ih (pre ++ [cur]) y fuel (by simpa using he) (by simp at hfuel; omega)
      simpa using this

end Verif.MeshCheck
