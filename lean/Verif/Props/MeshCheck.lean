import Verif.Lemmas.MeshCheck
import Mathlib.Data.Fin.VecNotation
import Mathlib.Data.Fintype.Basic
import Mathlib.Tactic.FinCases

/-!
# C44 Manifold and watertight validation

The specification speaks about the list of directed edges of the faces only.
-/

namespace Verif.MeshCheck

/-- How many faces use the edge, in either direction. -/
def uses (es : List Edge) (x : Edge) : Nat := es.countP fun y => decide (y = x ∨ y = x.rev)

/-- The edges used once. -/
def boundaryEdges (es : List Edge) : List Edge := es.filter fun x => decide (uses es x = 1)

/-- The edges can be put in an order in which each ends where the next one, cyclically, starts,
and no two start at the same vertex. -/
def SingleLoop (b : List Edge) : Prop :=
  ∃ loop : List Edge, loop.Perm b ∧ (loop.map (·.s)).Nodup ∧ ∃ h : 0 < loop.length,
    ∀ i (hi : i < loop.length), loop[i].e = (loop[(i + 1) % loop.length]'(Nat.mod_lt _ h)).s

theorem closed_iff (l : List Edge) :
    Closed l ↔ ∃ h : 0 < l.length,
      ∀ i (hi : i < l.length), l[i].e = (l[(i + 1) % l.length]'(Nat.mod_lt _ h)).s := by
  have chain_of : ∀ m : List Edge, (∀ i (hi : i + 1 < m.length), (m[i]'(by omega)).e = m[i + 1].s) →
      Chain m := by
    intro m
    induction m with
    | nil => intro _; trivial
    | cons a m ih =>
      intro h
      cases m with
      | nil => trivial
      | cons b m =>
        refine ⟨h 0 (by simp), ih ?_⟩
        intro i hi
        exact h (i + 1) (by simpa using hi)
  cases l with
  | nil => simp [Closed]
  | cons x l =>
    show Chain ((x :: l) ++ [x]) ↔ _
    constructor
    · intro h
      refine ⟨by simp, ?_⟩
      intro i hi
      have hi' : i + 1 < ((x :: l) ++ [x]).length := by simpa using hi
      have := chain_get _ h i hi'
      rw [List.getElem_append_left hi] at this
      rw [this]
      by_cases hl : i + 1 < (x :: l).length
      · rw [List.getElem_append_left hl]
        congr 2
        rw [Nat.mod_eq_of_lt hl]
      · have he : i + 1 = (x :: l).length := by omega
        simp only [he, Nat.mod_self]
        rw [List.getElem_append_right (by omega)]
        simp
    · rintro ⟨_, h⟩
      apply chain_of
      intro i hi
      have hi0 : i < (x :: l).length := by simpa using hi
      rw [List.getElem_append_left hi0, h i hi0]
      by_cases hl : i + 1 < (x :: l).length
      · rw [List.getElem_append_left hl]
        congr 2
        rw [Nat.mod_eq_of_lt hl]
      · have he : i + 1 = (x :: l).length := by omega
        simp only [he, Nat.mod_self]
        rw [List.getElem_append_right (by omega)]
        simp

theorem keyCount_uses (es : List Edge) (s : List Item) (hp : s.Perm (es.map canon)) (x : Edge) :
    keyCount (canon x).1 s = uses es x := by
  unfold keyCount uses
  rw [hp.countP_eq, List.countP_map]
  apply List.countP_congr
  intro y _
  simp only [Function.comp, decide_eq_true_eq]
  rw [eq_comm, canon_key]

/-- What the run-length pass finds. -/
theorem runs_spec {d : Nat} (es : List Edge) (hd : ∀ e ∈ es, e.mid.length = d) (x : Item) (xs : List Item)
    (hs : IsStdSort itemLt (es.map canon) (x :: xs)) :
    ((∀ r ∈ runLoop (newRun x) x xs, r.neg + r.pos ≤ 2) ↔ ∀ e ∈ es, uses es e ≤ 2) ∧
      (((runLoop (newRun x) x xs).filter fun r => decide (r.neg + r.pos = 1)).map (·.edge)).Perm
        (boundaryEdges es) := by
  have hmid : ∀ e : Edge, (canon e).1.mid = e.mid := by
    intro e; unfold canon Edge.rev; split_ifs <;> rfl
  have hd' : ∀ y ∈ x :: xs, y.1.mid.length = d := by
    intro y hy
    obtain ⟨e, he, rfl⟩ := List.mem_map.1 (hs.perm.mem_iff.1 hy)
    rw [hmid]; exact hd e he
  have hsort : (x :: xs).Pairwise fun a b => keyLt b.1 a.1 = false := by
    refine hs.sorted.imp ?_
    intro a b h
    unfold itemLt Alg.pairLt at h
    rw [Bool.or_eq_false_iff] at h
    exact h.1
  rw [List.pairwise_cons] at hsort
  obtain ⟨G, g1, g2, g3, g4⟩ := runLoop_groups (d := d) xs [x] x (by simp) (by simp) (by simpa using hd')
    (fun y hy => hsort.1 y hy) hsort.2
  have hR : runLoop (newRun x) x xs = G.map summarise := g1
  have hflat : G.flatten = x :: xs := g2
  constructor
  · rw [hR]
    constructor
    · intro h e he
      have hm : canon e ∈ G.flatten := by
        rw [hflat]; exact hs.perm.mem_iff.2 (List.mem_map_of_mem he)
      obtain ⟨g, hg, heg⟩ := List.mem_flatten.1 hm
      have := h (summarise g) (List.mem_map_of_mem hg)
      rw [summarise_sum] at this
      rw [← keyCount_uses es (x :: xs) hs.perm, ← hflat, keyCount_group G g _ hg heg g3 g4]
      exact this
    · intro h r hr
      obtain ⟨g, hg, rfl⟩ := List.mem_map.1 hr
      rw [summarise_sum]
      obtain ⟨y, hy⟩ := List.exists_mem_of_ne_nil _ (g3 g hg).1
      have hym : y ∈ x :: xs := by rw [← hflat]; exact List.mem_flatten.2 ⟨g, hg, hy⟩
      obtain ⟨e, he, rfl⟩ := List.mem_map.1 (hs.perm.mem_iff.1 hym)
      rw [← keyCount_group G g _ hg hy g3 g4, hflat, keyCount_uses es _ hs.perm]
      exact h e he
  · rw [hR, groups_filter G g3 g4, hflat]
    have h1 : ((x :: xs).filter fun y => decide (keyCount y.1 (x :: xs) = 1)).Perm
        ((es.map canon).filter fun y => decide (keyCount y.1 (x :: xs) = 1)) := hs.perm.filter _
    refine (h1.map natural).trans ?_
    rw [List.filter_map, List.map_map]
    have h2 : (es.filter ((fun y => decide (keyCount y.1 (x :: xs) = 1)) ∘ canon)) = boundaryEdges es := by
      unfold boundaryEdges
      apply List.filter_congr
      intro e _
      simp only [Function.comp, keyCount_uses es (x :: xs) hs.perm]
    rw [h2]
    have h3 : (natural ∘ canon) = id := by funext e; exact natural_canon e
    rw [h3, List.map_id]

theorem compatible_of_loop (b loop : List Edge) (hp : loop.Perm b) (hn : (loop.map (·.s)).Nodup)
    (h : 0 < loop.length)
    (hc : ∀ i (hi : i < loop.length), loop[i].e = (loop[(i + 1) % loop.length]'(Nat.mod_lt _ h)).s) :
    Compatible b := by
  have hn' : (loop.map (·.e)).Nodup := by
    rw [List.nodup_iff_injective_getElem]
    rintro ⟨i, hi⟩ ⟨j, hj⟩ hij
    simp only [List.length_map] at hi hj
    simp only [List.getElem_map] at hij
    rw [hc i hi, hc j hj] at hij
    have e := (List.Nodup.getElem_inj_iff (i := (i + 1) % loop.length) (j := (j + 1) % loop.length)
      (hi := by simpa using Nat.mod_lt _ h) (hj := by simpa using Nat.mod_lt _ h) hn).1
      (by simpa using hij)
    apply Fin.ext
    show i = j
    by_cases h1 : i + 1 < loop.length <;> by_cases h2 : j + 1 < loop.length
    · rw [Nat.mod_eq_of_lt h1, Nat.mod_eq_of_lt h2] at e; omega
    · rw [Nat.mod_eq_of_lt h1, show j + 1 = loop.length by omega, Nat.mod_self] at e; omega
    · rw [Nat.mod_eq_of_lt h2, show i + 1 = loop.length by omega, Nat.mod_self] at e; omega
    · omega
  have h1 : (b.map (·.s)).Nodup := (hp.map _).nodup_iff.1 hn
  have h2 : (b.map (·.e)).Nodup := (hp.map _).nodup_iff.1 hn'
  unfold Compatible
  unfold List.Nodup at h1 h2
  rw [List.pairwise_map] at h1 h2
  exact (h1.and h2).imp (fun ⟨a, b⟩ => ⟨a.symm, b.symm⟩)

theorem checkSorted_cons (fuel : Nat) (x : Item) (xs : List Item) :
    checkSorted fuel (x :: xs) = match boundary (runLoop (newRun x) x xs) [] with
      | .inl v => v
      | .inr [] => .ub
      | .inr (b0 :: bs) =>
        match walk (b0 :: bs) b0.s fuel b0 0 with
        | .inl v => v
        | .inr ctr => if ctr ≠ (b0 :: bs).length then .holeInInterior else .ok := rfl

/-- The check accepts exactly the meshes in which no edge is used more than twice and the edges used
once form one closed loop.  (`d` is 0 for linear and 1 for quadratic meshes; a number of steps equal
to the number of edges always suffices, see `C44_terminates`.) -/
theorem C44_accepts_iff (d fuel : Nat) (es : List Edge) (hd : ∀ e ∈ es, e.mid.length = d)
    (hf : es.length ≤ fuel) (r : Verdict) (hr : Check fuel es r) :
    r = .ok ↔ (∀ e ∈ es, uses es e ≤ 2) ∧ SingleLoop (boundaryEdges es) := by
  obtain ⟨s, hs, rfl⟩ := hr
  cases s with
  | nil =>
    have hes : es = [] := by
      have := hs.perm.length_eq
      simpa using this.symm
    subst hes
    constructor
    · intro h; cases h
    · rintro ⟨-, loop, hp, -, h, -⟩
      have := hp.length_eq
      simp [boundaryEdges] at this
      simp [this] at h
  | cons x xs =>
    obtain ⟨q1, q2⟩ := runs_spec es hd x xs hs
    have hble : (boundaryEdges es).length ≤ es.length := List.length_filter_le _ _
    cases hb : boundary (runLoop (newRun x) x xs) [] with
    | inl v =>
      rw [checkSorted_cons, hb]
      dsimp only
      constructor
      · intro hv
        rcases boundary_inl _ _ _ hb with h | h <;> rw [hv] at h <;> cases h
      · rintro ⟨h1, loop, hp, hn, h, hc⟩
        exfalso
        have hcomp := compatible_of_loop _ loop (hp.trans q2.symm) hn h hc
        have := (boundary_spec (runLoop (newRun x) x xs) [] _ List.Pairwise.nil).2
          ⟨q1.2 h1, rfl, by simpa using hcomp⟩
        rw [this] at hb
        cases hb
    | inr B =>
      obtain ⟨b1, b2, b3⟩ := (boundary_spec _ _ _ List.Pairwise.nil).1 hb
      rw [List.nil_append] at b2
      have hBp : B.Perm (boundaryEdges es) := by rw [b2]; exact q2
      cases B with
      | nil =>
        rw [checkSorted_cons, hb]
        dsimp only
        constructor
        · intro h; cases h
        · rintro ⟨-, loop, hp, -, h, -⟩
          have := (hp.trans hBp.symm).length_eq
          simp at this
          simp [this] at h
      | cons b0 bs =>
        rw [checkSorted_cons, hb]
        dsimp only
        have ok := compatible_ok _ b3
        have hBl : (b0 :: bs).length ≤ fuel := by
          have := hBp.length_eq
          omega
        have hw := walk_spec (b0 :: bs) b0 (by simp) ok fuel [] b0 (by simp) (by simp) rfl trivial
          (by simpa using hBl)
        simp only [List.nil_append, List.length_nil] at hw
        constructor
        · intro h
          refine ⟨q1.1 b1, ?_⟩
          rcases hw with hw | ⟨post, w1, w2, w3, w4⟩
          · rw [hw] at h; cases h
          · rw [w1] at h
            dsimp only at h
            split_ifs at h with hlen
            push Not at hlen
            have hperm : ([b0] ++ post).Perm (b0 :: bs) :=
              (List.subperm_of_subset w2 w3).perm_of_length_le (by omega)
            obtain ⟨hpos, hcc⟩ := (closed_iff _).1 w4
            refine ⟨_, hperm.trans hBp, ?_, hpos, hcc⟩
            rw [(hperm.map _).nodup_iff]
            unfold List.Nodup
            rw [List.pairwise_map]
            exact b3.imp (fun h => h.1.symm)
        · rintro ⟨-, loop, hp, hn, hpos, hc⟩
          have hcl : Closed loop := (closed_iff _).2 ⟨hpos, hc⟩
          -- rotate the loop so that it starts with b0
          have hlp : loop.Perm (b0 :: bs) := hp.trans hBp.symm
          have hm : b0 ∈ loop := hlp.mem_iff.2 (by simp)
          obtain ⟨l1, l2, rfl⟩ := List.append_of_mem hm
          have hclr : Closed (b0 :: (l2 ++ l1)) := by
            cases l1 with
            | nil => simpa using hcl
            | cons y l1 =>
              unfold Closed at hcl ⊢
              -- chain: y … b0 l2 y  ⟹  b0 l2 y l1 b0
              have split : ∀ (l m : List Edge) (z : Edge), Chain (l ++ z :: m) ↔ Chain (l ++ [z]) ∧ Chain (z :: m) := by
                intro l
                induction l with
                | nil => intro m z; simp [Chain]
                | cons a l ih =>
                  intro m z
                  cases l with
                  | nil => simp [Chain]
                  | cons a' l =>
                    have := ih m z
                    simp only [List.cons_append, Chain] at this ⊢
                    rw [this]; tauto
              have h1 : Chain ((y :: l1) ++ b0 :: (l2 ++ [y])) := by simpa using hcl
              obtain ⟨h2, h3⟩ := (split _ _ _).1 h1
              have h4 : Chain ((b0 :: l2) ++ y :: (l1 ++ [b0])) :=
                (split _ _ _).2 ⟨by simpa using h3, by simpa using h2⟩
              simpa using h4
          have hpr : (b0 :: (l2 ++ l1)).Perm (b0 :: bs) := by
            refine List.Perm.trans ?_ hlp
            have : (b0 :: (l2 ++ l1)) = (b0 :: l2) ++ l1 := by simp
            rw [this]
            exact List.perm_append_comm
          have hwc := walk_closed (b0 :: bs) ok (l2 ++ l1) b0 hpr hclr (l2 ++ l1) [] b0 fuel rfl
            (by have := hpr.length_eq; simp only [List.length_cons] at this hBl; omega)
          simp only [List.length_nil] at hwc
          rw [hwc]
          simp

/-- The check terminates on every mesh: as many steps as there are edges are enough. -/
theorem C44_terminates (d fuel : Nat) (es : List Edge) (hd : ∀ e ∈ es, e.mid.length = d)
    (hf : es.length ≤ fuel) (r : Verdict) (hr : Check fuel es r) : r ≠ .outOfFuel := by
  obtain ⟨s, hs, rfl⟩ := hr
  cases s with
  | nil => intro h; cases h
  | cons x xs =>
    obtain ⟨q1, q2⟩ := runs_spec es hd x xs hs
    have hble : (boundaryEdges es).length ≤ es.length := List.length_filter_le _ _
    cases hb : boundary (runLoop (newRun x) x xs) [] with
    | inl v =>
      rw [checkSorted_cons, hb]
      dsimp only
      rcases boundary_inl _ _ _ hb with h | h <;> rw [h] <;> simp
    | inr B =>
      obtain ⟨b1, b2, b3⟩ := (boundary_spec _ _ _ List.Pairwise.nil).1 hb
      rw [List.nil_append] at b2
      have hBp : B.Perm (boundaryEdges es) := by rw [b2]; exact q2
      cases B with
      | nil => rw [checkSorted_cons, hb]; simp
      | cons b0 bs =>
        rw [checkSorted_cons, hb]
        dsimp only
        have ok := compatible_ok _ b3
        have hBl : (b0 :: bs).length ≤ fuel := by
          have := hBp.length_eq
          omega
        have hw := walk_spec (b0 :: bs) b0 (by simp) ok fuel [] b0 (by simp) (by simp) rfl trivial
          (by simpa using hBl)
        simp only [List.nil_append, List.length_nil] at hw
        rcases hw with hw | ⟨post, w1, -⟩
        · rw [hw]; simp
        · rw [w1]
          dsimp only
          split_ifs <;> simp

/-- The check reads outside a vector exactly if no edge is used more than twice and there is no
boundary edge at all: a mesh without faces, or a closed surface. -/
theorem C44_undefined_iff (d fuel : Nat) (es : List Edge) (hd : ∀ e ∈ es, e.mid.length = d)
    (hf : es.length ≤ fuel) (r : Verdict) (hr : Check fuel es r) :
    r = .ub ↔ (∀ e ∈ es, uses es e ≤ 2) ∧ boundaryEdges es = [] := by
  obtain ⟨s, hs, rfl⟩ := hr
  cases s with
  | nil =>
    have hes : es = [] := by
      have := hs.perm.length_eq
      simpa using this.symm
    subst hes
    simp [checkSorted, boundaryEdges]
  | cons x xs =>
    obtain ⟨q1, q2⟩ := runs_spec es hd x xs hs
    have hble : (boundaryEdges es).length ≤ es.length := List.length_filter_le _ _
    cases hb : boundary (runLoop (newRun x) x xs) [] with
    | inl v =>
      rw [checkSorted_cons, hb]
      dsimp only
      constructor
      · intro hv
        rcases boundary_inl _ _ _ hb with h | h <;> rw [hv] at h <;> cases h
      · rintro ⟨h1, h2⟩
        exfalso
        rw [h2] at q2
        have := (boundary_spec (runLoop (newRun x) x xs) [] _ List.Pairwise.nil).2
          ⟨q1.2 h1, rfl, by rw [q2.eq_nil]; exact List.Pairwise.nil⟩
        rw [this] at hb
        cases hb
    | inr B =>
      obtain ⟨b1, b2, b3⟩ := (boundary_spec _ _ _ List.Pairwise.nil).1 hb
      rw [List.nil_append] at b2
      have hBp : B.Perm (boundaryEdges es) := by rw [b2]; exact q2
      cases B with
      | nil =>
        rw [checkSorted_cons, hb]
        dsimp only
        simp only [true_iff]
        exact ⟨q1.1 b1, List.nil_perm.1 hBp⟩
      | cons b0 bs =>
        rw [checkSorted_cons, hb]
        dsimp only
        have ok := compatible_ok _ b3
        have hBl : (b0 :: bs).length ≤ fuel := by
          have := hBp.length_eq
          omega
        have hw := walk_spec (b0 :: bs) b0 (by simp) ok fuel [] b0 (by simp) (by simp) rfl trivial
          (by simpa using hBl)
        simp only [List.nil_append, List.length_nil] at hw
        constructor
        · intro h
          exfalso
          rcases hw with hw | ⟨post, w1, -⟩
          · rw [hw] at h; cases h
          · rw [w1] at h
            dsimp only at h
            split_ifs at h
        · rintro ⟨-, h⟩
          rw [h] at hBp
          exact absurd hBp.eq_nil (by simp)

/-- If, in addition, no two faces use an edge in the same direction, an accepted mesh is an oriented
surface with one boundary loop: every edge is used either once, on the boundary loop, or exactly
twice, once in each direction.  (The additional hypothesis is what the check does not look at.) -/
theorem C44_oriented_partial (d fuel : Nat) (es : List Edge) (hd : ∀ e ∈ es, e.mid.length = d)
    (hf : es.length ≤ fuel) (hdir : es.Nodup) (hne : ∀ e ∈ es, e.s ≠ e.e) (hr : Check fuel es .ok) :
    (∀ e ∈ es, (es.count e.rev = 0 ∧ e ∈ boundaryEdges es) ∨ (es.count e = 1 ∧ es.count e.rev = 1)) ∧
      SingleLoop (boundaryEdges es) := by
  obtain ⟨-, h2⟩ := (C44_accepts_iff d fuel es hd hf .ok hr).1 rfl
  refine ⟨?_, h2⟩
  intro e he
  have hu : uses es e = es.count e + es.count e.rev := by
    have hrev : e ≠ e.rev := by
      intro h
      have := congrArg Edge.s h
      exact hne e he this
    unfold uses
    induction es with
    | nil => rfl
    | cons y ys ih =>
      clear ih hd hf hdir hne hr h2 he
      have key : ∀ l : List Edge, l.countP (fun y => decide (y = e ∨ y = e.rev)) = l.count e + l.count e.rev := by
        intro l
        induction l with
        | nil => rfl
        | cons z zs ih =>
          rw [List.countP_cons, List.count_cons, List.count_cons, ih]
          by_cases h1 : z = e
          · subst h1
            simp [hrev]
            omega
          · by_cases h2 : z = e.rev
            · have : ¬ e.rev = e := fun h => hrev h.symm
              simp [h2, this]
              omega
            · simp [h1, h2]
      exact key _
  have h1 : es.count e = 1 := List.count_eq_one_of_mem hdir he
  have h3 : es.count e.rev ≤ 1 := List.nodup_iff_count_le_one.1 hdir _
  rcases Nat.eq_zero_or_pos (es.count e.rev) with h0 | h0
  · left
    refine ⟨h0, ?_⟩
    unfold boundaryEdges
    rw [List.mem_filter]
    exact ⟨he, by rw [hu, h1, h0]; rfl⟩
  · right
    exact ⟨h1, by omega⟩

/-! ### Meshes -/

/-- The edges of a linear or a quadratic mesh meet the hypothesis on the number of components. -/
theorem C44_mesh_edges {N m : Nat} (fv : List (Fin N → Nat)) (fv2 : List (Fin (2 * m) → Nat)) :
    (∀ e ∈ linearEdges fv, e.mid.length = 0) ∧ (∀ e ∈ quadraticEdges fv2, e.mid.length = 1) ∧
    (linearEdges fv).length = N * fv.length ∧ (quadraticEdges fv2).length = m * fv2.length := by
  refine ⟨?_, ?_, ?_, ?_⟩
  · intro e he
    simp only [linearEdges, List.mem_flatMap, List.mem_map] at he
    obtain ⟨c, -, i, -, rfl⟩ := he
    rfl
  · intro e he
    simp only [quadraticEdges, List.mem_flatMap, List.mem_map] at he
    obtain ⟨c, -, i, -, rfl⟩ := he
    rfl
  · simp only [linearEdges]
    induction fv with
    | nil => rfl
    | cons c fv ih => rw [List.flatMap_cons, List.length_append, ih]; simp [Nat.mul_add, Nat.add_comm]
  · simp only [quadraticEdges]
    induction fv2 with
    | nil => rfl
    | cons c fv ih => rw [List.flatMap_cons, List.length_append, ih]; simp [Nat.mul_add, Nat.add_comm]

instance (lt : Item → Item → Bool) (a b : List Item) :
    Decidable (IsStdSort lt a b) :=
  decidable_of_iff (b.Perm a ∧ b.Pairwise fun x y => lt y x = false)
    ⟨fun h => ⟨h.1, h.2⟩, fun h => ⟨h.1, h.2⟩⟩

/-- Three triangles, the second a copy of the first. -/
def doubled : List (Fin 3 → Nat) := [![0, 1, 2], ![0, 1, 2], ![3, 4, 5]]

/-- The property as stated is false of the code: two faces that lie on top of each other use each of
their edges twice in the same direction, and the check accepts the mesh. -/
theorem C44_overlap_fails :
    Check (linearEdges doubled).length (linearEdges doubled) .ok ∧
      ∃ e ∈ linearEdges doubled, (linearEdges doubled).count e = 2 := by
  refine ⟨⟨[(⟨0, 1, []⟩, 1), (⟨0, 1, []⟩, 1), (⟨0, 2, []⟩, -1), (⟨0, 2, []⟩, -1), (⟨1, 2, []⟩, 1),
    (⟨1, 2, []⟩, 1), (⟨3, 4, []⟩, 1), (⟨3, 5, []⟩, -1), (⟨4, 5, []⟩, 1)], ?_, ?_⟩, ⟨0, 1, []⟩, ?_, ?_⟩
  · decide +kernel
  · decide +kernel
  · decide +kernel
  · decide +kernel

/-- The strip of two triangles is accepted; a mesh of two separate triangles has a second loop. -/
example : Check 6 (linearEdges [![0, 1, 2], ![1, 3, 2]]) .ok :=
  ⟨[(⟨0, 1, []⟩, 1), (⟨0, 2, []⟩, -1), (⟨1, 2, []⟩, -1), (⟨1, 2, []⟩, 1), (⟨1, 3, []⟩, 1),
    (⟨2, 3, []⟩, -1)], by decide +kernel, by decide +kernel⟩
example : Check 6 (linearEdges [![0, 1, 2], ![3, 4, 5]]) .holeInInterior :=
  ⟨[(⟨0, 1, []⟩, 1), (⟨0, 2, []⟩, -1), (⟨1, 2, []⟩, 1), (⟨3, 4, []⟩, 1), (⟨3, 5, []⟩, -1),
    (⟨4, 5, []⟩, 1)], by decide +kernel, by decide +kernel⟩
example : (linearEdges [![0, 1, 2], ![1, 3, 2]]).Nodup ∧
    ∀ e ∈ linearEdges [![0, 1, 2], ![1, 3, 2]], e.s ≠ e.e := by decide +kernel

end Verif.MeshCheck
