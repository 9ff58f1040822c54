import Verif.Model.PostTools
import Verif.Props.MpactTotals
import Verif.Props.ModelSoup

/-! Lemmas on the loops of the post-processing programs. -/

namespace Verif.Post

open Verif.Mpact Verif.Polytope Verif.CmfdInfo Verif.ModelSoup
open Verif.Pin (Mesh)
open Verif.XSLib (Res)

set_option linter.unusedSectionVars false
variable {K M : Type} [Field K] [LinearOrder K]

theorem put_mid {α : Type} (done : List α) (x y : α) (rest : List α) :
    put (done ++ x :: rest) done.length y = some (done ++ y :: rest) := by
  unfold put
  rw [if_pos (by simp)]
  simp

/-- Writing `v 0, v 1, …` one after another. -/
theorem fill_from {α : Type} (v : Nat → α) (done : List α) : ∀ (n : Nat) (rest : List α), n ≤ rest.length →
    (List.range n).foldlM (fun buf e => put buf (done.length + e) (v e)) (done ++ rest) = some (done ++ (List.range n).map v ++ rest.drop n) := by
  intro n
  induction n with
  | zero => intro rest _; simp
  | succ n ih =>
    intro rest hr
    rw [List.range_succ, List.foldlM_append, ih rest (by omega)]
    have hd : rest.drop n = rest[n]'(by omega) :: rest.drop (n + 1) := (List.getElem_cons_drop (by omega)).symm
    have := put_mid (done ++ (List.range n).map v) (rest[n]'(by omega)) (v n) (rest.drop (n + 1))
    simp only [Option.bind_eq_bind, Option.bind_some, List.foldlM_cons, List.foldlM_nil]
    rw [hd]
    rw [List.length_append, List.length_map, List.length_range] at this
    rw [this]
    simp

theorem fill_all {α : Type} (v : Nat → α) (junk : α) (n : Nat) :
    (List.range n).foldlM (fun buf f => put buf f (v f)) (List.replicate n junk) = some ((List.range n).map v) := by
  have := fill_from v [] n (List.replicate n junk) (by simp)
  simp only [List.length_nil, Nat.zero_add, List.nil_append, List.drop_replicate, Nat.sub_self, List.replicate_zero, List.append_nil] at this
  exact this

/-- Writing rows of width `w`. -/
theorem fill_rows {α : Type} (v : Nat → Nat → α) (w : Nat) : ∀ (n : Nat) (rest : List α), n * w ≤ rest.length →
    (List.range n).foldlM (fun buf f => (List.range w).foldlM (fun buf e => put buf (f * w + e) (v f e)) buf) rest =
      some ((List.range n).flatMap (fun f => (List.range w).map (v f)) ++ rest.drop (n * w)) := by
  intro n
  induction n with
  | zero => intro rest _; simp
  | succ n ih =>
    intro rest hr
    have hm : (n + 1) * w = n * w + w := by ring
    rw [List.range_succ, List.foldlM_append, ih rest (by omega)]
    simp only [Option.bind_eq_bind, Option.bind_some, List.foldlM_cons, List.foldlM_nil]
    have hl : ((List.range n).flatMap fun f => (List.range w).map (v f)).length = n * w := by
      simp [List.length_flatMap]
    have := fill_from (v n) ((List.range n).flatMap fun f => (List.range w).map (v f)) w (rest.drop (n * w)) (by rw [List.length_drop]; omega)
    rw [hl] at this
    rw [this, Option.bind_some, List.flatMap_append, List.drop_drop, hm]
    simp

theorem perCell_ok (f : CoarseCell K → Res (List K)) (g : CoarseCell K → List K) (s : Model K M) (h : ∀ c ∈ s.cells, f c = .ok (g c)) :
    perCell f s = .ok (s.cells.map g) := by
  have key : ∀ (l : List (CoarseCell K)) (acc : List (List K)), (∀ c ∈ l, f c = .ok (g c)) →
      loop (fun acc cell => (f cell).bind fun l => .ok (acc ++ [l])) acc l = .ok (acc ++ l.map g) := by
    intro l
    induction l with
    | nil => intro acc _; simp [loop]
    | cons c l ih =>
      intro acc h
      have h1 := h c (by simp)
      have h2 := ih (acc ++ [g c]) fun c hc => h c (by simp [hc])
      unfold loop
      rw [h1]
      show loop _ (acc ++ [g c]) l = _
      rw [h2]
      simp
  have := key s.cells [] h
  simpa [perCell] using this

theorem forIds_append {σ : Type} (f : ℤ → σ → Option σ) : ∀ (a b : List ℤ) (st : σ),
    forIds f (a ++ b) st = (forIds f a st).bind fun st => forIds f b st := by
  intro a
  induction a with
  | nil => intro b st; rfl
  | cons i a ih =>
    intro b st
    rw [List.cons_append, forIds, forIds, Option.bind_assoc]
    congr 1
    funext st'
    exact ih b st'

theorem forIds_level {α σ : Type} (table : List α) (children : α → List ℤ) (f : ℤ → σ → Option σ) : ∀ (ids : List ℤ) (st : σ),
    (∀ i ∈ ids, InTable table i) →
    forIds (fun a st => (at? table a).bind fun x => forIds f (children x) st) ids st = forIds f (below table children ids) st := by
  intro ids
  induction ids with
  | nil => intro st _; rfl
  | cons i ids ih =>
    intro st h
    obtain ⟨x, hx, -⟩ := at?_of_lt (h i (by simp)).1 (h i (by simp)).2
    have e : below table children (i :: ids) = children x ++ below table children ids := by
      rw [← below_singleton (children := children) hx, ← below_append]; rfl
    rw [e, forIds_append, forIds, hx, Option.bind_some]
    congr 1
    funext st'
    exact ih st' fun j hj => h j (by simp [hj])

theorem mem_below_inv {α : Type} {table : List α} {children : α → List ℤ} {ids : List ℤ} {j : ℤ} (h : j ∈ below table children ids) :
    ∃ x ∈ table, j ∈ children x := by
  rw [below, List.mem_flatMap] at h
  obtain ⟨i, -, h⟩ := h
  cases ht : table[i.toNat]? with
  | none => rw [ht] at h; simp at h
  | some x => rw [ht] at h; exact ⟨x, List.mem_of_getElem? ht, h⟩

theorem placed_range (s : Model K M) (h : Valid s) : ∀ c ∈ placedCells s, InTable s.cells c := by
  intro c hc
  obtain ⟨r, hr, hc⟩ := mem_below_inv hc
  exact h.rtm r hr c hc

/-- The four loops visit the placed cells. -/
theorem walk_eq {σ : Type} (s : Model K M) (h : Valid s) (f : ℤ → σ → Option σ) (st : σ) : walk s f st = forIds f (placedCells s) st := by
  have hL : ∀ i ∈ placedLattices s, InTable s.lattices i := by
    intro i hi
    obtain ⟨a, ha, hi⟩ := mem_below_inv hi
    exact (h.assembly a ha).2.2.2 i hi
  have hR : ∀ i ∈ placedRTMs s, InTable s.rtms i := by
    intro i hi
    obtain ⟨a, ha, hi⟩ := mem_below_inv hi
    exact (h.lattice a ha).2 i hi
  unfold walk
  rw [forIds_level s.assemblies (fun a => a.children) _ _ _ h.core]
  show forIds _ (placedLattices s) st = _
  rw [forIds_level s.lattices (fun a => a.children) _ _ _ hL]
  show forIds _ (placedRTMs s) st = _
  rw [forIds_level s.rtms (fun a => a.children) _ _ _ hR]
  rfl

theorem forIds_push (f : ℤ → List K → Option (List K)) (g : ℤ → List K) : ∀ (ids : List ℤ) (st : List K),
    (∀ i ∈ ids, ∀ st, f i st = some (st ++ g i)) → forIds f ids st = some (st ++ ids.flatMap g) := by
  intro ids
  induction ids with
  | nil => intro st _; simp [forIds]
  | cons i ids ih =>
    intro st h
    rw [forIds, h i (by simp), Option.bind_some, ih _ fun j hj => h j (by simp [hj])]
    simp

/-- The faces of a list of parts, one after another. -/
theorem locate {α β : Type} (n : α → Nat) (g : α → List β) (hg : ∀ t, (g t).length = n t) : ∀ (L : List α) (i : Nat), i < (L.map n).sum →
    ∃ A t B f, L = A ++ t :: B ∧ f < n t ∧ i = (A.map n).sum + f ∧ (L.flatMap g)[i]? = (g t)[f]? := by
  intro L
  induction L with
  | nil => intro i hi; simp at hi
  | cons a L ih =>
    intro i hi
    rw [List.map_cons, List.sum_cons] at hi
    by_cases h : i < n a
    · refine ⟨[], a, L, i, rfl, h, by simp, ?_⟩
      rw [List.flatMap_cons, List.getElem?_append_left (by rw [hg]; exact h)]
    · obtain ⟨A, t, B, f, e, hf, hi', hv⟩ := ih (i - n a) (by omega)
      refine ⟨a :: A, t, B, f, by rw [e]; rfl, hf, by rw [List.map_cons, List.sum_cons]; omega, ?_⟩
      rw [List.flatMap_cons, List.getElem?_append_right (by rw [hg]; omega), hg, hv]

theorem data_eq {α β : Type} (n : α → Nat) (g : α → List β) (hg : ∀ t, (g t).length = n t) (L : List α) (data : List β)
    (hl : data.length = (L.map n).sum) (h : ∀ A t B f, L = A ++ t :: B → f < n t → data[(A.map n).sum + f]? = (g t)[f]?) :
    data = L.flatMap g := by
  apply List.ext_getElem?
  intro i
  by_cases hi : i < (L.map n).sum
  · obtain ⟨A, t, B, f, e, hf, hi', hv⟩ := locate n g hg L i hi
    rw [hv, hi', h A t B f e hf]
  · rw [List.getElem?_eq_none (by omega), List.getElem?_eq_none]
    rw [List.length_flatMap]
    have e : (L.map fun a => (g a).length) = L.map n := List.map_congr_left fun a _ => hg a
    rw [e]
    omega

/-! ### The placed cells and the visits -/

theorem rows_index (nx : Nat) : ∀ ny, (rows nx ny).map (fun p => p.1 + p.2 * nx) = List.range (nx * ny) := by
  intro ny
  induction ny with
  | zero => simp [rows]
  | succ ny ih =>
    unfold rows at *
    rw [List.range_succ, List.flatMap_append, List.map_append, ih, Nat.mul_succ, List.range_add]
    congr 1
    simp only [List.flatMap_cons, List.flatMap_nil, List.append_nil, List.map_map]
    apply List.map_congr_left
    intro i _
    simp [Nat.mul_comm, Nat.add_comm]

theorem kids_ids {κ : Type} (o : κ) (nx ny : Nat) (ch : List ℤ) (h : ch.length = nx * ny) :
    (kids o nx ny ch).map (·.2) = ch.map Int.toNat := by
  unfold kids
  rw [List.map_filterMap]
  have e : ∀ p : Nat × Nat, ((ch[p.1 + p.2 * nx]?).map fun c => ((o, p), c.toNat)).map (fun v : (κ × Nat × Nat) × Nat => v.2) =
      (fun i : Nat => (ch[i]?).map Int.toNat) (p.1 + p.2 * nx) := by
    intro p
    dsimp only
    cases ch[p.1 + p.2 * nx]? <;> rfl
  simp only [e]
  have e2 : ∀ l : List (Nat × Nat), l.filterMap (fun p => (fun i : Nat => (ch[i]?).map Int.toNat) (p.1 + p.2 * nx)) =
      (l.map fun p => p.1 + p.2 * nx).filterMap fun i => (ch[i]?).map Int.toNat := by
    intro l
    rw [List.filterMap_map]
    rfl
  rw [e2, rows_index, ← h]
  apply List.ext_getElem?
  intro i
  have : (List.range ch.length).filterMap (fun i => (ch[i]?).map Int.toNat) = (List.range ch.length).map fun i => (ch.getD i 0).toNat := by
    rw [← List.filterMap_eq_map]
    apply List.filterMap_congr
    intro i hi
    rw [List.mem_range] at hi
    simp [List.getElem?_eq_getElem hi]
  rw [this]
  by_cases hi : i < ch.length
  · simp [hi]
  · rw [List.getElem?_eq_none (by simpa using hi), List.getElem?_eq_none (by simpa using hi)]

theorem below_ids {α κ κ' : Type} (table : List α) (children : α → List ℤ) (vis : κ × Nat → List (κ' × Nat))
    (h1 : ∀ v x, table[v.2]? = some x → (vis v).map (·.2) = (children x).map Int.toNat) (h2 : ∀ v, table[v.2]? = none → vis v = [])
    (V : List (κ × Nat)) (ids : List ℤ) (h : V.map (·.2) = ids.map Int.toNat) :
    (V.flatMap vis).map (·.2) = (below table children ids).map Int.toNat := by
  induction V generalizing ids with
  | nil =>
    cases ids with
    | nil => rfl
    | cons _ _ => simp at h
  | cons v V ih =>
    cases ids with
    | nil => simp at h
    | cons i ids =>
      rw [List.map_cons, List.map_cons] at h
      obtain ⟨hv, ht⟩ := List.cons.inj h
      have e : below table children (i :: ids) = below table children [i] ++ below table children ids := by
        rw [← below_append]; rfl
      rw [List.flatMap_cons, List.map_append, ih ids ht, e, List.map_append]
      congr 1
      unfold below
      rw [List.flatMap_singleton, ← hv]
      cases hx : table[v.2]? with
      | none => rw [h2 v hx]; rfl
      | some x => exact h1 v x hx

/-- The cells are visited in the same order. -/
theorem visits_placed (s : Model K M) (h : ModelXdmf.Built s s.cells.length) : (cellVisits s).map (·.2) = (placedCells s).map Int.toNat := by
  have h0 : (asyVisits s).map (·.2) = s.core.children.map Int.toNat := by
    unfold asyVisits
    rw [List.map_map]
    exact kids_ids () _ _ _ h.core.2.1
  have h1 : (latVisits s).map (·.2) = (placedLattices s).map Int.toNat := by
    refine below_ids s.assemblies (fun a => a.children) (latKids s) ?_ ?_ _ _ h0
    · intro v x hx
      rw [latKids, hx]
      dsimp only
      rw [List.map_map]
      have : ((fun x : LatAt × Nat => x.2) ∘ fun c : ℤ × Nat => ((v.1, c.2), c.1.toNat)) = Int.toNat ∘ Prod.fst := rfl
      rw [this, ← List.map_map, List.zipIdx_map_fst]
    · intro v hx
      rw [latKids, hx]
  have h2 : (rtmVisits s).map (·.2) = (placedRTMs s).map Int.toNat := by
    refine below_ids s.lattices (fun a => a.children) (rtmKids s) ?_ ?_ _ _ h1
    · intro v x hx
      rw [rtmKids, hx]
      exact kids_ids _ _ _ _ (h.lat x (List.mem_of_getElem? hx)).2.1
    · intro v hx
      rw [rtmKids, hx]
  refine below_ids s.rtms (fun a => a.children) (cellKids s) ?_ ?_ _ _ h2
  · intro v x hx
    rw [cellKids, hx]
    exact kids_ids _ _ _ _ (h.rtm x (List.mem_of_getElem? hx)).2.1
  · intro v hx
    rw [cellKids, hx]

end Verif.Post
