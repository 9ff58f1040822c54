import Verif.Model.Mpact
import Verif.Props.Partition

/-! Helper lemmas about the MPACT model. -/

namespace Verif.Mpact

theorem at?_eq {α : Type} {l : List α} {i : ℤ} {x : α} : at? l i = some x ↔ 0 ≤ i ∧ l[i.toNat]? = some x := by
  unfold at?
  split
  · constructor
    · intro h; exact absurd h (by simp)
    · intro h; omega
  · constructor
    · intro h; exact ⟨by omega, h⟩
    · exact fun h => h.2

theorem at?_of_lt {α : Type} {l : List α} {i : ℤ} (h0 : 0 ≤ i) (h : i < l.length) : ∃ x, at? l i = some x ∧ x ∈ l := by
  have hl : i.toNat < l.length := by omega
  exact ⟨l[i.toNat], at?_eq.2 ⟨h0, List.getElem?_eq_getElem hl⟩, List.getElem_mem hl⟩

theorem flatten_uniform {α : Type} (nc : Nat) : ∀ (rows : List (List α)), (∀ r ∈ rows, r.length = nc) →
    ∀ i j, i < nc → rows.flatten[i + j * nc]? = (rows[j]?).bind fun r => r[i]? := by
  intro rows
  induction rows with
  | nil => intro _ i j _; simp
  | cons r rows ih =>
    intro h i j hi
    have hr := h r (by simp)
    cases j with
    | zero =>
      rw [List.flatten_cons, List.getElem?_append_left (by omega)]
      simp
    | succ j =>
      rw [List.flatten_cons, List.getElem?_append_right (by rw [hr, Nat.succ_mul]; omega)]
      have : i + (j + 1) * nc - r.length = i + j * nc := by rw [hr, Nat.succ_mul]; omega
      rw [this, ih (fun r hr => h r (by simp [hr])) i j hi]
      simp

theorem flatten_length {α : Type} (nc : Nat) : ∀ (rows : List (List α)), (∀ r ∈ rows, r.length = nc) →
    rows.flatten.length = rows.length * nc := by
  intro rows
  induction rows with
  | nil => simp
  | cons r rows ih =>
    intro h
    rw [List.flatten_cons, List.length_append, ih fun r hr => h r (by simp [hr]), h r (by simp), List.length_cons, Nat.succ_mul]
    omega

/-- Flattening a rectangular array of ids: the rows from the last to the first. -/
theorem flattenLattice_eq {α : Type} [Inhabited α] (ids : List (List α)) (nc : Nat) (hne : ids ≠ []) (hc : ∀ r ∈ ids, r.length = nc) :
    Grid.flattenLattice ids [] = some ids.reverse.flatten := by
  obtain ⟨out, h1, h2, h3⟩ := Grid.C39_flatten ids [] nc hne hc
  rw [h1]
  have hc' : ∀ r ∈ ids.reverse, r.length = nc := fun r hr => hc r (List.mem_reverse.1 hr)
  have hl := flatten_length nc ids.reverse hc'
  rw [List.length_reverse] at hl
  congr 1
  apply List.ext_getElem?
  intro k
  by_cases hk : k < ids.length * nc
  · have hnc : 0 < nc := by
      rcases Nat.eq_zero_or_pos nc with h | h
      · rw [h] at hk; simp at hk
      · exact h
    have e : k = k % nc + k / nc * nc := by rw [Nat.mul_comm]; exact (Nat.mod_add_div k nc).symm
    have hi : k % nc < nc := Nat.mod_lt _ hnc
    have hj : k / nc < ids.length := by rw [Nat.div_lt_iff_lt_mul hnc]; exact hk
    rw [e, h3 _ _ hi hj, flatten_uniform nc _ hc' _ _ hi]
  · rw [List.getElem?_eq_none (by omega), List.getElem?_eq_none (by omega)]

/-- What `flattenLattice` produces, if anything. -/
theorem flattenLattice_cases {α : Type} [Inhabited α] {ids : List (List α)} {out : List α} (h : Grid.flattenLattice ids [] = some out) :
    ids ≠ [] ∧ ((∃ nc, (∀ r ∈ ids, r.length = nc) ∧ out = ids.reverse.flatten) ∨ ((¬ ∃ nc, ∀ r ∈ ids, r.length = nc) ∧ out = [])) := by
  cases ids with
  | nil => simp [Grid.flattenLattice] at h
  | cons r0 rows =>
    refine ⟨by simp, ?_⟩
    by_cases hr : ∃ r ∈ rows, r.length ≠ r0.length
    · rw [Grid.C39_ragged r0 rows [] hr] at h
      refine Or.inr ⟨?_, (Option.some.inj h).symm⟩
      rintro ⟨nc, hc⟩
      obtain ⟨r, h1, h2⟩ := hr
      exact h2 ((hc r (by simp [h1])).trans (hc r0 (by simp)).symm)
    · push Not at hr
      have hc : ∀ r ∈ r0 :: rows, r.length = r0.length := by
        intro r hr'
        rcases List.mem_cons.1 hr' with rfl | hr'
        · rfl
        · exact hr r hr'
      rw [flattenLattice_eq _ _ (by simp) hc] at h
      exact Or.inl ⟨_, hc, (Option.some.inj h).symm⟩

theorem flattenLattice_mem {α : Type} [Inhabited α] {ids : List (List α)} {out : List α} (h : Grid.flattenLattice ids [] = some out) :
    ∀ x ∈ out, x ∈ ids.flatten := by
  intro x hx
  obtain ⟨-, ⟨nc, -, rfl⟩ | ⟨-, rfl⟩⟩ := flattenLattice_cases h
  · obtain ⟨r, hr, hxr⟩ := List.mem_flatten.1 hx
    exact List.mem_flatten.2 ⟨r, List.mem_reverse.1 hr, hxr⟩
  · simp at hx

variable {K M N : Type} [Field K] [LinearOrder K]

/-- What `addCoarseCell` does. -/
theorem addCoarseCell_cases {s : Model K M} {ext : K × K} {t : ElemTypes.MeshType} {id : ℤ} {mats : List Int8} {s' : Model K M} {r : ℤ}
    (h : addCoarseCell s ext t id mats = some (s', r)) :
    (s' = s ∧ r = -1) ∨ (0 < ext.1 ∧ 0 < ext.2 ∧ s' = { s with cells := s.cells ++ [⟨ext, t, id, mats⟩] } ∧ r = s.cells.length ∧
      (id = -1 ∨ ∃ l mesh, s.meshes t = some l ∧ at? l id = some mesh ∧ mesh.faces.length = mats.length ∧
        ∀ x ∈ mats, 0 ≤ x.toInt ∧ x.toInt < s.materials.length)) := by
  unfold addCoarseCell at h
  dsimp only at h
  split at h
  · simp only [Option.some.injEq, Prod.mk.injEq] at h
    exact Or.inl ⟨h.1.symm, h.2.symm⟩
  rename_i hext
  push Not at hext
  split at h
  · rename_i hid
    simp only [Option.some.injEq, Prod.mk.injEq] at h
    exact Or.inr ⟨hext.1, hext.2, h.1.symm, h.2.symm, Or.inl hid⟩
  split at h
  · simp only [Option.some.injEq, Prod.mk.injEq] at h
    exact Or.inl ⟨h.1.symm, h.2.symm⟩
  rename_i l hl
  split at h
  · simp only [Option.some.injEq, Prod.mk.injEq] at h
    exact Or.inl ⟨h.1.symm, h.2.symm⟩
  rw [Option.bind_eq_some_iff] at h
  obtain ⟨mesh, hm, h⟩ := h
  split at h
  · simp only [Option.some.injEq, Prod.mk.injEq] at h
    exact Or.inl ⟨h.1.symm, h.2.symm⟩
  rename_i hlen
  split at h
  · simp only [Option.some.injEq, Prod.mk.injEq] at h
    exact Or.inl ⟨h.1.symm, h.2.symm⟩
  rename_i hmats
  simp only [Option.some.injEq, Prod.mk.injEq] at h
  refine Or.inr ⟨hext.1, hext.2, h.1.symm, h.2.symm, Or.inr ⟨l, mesh, hl, hm, not_not.1 hlen, ?_⟩⟩
  intro x hx
  rw [List.any_eq_true] at hmats
  push Not at hmats
  have := hmats x hx
  simp only [ne_eq, Bool.or_eq_true, decide_eq_true_eq, ge_iff_le, not_or, not_lt, not_le] at this
  exact this

theorem any_range {ids : List ℤ} {n : Nat} (h : ¬ ids.any (fun id => decide (id < 0) || decide (id ≥ (n : ℤ))) = true) :
    ∀ x ∈ ids, 0 ≤ x ∧ x < n := by
  rw [List.any_eq_true] at h
  push Not at h
  intro x hx
  have := h x hx
  simp only [ne_eq, Bool.or_eq_true, decide_eq_true_eq, ge_iff_le, not_or, not_lt, not_le] at this
  exact this

theorem any_range_iff {ids : List ℤ} {n : Nat} :
    ids.any (fun id => decide (id < 0) || decide (id ≥ (n : ℤ))) = true ↔ ¬ ∀ x ∈ ids, 0 ≤ x ∧ x < n := by
  constructor
  · intro h hc
    obtain ⟨x, hx, h⟩ := List.any_eq_true.1 h
    have := hc x hx
    simp only [Bool.or_eq_true, decide_eq_true_eq, ge_iff_le] at h
    omega
  · intro h
    by_contra hc
    exact h (any_range hc)

/-- What `addRTM` does. -/
theorem addRTM_cases {sort : List K → List K} {eps : K} {s : Model K M} {ids : List (List ℤ)} {s' : Model K M} {r : ℤ}
    (h : addRTM sort eps s ids = some (s', r)) :
    (s' = s ∧ r = -1) ∨ ∃ xs ys flat, (∀ x ∈ ids.flatten, 0 ≤ x ∧ x < s.cells.length) ∧ Grid.flattenLattice ids [] = some flat ∧
      s' = { s with rtms := s.rtms ++ [⟨xs, ys, flat⟩] } ∧ r = s.rtms.length ∧
      (∀ r0 rest, s.rtms = r0 :: rest → ∃ e0 e, extents r0.xs r0.ys = some e0 ∧ extents xs ys = some e ∧ isApprox eps e0 e = true) := by
  unfold addRTM at h
  dsimp only at h
  split at h
  · simp only [Option.some.injEq, Prod.mk.injEq] at h
    exact Or.inl ⟨h.1.symm, h.2.symm⟩
  rename_i hids
  have hr := any_range hids
  rw [Option.bind_eq_some_iff] at h
  obtain ⟨dxdy, -, h⟩ := h
  rw [Option.bind_eq_some_iff] at h
  obtain ⟨⟨xs, ys⟩, -, h⟩ := h
  dsimp only at h
  split at h
  · rename_i hs
    rw [Option.bind_eq_some_iff] at h
    obtain ⟨flat, hf, h⟩ := h
    simp only [Option.some.injEq, Prod.mk.injEq] at h
    refine Or.inr ⟨xs, ys, flat, hr, hf, ?_, h.2.symm, ?_⟩
    · rw [← h.1, hs]
    · intro r0 rest h'; rw [hs] at h'; simp at h'
  · rename_i r1 rest1 hs
    rw [Option.bind_eq_some_iff] at h
    obtain ⟨e0, he0, h⟩ := h
    rw [Option.bind_eq_some_iff] at h
    obtain ⟨e, he, h⟩ := h
    split at h
    · simp only [Option.some.injEq, Prod.mk.injEq] at h
      exact Or.inl ⟨h.1.symm, h.2.symm⟩
    rename_i happ
    rw [Option.bind_eq_some_iff] at h
    obtain ⟨flat, hf, h⟩ := h
    simp only [Option.some.injEq, Prod.mk.injEq] at h
    refine Or.inr ⟨xs, ys, flat, hr, hf, ?_, h.2.symm, ?_⟩
    · rw [← h.1, hs]
    · intro r0 rest h'
      rw [hs] at h'
      obtain ⟨rfl, -⟩ := List.cons.inj h'
      exact ⟨e0, e, he0, he, by simpa using happ⟩

/-- What `addLattice` does. -/
theorem addLattice_cases {s : Model K M} {ids : List (List ℤ)} {s' : Model K M} {r : ℤ} (h : addLattice s ids = some (s', r)) :
    (s' = s ∧ r = -1) ∨ ∃ e r0 nc, ids ≠ [] ∧ (∀ row ∈ ids, row.length = nc) ∧ (∀ x ∈ ids.flatten, 0 ≤ x ∧ x < s.rtms.length) ∧
      s.rtms.head? = some r0 ∧ extents r0.xs r0.ys = some e ∧
      s' = { s with lattices := s.lattices ++ [⟨e, nc, ids.length, ids.reverse.flatten⟩] } ∧ r = s.lattices.length := by
  unfold addLattice at h
  split at h
  · simp only [Option.some.injEq, Prod.mk.injEq] at h
    exact Or.inl ⟨h.1.symm, h.2.symm⟩
  rename_i hids
  have hr := any_range hids
  split at h
  · exact absurd h (by simp)
  · exact absurd h (by simp)
  rename_i r0 rest row0 rows hs
  rw [Option.bind_eq_some_iff] at h
  obtain ⟨e, he, h⟩ := h
  split at h
  · simp only [Option.some.injEq, Prod.mk.injEq] at h
    exact Or.inl ⟨h.1.symm, h.2.symm⟩
  rename_i hrag
  have hc : ∀ row ∈ row0 :: rows, row.length = row0.length := by
    intro row hrow
    rcases List.mem_cons.1 hrow with rfl | hrow
    · rfl
    · by_contra hne
      exact hrag (List.any_eq_true.2 ⟨row, hrow, decide_eq_true hne⟩)
  rw [flattenLattice_eq _ _ (by simp) hc, Option.bind_some] at h
  simp only [Option.some.injEq, Prod.mk.injEq] at h
  exact Or.inr ⟨e, r0, row0.length, by simp, hc, hr, by rw [hs]; rfl, he, h.1.symm, h.2.symm⟩

theorem isSorted_iff (l : List K) : isSorted l = true ↔ l.Pairwise (· ≤ ·) := by
  induction l with
  | nil => simp [isSorted]
  | cons a l ih =>
    cases l with
    | nil => simp [isSorted]
    | cons b l =>
      rw [isSorted]
      simp only [Bool.and_eq_true, Bool.not_eq_true', decide_eq_false_iff_not, not_lt]
      rw [ih]
      constructor
      · rintro ⟨h1, h2⟩
        refine List.pairwise_cons.2 ⟨?_, h2⟩
        intro x hx
        rcases List.mem_cons.1 hx with rfl | hx
        · exact h1
        · exact h1.trans ((List.pairwise_cons.1 h2).1 x hx)
      · intro h
        exact ⟨(List.pairwise_cons.1 h).1 b (by simp), (List.pairwise_cons.1 h).2⟩

theorem mapM_at?_mem {α : Type} {l : List α} : ∀ {ids : List ℤ} {out : List α}, ids.mapM (at? l) = some out →
    ∀ id ∈ ids, ∃ x ∈ out, at? l id = some x := by
  intro ids
  induction ids with
  | nil => intro out _ id hid; simp at hid
  | cons i ids ih =>
    intro out h id hid
    rw [List.mapM_cons] at h
    simp only [Option.bind_eq_bind, Option.bind_eq_some_iff] at h
    obtain ⟨x, hx, l', hl', h⟩ := h
    simp only [Option.pure_def, Option.some.injEq] at h
    subst h
    rcases List.mem_cons.1 hid with rfl | hid
    · exact ⟨x, by simp, hx⟩
    · obtain ⟨y, hy, h⟩ := ih hl' id hid
      exact ⟨y, by simp [hy], h⟩

theorem placeAssembly_cases {s : Model K M} {ids : List ℤ} {z : List K} {s' : Model K M} {r : ℤ}
    (h : placeAssembly s ids z = some (s', r)) :
    (s' = s ∧ r = -1) ∨ ∃ l0 : Lattice K, ids ≠ [] ∧ (∀ id ∈ ids, ∃ l, at? s.lattices id = some l ∧ l.nx = l0.nx ∧ l.ny = l0.ny) ∧
      s' = { s with assemblies := s.assemblies ++ [⟨z, ids⟩] } ∧ r = s.assemblies.length := by
  unfold placeAssembly at h
  split at h
  · exact absurd h (by simp)
  rename_i id0 rest
  rw [Option.bind_eq_some_iff] at h
  obtain ⟨l0, hl0, h⟩ := h
  rw [Option.bind_eq_some_iff] at h
  obtain ⟨ls, hls, h⟩ := h
  split at h
  · simp only [Option.some.injEq, Prod.mk.injEq] at h
    exact Or.inl ⟨h.1.symm, h.2.symm⟩
  rename_i hany
  simp only [Option.some.injEq, Prod.mk.injEq] at h
  refine Or.inr ⟨l0, by simp, ?_, h.1.symm, h.2.symm⟩
  intro id hid
  obtain ⟨l, hl, hx⟩ := mapM_at?_mem hls id hid
  refine ⟨l, hx, ?_⟩
  by_contra hc
  apply hany
  refine List.any_eq_true.2 ⟨l, hl, ?_⟩
  simp only [Bool.or_eq_true, decide_eq_true_eq]
  by_contra hd
  push Not at hd
  exact hc hd

/-- What `addAssembly` does. -/
theorem addAssembly_cases {eps : K} {s : Model K M} {ids : List ℤ} {z : List K} {s' : Model K M} {r : ℤ}
    (h : addAssembly eps s ids z = some (s', r)) :
    (s' = s ∧ r = -1) ∨ ∃ (z0 z1 : K) (l0 : Lattice K), ids ≠ [] ∧ (∀ x ∈ ids, 0 ≤ x ∧ x < s.lattices.length) ∧ ids.length + 1 = z.length ∧
      z.Pairwise (· ≤ ·) ∧ z.head? = some z0 ∧ z.getLast? = some z1 ∧
      (|z0| ≤ eps ∨ (|z0 + 1 / 2| ≤ eps ∧ |z1 - 1 / 2| ≤ eps)) ∧
      (∀ id ∈ ids, ∃ l, at? s.lattices id = some l ∧ l.nx = l0.nx ∧ l.ny = l0.ny) ∧
      (∀ a rest, s.assemblies = a :: rest → ∃ b0 b1, a.zs.head? = some b0 ∧ a.zs.getLast? = some b1 ∧ |z0 - b0| ≤ eps ∧ |z1 - b1| ≤ eps) ∧
      s' = { s with assemblies := s.assemblies ++ [⟨z, ids⟩] } ∧ r = s.assemblies.length := by
  unfold addAssembly at h
  split at h
  · simp only [Option.some.injEq, Prod.mk.injEq] at h
    exact Or.inl ⟨h.1.symm, h.2.symm⟩
  rename_i hids
  have hr := any_range hids
  split at h
  · simp only [Option.some.injEq, Prod.mk.injEq] at h
    exact Or.inl ⟨h.1.symm, h.2.symm⟩
  rename_i hlen
  split at h
  · simp only [Option.some.injEq, Prod.mk.injEq] at h
    exact Or.inl ⟨h.1.symm, h.2.symm⟩
  rename_i hsort
  have hsort : z.Pairwise (· ≤ ·) := (isSorted_iff z).1 (by simpa using hsort)
  rw [Option.bind_eq_some_iff] at h
  obtain ⟨z0, hz0, h⟩ := h
  rw [Option.bind_eq_some_iff] at h
  obtain ⟨z1, hz1, h⟩ := h
  split at h
  · simp only [Option.some.injEq, Prod.mk.injEq] at h
    exact Or.inl ⟨h.1.symm, h.2.symm⟩
  rename_i hz
  have hz' : |z0| ≤ eps ∨ (|z0 + 1 / 2| ≤ eps ∧ |z1 - 1 / 2| ≤ eps) := by
    by_contra hc
    push Not at hc
    apply hz
    refine ⟨?_, hc.1⟩
    by_contra hd
    push Not at hd
    exact absurd hd.2 (not_le.2 (hc.2 hd.1))
  split at h
  · rename_i hs
    rcases placeAssembly_cases h with h | ⟨l0, h1, h2, h3, h4⟩
    · exact Or.inl h
    · refine Or.inr ⟨z0, z1, l0, h1, hr, not_not.1 hlen, hsort, hz0, hz1, hz', h2, ?_, h3, h4⟩
      intro a rest h'; rw [hs] at h'; simp at h'
  · rename_i a rest hs
    rw [Option.bind_eq_some_iff] at h
    obtain ⟨b0, hb0, h⟩ := h
    rw [Option.bind_eq_some_iff] at h
    obtain ⟨b1, hb1, h⟩ := h
    split at h
    · simp only [Option.some.injEq, Prod.mk.injEq] at h
      exact Or.inl ⟨h.1.symm, h.2.symm⟩
    rename_i hh
    push Not at hh
    rcases placeAssembly_cases h with h | ⟨l0, h1, h2, h3, h4⟩
    · exact Or.inl h
    · refine Or.inr ⟨z0, z1, l0, h1, hr, not_not.1 hlen, hsort, hz0, hz1, hz', h2, ?_, h3, h4⟩
      intro a' rest' h'
      rw [hs] at h'
      obtain ⟨rfl, -⟩ := List.cons.inj h'
      exact ⟨b0, b1, hb0, hb1, hh.2, hh.1⟩

/-- What `addCore` does. -/
theorem addCore_cases {sort : List K → List K} {eps : K} {s : Model K M} {ids : List (List ℤ)} {s' : Model K M} {r : ℤ}
    (h : addCore sort eps s ids = some (s', r)) :
    (s' = s ∧ r = -1) ∨ ∃ xs ys flat, s.core.children = [] ∧ (∀ x ∈ ids.flatten, 0 ≤ x ∧ x < s.assemblies.length) ∧
      Grid.flattenLattice ids [] = some flat ∧ s' = { s with core := ⟨xs, ys, flat⟩ } ∧ r = 0 := by
  unfold addCore at h
  split at h
  · simp only [Option.some.injEq, Prod.mk.injEq] at h
    exact Or.inl ⟨h.1.symm, h.2.symm⟩
  rename_i hcore
  split at h
  · simp only [Option.some.injEq, Prod.mk.injEq] at h
    exact Or.inl ⟨h.1.symm, h.2.symm⟩
  rename_i hids
  rw [Option.bind_eq_some_iff] at h
  obtain ⟨dxdy, -, h⟩ := h
  rw [Option.bind_eq_some_iff] at h
  obtain ⟨⟨xs, ys⟩, -, h⟩ := h
  dsimp only at h
  rw [Option.bind_eq_some_iff] at h
  obtain ⟨flat, hf, h⟩ := h
  simp only [Option.some.injEq, Prod.mk.injEq] at h
  exact Or.inr ⟨xs, ys, flat, not_not.1 hcore, any_range hids, hf, h.1.symm, h.2.symm⟩

/-- What `addCylindricalPinMesh` does. -/
theorem addCylindricalPinMesh_cases {m : Pin.Libm K} {s : Model K M} {pitch : K} {radii : List K} {numRings : List ℤ} {na order : ℤ}
    {s' : Model K M} {r : ℤ} (h : addCylindricalPinMesh m s pitch radii numRings na order = some (s', r)) :
    (s' = s ∧ r = -1) ∨ ∃ mesh, Pin.cylindricalMesh m pitch radii numRings na order = some (some mesh) ∧
      ((order = 1 ∧ s' = { s with quads := s.quads ++ [mesh] } ∧ r = s.quads.length) ∨
        (order ≠ 1 ∧ s' = { s with quad8s := s.quad8s ++ [mesh] } ∧ r = s.quad8s.length)) := by
  unfold addCylindricalPinMesh at h
  split at h
  · exact absurd h (by simp)
  · simp only [Option.some.injEq, Prod.mk.injEq] at h
    exact Or.inl ⟨h.1.symm, h.2.symm⟩
  · rename_i mesh hm
    split at h
    · rename_i ho
      simp only [Option.some.injEq, Prod.mk.injEq] at h
      exact Or.inr ⟨mesh, hm, Or.inl ⟨ho, h.1.symm, h.2.symm⟩⟩
    · rename_i ho
      simp only [Option.some.injEq, Prod.mk.injEq] at h
      exact Or.inr ⟨mesh, hm, Or.inr ⟨ho, h.1.symm, h.2.symm⟩⟩

/-- What `addCylindricalPinCell` does: the mesh step, then possibly a coarse cell. -/
theorem addCylindricalPinCell_cases [DecidableEq N] {m : Pin.Libm K} {name : M → N} {s : Model K M} {pitch : K} {radii : List K}
    {mats : List M} {numRings : List ℤ} {na order : ℤ} {s' : Model K M} {r : ℤ}
    (h : addCylindricalPinCell m name s pitch radii mats numRings na order = some (s', r)) :
    ∃ s1 id, addCylindricalPinMesh m s pitch radii numRings na order = some (s1, id) ∧
      ((s' = s1 ∧ r = -1 ∧ (mats.length ≠ numRings.length + 1 ∨ mats.mapM (findMaterial name s1) = none)) ∨
        ∃ idx, mats.length = numRings.length + 1 ∧ mats.mapM (findMaterial name s1) = some idx ∧ 0 ≤ na ∧ (0 < na → ∀ n ∈ numRings, 0 ≤ n) ∧
          addCoarseCell s1 (pitch, pitch) (if order = 1 then ElemTypes.MeshType.Quad else ElemTypes.MeshType.QuadraticQuad) id
            (cellMats na.toNat idx numRings) = some (s', r)) := by
  unfold addCylindricalPinCell at h
  rw [Option.bind_eq_some_iff] at h
  obtain ⟨⟨s1, id⟩, h1, h⟩ := h
  dsimp only at h
  refine ⟨s1, id, h1, ?_⟩
  split at h
  · rename_i hl
    simp only [Option.some.injEq, Prod.mk.injEq] at h
    exact Or.inl ⟨h.1.symm, h.2.symm, Or.inl hl⟩
  rename_i hl
  split at h
  · rename_i hm
    simp only [Option.some.injEq, Prod.mk.injEq] at h
    exact Or.inl ⟨h.1.symm, h.2.symm, Or.inr hm⟩
  rename_i idx hidx
  split at h
  · exact absurd h (by simp)
  rename_i hna
  split at h
  · exact absurd h (by simp)
  rename_i hneg
  refine Or.inr ⟨idx, not_not.1 hl, hidx, not_lt.1 hna, ?_, h⟩
  intro hp n hn
  by_contra hc
  exact hneg ⟨hp, List.any_eq_true.2 ⟨n, hn, decide_eq_true (not_le.1 hc)⟩⟩

end Verif.Mpact
