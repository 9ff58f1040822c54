import Verif.Model.Grid
import Mathlib.Data.List.Basic
import Mathlib.Data.List.Range
import Mathlib.Tactic.Linarith
import Mathlib.Tactic.Ring
import Mathlib.Tactic.SplitIfs

/-!
# C39: children of partitions and lattices are placed by row from the bottom
-/

namespace Verif.Grid

variable {α : Type}

theorem fillRow_spec (src : List (List α)) (top nc i : Nat) (row : List α) (hi : i ≤ top)
    (hrow : src[top - i]? = some row) (js : List Nat) : ∀ arr : List α,
    (∀ j ∈ js, j < row.length ∧ i * nc + j < arr.length) →
    ∃ arr', fillRow src top nc i arr js = some arr' ∧ arr'.length = arr.length ∧
      (∀ j ∈ js, arr'[i * nc + j]? = row[j]?) ∧
      ∀ k, (∀ j ∈ js, k ≠ i * nc + j) → arr'[k]? = arr[k]? := by
  induction js with
  | nil => intro arr _; exact ⟨arr, rfl, rfl, by simp, fun k _ => rfl⟩
  | cons j js ih =>
    intro arr h
    obtain ⟨hj, hk⟩ := h j (List.mem_cons_self ..)
    obtain ⟨arr', e, l, p1, p2⟩ := ih (arr.set (i * nc + j) row[j]) fun j' hj' => by
      rw [List.length_set]; exact h j' (List.mem_cons_of_mem _ hj')
    refine ⟨arr', ?_, by rw [l, List.length_set], ?_, ?_⟩
    · rw [fillRow, if_neg (by omega), hrow, Option.bind_some, List.getElem?_eq_getElem hj, Option.bind_some,
        set?, if_pos hk, Option.bind_some, e]
    · intro j' hj'
      by_cases hm : j' ∈ js
      · exact p1 j' hm
      · have : j' = j := by
          rcases List.mem_cons.1 hj' with h | h
          · exact h
          · exact absurd h hm
        subst this
        rw [p2 _ fun j'' hj'' hc => hm (by have : j' = j'' := by omega
                                           rw [this]; exact hj''),
          List.getElem?_set_self hk, List.getElem?_eq_getElem hj]
    · intro k hk'
      rw [p2 k fun j' hj' => hk' j' (List.mem_cons_of_mem _ hj'),
        List.getElem?_set_ne fun hc => hk' j (List.mem_cons_self ..) hc.symm]

theorem fillRows_spec (src : List (List α)) (top nc : Nat) (is : List Nat) : ∀ arr : List α,
    (∀ i ∈ is, i ≤ top ∧ ∃ row, src[top - i]? = some row ∧ nc ≤ row.length ∧ i * nc + nc ≤ arr.length) →
    ∃ arr', fillRows src top nc arr is = some arr' ∧ arr'.length = arr.length ∧
      (∀ i ∈ is, ∀ j < nc, arr'[i * nc + j]? = (src[top - i]?).bind fun r => r[j]?) ∧
      ∀ k, (∀ i ∈ is, ∀ j < nc, k ≠ i * nc + j) → arr'[k]? = arr[k]? := by
  induction is with
  | nil => intro arr _; exact ⟨arr, rfl, rfl, by simp, fun k _ => rfl⟩
  | cons i is ih =>
    intro arr h
    obtain ⟨hi, row, hrow, hl, hk⟩ := h i (List.mem_cons_self ..)
    obtain ⟨arr1, e1, l1, q1, q2⟩ := fillRow_spec src top nc i row hi hrow (List.range nc) arr fun j hj => by
      rw [List.mem_range] at hj; omega
    obtain ⟨arr2, e2, l2, p1, p2⟩ := ih arr1 fun i' hi' => by
      rw [l1]; exact h i' (List.mem_cons_of_mem _ hi')
    refine ⟨arr2, by rw [fillRows, e1, Option.bind_some, e2], by rw [l2, l1], ?_, ?_⟩
    · intro i' hi' j hj
      by_cases hm : i' ∈ is
      · exact p1 i' hm j hj
      · have : i' = i := by
          rcases List.mem_cons.1 hi' with h | h
          · exact h
          · exact absurd h hm
        subst this
        rw [p2 _ fun i'' hi'' j' hj' hc => hm ?_, q1 j (List.mem_range.2 hj), hrow, Option.bind_some]
        have h1 : (i' * nc + j) / nc = i' := by
          rw [Nat.mul_comm, Nat.mul_add_div (by omega), Nat.div_eq_of_lt hj, Nat.add_zero]
        have h2 : (i'' * nc + j') / nc = i'' := by
          rw [Nat.mul_comm, Nat.mul_add_div (by omega), Nat.div_eq_of_lt hj', Nat.add_zero]
        have : i' = i'' := by rw [← h1, hc, h2]
        rw [this]; exact hi''
    · intro k hk'
      rw [p2 k fun i' hi' => hk' i' (List.mem_cons_of_mem _ hi'),
        q2 k fun j hj => hk' i (List.mem_cons_self ..) j (List.mem_range.1 hj)]

/-- Filling an array of `nr * nc` entries from `nr` rows of length `nc`. -/
theorem fill_all (src : List (List α)) (nc : Nat) (hne : src ≠ []) (hc : ∀ r ∈ src, r.length = nc)
    (arr : List α) (hl : arr.length = src.length * nc) :
    ∃ arr', fillRows src (src.length - 1) nc arr (List.range src.length) = some arr' ∧
      arr'.length = src.length * nc ∧
      ∀ i j, i < nc → j < src.length →
        arr'[i + j * nc]? = (src[src.length - 1 - j]?).bind fun r => r[i]? := by
  have hpos : 0 < src.length := List.length_pos_iff.2 hne
  obtain ⟨arr', e, l, p, -⟩ := fillRows_spec src (src.length - 1) nc (List.range src.length) arr fun i hi => by
    rw [List.mem_range] at hi
    have hlt : src.length - 1 - i < src.length := by omega
    refine ⟨by omega, src[src.length - 1 - i], List.getElem?_eq_getElem hlt, ?_, ?_⟩
    · rw [hc _ (List.getElem_mem hlt)]
    · rw [hl, ← Nat.succ_mul]; exact Nat.mul_le_mul_right _ hi
  refine ⟨arr', e, by rw [l, hl], ?_⟩
  intro i j hi hj
  rw [Nat.add_comm, p j (List.mem_range.2 hj) i hi]

/-- A rectilinear partition over `nx × ny` cells built from `ny` rows of `nx` ids: child `(i, j)` is the
entry in column `i` of the `j`-th row from the bottom (the last row of the list is the bottom one). -/
theorem C39_partition [Inhabited α] (nx ny : Nat) (ids : List (List α)) (hy : ids.length = ny)
    (hpos : 0 < ny) (hx : ∀ r ∈ ids, r.length = nx) :
    ∃ ch, partitionChildren nx ny ids = some ch ∧ ch.length = nx * ny ∧
      ∀ i j, i < nx → j < ny → getChild nx ch i j = (ids.reverse[j]?).bind fun r => r[i]? := by
  subst hy
  obtain ⟨ch, e, l, p⟩ := fill_all ids nx (List.length_pos_iff.1 hpos) hx
    (List.replicate (nx * ids.length) default) (by rw [List.length_replicate, Nat.mul_comm])
  refine ⟨ch, e, by rw [l, Nat.mul_comm], ?_⟩
  intro i j hi hj
  rw [getChild, p i j hi hj, List.getElem?_reverse hj]

/-- `flattenLattice` on a rectangular lattice: entry `i + j * num_cols` is the entry in column `i` of the `j`-th
row from the bottom, whatever the output vector held before. -/
theorem C39_flatten [Inhabited α] (ids : List (List α)) (flat : List α) (nc : Nat) (hne : ids ≠ [])
    (hc : ∀ r ∈ ids, r.length = nc) :
    ∃ out, flattenLattice ids flat = some out ∧ out.length = ids.length * nc ∧
      ∀ i j, i < nc → j < ids.length → out[i + j * nc]? = (ids.reverse[j]?).bind fun r => r[i]? := by
  cases ids with
  | nil => exact absurd rfl hne
  | cons r0 rows =>
    have h0 : r0.length = nc := hc r0 (List.mem_cons_self ..)
    subst h0
    unfold flattenLattice
    dsimp only
    rw [if_neg (by
      rw [List.any_eq_true]; rintro ⟨r, hr, h⟩
      exact of_decide_eq_true h (hc r (List.mem_cons_of_mem _ hr)))]
    obtain ⟨ch, e, l, p⟩ := fill_all (r0 :: rows) r0.length hne hc
      (flat.take ((rows.length + 1) * r0.length) ++
        List.replicate ((rows.length + 1) * r0.length - flat.length) default) (by
        rw [List.length_append, List.length_take, List.length_replicate, List.length_cons]; omega)
    refine ⟨ch, e, l, ?_⟩
    intro i j hi hj
    rw [p i j hi hj, List.getElem?_reverse hj]

/-- A lattice with rows of different lengths is rejected: the output vector is left alone. -/
theorem C39_ragged [Inhabited α] (r0 : List α) (rows : List (List α)) (flat : List α)
    (h : ∃ r ∈ rows, r.length ≠ r0.length) : flattenLattice (r0 :: rows) flat = some flat := by
  unfold flattenLattice
  dsimp only
  rw [if_pos]
  obtain ⟨r, hr, h⟩ := h
  exact List.any_eq_true.2 ⟨r, hr, decide_eq_true h⟩

/-- `mapFlatIndexToLattice2D` finds the flattened entry again: it sends `i + j * nx` to column `i`
of the `j`-th row from the bottom. -/
theorem C39_mapFlat (nx ny i j : Nat) (hi : i < nx) (_ : j < ny) :
    mapFlat ((i + j * nx : Nat) : ℤ) nx ny = some ((i : ℤ), ((ny - 1 - j : Nat) : ℤ)) := by
  have hx : (nx : ℤ) ≠ 0 := by omega
  unfold mapFlat
  rw [if_neg hx]
  have h1 : ((i + j * nx : Nat) : ℤ).tmod nx = i := by
    rw [Int.tmod_eq_emod_of_nonneg (by omega), ← Int.natCast_mod, Nat.add_mul_mod_self_right, Nat.mod_eq_of_lt hi]
  have h2 : ((i + j * nx : Nat) : ℤ).tdiv nx = j := by
    rw [Int.tdiv_eq_ediv_of_nonneg (by omega), ← Int.natCast_ediv, Nat.add_mul_div_right _ _ (by omega), Nat.div_eq_of_lt hi, Nat.zero_add]
  rw [h1, h2]
  congr 2
  omega

/-- Reading a lattice back: writing the flat entries to `ids[row][col]` as `mapFlatIndexToLattice2D` says
gives the original lattice. -/
theorem C39_roundtrip [Inhabited α] (ids : List (List α)) (nc : Nat) (hne : ids ≠ [])
    (hc : ∀ r ∈ ids, r.length = nc) (out : List α) (h : flattenLattice ids [] = some out)
    (k : Nat) (hk : k < out.length) :
    ∃ col row : Nat, mapFlat k nc ids.length = some ((col : ℤ), (row : ℤ)) ∧
      out[k]? = (ids[row]?).bind fun r => r[col]? := by
  obtain ⟨out', e, l, p⟩ := C39_flatten ids [] nc hne hc
  rw [h, Option.some.injEq] at e
  subst e
  have hnc : 0 < nc := by
    rcases Nat.eq_zero_or_pos nc with h | h
    · rw [l, h] at hk; simp at hk
    · exact h
  have hj : k / nc < ids.length := by rw [Nat.div_lt_iff_lt_mul hnc, ← l]; exact hk
  have hi : k % nc < nc := Nat.mod_lt _ hnc
  have hk' : k = k % nc + k / nc * nc := by rw [Nat.mul_comm]; exact (Nat.mod_add_div k nc).symm
  refine ⟨k % nc, ids.length - 1 - k / nc, ?_, ?_⟩
  · have := C39_mapFlat nc ids.length (k % nc) (k / nc) hi hj
    rw [← hk'] at this
    exact this
  · conv_lhs => rw [hk']
    rw [p _ _ hi hj, List.getElem?_reverse hj]

/-- `addCoarseGrid` numbers its ray tracing modules row by row from the bottom left: after flattening, child
`k` is module `k`. -/
theorem C39_coarseGrid (nx ny : Nat) (hy : 0 < ny) :
    flattenLattice (coarseGridIds nx ny) [] = some (List.range (nx * ny)) := by
  have hl : (coarseGridIds nx ny).length = ny := by simp [coarseGridIds]
  obtain ⟨out, e, l, p⟩ := C39_flatten (coarseGridIds nx ny) [] nx
    (by rw [← List.length_pos_iff, hl]; exact hy) (by
      intro r hr
      obtain ⟨_, _, rfl⟩ := List.mem_map.1 hr
      simp)
  rw [e, Option.some.injEq]
  apply List.ext_getElem?
  intro k
  by_cases hk : k < nx * ny
  · have hnx : 0 < nx := by
      rcases Nat.eq_zero_or_pos nx with h | h
      · rw [h] at hk; simp at hk
      · exact h
    have hj : k / nx < ny := by rw [Nat.div_lt_iff_lt_mul hnx, Nat.mul_comm]; exact hk
    have hi : k % nx < nx := Nat.mod_lt _ hnx
    have hk' : k = k % nx + k / nx * nx := by rw [Nat.mul_comm]; exact (Nat.mod_add_div k nx).symm
    have hj0 : 0 ≤ k / nx := Nat.zero_le _
    conv_rhs => rw [List.getElem?_range hk]
    conv_lhs => rw [hk']
    generalize k / nx = q at *
    generalize k % nx = r at *
    rw [p _ _ hi (by rw [hl]; exact hj), List.getElem?_reverse (by rw [hl]; exact hj), hl]
    unfold coarseGridIds
    rw [List.getElem?_map, List.getElem?_range (by omega), Option.map_some, Option.bind_some, List.getElem?_map,
      List.getElem?_range hi, Option.map_some]
    congr 1
    rw [show ny - 1 - (ny - 1 - q) = q by omega]
    omega
  · rw [List.getElem?_eq_none (by rw [l, hl, Nat.mul_comm]; omega),
      List.getElem?_eq_none (by rw [List.length_range]; omega)]

example : flattenLattice [[2, 3], [0, 1]] ([] : List Nat) = some [0, 1, 2, 3] := by decide
example : (partitionChildren 3 2 [[4, 5, 6], [1, 2, 3]] : Option (List Nat)).bind (getChild 3 · 2 1) = some 6 := by
  decide

end Verif.Grid
