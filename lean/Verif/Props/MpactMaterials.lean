import Verif.Props.Mpact
import Mathlib.Data.List.GetD

/-!
# C67 Material ids survive narrowing
-/

namespace Verif.Mpact

open Verif.Pin (Mesh Libm)

set_option linter.unusedSectionVars false
variable {K M N : Type} [Field K] [LinearOrder K] [DecidableEq N]

/-- The name of the material with this id. -/
def matName (name : M → N) (materials : List M) (x : Int8) : Option N :=
  if x.toInt < 0 then none else (materials[x.toInt.toNat]?).map name

theorem toInt_ofInt_small {n : Nat} (h : n < 128) : (Int8.ofInt n).toInt = n := by
  rw [Int8.toInt_ofInt]
  have : (Int8.size : ℤ) = 256 := rfl
  rw [Int.bmod_def, this]
  split <;> omega

theorem matName_ofInt (name : M → N) {materials : List M} (h128 : materials.length ≤ 128) {n : N} {i : Nat}
    (h : materials.findIdx? (fun x => decide (name x = n)) = some i) : matName name materials (Int8.ofInt i) = some n := by
  rw [List.findIdx?_eq_some_iff_getElem] at h
  obtain ⟨hi, h, -⟩ := h
  have e := toInt_ofInt_small (n := i) (by omega)
  unfold matName
  rw [e, if_neg (by omega), Int.toNat_natCast, List.getElem?_eq_getElem hi, Option.map_some, of_decide_eq_true h]

/-! ## Pin cells -/

/-- The materials the caller asked for, face by face: region `i` has `rings[i]` rings of `na` faces, the outermost region (up to the pitch) `na`
faces. -/
def wantedMats (na : Nat) : List N → List ℤ → List N
  | x :: xs, n :: ns => List.replicate (n.toNat * na) x ++ wantedMats na xs ns
  | [x], [] => List.replicate na x
  | _, _ => []

theorem cellMats_names (name : M → N) {materials : List M} (na : Nat) : ∀ (rings : List ℤ) (idx : List Nat) (names : List N), idx.length = names.length →
    names.length = rings.length + 1 → (∀ (k i : Nat) (n : N), idx[k]? = some i → names[k]? = some n → matName name materials (Int8.ofInt i) = some n) →
    (cellMats na idx rings).map (matName name materials) = (wantedMats na names rings).map some := by
  intro rings
  induction rings with
  | nil =>
    intro idx names h1 h2 h
    match idx, names with
    | [i], [n] =>
      have := h 0 i n rfl rfl
      simp [cellMats, wantedMats, this]
    | [], _ => simp at h1; rw [← h1] at h2; simp at h2
    | _ :: _ :: _, _ => simp at h1 h2; omega
    | [_], [] => simp at h1
    | [_], _ :: _ :: _ => simp at h1
  | cons r rings ih =>
    intro idx names h1 h2 h
    match idx, names with
    | i :: idx, n :: names =>
      have h0 := h 0 i n rfl rfl
      rw [cellMats, wantedMats, List.map_append, List.map_append, ih idx names (by simpa using h1) (by simpa using h2)
        fun k i n hi hn => h (k + 1) i n (by simpa using hi) (by simpa using hn)]
      simp [h0]
    | [], [] => simp at h2
    | [], _ :: _ => simp at h1
    | _ :: _, [] => simp at h1

theorem mapM_getElem? {α β : Type} {f : α → Option β} : ∀ {l : List α} {out : List β}, l.mapM f = some out → out.length = l.length ∧
    ∀ (k : Nat) (x : α) (y : β), l[k]? = some x → out[k]? = some y → f x = some y := by
  intro l
  induction l with
  | nil => intro out h; simp at h; subst h; simp
  | cons a l ih =>
    intro out h
    rw [List.mapM_cons] at h
    simp only [Option.bind_eq_bind, Option.bind_eq_some_iff] at h
    obtain ⟨y, hy, out', h', h⟩ := h
    simp only [Option.pure_def, Option.some.injEq] at h
    subst h
    obtain ⟨i1, i2⟩ := ih h'
    refine ⟨by simp [i1], ?_⟩
    intro k x z hx hz
    cases k with
    | zero => simp at hx hz; rw [← hx, ← hz]; exact hy
    | succ k => simp at hx hz; exact i2 k x z hx hz

/-- **C67.**  In a model with at most 128 materials, the faces of a new pin cell get the materials named by the caller. -/
theorem C67_pinCell_partial (m : Libm K) (name : M → N) (s s' : Model K M) (pitch : K) (radii : List K) (mats : List M) (rings : List ℤ) (na o r : ℤ)
    (h128 : s.materials.length ≤ 128) (h : addCylindricalPinCell m name s pitch radii mats rings na o = some (s', r)) (hr : r ≠ -1) :
    s'.materials = s.materials ∧ ∃ c, s'.cells = s.cells ++ [c] ∧
      c.mats.map (matName name s'.materials) = (wantedMats na.toNat (mats.map name) rings).map some := by
  obtain ⟨s1, id, h1, ⟨-, h2, -⟩ | ⟨idx, hlen, hidx, -, -, h2⟩⟩ := addCylindricalPinCell_cases h
  · exact absurd h2 hr
  have hs1 : s1.materials = s.materials ∧ s1.cells = s.cells := by
    rcases addCylindricalPinMesh_cases h1 with ⟨rfl, -⟩ | ⟨mesh, -, ⟨-, rfl, -⟩ | ⟨-, rfl, -⟩⟩ <;> exact ⟨rfl, rfl⟩
  rcases addCoarseCell_cases h2 with ⟨-, h3⟩ | ⟨-, -, h3, h4, -⟩
  · exact absurd h3 hr
  · subst h3
    refine ⟨hs1.1, ⟨_, _, _, _⟩, by dsimp only; rw [hs1.2], ?_⟩
    dsimp only
    obtain ⟨e1, e2⟩ := mapM_getElem? hidx
    apply cellMats_names
    · rw [e1, List.length_map]
    · rw [List.length_map]; exact hlen
    · intro k i n hi hn
      rw [List.getElem?_map, Option.map_eq_some_iff] at hn
      obtain ⟨x, hx, rfl⟩ := hn
      have := e2 k x i hx hi
      exact matName_ofInt name (by rw [hs1.1]; exact h128) this

/-! ## Import -/

/-- The last of the sets that contain an element. -/
def lastSet (sets : List (N × List ℤ)) (k : Nat) : Option N :=
  ((sets.filter fun st => decide ((k : ℤ) ∈ st.2)).getLast?).map (·.1)

theorem assignAll_spec (v : Int8) : ∀ (ids : List ℤ) (l l' : List Int8), assignAll v ids l = some l' →
    l'.length = l.length ∧ ∀ k : Nat, k < l.length → l'[k]? = if (k : ℤ) ∈ ids then some v else l[k]? := by
  intro ids
  induction ids with
  | nil => intro l l' h; cases h; simp
  | cons i ids ih =>
    intro l l' h
    rw [assignAll] at h
    split at h
    · exact absurd h (by simp)
    rename_i hi
    push Not at hi
    obtain ⟨h1, h2⟩ := ih _ _ h
    rw [List.length_set] at h1 h2
    refine ⟨h1, fun k hk => ?_⟩
    rw [h2 k hk]
    by_cases hki : (k : ℤ) = i
    · have : i.toNat = k := by omega
      rw [if_pos (show (k : ℤ) ∈ i :: ids by simp [hki]), this]
      split
      · rfl
      · rw [List.getElem?_set_self (by omega)]
    · have : i.toNat ≠ k := by omega
      rw [List.getElem?_set_ne this]
      simp [hki]

theorem assignAll_none (v : Int8) : ∀ (ids : List ℤ) (l : List Int8),
    assignAll v ids l = none ↔ ∃ i ∈ ids, i < 0 ∨ l.length ≤ i := by
  intro ids
  induction ids with
  | nil => intro l; simp [assignAll]
  | cons i ids ih =>
    intro l
    rw [assignAll]
    split
    · rename_i hi
      simp [hi]
    · rename_i hi
      rw [ih, List.length_set]
      simp [hi]

/-- When every material is known, the assignment of the materials is defined exactly if every id of every set is the id of a
face. -/
theorem C67_import_range (name : M → N) {materials : List M} : ∀ (sets : List (N × List ℤ)) (l : List Int8),
    (∀ st ∈ sets, ∃ x ∈ materials, name x = st.1) →
    (assignSets name materials sets l = none ↔ ∃ st ∈ sets, ∃ i ∈ st.2, i < 0 ∨ (l.length : ℤ) ≤ i) := by
  intro sets
  induction sets with
  | nil => intro l _; simp [assignSets]
  | cons st sets ih =>
    intro l hm
    obtain ⟨n, ids⟩ := st
    rw [assignSets]
    obtain ⟨x, hx, hn⟩ := hm (n, ids) (by simp)
    cases hf : materials.findIdx? fun x => decide (name x = n) with
    | none =>
      rw [List.findIdx?_eq_none_iff] at hf
      have := hf x hx
      simp at this
      exact absurd hn this
    | some i =>
      dsimp only
      cases ha : assignAll (Int8.ofInt i) ids l with
      | none =>
        rw [assignAll_none] at ha
        simp only [Option.bind_none, true_iff]
        exact ⟨_, List.mem_cons_self, ha⟩
      | some l' =>
        have hlen := (assignAll_spec _ _ _ _ ha).1
        have hno : ¬ ∃ i ∈ ids, i < 0 ∨ (l.length : ℤ) ≤ i := by
          rw [← assignAll_none (Int8.ofInt i), ha]; simp
        rw [Option.bind_some, ih l' (fun st hst => hm st (List.mem_cons_of_mem _ hst)), hlen]
        simp only [List.mem_cons, exists_eq_or_imp]
        exact ⟨fun h => Or.inr h, fun h => h.resolve_left hno⟩

theorem assignSets_spec (name : M → N) {materials : List M} (h128 : materials.length ≤ 128) : ∀ (sets : List (N × List ℤ)) (l l' : List Int8),
    assignSets name materials sets l = some (l', true) → l'.length = l.length ∧ (∀ st ∈ sets, ∃ x ∈ materials, name x = st.1) ∧
    ∀ k : Nat, k < l.length → (∀ n, lastSet sets k = some n → ∃ x, l'[k]? = some x ∧ matName name materials x = some n) ∧
      (lastSet sets k = none → l'[k]? = l[k]?) := by
  intro sets
  induction sets with
  | nil => intro l l' h; cases h; exact ⟨rfl, by simp, fun k hk => ⟨fun n hn => by simp [lastSet] at hn, fun _ => rfl⟩⟩
  | cons st sets ih =>
    intro l l' h
    obtain ⟨n, ids⟩ := st
    rw [assignSets] at h
    split at h
    · exact absurd h (by simp)
    rename_i i hi
    rw [Option.bind_eq_some_iff] at h
    obtain ⟨l1, h1, h2⟩ := h
    obtain ⟨a1, a2⟩ := assignAll_spec _ _ _ _ h1
    obtain ⟨b1, b2, b3⟩ := ih _ _ h2
    refine ⟨b1.trans a1, ?_, ?_⟩
    · intro st hst
      rcases List.mem_cons.1 hst with rfl | hst
      · rw [List.findIdx?_eq_some_iff_getElem] at hi
        obtain ⟨hlt, h, -⟩ := hi
        exact ⟨_, List.getElem_mem hlt, of_decide_eq_true h⟩
      · exact b2 st hst
    · intro k hk
      obtain ⟨c1, c2⟩ := b3 k (by omega)
      have hl : lastSet ((n, ids) :: sets) k = (lastSet sets k).or (if (k : ℤ) ∈ ids then some n else none) := by
        unfold lastSet
        rw [List.filter_cons]
        by_cases hk' : (k : ℤ) ∈ ids
        · simp only [hk', decide_true, if_true]
          cases hf : sets.filter fun st => decide ((k : ℤ) ∈ st.2) with
          | nil => simp
          | cons x xs => rw [List.getLast?_cons_cons]; simp [List.getLast?_cons]
        · simp [hk']
      rw [hl]
      cases hs : lastSet sets k with
      | some n' =>
        simp only [Option.some_or]
        refine ⟨fun n'' h => ?_, fun h => by simp at h⟩
        rw [← Option.some.inj h]
        exact c1 n' hs
      | none =>
        simp only [Option.none_or]
        rw [c2 hs, a2 k hk]
        by_cases hk' : (k : ℤ) ∈ ids
        · simp only [hk', if_true]
          refine ⟨fun n'' h => ⟨_, rfl, ?_⟩, fun h => by simp at h⟩
          rw [← Option.some.inj h]
          exact matName_ofInt name h128 hi
        · simp [hk']

/-- **C67.**  In a model with at most 128 materials, an import that goes on has given every face the material of the last set that contains it, every face
is in a set and every set has an existing material. -/
theorem C67_import_partial (name : M → N) (s s' : Model K M) (icc : Nat) (c : ImportCell K N) (h128 : s.materials.length ≤ 128)
    (h : importCell name s icc c = some (s', true)) :
    (∀ st ∈ c.sets, ∃ x ∈ s.materials, name x = st.1) ∧
    ∃ cell, s'.cells[icc]? = some cell ∧ s'.materials = s.materials ∧ cell.meshType = c.meshType ∧ IsMeshOf s' cell c.mesh ∧
      cell.mats.length = c.mesh.faces.length ∧
      ∀ k < c.mesh.faces.length, ∃ n x, lastSet c.sets k = some n ∧ cell.mats[k]? = some x ∧ matName name s'.materials x = some n := by
  unfold importCell at h
  rw [Option.bind_eq_some_iff] at h
  obtain ⟨cell0, hcell0, h⟩ := h
  rw [Option.bind_eq_some_iff] at h
  obtain ⟨⟨ids, found⟩, h1, h⟩ := h
  dsimp only at h
  split at h
  · exact absurd h (by simp)
  rename_i hfound
  have hfound : found = true := by simpa using hfound
  subst hfound
  split at h
  · exact absurd h (by simp)
  rename_i hany
  obtain ⟨a1, a2, a3⟩ := assignSets_spec name h128 _ _ _ h1
  rw [List.length_replicate] at a1 a3
  have hlt : icc < s.cells.length := (List.getElem?_eq_some_iff.1 hcell0).1
  have hmats : ∀ k < c.mesh.faces.length, ∃ n x, lastSet c.sets k = some n ∧ ids[k]? = some x ∧ matName name s.materials x = some n := by
    intro k hk
    cases hs : lastSet c.sets k with
    | none =>
      exfalso
      apply hany
      have := (a3 k hk).2 hs
      rw [List.getElem?_replicate, if_pos hk] at this
      exact List.any_eq_true.2 ⟨-1, List.mem_of_getElem? this, by decide⟩
    | some n =>
      obtain ⟨x, hx, hn⟩ := (a3 k hk).1 n hs
      exact ⟨n, x, rfl, hx, hn⟩
  split at h
  · exact absurd h (by simp)
  rename_i s2 id hpush
  simp only [Option.some.injEq, Prod.mk.injEq, and_true] at h
  subst h
  refine ⟨a2, _, List.getElem?_set_self hlt, ?_⟩
  dsimp only
  unfold pushMesh at hpush
  have app : ∀ l : List (Mesh K), (l ++ [c.mesh])[l.length]? = some c.mesh := fun l => by simp
  split at hpush
  · rename_i ht
    cases hpush
    exact ⟨rfl, rfl, ⟨by positivity, Or.inl ⟨ht, by dsimp only; rw [Int.toNat_natCast]; exact app _⟩⟩, a1, hmats⟩
  split at hpush
  · rename_i ht
    cases hpush
    exact ⟨rfl, rfl, ⟨by positivity, Or.inr (Or.inl ⟨ht, by dsimp only; rw [Int.toNat_natCast]; exact app _⟩)⟩, a1, hmats⟩
  split at hpush
  · rename_i ht
    cases hpush
    exact ⟨rfl, rfl, ⟨by positivity, Or.inr (Or.inr (Or.inl ⟨ht, by dsimp only; rw [Int.toNat_natCast]; exact app _⟩))⟩, a1, hmats⟩
  split at hpush
  · rename_i ht
    cases hpush
    exact ⟨rfl, rfl, ⟨by positivity, Or.inr (Or.inr (Or.inr ⟨ht, by dsimp only; rw [Int.toNat_natCast]; exact app _⟩))⟩, a1, hmats⟩
  · exact absurd hpush (by simp)

/-! ## More materials -/

section Examples

/-- A model with `n` materials named `0, 1, …`. -/
def exMats (n : Nat) : Model ℚ Nat := { Model.empty ℚ Nat with materials := List.range n, cells := [⟨(1, 1), ElemTypes.MeshType.Invalid, -1, []⟩] }

def exImport (x : Nat) : ImportCell ℚ Nat := ⟨ElemTypes.MeshType.Quad, ⟨[], [[0, 1, 2, 3], [1, 4, 5, 2]]⟩, [(0, [0, 1]), (x, [1])]⟩

def exResult (r : Option (Model ℚ Nat × Bool)) : Option (List (List Int8) × Bool) := r.map fun st => (st.1.cells.map fun c => c.mats, st.2)

/-- Material 256 is stored as material 0 … -/
theorem C67_import_alias_fails : exResult (importCell (fun x => x) (exMats 257) 0 (exImport 256)) = some ([[0, 0]], true) := by
  decide +kernel

/-- … 200 as a negative id, without complaint … -/
theorem C67_import_negative_fails : exResult (importCell (fun x => x) (exMats 257) 0 (exImport 200)) = some ([[0, -56]], true) := by
  decide +kernel

/-- … and with 255 the import is aborted. -/
theorem C67_import_255_fails : exResult (importCell (fun x => x) (exMats 257) 0 (exImport 255)) = some ([[0, -1]], false) := by
  decide +kernel

/-- Pin cells: 256 is stored as 0 … -/
theorem C67_pinCell_alias_fails : ((addCylindricalPinCell exLibm (fun x => x) (exMats 257) 2 [1 / 2] [0, 256] [1] 8 1).map fun st =>
    (st.1.cells.map fun c => c.mats, st.2)) = some ([[], List.replicate 16 0], 1) := by
  decide +kernel

/-- … and a pin cell of material 128 is rejected, although that material exists. -/
theorem C67_pinCell_128_fails : ((addCylindricalPinCell exLibm (fun x => x) (exMats 257) 2 [1 / 2] [0, 128] [1] 8 1).map fun st =>
    (st.1.cells.map fun c => c.mats, st.2)) = some ([[]], -1) := by
  decide +kernel

/-- With few materials: region 0 has `1 * 8` faces, the rest 8. -/
example : ((addCylindricalPinCell exLibm (fun x => x) (exMats 3) 2 [1 / 2] [2, 1] [1] 8 1).map fun st =>
    (st.1.cells.map fun c => c.mats, st.2)) = some ([[], List.replicate 8 2 ++ List.replicate 8 1], 1) := by
  decide +kernel

example : exResult (importCell (fun x => x) (exMats 3) 0 (exImport 2)) = some ([[0, 2]], true) := by
  decide +kernel

/-- An import that stops halfway leaves a cell whose materials are not set. -/
theorem C67_import_abort_fails : exResult (importCell (fun x => x) (exMats 3) 0 ⟨ElemTypes.MeshType.Quad, ⟨[], [[0, 1, 2, 3], [1, 4, 5, 2]]⟩, [(0, [0]), (7, [1])]⟩) =
    some ([[0, -1]], false) := by
  decide +kernel

end Examples

end Verif.Mpact
