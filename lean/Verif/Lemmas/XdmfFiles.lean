import Verif.Model.XdmfFiles
import Verif.Props.XDMF

/-! Lemmas on the names of XDMF files (C116). -/

namespace Verif.XdmfFiles

open Verif.XDMF
open Verif.XSLib (Res)

theorem lastSlashLoop_none (p : Name) : ∀ n, (∀ i < n, p[i]? ≠ some '/') → lastSlashLoop p n = none := by
  intro n
  induction n with
  | zero => intro _; rfl
  | succ n ih =>
    intro h
    rw [lastSlashLoop, if_neg (h n (by omega))]
    exact ih fun i hi => h i (by omega)

theorem lastSlashLoop_some (p : Name) (k : Nat) (hk : p[k]? = some '/') : ∀ n, k < n → (∀ i, k < i → i < n → p[i]? ≠ some '/') →
    lastSlashLoop p n = some k := by
  intro n
  induction n with
  | zero => intro h; omega
  | succ n ih =>
    intro h1 h2
    rw [lastSlashLoop]
    by_cases e : n = k
    · subst e
      rw [if_pos hk]
    · rw [if_neg (h2 n (by omega) (by omega))]
      exact ih (by omega) fun i hi hi' => h2 i hi (by omega)

theorem get_ne {p : Name} (h : '/' ∉ p) (i : Nat) : p[i]? ≠ some '/' := fun e => h (List.mem_of_getElem? e)

theorem lastSlash_none {p : Name} (h : '/' ∉ p) : lastSlash p = none := lastSlashLoop_none p _ fun i _ => get_ne h i

theorem lastSlash_some (d n : Name) (h : '/' ∉ n) : lastSlash (d ++ '/' :: n) = some d.length := by
  refine lastSlashLoop_some _ _ (by simp) _ (by simp) fun i hi _ => ?_
  rw [List.getElem?_append_right (by omega)]
  obtain ⟨k, hk⟩ : ∃ k, i - d.length = k + 1 := ⟨i - d.length - 1, by omega⟩
  rw [hk]
  exact get_ne h k

theorem substr_ok (p : Name) (a b : Nat) (h : a + b ≤ p.length) : substr p a b = .ok ((p.drop a).take b) := by
  unfold substr
  have : min (b : ℤ) ((p.length : ℤ) - a) = b := by omega
  simp only [this]
  rw [if_neg (by omega)]
  simp

theorem substr_zero (p : Name) (b : Nat) (h : b ≤ p.length) : substr p 0 b = .ok (p.take b) := by
  have := substr_ok p 0 b (by omega)
  simpa using this

theorem no_slash_xdmf : '/' ∉ ".xdmf".toList := by decide

theorem h5names_stem (d n : Name) (hd : d ≠ []) (hn : '/' ∉ n) :
    h5names (d ++ '/' :: n ++ ".xdmf".toList) = .ok (n ++ ".h5".toList, d ++ ['/']) := by
  have e : d ++ '/' :: n ++ ".xdmf".toList = d ++ '/' :: (n ++ ".xdmf".toList) := by simp
  have hl : lastSlash (d ++ '/' :: n ++ ".xdmf".toList) = some d.length := by
    rw [e]
    exact lastSlash_some d _ (by rw [List.mem_append, not_or]; exact ⟨hn, no_slash_xdmf⟩)
  have h0 : d.length ≠ 0 := by simpa using hd
  unfold h5names
  rw [hl]
  simp only [Option.getD_some, h0, if_false]
  have l : (d ++ '/' :: n ++ ".xdmf".toList).length = d.length + 1 + n.length + 5 := by
    rw [List.length_append, List.length_append, List.length_cons]
    show d.length + (n.length + 1) + 5 = _
    omega
  rw [show ((d ++ '/' :: n ++ ".xdmf".toList).length : ℤ) - 5 - ((d.length + 1 : Nat) : ℤ) = (n.length : Nat) from by rw [l]; push_cast; ring,
    substr_ok _ _ _ (by rw [l]; omega), substr_zero _ _ (by rw [l]; omega)]
  show Res.ok _ = _
  have e2 : d ++ '/' :: n ++ ".xdmf".toList = (d ++ ['/']) ++ (n ++ ".xdmf".toList) := by simp
  rw [e2, show d.length + 1 = (d ++ ['/']).length from by simp, List.drop_left, List.take_left, List.take_left]

theorem h5names_root (d n : Name) (hd : d = [] ∨ d = ['/']) (hn : '/' ∉ n) :
    h5names (d ++ n ++ ".xdmf".toList) = .ok (d ++ n ++ ".h5".toList, []) := by
  have hl : (lastSlash (d ++ n ++ ".xdmf".toList)).getD 0 = 0 := by
    have hx : '/' ∉ n ++ ".xdmf".toList := by rw [List.mem_append, not_or]; exact ⟨hn, no_slash_xdmf⟩
    rcases hd with rfl | rfl
    · rw [List.nil_append, lastSlash_none hx]
      rfl
    · have := lastSlash_some [] _ hx
      rw [show ['/'] ++ n ++ ".xdmf".toList = [] ++ '/' :: (n ++ ".xdmf".toList) from by simp, this]
      rfl
  unfold h5names
  simp only [hl, if_true]
  have l : (d ++ n ++ ".xdmf".toList).length = (d ++ n).length + 5 := by rw [List.length_append]; rfl
  rw [show ((d ++ n ++ ".xdmf".toList).length : ℤ) - 5 - ((0 : Nat) : ℤ) = ((d ++ n).length : Nat) from by rw [l]; push_cast; ring,
    substr_ok _ _ _ (by rw [l]; omega), substr_zero _ _ (by omega)]
  show Res.ok _ = _
  rw [List.drop_zero, List.take_left, List.take_zero]

/-! ### Paths in the data file -/

variable {R : Type}

/-- All paths of a grid point to data sets of the group `p` in the file `f`. -/
def Points (f p : Name) (x : Grid) : Prop :=
  (∃ n, x.geom.path = dataPath f p n) ∧ (∀ t, x.topo = some t → ∃ n, t.path = dataPath f p n) ∧
    ∀ e ∈ x.sets, (∃ n, e.path = dataPath f p n) ∧ ∀ a, e.att = some a → ∃ n, a = dataPath f p n

theorem dataName_dataPath (f p n : Name) : dataName (dataPath f p n) = dataPath f p (dataName n) := by simp [dataName, dataPath]

theorem writeSets_points (f p : Name) (s : XSoup R) : ∀ (l : List Nat) (st st' : List SetNode × XDMF.Group R),
    l.foldlM (writeSet f p s) st = some st' →
    (∀ e ∈ st.1, (∃ n, e.path = dataPath f p n) ∧ ∀ a, e.att = some a → ∃ n, a = dataPath f p n) →
    ∀ e ∈ st'.1, (∃ n, e.path = dataPath f p n) ∧ ∀ a, e.att = some a → ∃ n, a = dataPath f p n := by
  intro l
  induction l with
  | nil => intro st st' h; cases h; exact id
  | cons i l ih =>
    intro st st' h hst
    rw [List.foldlM_cons] at h
    obtain ⟨st1, h1, h2⟩ := Option.bind_eq_some_iff.1 h
    refine ih st1 st' h2 ?_
    unfold writeSet at h1
    simp only [Option.bind_eq_some_iff] at h1
    obtain ⟨name, -, a, -, b, -, ids, -, g, -, d, -, h1⟩ := h1
    split at h1
    · cases h1
      intro e he
      rcases List.mem_append.1 he with he | he
      · exact hst e he
      · rw [List.mem_singleton] at he
        subst he
        exact ⟨⟨_, rfl⟩, fun a ha => absurd ha (by simp)⟩
    · obtain ⟨g', -, h1⟩ := Option.map_eq_some_iff.1 h1
      cases h1
      intro e he
      rcases List.mem_append.1 he with he | he
      · exact hst e he
      · rw [List.mem_singleton] at he
        subst he
        refine ⟨⟨_, rfl⟩, fun a ha => ?_⟩
        cases ha
        exact ⟨_, dataName_dataPath f p name⟩

theorem writeTopology_points (f p : Name) (g g' : XDMF.Group R) (s : XSoup R) (n : Option TopoNode) (h : writeTopology f p g s = some (n, g')) :
    ∀ t, n = some t → ∃ n, t.path = dataPath f p n := by
  intro t ht
  subst ht
  unfold writeTopology at h
  dsimp only at h
  split at h
  · split at h
    · simp at h
    · split at h
      · simp at h
      · obtain ⟨g', -, h⟩ := Option.map_eq_some_iff.1 h
        cases h
        exact ⟨_, rfl⟩
  · obtain ⟨st, -, h⟩ := Option.bind_eq_some_iff.1 h
    split at h
    · simp at h
    · obtain ⟨g', -, h⟩ := Option.map_eq_some_iff.1 h
      cases h
      exact ⟨_, rfl⟩

theorem writeGrid_points [Ring R] [LinearOrder R] (eps : R) (f p : Name) (s : XSoup R) (o : Vert R) (x : Grid × XDMF.Group R)
    (h : writeGrid eps f p s o = some x) : Points f p x.1 ∧ x.1.geom.path = dataPath f p "Geometry".toList ∧
      ((x.1.geom.kind = "XYZ" ∧ x.1.geom.dim = 3) ∨ (x.1.geom.kind = "XY" ∧ x.1.geom.dim = 2)) := by
  unfold writeGrid at h
  obtain ⟨⟨geom, g1⟩, h1, h⟩ := Option.bind_eq_some_iff.1 h
  obtain ⟨⟨topo, g2⟩, h2, h⟩ := Option.bind_eq_some_iff.1 h
  obtain ⟨⟨sets, g3⟩, h3, h⟩ := Option.map_eq_some_iff.1 h
  cases h
  unfold writeGeometry at h1
  obtain ⟨g', -, h1⟩ := Option.map_eq_some_iff.1 h1
  cases h1
  refine ⟨⟨⟨_, rfl⟩, writeTopology_points f p _ _ s topo h2, writeSets_points f p s _ _ _ h3 fun e he => absurd he (by simp)⟩, rfl, ?_⟩
  dsimp only
  unfold geomDim
  split
  · exact Or.inl ⟨rfl, rfl⟩
  · exact Or.inr ⟨rfl, rfl⟩

theorem openPath_congr (p : Name) (g : XDMF.Group R) {a b : Name} (h : links a = links b) : openPath p g a = openPath p g b := by
  unfold openPath
  rw [h]

theorem readSets_congr (f f' p : Name) (g : XDMF.Group R) : ∀ (ns : List SetNode) (st : Bool × XSoup R),
    (∀ e ∈ ns, links (e.path.drop (f'.length + 1)) = links (e.path.drop (f.length + 1)) ∧
      ∀ a, e.att = some a → links (a.drop (f'.length + 1)) = links (a.drop (f.length + 1))) →
    ns.foldlM (readSet f' p g) st = ns.foldlM (readSet f p g) st := by
  intro ns
  induction ns with
  | nil => intro st _; rfl
  | cons e ns ih =>
    intro st h
    have he := h e List.mem_cons_self
    have : readSet f' p g st e = readSet f p g st e := by
      unfold readSet
      rw [openPath_congr p g he.1]
      cases ha : e.att with
      | none => rfl
      | some a =>
        dsimp only
        rw [openPath_congr p g (he.2 a ha)]
    rw [List.foldlM_cons, List.foldlM_cons, this]
    congr 1
    funext st
    exact ih st fun e he => h e (List.mem_cons_of_mem _ he)

theorem readGrid_congr [Ring R] [LinearOrder R] (f f' p : Name) (x : Grid × XDMF.Group R) (hx : Points f p x.1)
    (h : ∀ n, links ((dataPath f p n).drop (f'.length + 1)) = links ((dataPath f p n).drop (f.length + 1))) (s : XSoup R) :
    readGrid f' p x s = readGrid f p x s := by
  obtain ⟨⟨n, h1⟩, h2, h3⟩ := hx
  unfold readGrid
  have e1 : readGeometry f' p x.2 x.1.geom s = readGeometry f p x.2 x.1.geom s := by
    unfold readGeometry
    rw [h1, openPath_congr p x.2 (h n)]
  rw [e1]
  congr 1
  funext s
  have e2 : readTopology f' p x.2 x.1.topo s = readTopology f p x.2 x.1.topo s := by
    unfold readTopology
    cases ht : x.1.topo with
    | none => rfl
    | some t =>
      obtain ⟨n, hn⟩ := h2 t ht
      dsimp only
      rw [hn, openPath_congr p x.2 (h n)]
  rw [e2]
  congr 1
  funext s
  unfold readSets
  rw [readSets_congr f f' p x.2 x.1.sets (true, s)]
  intro e he
  obtain ⟨⟨n, hn⟩, ha⟩ := h3 e he
  refine ⟨by rw [hn]; exact h n, fun a haa => ?_⟩
  obtain ⟨m, rfl⟩ := ha a haa
  exact h m

theorem links_slash (p : Name) : links ('/' :: p) = links p := links_append [] p

theorem dataPath_eq (f m n : Name) : dataPath f ('/' :: m) n = (f ++ [':']) ++ ('/' :: (m ++ '/' :: n)) := by simp [dataPath]

theorem links_drop_same (f f' m n : Name) (h : f'.length = f.length ∨ f'.length = f.length + 1) :
    links ((dataPath f ('/' :: m) n).drop (f'.length + 1)) = links ((dataPath f ('/' :: m) n).drop (f.length + 1)) := by
  rcases h with h | h
  · rw [h]
  · have l : f.length + 1 = (f ++ [':']).length := by simp
    rw [h, dataPath_eq, l, List.drop_left]
    rw [← List.drop_drop, List.drop_left, links_slash]
    rfl

theorem links_length_le (n : Name) (h : '/' ∉ n) : (links n).length ≤ 1 := by
  unfold links
  rw [splitSlash_single n h]
  exact List.length_filter_le _ _

/-- Any other number of characters leads somewhere else. -/
theorem links_drop_other (f m n : Name) (hf : '/' ∉ f) (hm : '/' ∉ m) (hn : '/' ∉ n) (hm0 : m ≠ []) (hmd : m ≠ ['.']) (hn0 : n ≠ []) (hnd : n ≠ ['.'])
    (j : Nat) (h1 : j ≠ f.length) (h2 : j ≠ f.length + 1) (e : Name) :
    links ((dataPath f ('/' :: m) n).drop (j + 1)) ≠ links ('/' :: m) ++ [e] := by
  rw [dataPath_eq, links_slash, links_single m hm0 hm hmd]
  have lf : (f ++ [':']).length = f.length + 1 := by simp
  by_cases hj : j < f.length
  · rw [List.drop_append_of_le_length (by omega), List.drop_append_of_le_length (by omega), links_append, links_append,
      links_single m hm0 hm hmd, links_single n hn0 hn hnd, links_single (f.drop (j + 1) ++ [':'])]
    · simp
    · simp
    · rw [List.mem_append, not_or]
      exact ⟨fun h => hf (List.mem_of_mem_drop h), by decide⟩
    · intro h
      have := congrArg List.getLast? h
      simp at this
  · obtain ⟨i, hi⟩ : ∃ i, j + 1 = f.length + 1 + (i + 2) := ⟨j - f.length - 2, by omega⟩
    rw [hi, ← lf, ← List.drop_drop, List.drop_left]
    show links ((m ++ '/' :: n).drop (i + 1)) ≠ _
    intro h
    by_cases hi : i + 1 ≤ m.length
    · rw [List.drop_append_of_le_length hi, links_append, links_single n hn0 hn hnd] at h
      have hk : '/' ∉ m.drop (i + 1) := fun h => hm (List.mem_of_mem_drop h)
      have : links (m.drop (i + 1)) = [m] := by
        have hl := congrArg List.length h
        have h0 := congrArg List.head? h
        cases hq : links (m.drop (i + 1)) with
        | nil => rw [hq] at hl; simp at hl
        | cons a l =>
          have := links_length_le _ hk
          rw [hq, List.length_cons] at this
          have hl0 : l = [] := List.length_eq_zero_iff.1 (by omega)
          subst hl0
          rw [hq] at h0
          simp at h0
          rw [h0]
      have hs : m ∈ splitSlash (m.drop (i + 1)) := by
        have hmem : m ∈ links (m.drop (i + 1)) := by rw [this]; simp
        unfold links at hmem
        exact (List.mem_filter.1 hmem).1
      rw [splitSlash_single _ hk, List.mem_singleton] at hs
      have := congrArg List.length hs
      rw [List.length_drop] at this
      omega
    · have hk : '/' ∉ (m ++ '/' :: n).drop (i + 1) := by
        obtain ⟨q, hq⟩ : ∃ q, i + 1 = (m ++ ['/']).length + q := ⟨i - m.length, by simp; omega⟩
        rw [show m ++ '/' :: n = (m ++ ['/']) ++ n from by simp, hq, ← List.drop_drop, List.drop_left]
        exact fun h => hn (List.mem_of_mem_drop h)
      have := links_length_le _ hk
      rw [h] at this
      simp at this

end Verif.XdmfFiles
