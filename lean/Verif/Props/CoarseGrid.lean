import Verif.Props.CmfdInfoSpec
import Verif.Props.Mpact
import Verif.Props.Partition

/-!
# C102: the coarse grid
-/

namespace Verif.CoarseGrid

open Verif.Mpact Verif.CmfdInfo
open Verif.ElemTypes (MeshType)

variable {K M : Type} [Field K] [LinearOrder K] [IsStrictOrderedRing K]

omit [IsStrictOrderedRing K] in
/-- Sorting two numbers which are in order leaves them. -/
theorem sort_pair {sort : List K → List K} (hsort : ∀ l, IsStdSort (fun a b => decide (a < b)) l (sort l)) {w : K}
    (hw : 0 < w) : sort [0, w] = [0, w] := by
  have h := hsort [0, w]
  have hp := h.perm
  have hs := h.sorted
  generalize sort [0, w] = l at *
  have hl := hp.length_eq
  match l, hl with
  | [a, b], _ =>
    have ha : a = 0 ∨ a = w := by simpa using hp.subset (by simp : a ∈ [a, b])
    have hb : b = 0 ∨ b = w := by simpa using hp.subset (by simp : b ∈ [a, b])
    have h0 : 0 = a ∨ 0 = b := by simpa using hp.symm.subset (by simp : (0 : K) ∈ [0, w])
    have hw' : w = a ∨ w = b := by simpa using hp.symm.subset (by simp : w ∈ [0, w])
    have hab : a ≤ b := by simpa using hs
    rcases ha with rfl | rfl <;> rcases hb with rfl | rfl
    · simp [hw.ne'] at hw'
    · rfl
    · exact absurd hab (not_le.2 hw)
    · simp [hw.ne] at h0

theorem boxDivs_pair {eps w : K} (hw : 0 < w) (h : eps ≤ w) : Grid.boxDivs eps [(0, w)] = [0, w] := by
  simp only [Grid.boxDivs, List.foldl_cons, List.foldl_nil, Grid.addDiv, List.any_nil, Bool.false_eq_true, if_false,
    List.nil_append, List.any_cons, Bool.or_false, decide_eq_true_eq]
  rw [if_neg (by rw [zero_sub, abs_neg, abs_of_pos hw]; exact not_lt.2 h)]
  rfl

/-- A grid of one box. -/
theorem mkGrid_one {sort : List K → List K} (hsort : ∀ l, IsStdSort (fun a b => decide (a < b)) l (sort l))
    {eps w h : K} (he : 0 < eps) (hw : eps ≤ w) (hh : eps ≤ h) :
    mkGrid sort eps [(w, h)] [[0]] = some ([0, w], [0, h]) := by
  have hw0 := he.trans_le hw
  have hh0 := he.trans_le hh
  have : Grid.gridBoxes [(w, h)] [[0]] = some [((0, w), (0, h))] := by
    simp [Grid.gridBoxes, Grid.idBoxes, Grid.rowBoxes]
  rw [mkGrid, this]
  simp only [Option.map_some, List.map_cons, List.map_nil, boxDivs_pair hw0 hw, boxDivs_pair hh0 hh,
    sort_pair hsort hw0, sort_pair hsort hh0]

omit [IsStrictOrderedRing K] in
theorem repeat_cells (ext : K × K) (h1 : 0 < ext.1) (h2 : 0 < ext.2) (n : Nat) (s : Model K M) :
    repeatCall (fun s => addCoarseCell s ext MeshType.Invalid (-1) []) n s =
      some { s with cells := s.cells ++ List.replicate n ⟨ext, MeshType.Invalid, -1, []⟩ } := by
  induction n generalizing s with
  | zero => simp [repeatCall]
  | succ n ih =>
    have : addCoarseCell s ext MeshType.Invalid (-1) [] =
        some ({ s with cells := s.cells ++ [⟨ext, MeshType.Invalid, -1, []⟩] }, (s.cells.length : ℤ)) := by
      unfold addCoarseCell
      dsimp only
      rw [if_neg (by push Not; exact ⟨h1, h2⟩), if_pos rfl]
    rw [repeatCall, this, Option.bind_some, ih]
    simp [List.replicate_succ, List.append_assoc]

/-- One module of one cell. -/
theorem addRTM_one {sort : List K → List K} (hsort : ∀ l, IsStdSort (fun a b => decide (a < b)) l (sort l))
    {eps w h : K} (he : 0 < eps) (hw : eps ≤ w) (hh : eps ≤ h) (s : Model K M) (i : Nat)
    (hi : i < s.cells.length) (hc : ∀ c ∈ s.cells, c.ext = (w, h))
    (hr : ∀ r ∈ s.rtms, r.xs = [0, w] ∧ r.ys = [0, h]) :
    addRTM sort eps s [[(i : ℤ)]] =
      some ({ s with rtms := s.rtms ++ [⟨[0, w], [0, h], [(i : ℤ)]⟩] }, (s.rtms.length : ℤ)) := by
  have hflat : Grid.flattenLattice [[(i : ℤ)]] [] = some [(i : ℤ)] := rfl
  have hu : uniqueIds [[(i : ℤ)]].flatten = [(i : ℤ)] := by simp [uniqueIds]
  have hat : at? s.cells (i : ℤ) = some s.cells[i] := by
    simp [at?, hi]
  have hd : (uniqueIds [[(i : ℤ)]].flatten).mapM (fun id => (at? s.cells id).map fun c => c.ext) = some [(w, h)] := by
    rw [hu]
    simp [hat, hc _ (List.getElem_mem hi)]
  have hid : [[(i : ℤ)]].map (fun row => row.map fun id => (uniqueIds [[(i : ℤ)]].flatten).idxOf id) = [[0]] := by
    rw [hu]; simp
  unfold addRTM
  dsimp only
  rw [if_neg (by simp; omega), hd, Option.bind_some, hid]
  rw [mkGrid_one hsort he hw hh, Option.bind_some]
  simp only [hflat, Option.bind_some]
  match hs : s.rtms with
  | [] => rfl
  | r :: rs =>
    obtain ⟨h1, h2⟩ := hr r (by rw [hs]; simp)
    dsimp only
    rw [h1, h2]
    simp only [extents, List.head?_cons, List.getLast?_cons_cons, List.getLast?_singleton, sub_zero, Option.bind_some]
    rw [if_neg]
    simpa [isApprox] using he.ne'

theorem gridRTMs_eq {sort : List K → List K} (hsort : ∀ l, IsStdSort (fun a b => decide (a < b)) l (sort l))
    {eps w h : K} (he : 0 < eps) (hw : eps ≤ w) (hh : eps ≤ h) (is : List Nat) :
    ∀ (s : Model K M), (∀ i ∈ is, i < s.cells.length) → (∀ c ∈ s.cells, c.ext = (w, h)) →
      (∀ r ∈ s.rtms, r.xs = [0, w] ∧ r.ys = [0, h]) →
      gridRTMs sort eps is s =
        some { s with rtms := s.rtms ++ is.map fun i : Nat => ⟨[0, w], [0, h], [(i : ℤ)]⟩ } := by
  induction is with
  | nil => intro s _ _ _; simp [gridRTMs]
  | cons i is ih =>
    intro s hi hc hr
    rw [gridRTMs, addRTM_one hsort he hw hh s i (hi i (by simp)) hc hr, Option.bind_some,
      ih { s with rtms := s.rtms ++ [⟨[0, w], [0, h], [(i : ℤ)]⟩] } (fun j hj => hi j (by simp [hj])) hc (by
        intro r hr'
        rcases List.mem_append.1 hr' with h' | h'
        · exact hr r h'
        · simp only [List.mem_singleton] at h'; subst h'; exact ⟨rfl, rfl⟩)]
    simp [List.append_assoc]

/-- Nothing of the hierarchy is there yet: what the assertions of `addCoarseGrid` ask for, and an empty core. -/
structure Fresh (s : Model K M) : Prop where
  cells : s.cells = []
  rtms : s.rtms = []
  lattices : s.lattices = []
  assemblies : s.assemblies = []
  core : s.core.children = []

/-- **C102.** On a model without cells, `addCoarseGrid` adds `nx * ny` cells of equal size without a mesh, a module for
each of them, one lattice of `nx` by `ny` modules, counted row by row from the bottom left, one assembly of height one
and the core of this assembly, which has the given extents.  The cells must be at least as wide as the tolerance for
distances. -/
theorem C102_grid {sort : List K → List K} (hsort : ∀ l, IsStdSort (fun a b => decide (a < b)) l (sort l)) (eps : K)
    (he : 0 < eps) (s : Model K M) (hs : Fresh s) (ext : K × K) (nx ny : Nat) (hx : 0 < nx) (hy : 0 < ny)
    (hn : nx * ny < 2 ^ 31) (hw : eps ≤ ext.1 / nx) (hh : eps ≤ ext.2 / ny) :
    addCoarseGrid sort eps s ext nx ny = some { s with
      cells := List.replicate (nx * ny) ⟨(ext.1 / nx, ext.2 / ny), MeshType.Invalid, -1, []⟩
      rtms := (List.range (nx * ny)).map fun i : Nat => ⟨[0, ext.1 / nx], [0, ext.2 / ny], [(i : ℤ)]⟩
      lattices := [⟨(ext.1 / nx, ext.2 / ny), nx, ny, (List.range (nx * ny)).map fun i : Nat => (i : ℤ)⟩]
      assemblies := [⟨[-1 / 2, 1 / 2], [0]⟩]
      core := ⟨[0, ext.1], [0, ext.2], [0]⟩ } := by
  obtain ⟨hc, hr, hl, ha, hco⟩ := hs
  have hxK : (0 : K) < nx := by exact_mod_cast hx
  have hyK : (0 : K) < ny := by exact_mod_cast hy
  have hw0 := he.trans_le hw
  have hh0 := he.trans_le hh
  have e1 : 0 < ext.1 := by
    have := mul_pos hw0 hxK
    rwa [div_mul_cancel₀ _ hxK.ne'] at this
  have e2 : 0 < ext.2 := by
    have := mul_pos hh0 hyK
    rwa [div_mul_cancel₀ _ hyK.ne'] at this
  have hnn : 0 < nx * ny := Nat.mul_pos hx hy
  unfold addCoarseGrid
  rw [if_neg (by push Not; exact ⟨e1, e2⟩), if_neg (by omega),
    if_neg (by push Not; exact_mod_cast hn)]
  simp only [Int.toNat_natCast]
  rw [repeat_cells _ hw0 hh0, Option.bind_some, gridRTMs_eq hsort he hw hh _ _ (by
      intro i hi
      simpa [hc] using hi) (by
      intro c hc'
      simp only [hc, List.nil_append, List.mem_replicate] at hc'
      rw [hc'.2]) (by
      intro r hr'
      rw [hr] at hr'
      simp at hr'), Option.bind_some]
  -- the lattice
  have hflat : Grid.flattenLattice ((Grid.coarseGridIds nx ny).map fun row => row.map fun i : Nat => (i : ℤ)) [] =
      some ((List.range (nx * ny)).map fun i : Nat => (i : ℤ)) := by
    have hc1 : ∀ row ∈ Grid.coarseGridIds nx ny, row.length = nx := by
      intro row hrow
      obtain ⟨j, -, rfl⟩ := List.mem_map.1 hrow
      simp
    have hne : Grid.coarseGridIds nx ny ≠ [] := by
      rw [← List.length_pos_iff]; simpa [Grid.coarseGridIds] using hy
    have h1 := Grid.C39_coarseGrid nx ny hy
    rw [flattenLattice_eq _ nx hne hc1, Option.some.injEq] at h1
    rw [flattenLattice_eq _ nx (by simpa using hne) (by
      intro row hrow
      obtain ⟨r, hr, rfl⟩ := List.mem_map.1 hrow
      rw [List.length_map]; exact hc1 r hr), ← h1, List.map_flatten, List.map_reverse]
  have hrow : ∃ (row0 : List ℤ) (rows : List (List ℤ)), (Grid.coarseGridIds nx ny).map (fun row => row.map fun i : Nat => (i : ℤ)) = row0 :: rows ∧
      row0.length = nx ∧ (∀ row ∈ rows, row.length = nx) ∧ rows.length + 1 = ny := by
    cases hcg : (Grid.coarseGridIds nx ny).map (fun row => row.map fun i : Nat => (i : ℤ)) with
    | nil =>
      have := congrArg List.length hcg
      simp [Grid.coarseGridIds] at this
      omega
    | cons row0 rows =>
      have hall : ∀ row ∈ row0 :: rows, row.length = nx := by
        rw [← hcg]
        intro row hrow
        obtain ⟨r, hr, rfl⟩ := List.mem_map.1 hrow
        obtain ⟨j, -, rfl⟩ := List.mem_map.1 hr
        simp
      refine ⟨row0, rows, rfl, hall _ (by simp), fun r hr => hall r (by simp [hr]), ?_⟩
      have := congrArg List.length hcg
      simpa [Grid.coarseGridIds] using this.symm
  have hlt : ∀ x : ℤ, x ∈ ((Grid.coarseGridIds nx ny).map fun row => row.map fun i : Nat => (i : ℤ)).flatten →
      0 ≤ x ∧ x < (nx * ny : ℕ) := by
    intro x hx'
    obtain ⟨row, h1, h2⟩ := List.mem_flatten.1 hx'
    obtain ⟨r, h3, rfl⟩ := List.mem_map.1 h1
    obtain ⟨j, h4, rfl⟩ := List.mem_map.1 h3
    obtain ⟨k, h5, rfl⟩ := List.mem_map.1 h2
    obtain ⟨i, h6, rfl⟩ := List.mem_map.1 h5
    rw [List.mem_range] at h4 h6
    refine ⟨by omega, ?_⟩
    have h7 : (ny - 1 - j) * nx + i < nx * ny := by
      have : (ny - 1 - j) * nx + nx ≤ nx * ny := by
        rw [← Nat.succ_mul, Nat.mul_comm nx ny]
        exact Nat.mul_le_mul_right _ (by omega)
      omega
    exact_mod_cast h7
  have hlat : ∀ t : Model K M, t.rtms = (List.range (nx * ny)).map (fun i : Nat =>
        (⟨[0, ext.1 / nx], [0, ext.2 / ny], [(i : ℤ)]⟩ : Rect K)) → t.lattices = [] →
      addLattice t ((Grid.coarseGridIds nx ny).map fun row => row.map fun i : Nat => (i : ℤ)) =
        some ({ t with lattices :=
          [⟨(ext.1 / nx, ext.2 / ny), nx, ny, (List.range (nx * ny)).map fun i : Nat => (i : ℤ)⟩] }, 0) := by
    intro t ht htl
    unfold addLattice
    have hlen : t.rtms.length = nx * ny := by rw [ht]; simp
    rw [if_neg (by
      rw [hlen]
      intro hany
      obtain ⟨x, hx1, hx2⟩ := List.any_eq_true.1 hany
      have := hlt x hx1
      simp only [Bool.or_eq_true, decide_eq_true_eq] at hx2
      omega)]
    obtain ⟨row0, rows, hr1, hr2, hr3, hr4⟩ := hrow
    rw [hr1] at hflat ⊢
    obtain ⟨m, hm⟩ : ∃ m, nx * ny = m + 1 := ⟨nx * ny - 1, by omega⟩
    have htr := ht
    rw [hm, List.range_succ_eq_map, List.map_cons] at htr
    rw [htr]
    simp only [extents, List.head?_cons, List.getLast?_cons_cons, List.getLast?_singleton, sub_zero, Option.bind_some]
    rw [if_neg (by
      intro hany
      obtain ⟨r, h1, h2⟩ := List.any_eq_true.1 hany
      rw [decide_eq_true_eq, hr2, hr3 r h1] at h2
      exact h2 rfl), hflat, Option.bind_some, htl, hr2]
    simp only [List.length_cons, hr4, List.nil_append, List.length_nil, Nat.cast_zero]
  rw [hlat _ (by simp [hr]) (by simpa using hl), Option.bind_some]
  -- the assembly
  have hasy : ∀ t : Model K M, t.assemblies = [] →
      (∃ l, t.lattices = [l]) → addAssembly eps t [0] [-1 / 2, 1 / 2] =
        some ({ t with assemblies := [⟨[-1 / 2, 1 / 2], [0]⟩] }, 0) := by
    rintro t ht ⟨l, htl⟩
    unfold addAssembly
    rw [if_neg (by simp [htl]), if_neg (by simp), if_neg (by
      have : (-1 / 2 : K) ≤ 1 / 2 := by linarith
      simp only [isSorted, Bool.and_true, Bool.not_not]
      simpa using this)]
    simp only [List.head?_cons, List.getLast?_cons_cons, List.getLast?_singleton, Option.bind_some]
    rw [if_neg (by
      rintro ⟨h1 | h1, -⟩
      · rw [show (-1 / 2 + 1 / 2 : K) = 0 by ring, abs_zero] at h1
        exact absurd h1 (not_lt.2 he.le)
      · rw [sub_self, abs_zero] at h1
        exact absurd h1 (not_lt.2 he.le)), ht]
    simp only [placeAssembly, htl, at?, List.mapM_cons, List.mapM_nil]
    simp [ht]
  rw [hasy _ (by simpa using ha) ⟨_, rfl⟩, Option.bind_some]
  -- the core
  unfold Mpact.addCore
  rw [if_neg (by simpa using hco), if_neg (by simp)]
  have hlx : (⟨(ext.1 / nx, ext.2 / ny), nx, ny, (List.range (nx * ny)).map fun i : Nat => (i : ℤ)⟩ : Mpact.Lattice K).extents =
      (ext.1, ext.2) := by
    simp only [Lattice.extents]
    rw [div_mul_cancel₀ _ hxK.ne', div_mul_cancel₀ _ hyK.ne']
  have hdx : ([⟨[-1 / 2, 1 / 2], [0]⟩] : List (Assembly K)).mapM (fun a : Assembly K => (a.children.head?).bind fun id =>
      (at? [(⟨(ext.1 / nx, ext.2 / ny), nx, ny, (List.range (nx * ny)).map fun i : Nat => (i : ℤ)⟩ : Mpact.Lattice K)] id).map
        Lattice.extents) = some [(ext.1, ext.2)] := by
    simp [at?, hlx]
  simp only
  rw [hdx, Option.bind_some]
  show ((mkGrid sort eps [(ext.1, ext.2)] [[0]]).bind _).bind _ = _
  have nx1 : (1 : K) ≤ nx := by exact_mod_cast hx
  have ny1 : (1 : K) ≤ ny := by exact_mod_cast hy
  rw [mkGrid_one hsort he (hw.trans (div_le_self e1.le nx1)) (hh.trans (div_le_self e2.le ny1)), Option.bind_some]
  have : Grid.flattenLattice [[(0 : ℤ)]] [] = some [0] := rfl
  simp [this, hc, hr]

/-- The cell in column `i` and row `j` of the grid. -/
def cellAt (ext : K × K) (nx ny i j : Nat) : Tile K :=
  ⟨⟨(0, 0), 0, (i, j), (0, 0)⟩, i + j * nx, (i * (ext.1 / nx), j * (ext.2 / ny)),
    ((i + 1) * (ext.1 / nx), (j + 1) * (ext.2 / ny)), 0⟩

/-- **C102.** The places of coarse cells in the core of the grid are the `nx` by `ny` equal rectangles, one cell each. -/
theorem C102_tiles {sort : List K → List K} (hsort : ∀ l, IsStdSort (fun a b => decide (a < b)) l (sort l)) (eps : K)
    (he : 0 < eps) (s : Model K M) (hs : Fresh s) (ext : K × K) (nx ny : Nat) (hx : 0 < nx) (hy : 0 < ny)
    (hn : nx * ny < 2 ^ 31) (hw : eps ≤ ext.1 / nx) (hh : eps ≤ ext.2 / ny) :
    ∃ s', addCoarseGrid sort eps s ext nx ny = some s' ∧
      ∀ t, IsTile s' t ↔ ∃ i < nx, ∃ j < ny, t = cellAt ext nx ny i j := by
  refine ⟨_, C102_grid hsort eps he s hs ext nx ny hx hy hn hw hh, fun t => ?_⟩
  have hlt : ∀ i < nx, ∀ j < ny, i + j * nx < nx * ny := by
    intro i hi j hj
    have : j * nx + nx ≤ nx * ny := by
      rw [← Nat.succ_mul, Nat.mul_comm nx ny]
      exact Nat.mul_le_mul_right _ (by omega)
    omega
  constructor
  · rintro ⟨aid, lid, rid, a, l, r, ox, oy, zlo, zhi, x0, x1, y0, y1, ⟨h1, h2, h3, h4, h5, h6⟩, ⟨h7, h8, h9, h10⟩,
      ⟨h11, h12, h13, h14⟩, ⟨h15, h16, h17, h18, h19⟩, h20, h21, h22⟩
    obtain ⟨⟨⟨p1, p2⟩, lev, ⟨q1, q2⟩, ⟨c1, c2⟩⟩, id, lo, hi, z⟩ := t
    simp only [List.length_cons, List.length_nil] at h1 h2 h3
    have hp1 : p1 = 0 := by omega
    have hp2 : p2 = 0 := by omega
    subst hp1 hp2
    simp only [List.getElem?_cons_zero, Option.some.injEq, Nat.zero_mul, Nat.add_zero] at h3 h5 h6
    obtain rfl : aid = 0 := by omega
    simp only [List.getElem?_cons_zero, Option.some.injEq] at h4
    subst h4 h5 h6
    simp only at h7 h9 h10
    have hlev : lev = 0 := by
      have := (List.getElem?_eq_some_iff.1 h7).1
      simpa using this
    subst hlev
    simp only [List.getElem?_cons_zero, Option.some.injEq, Nat.zero_add, List.getElem?_cons_succ] at h7 h9 h10
    obtain rfl : lid = 0 := by omega
    simp only [List.getElem?_cons_zero, Option.some.injEq] at h8
    subst h8 h9 h10
    simp only at h11 h12 h13 h20 h21
    rw [List.getElem?_map, List.getElem?_range (hlt _ h11 _ h12), Option.map_some, Option.some.injEq] at h13
    obtain rfl : q1 + q2 * nx = rid := by exact_mod_cast h13
    rw [List.getElem?_map, List.getElem?_range (hlt _ h11 _ h12), Option.map_some, Option.some.injEq] at h14
    subst h14
    simp only at h15 h16 h17 h18 h19
    have hc1 : c1 = 0 := by
      have := (List.getElem?_eq_some_iff.1 h17).1
      simp at this; omega
    have hc2 : c2 = 0 := by
      have := (List.getElem?_eq_some_iff.1 h19).1
      simp at this; omega
    subst hc1 hc2
    simp only [List.getElem?_cons_zero, Option.some.injEq, Nat.zero_add, List.getElem?_cons_succ, Nat.zero_mul] at h15 h16 h17 h18 h19
    refine ⟨q1, h11, q2, h12, ?_⟩
    have hid : q1 + q2 * nx = id := by exact_mod_cast h15
    simp only at h20 h21 h22
    subst h20 h21 h22 h16 h17 h18 h19 hid
    simp only [cellAt, Tile.mk.injEq, true_and, Prod.mk.injEq]
    refine ⟨⟨by ring, by ring⟩, ⟨by ring, by ring⟩, by ring⟩
  · rintro ⟨i, hi, j, hj, rfl⟩
    refine ⟨0, 0, i + j * nx, _, _, ⟨[0, ext.1 / nx], [0, ext.2 / ny], [((i + j * nx : Nat) : ℤ)]⟩, 0, 0, -1 / 2, 1 / 2, 0, ext.1 / nx, 0, ext.2 / ny,
      ⟨by simp [cellAt], by simp [cellAt], by simp [cellAt], rfl, by simp [cellAt], by simp [cellAt]⟩,
      ⟨by simp [cellAt], rfl, by simp [cellAt], by simp [cellAt]⟩, ⟨hi, hj, ?_, ?_⟩,
      ⟨?_, by simp [cellAt], by simp [cellAt], by simp [cellAt], by simp [cellAt]⟩, ?_, ?_, ?_⟩
    · simp only [cellAt]
      rw [List.getElem?_map, List.getElem?_range (hlt _ hi _ hj), Option.map_some]
    · rw [List.getElem?_map, List.getElem?_range (hlt _ hi _ hj), Option.map_some]
    · simp [cellAt]
    · simp only [cellAt, Prod.mk.injEq]; constructor <;> ring
    · simp only [cellAt, Prod.mk.injEq]; constructor <;> ring
    · simp only [cellAt]; ring

/-- A number between `0` and `n * w` lies in exactly one of the `n` intervals of length `w`. -/
theorem interval {w x : K} (hw : 0 < w) (n : Nat) (h0 : 0 ≤ x) (h1 : x < n * w) :
    ∃ i < n, (i * w ≤ x ∧ x < (i + 1) * w) ∧ ∀ k : Nat, k * w ≤ x → x < (k + 1) * w → k = i := by
  have hex : ∃ i : Nat, x < (i + 1) * w := ⟨n, h1.trans (by
    have : (n : K) * w < (n + 1) * w := mul_lt_mul_of_pos_right (by linarith) hw
    exact this)⟩
  classical
  have hlt := Nat.find_spec hex
  have hmin : ∀ m < Nat.find hex, (m + 1) * w ≤ x := fun m hm => not_lt.1 (Nat.find_min hex hm)
  have huniq : ∀ a b : Nat, a * w ≤ x → x < (b + 1) * w → a ≤ b := by
    intro a b ha hb
    by_contra hab
    have h2 : (b + 1 : K) ≤ a := by exact_mod_cast (by omega : b + 1 ≤ a)
    have := mul_le_mul_of_nonneg_right h2 hw.le
    linarith
  have hge : (Nat.find hex : K) * w ≤ x := by
    rcases Nat.eq_zero_or_pos (Nat.find hex) with h | h
    · rw [h]; simpa using h0
    · have := hmin (Nat.find hex - 1) (by omega)
      have hc : ((Nat.find hex - 1 : Nat) : K) + 1 = (Nat.find hex : K) := by
        exact_mod_cast (by omega : Nat.find hex - 1 + 1 = Nat.find hex)
      rwa [hc] at this
  refine ⟨Nat.find hex, ?_, ⟨hge, hlt⟩, fun k hk1 hk2 => le_antisymm (huniq _ _ hk1 hlt) (huniq _ _ hge hk2)⟩
  by_contra hn
  have h2 : (n : K) ≤ (Nat.find hex : Nat) := by exact_mod_cast (by omega : n ≤ Nat.find hex)
  have := mul_le_mul_of_nonneg_right h2 hw.le
  linarith

/-- **C102.** The places of the coarse cells tile the domain: each of its points is in exactly one of them, and they do not
reach beyond it. -/
theorem C102_cover {sort : List K → List K} (hsort : ∀ l, IsStdSort (fun a b => decide (a < b)) l (sort l)) (eps : K)
    (he : 0 < eps) (s : Model K M) (hs : Fresh s) (ext : K × K) (nx ny : Nat) (hx : 0 < nx) (hy : 0 < ny)
    (hn : nx * ny < 2 ^ 31) (hw : eps ≤ ext.1 / nx) (hh : eps ≤ ext.2 / ny) :
    ∃ s', addCoarseGrid sort eps s ext nx ny = some s' ∧
      (∀ p : K × K, 0 ≤ p.1 → p.1 < ext.1 → 0 ≤ p.2 → p.2 < ext.2 →
        ∃! t, IsTile s' t ∧ t.lo.1 ≤ p.1 ∧ p.1 < t.hi.1 ∧ t.lo.2 ≤ p.2 ∧ p.2 < t.hi.2) ∧
      ∀ t, IsTile s' t → 0 ≤ t.lo.1 ∧ t.hi.1 ≤ ext.1 ∧ 0 ≤ t.lo.2 ∧ t.hi.2 ≤ ext.2 := by
  obtain ⟨s', h1, h2⟩ := C102_tiles hsort eps he s hs ext nx ny hx hy hn hw hh
  have hxK : (0 : K) < nx := by exact_mod_cast hx
  have hyK : (0 : K) < ny := by exact_mod_cast hy
  have hw0 := he.trans_le hw
  have hh0 := he.trans_le hh
  have ex : (nx : K) * (ext.1 / nx) = ext.1 := mul_div_cancel₀ _ hxK.ne'
  have ey : (ny : K) * (ext.2 / ny) = ext.2 := mul_div_cancel₀ _ hyK.ne'
  refine ⟨s', h1, ?_, ?_⟩
  · intro p p1 p2 p3 p4
    obtain ⟨i, hi, ⟨hi1, hi2⟩, hi3⟩ := interval hw0 nx p1 (by rw [ex]; exact p2)
    obtain ⟨j, hj, ⟨hj1, hj2⟩, hj3⟩ := interval hh0 ny p3 (by rw [ey]; exact p4)
    refine ⟨cellAt ext nx ny i j, ⟨(h2 _).2 ⟨i, hi, j, hj, rfl⟩, hi1, hi2, hj1, hj2⟩, ?_⟩
    rintro t ⟨ht, k1, k2, k3, k4⟩
    obtain ⟨i', -, j', -, rfl⟩ := (h2 _).1 ht
    rw [hi3 i' k1 k2, hj3 j' k3 k4]
  · intro t ht
    obtain ⟨i, hi, j, hj, rfl⟩ := (h2 _).1 ht
    have h3 : (i + 1 : K) ≤ nx := by exact_mod_cast hi
    have h4 : (j + 1 : K) ≤ ny := by exact_mod_cast hj
    refine ⟨mul_nonneg (Nat.cast_nonneg _) hw0.le, ?_, mul_nonneg (Nat.cast_nonneg _) hh0.le, ?_⟩
    · calc ((i : K) + 1) * (ext.1 / nx) ≤ nx * (ext.1 / nx) := mul_le_mul_of_nonneg_right h3 hw0.le
        _ = ext.1 := ex
    · calc ((j : K) + 1) * (ext.2 / ny) ≤ ny * (ext.2 / ny) := mul_le_mul_of_nonneg_right h4 hh0.le
        _ = ext.2 := ey

omit [IsStrictOrderedRing K] in
/-- **C102.** With an extent or a number of cells that is not positive the model is left as it was. -/
theorem C102_rejected (sort : List K → List K) (eps : K) (s : Model K M) (ext : K × K) (nx ny : ℤ)
    (h : ext.1 ≤ 0 ∨ ext.2 ≤ 0 ∨ nx ≤ 0 ∨ ny ≤ 0) : addCoarseGrid sort eps s ext nx ny = some s := by
  unfold addCoarseGrid
  by_cases h1 : ext.1 ≤ 0 ∨ ext.2 ≤ 0
  · rw [if_pos h1]
  · rw [if_neg h1, if_pos (by tauto)]

/-! ### Concrete cases -/

/-- A model without anything. -/
def none_ : Model ℚ Unit := Model.empty ℚ Unit

/-- `std::sort` of rational numbers. -/
def sortQ (l : List ℚ) : List ℚ := l.insertionSort (· ≤ ·)

theorem sortQ_ok (l : List ℚ) : IsStdSort (fun a b => decide (a < b)) l (sortQ l) :=
  ⟨List.perm_insertionSort _ _, by
    have := List.pairwise_insertionSort (· ≤ ·) l
    simpa [sortQ] using this⟩

theorem fresh : Fresh none_ := ⟨rfl, rfl, rfl, rfl, rfl⟩

/-- A grid of three by two cells on a domain of three by four. -/
example : ∃ s', addCoarseGrid sortQ (1 / 10 ^ 7) none_ (3, 4) 3 2 = some s' ∧
    ∀ t, IsTile s' t ↔ ∃ i < 3, ∃ j < 2, t = cellAt (3, 4) 3 2 i j :=
  C102_tiles sortQ_ok _ (by norm_num) none_ fresh (3, 4) 3 2 (by norm_num) (by norm_num) (by norm_num)
    (by norm_num) (by norm_num)

/-- **C102 fails** on a model which has a cell already: the modules are made of the first cells of the model, so that the
new grid of one cell gets a core of the extents of the old cell, and the new cell has no place. -/
theorem C102_used_fails :
    ∃ s s', addCoarseCell none_ (5, 5) MeshType.Invalid (-1) [] = some (s, 0) ∧
      addCoarseGrid sortQ (1 / 10 ^ 7) s (1, 1) 1 1 = some s' ∧ s'.cells.map (·.ext) = [(5, 5), (1, 1)] ∧
      s'.core.xs = [0, 5] ∧ s'.core.ys = [0, 5] ∧ s'.rtms.map (·.children) = [[0]] := by
  have h : ((addCoarseCell none_ (5, 5) MeshType.Invalid (-1) []).bind fun r =>
      (addCoarseGrid sortQ (1 / 10 ^ 7) r.1 (1, 1) 1 1).bind fun s' =>
      some ((r.2, s'.cells.map (fun c => c.ext)), (s'.core.xs, s'.core.ys), s'.rtms.map (fun r => r.children))) =
      some ((0, [(5, 5), (1, 1)]), ([0, 5], [0, 5]), [[0]]) := by
    decide +kernel
  simp only [Option.bind_eq_some_iff, Option.some.injEq, Prod.mk.injEq] at h
  obtain ⟨⟨s, k⟩, h1, s', h2, ⟨h3, h4⟩, ⟨h5, h6⟩, h7⟩ := h
  subst h3
  exact ⟨s, s', h1, h2, h4, h5, h6, h7⟩

end Verif.CoarseGrid
