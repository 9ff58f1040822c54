import Verif.Lemmas.LatticePrograms
import Verif.Props.OverlayGroups
import Verif.Props.OverlayGrid
import Verif.Props.CoarseGrid

/-!
# C107: the points of a plane model made of lattices of pins
-/

namespace Verif.ProgramsP

open Verif.XSLib (Res)
open Verif.Gmsh (Gm DimTag)
open Verif.GmshSpec Verif.PinsSpec Verif.PinsP Verif.Pins
open Verif.Overlay (Name Cut cuts overlay)
open Verif.OverlayGroupsSpec (material cell pieces Setting InGrid)
open Verif.Programs Verif.ProgramsSpec Verif.ProgramsL
open Verif.CoarseGrid (Fresh)
open Verif.ElemTypes (MeshType)

set_option linter.unusedSectionVars false
variable {K C M : Type} [Field K] [LinearOrder K] [IsStrictOrderedRing K]

/-! ### The rectangles -/

/-- The model that `addCoarseGrid` leaves, see C102. -/
def gridModel (s : Mpact.Model K M) (dx dy : K) (ext : K × K) (nx ny : Nat) : Mpact.Model K M := { s with
  cells := List.replicate (nx * ny) ⟨(dx, dy), MeshType.Invalid, -1, []⟩
  rtms := (List.range (nx * ny)).map fun i : Nat => ⟨[0, dx], [0, dy], [(i : ℤ)]⟩
  lattices := [⟨(dx, dy), nx, ny, (List.range (nx * ny)).map fun i : Nat => (i : ℤ)⟩]
  assemblies := [⟨[-1 / 2, 1 / 2], [0]⟩]
  core := ⟨[0, ext.1], [0, ext.2], [0]⟩ }

theorem divmod {nx i j i' j' : Nat} (hi : i < nx) (hi' : i' < nx) (h : i + j * nx = i' + j' * nx) : i = i' ∧ j = j' := by
  have hn : 0 < nx := by omega
  have e1 : (i + j * nx) % nx = i := by rw [Nat.add_mul_mod_self_right, Nat.mod_eq_of_lt hi]
  have e2 : (i' + j' * nx) % nx = i' := by rw [Nat.add_mul_mod_self_right, Nat.mod_eq_of_lt hi']
  have e3 : (i + j * nx) / nx = j := by rw [Nat.add_mul_div_right _ _ hn, Nat.div_eq_of_lt hi, Nat.zero_add]
  have e4 : (i' + j' * nx) / nx = j' := by rw [Nat.add_mul_div_right _ _ hn, Nat.div_eq_of_lt hi', Nat.zero_add]
  rw [h] at e1 e3
  exact ⟨e1.symm.trans e2, e3.symm.trans e4⟩

theorem index_lt {nx ny i j : Nat} (hi : i < nx) (hj : j < ny) : i + j * nx < nx * ny := by
  have : j * nx + nx ≤ nx * ny := by
    rw [← Nat.succ_mul, Nat.mul_comm nx ny]
    exact Nat.mul_le_mul_right _ (by omega)
  omega

theorem grid_at (s : Mpact.Model K M) (dx dy : K) (ext : K × K) (nx ny : Nat) (p : OverlaySpec.Path) (c : ℤ) (cut : Cut K) :
    OverlaySpec.At (gridModel s dx dy ext nx ny) p c cut ↔
      ∃ i < nx, ∃ j < ny, p = ⟨0, 0, 0, i, j, 0, 0⟩ ∧ c = ((i + j * nx : Nat) : ℤ) ∧ cut.ll.1 = dx * i ∧ cut.ll.2.1 = dy * j ∧ cut.ext.1 = dx ∧
        cut.ext.2.1 = dy ∧ cut.ll.2.2 = 0 ∧ cut.ext.2.2 = 1 / 2 := by
  constructor
  · rintro ⟨i, asy, j, lat, r, rtm, ax, ay, lo, hi, x0, x1, y0, y1, ⟨a1, a2, a3, a4, a5, a6, a7⟩, ⟨b1, b2, b3, b4, b5⟩,
      ⟨c1, c2, c3, c4, c5⟩, ⟨d1, d2, d3, d4, d5, d6, d7⟩, rfl⟩
    obtain ⟨ai, aj, k, li, lj, ci, cj⟩ := p
    simp only [gridModel, List.length_cons, List.length_nil] at a1 a2 a3 a4 a5 a7
    obtain rfl : ai = 0 := by omega
    obtain rfl : aj = 0 := by omega
    simp only [Nat.zero_mul, Nat.zero_add, List.getElem?_cons_zero, Option.some.injEq] at a3 a4 a5
    subst a3 a4 a5
    simp only [Int.toNat_zero, List.getElem?_cons_zero, Option.some.injEq] at a7
    subst a7
    have hk : k = 0 := by
      have := (List.getElem?_eq_some_iff.1 b1).1
      simp at this
      exact this
    subst hk
    simp only [Nat.zero_add, List.getElem?_cons_zero, List.getElem?_cons_succ, Option.some.injEq] at b1 b2 b3
    subst b1 b2 b3
    simp only [gridModel, Int.toNat_zero, List.getElem?_cons_zero, Option.some.injEq] at b5
    subst b5
    simp only at c1 c2 c3 c5
    have hlt := index_lt c1 c2
    rw [List.getElem?_map, List.getElem?_range hlt, Option.map_some, Option.some.injEq] at c3
    subst c3
    simp only [gridModel, Int.toNat_natCast] at c5
    rw [List.getElem?_map, List.getElem?_range hlt, Option.map_some, Option.some.injEq] at c5
    subst c5
    simp only [List.length_cons, List.length_nil] at d1 d2 d3 d4 d5 d6 d7
    obtain rfl : ci = 0 := by omega
    obtain rfl : cj = 0 := by omega
    simp only [Nat.zero_mul, Nat.zero_add, List.getElem?_cons_zero, List.getElem?_cons_succ, Option.some.injEq] at d3 d4 d5 d6 d7
    subst d3 d4 d5 d6 d7
    refine ⟨li, c1, lj, c2, rfl, rfl, ?_, ?_, ?_, ?_, ?_, ?_⟩ <;> simp
    · ring
    · norm_num
  · rintro ⟨i, hi, j, hj, rfl, rfl, h1, h2, h3, h4, h5, h6⟩
    have hlt := index_lt hi hj
    refine ⟨0, ⟨[-1 / 2, 1 / 2], [0]⟩, 0, ⟨(dx, dy), nx, ny, (List.range (nx * ny)).map fun i : Nat => (i : ℤ)⟩, ((i + j * nx : Nat) : ℤ),
      ⟨[0, dx], [0, dy], [((i + j * nx : Nat) : ℤ)]⟩, 0, 0, -1 / 2, 1 / 2, 0, dx, 0, dy, ?_, ?_, ?_, ?_, ?_⟩
    · simp [gridModel]
    · simp [gridModel]
    · refine ⟨hi, hj, ?_, by omega, ?_⟩
      · simp only
        rw [List.getElem?_map, List.getElem?_range hlt, Option.map_some]
      · simp only [gridModel, Int.toNat_natCast]
        rw [List.getElem?_map, List.getElem?_range hlt, Option.map_some]
    · simp
    · obtain ⟨⟨l1, l2, l3⟩, ⟨e1, e2, e3⟩⟩ := cut
      simp only at h1 h2 h3 h4 h5 h6
      subst h1 h2 h3 h4 h5 h6
      simp only [zero_add, add_zero, sub_zero]
      have e1 : (0 : K) = (-1 / 2 + 1 / 2) / 2 := by ring
      have e2 : (1 / 2 : K) = (1 / 2 - -1 / 2) / 2 := by norm_num
      rw [← e1, ← e2]

theorem grid_whole (s : Mpact.Model K M) (dx dy : K) (ext : K × K) (nx ny : Nat) (hx : 0 < nx) (hy : 0 < ny) :
    OverlaySpec.Whole (gridModel s dx dy ext nx ny) := by
  have hpos : 0 < nx * ny := Nat.mul_pos hx hy
  refine ⟨?_, ?_, ?_, ?_⟩
  · refine ⟨by simp [gridModel], by simp [gridModel], ?_⟩
    intro i hi
    simp only [gridModel, List.mem_singleton] at hi
    subst hi
    simp [gridModel]
  · intro a ha
    simp only [gridModel, List.mem_singleton] at ha
    subst ha
    refine ⟨by simp, by simp, ?_⟩
    intro i hi
    simp only [List.mem_singleton] at hi
    subst hi
    simp [gridModel]
  · intro l hl
    simp only [gridModel, List.mem_singleton] at hl
    subst hl
    refine ⟨?_, by simp, ?_⟩
    · simp; omega
    · intro i hi
      obtain ⟨k, hk, rfl⟩ := List.mem_map.1 hi
      rw [List.mem_range] at hk
      simp only [gridModel, List.length_map, List.length_range]
      omega
  · intro r hr
    simp only [gridModel] at hr
    obtain ⟨k, hk, rfl⟩ := List.mem_map.1 hr
    rw [List.mem_range] at hk
    refine ⟨by simp, by simp, ?_⟩
    intro i hi
    simp only [List.mem_singleton] at hi
    subst hi
    simp only [gridModel, List.length_replicate]
    omega

theorem grid_cuts (s : Mpact.Model K M) (dx dy : K) (ext : K × K) (nx ny : Nat) (hx : 0 < nx) (hy : 0 < ny) :
    ∃ l, cuts (gridModel s dx dy ext nx ny) = .ok l ∧ l.length = nx * ny ∧ ∀ i < nx, ∀ j < ny, ∃ c, l[i + j * nx]? = some c ∧
      rectSet c = {P | i * dx ≤ P.1 ∧ P.1 < (i + 1) * dx ∧ j * dy ≤ P.2 ∧ P.2 < (j + 1) * dy} := by
  have hex : ∀ c : Nat, c < nx * ny → ∃ i < nx, ∃ j < ny, c = i + j * nx := by
    intro c hc
    refine ⟨c % nx, Nat.mod_lt _ hx, c / nx, ?_, ?_⟩
    · rw [Nat.div_lt_iff_lt_mul hx, Nat.mul_comm]; exact hc
    · rw [Nat.mul_comm]; exact (Nat.mod_add_div c nx).symm
  obtain ⟨l, h1, h2, h3⟩ := OverlayGrid.C91_first_partial (gridModel s dx dy ext nx ny) (grid_whole s dx dy ext nx ny hx hy) (by
    intro c hc
    obtain ⟨i, hi, j, hj, rfl⟩ := hex c (by simpa [gridModel] using hc)
    exact ⟨_, ⟨(dx * i, dy * j, 0), (dx, dy, 1 / 2)⟩, (grid_at s dx dy ext nx ny _ _ _).2 ⟨i, hi, j, hj, rfl, rfl, rfl, rfl, rfl, rfl, rfl, rfl⟩⟩)
  have hlen : l.length = nx * ny := by rw [h2]; simp [gridModel]
  refine ⟨l, h1, hlen, ?_⟩
  intro i hi j hj
  have hlt : i + j * nx < l.length := by rw [hlen]; exact index_lt hi hj
  refine ⟨_, List.getElem?_eq_getElem hlt, ?_⟩
  obtain ⟨p, hp, -⟩ := h3 _ _ (List.getElem?_eq_getElem hlt)
  obtain ⟨i', hi', j', hj', -, hc, q1, q2, q3, q4, -⟩ := (grid_at s dx dy ext nx ny _ _ _).1 hp
  obtain ⟨rfl, rfl⟩ := divmod hi hi' (by exact_mod_cast hc)
  ext P
  simp only [rectSet, Set.mem_ofPred_eq]
  rw [q1, q2, q3, q4, mul_comm dx, mul_comm dy, add_one_mul, add_one_mul]

/-! ### The fragments -/

theorem surfaces_sorted (o : Occ K C) : (surfaces o).Pairwise (· < ·) := by
  have h1 := List.pairwise_insertionSort (· ≤ ·) (o.rings.map (·.tag)).dedup
  have h2 : ((o.rings.map (·.tag)).dedup.insertionSort (· ≤ ·)).Nodup :=
    (List.perm_insertionSort (· ≤ ·) _).nodup_iff.2 (List.nodup_dedup _)
  exact h1.imp₂ (fun a b hle hne => lt_of_le_of_ne hle hne) h2

theorem mem_surfaces (o : Occ K C) (e : ℤ) : e ∈ surfaces o ↔ ∃ R ∈ o.rings, R.tag = e := by
  unfold surfaces
  rw [List.mem_insertionSort, List.mem_dedup, List.mem_map]

theorem cellTags_get (o : Occ K C) (cs : List (Cut K)) (i : Nat) (t : ℤ) :
    (cellTags o cs)[i]? = some t ↔ i < cs.length ∧ t = o.next + i := by
  unfold cellTags
  rw [List.getElem?_map]
  constructor
  · intro h
    obtain ⟨k, h1, h2⟩ := Option.map_eq_some_iff.1 h
    obtain ⟨h3, h4⟩ := List.getElem?_eq_some_iff.1 h1
    rw [List.getElem_range] at h4
    subst h4
    rw [List.length_range] at h3
    exact ⟨h3, h2.symm⟩
  · rintro ⟨h, rfl⟩
    rw [List.getElem?_range h]
    rfl

theorem mem_cellTags (o : Occ K C) (cs : List (Cut K)) (t : ℤ) : t ∈ cellTags o cs ↔ ∃ i : Nat, i < cs.length ∧ t = o.next + i := by
  rw [List.mem_iff_getElem?]
  exact exists_congr fun i => cellTags_get o cs i t

theorem cellTags_sorted (o : Occ K C) (cs : List (Cut K)) : (cellTags o cs).Pairwise (· < ·) := by
  unfold cellTags
  rw [List.pairwise_map]
  exact List.pairwise_lt_range.imp fun h => by omega

theorem findIdx_nodup {l : List DimTag} (hn : (l.map (·.2)).Nodup) {i : Nat} {x : DimTag} (h : l[i]? = some x) :
    l.findIdx? (fun y => y.2 == x.2) = some i := by
  rw [List.findIdx?_eq_some_iff_getElem]
  obtain ⟨hi, rfl⟩ := List.getElem?_eq_some_iff.1 h
  refine ⟨hi, by simp, ?_⟩
  intro j hj
  have hji : j < l.length := by omega
  simp only [beq_iff_eq]
  intro heq
  have := (List.nodup_iff_injective_getElem.1 hn) (a₁ := ⟨j, by simpa using hji⟩) (a₂ := ⟨i, by simpa using hi⟩) (by simpa using heq)
  simp at this
  omega

/-- The points of an entity: of a surface of the pins, or of a rectangle. -/
def before (o : Occ K C) (cs : List (Cut K)) (e : ℤ) : Set (K × K) :=
  {P | P ∈ ringSet o e ∨ ∃ (i : Nat) (c : Cut K), cs[i]? = some c ∧ e = o.next + i ∧ P ∈ rectSet c}

theorem inputs_nodup (o : Occ K C) (hc : Clean o) (cs : List (Cut K)) :
    (((surfaces o).map (fun t => ((2, t) : DimTag)) ++ (cellTags o cs).map fun t => ((2, t) : DimTag)).map (·.2)).Nodup := by
  rw [List.map_append, List.map_map, List.map_map]
  have e1 : ((fun x : DimTag => x.2) ∘ fun t : ℤ => ((2, t) : DimTag)) = id := rfl
  rw [e1, List.map_id, List.map_id, List.nodup_append]
  refine ⟨(surfaces_sorted o).imp fun h => h.ne, (cellTags_sorted o cs).imp fun h => h.ne, ?_⟩
  intro a ha b hb hab
  obtain ⟨R, hR, rfl⟩ := (mem_surfaces o a).1 ha
  obtain ⟨i, -, rfl⟩ := (mem_cellTags o cs b).1 hb
  have := hc.below R hR
  omega

theorem pieces_ring (o : Occ K C) (hc : Clean o) (cs : List (Cut K)) (map : List (List DimTag)) (i : Nat) (e : ℤ) (l : List DimTag)
    (h : (surfaces o)[i]? = some e) (hl : map[i]? = some l) : pieces 2 (surfaces o) (cellTags o cs) map e = l.map (·.2) := by
  unfold pieces become
  have hi := (List.getElem?_eq_some_iff.1 h).1
  rw [findIdx_nodup (inputs_nodup o hc cs) (i := i) (x := (2, e)) (by
    rw [List.getElem?_append_left (by simpa using hi), List.getElem?_map, h]; rfl)]
  simp only [List.getD_eq_getElem?_getD, hl, Option.getD_some]

theorem pieces_rect (o : Occ K C) (hc : Clean o) (cs : List (Cut K)) (map : List (List DimTag)) (i : Nat) (t : ℤ) (l : List DimTag)
    (h : (cellTags o cs)[i]? = some t) (hl : map[(surfaces o).length + i]? = some l) :
    pieces 2 (surfaces o) (cellTags o cs) map t = l.map (·.2) := by
  unfold pieces become
  rw [findIdx_nodup (inputs_nodup o hc cs) (i := (surfaces o).length + i) (x := (2, t)) (by
    rw [List.getElem?_append_right (by simp)]; simp [h])]
  simp only [List.getD_eq_getElem?_getD, hl, Option.getD_some]

theorem cell_pieces (o : Occ K C) (hc : Clean o) (cs : List (Cut K)) (map : List (List DimTag)) (all : List ℤ) (reg : ℤ → Set (K × K))
    (F : Fragments o cs map all reg) (e : ℤ) (he : e ∈ surfaces o ∨ e ∈ cellTags o cs) :
    before o cs e = {P | ∃ e' ∈ pieces 2 (surfaces o) (cellTags o cs) map e, P ∈ reg e'} := by
  rcases he with he | he
  · obtain ⟨i, hi⟩ := List.mem_iff_getElem?.1 he
    have hlt : i < map.length := by have := (List.getElem?_eq_some_iff.1 hi).1; rw [F.full]; omega
    have hl := List.getElem?_eq_getElem hlt
    rw [pieces_ring o hc cs map i e _ hi hl]
    have h1 : before o cs e = ringSet o e := by
      ext P
      constructor
      · rintro (h | ⟨k, c, -, hk, -⟩)
        · exact h
        · obtain ⟨R, hR, hRe⟩ := (mem_surfaces o e).1 he
          have := hc.below R hR
          omega
      · exact Or.inl
    rw [h1, F.rings i e _ hi hl]
    ext P
    constructor
    · rintro ⟨c, hcl, hP⟩; exact ⟨c.2, List.mem_map.2 ⟨c, hcl, rfl⟩, hP⟩
    · rintro ⟨e', he', hP⟩
      obtain ⟨c, hcl, rfl⟩ := List.mem_map.1 he'
      exact ⟨c, hcl, hP⟩
  · obtain ⟨i, hi⟩ := List.mem_iff_getElem?.1 he
    obtain ⟨hil, hie⟩ := (cellTags_get o cs i e).1 hi
    have hlt : (surfaces o).length + i < map.length := by rw [F.full]; omega
    have hl := List.getElem?_eq_getElem hlt
    rw [pieces_rect o hc cs map i e _ hi hl]
    have h1 : before o cs e = rectSet (cs[i]) := by
      ext P
      constructor
      · rintro (⟨R, hR, hRe, -⟩ | ⟨k, c, hk, hke, hP⟩)
        · have := hc.below R hR
          omega
        · obtain rfl : k = i := by omega
          rw [List.getElem?_eq_getElem hil] at hk
          cases hk
          exact hP
      · intro hP
        exact Or.inr ⟨i, _, List.getElem?_eq_getElem hil, hie, hP⟩
    rw [h1, F.rects i _ _ (List.getElem?_eq_getElem hil) hl]
    ext P
    constructor
    · rintro ⟨c, hcl, hP⟩; exact ⟨c.2, List.mem_map.2 ⟨c, hcl, rfl⟩, hP⟩
    · rintro ⟨e', he', hP⟩
      obtain ⟨c, hcl, rfl⟩ := List.mem_map.1 he'
      exact ⟨c, hcl, hP⟩

theorem setting_of (o : Occ K C) (hc : Clean o) (hne : o.rings ≠ []) (cs : List (Cut K)) (h0 : cs ≠ []) (hcount : cs.length ≤ 100000)
    (hin : ∀ c ∈ cs, (rectSet c).Nonempty) (map : List (List DimTag)) (all : List ℤ) (reg : ℤ → Set (K × K))
    (F : Fragments o cs map all reg) : Setting o.gm 2 (surfaces o) (cellTags o cs) map all := by
  have hname : ∀ g ∈ o.gm.groups, ∃ x, g.name = material x := by
    intro g hg
    obtain ⟨e, he⟩ := List.exists_mem_of_ne_nil _ (hc.wf.ents g hg).2
    exact (hc.owned g.dim g.name e ⟨g, hg, rfl, rfl, he⟩).2.1
  refine ⟨Or.inl rfl, hc.wf, hc.distinct, ?_, ?_, ⟨?_, surfaces_sorted o⟩, ⟨?_, cellTags_sorted o cs⟩, ?_, ?_, ?_, ?_, ?_, F.sorted, F.after⟩
  · intro g hg h
    obtain ⟨x, hx⟩ := hname g hg
    rw [hx] at h
    have := congrArg List.length h
    simp [material] at this
  · intro g hg h
    obtain ⟨x, hx⟩ := hname g hg
    rw [hx] at h
    obtain ⟨t, ht⟩ := h
    have := congrArg List.head? ht
    simp [material] at this
  · obtain ⟨R, hR⟩ := List.exists_mem_of_ne_nil _ hne
    exact List.ne_nil_of_mem ((mem_surfaces o _).2 ⟨R, hR, rfl⟩)
  · unfold cellTags
    rw [Ne, List.map_eq_nil_iff, List.range_eq_nil, List.length_eq_zero_iff]
    exact h0
  · intro t ht h
    obtain ⟨i, -, rfl⟩ := (mem_cellTags o cs t).1 ht
    obtain ⟨R, hR, hRt⟩ := (mem_surfaces o _).1 h
    have := hc.below R hR
    omega
  · simpa [cellTags] using hcount
  · intro n e h
    exact (mem_surfaces o e).2 (hc.owned 2 n e h).2.2
  · rw [F.full]; simp [cellTags]
  · intro t ht h
    obtain ⟨i, hi, rfl⟩ := (mem_cellTags o cs t).1 ht
    have := cell_pieces o hc cs map all reg F (o.next + i) (Or.inr ht)
    rw [h] at this
    obtain ⟨P, hP⟩ := hin cs[i] (List.getElem_mem hi)
    have hmem : P ∈ before o cs (o.next + i) := Or.inr ⟨i, _, List.getElem?_eq_getElem hi, rfl, hP⟩
    rw [this] at hmem
    obtain ⟨e', he', -⟩ := hmem
    cases he'

/-! ### The theorem -/

/-- The overlay of any rectangles on the surfaces of pins. -/
theorem lay_points (clos : DimTag → List DimTag) (o : Occ K C) (hc : Clean o) (hne : o.rings ≠ []) (cs : List (Cut K)) (h0 : cs ≠ [])
    (hcount : cs.length ≤ 100000) (hrect : ∀ c ∈ cs, (rectSet c).Nonempty) (map : List (List DimTag)) (all : List ℤ) (reg : ℤ → Set (K × K))
    (F : Fragments o cs map all reg) (fill : Name × C) :
    ∃ g gone, lay clos o cs map all fill = .ok (g, gone) ∧
      (∀ P, (∃ c ∈ cs, P ∈ rectSet c) → ∀ x, (∀ y, Has o P y → y = x) → (Has o P x ∨ x = fill.1) → MaterialAt g reg P x) ∧
      (∀ (i : Nat) c, cs[i]? = some c → region reg g 2 (cell i) = rectSet c) ∧
      ∀ P n d, P ∈ region reg g d n → ∃ c ∈ cs, P ∈ rectSet c := by
  have hS := setting_of o hc hne cs h0 hcount hrect map all reg F
  obtain ⟨g, gone, h4⟩ := OverlayGroups.C92_defined clos o.gm 2 (surfaces o) (cellTags o cs) map all fill hS
  obtain ⟨r1, r2, r3, r4⟩ := OverlayGroups.C92_region clos o.gm g 2 (surfaces o) (cellTags o cs) map all gone fill hS h4 (before o cs) reg
    (fun e he => cell_pieces o hc cs map all reg F e he) F.apart
  have r5 := (OverlayGroups.C92_removed clos o.gm g 2 (surfaces o) (cellTags o cs) map all gone fill hS h4).2
  have hdom : ∀ P : K × K, (∃ t ∈ cellTags o cs, P ∈ before o cs t) ↔ ∃ c ∈ cs, P ∈ rectSet c := by
    intro P
    constructor
    · rintro ⟨t, ht, hP⟩
      obtain ⟨k, hk, rfl⟩ := (mem_cellTags o cs t).1 ht
      rcases hP with ⟨R, hR, hRe, -⟩ | ⟨k', c, hk', hke, hP⟩
      · have := hc.below R hR; omega
      · exact ⟨c, List.mem_of_getElem? hk', hP⟩
    · rintro ⟨c, hcm, hP⟩
      obtain ⟨k, hk⟩ := List.mem_iff_getElem?.1 hcm
      have hlt := (List.getElem?_eq_some_iff.1 hk).1
      exact ⟨o.next + (k : ℤ), (mem_cellTags o cs _).2 ⟨k, hlt, rfl⟩, Or.inr ⟨k, c, hk, rfl, hP⟩⟩
  have hmat : ∀ P y, P ∈ region (before o cs) o.gm 2 (material y) ↔ Has o P y := by
    intro P y
    constructor
    · rintro ⟨e, hin, hP⟩
      rcases hP with ⟨R, hR, hRe, hcov⟩ | ⟨k, c, -, hk, -⟩
      · exact ⟨R, hR, hcov, by rw [hRe]; exact hin⟩
      · obtain ⟨R, hR, hRe⟩ := (hc.owned 2 _ e hin).2.2
        have := hc.below R hR
        omega
    · rintro ⟨R, hR, hcov, hin⟩
      exact ⟨R.tag, hin, Or.inl ⟨R, hR, rfl, hcov⟩⟩
  refine ⟨g, gone, h4, ?_, ?_, ?_⟩
  · intro P hP x hone hx' y
    obtain ⟨z, hz, hz'⟩ := r4 P ((hdom P).2 hP)
    suffices hzx : z = x by
      subst hzx
      exact ⟨fun h => hz' y h, fun h => by rw [h]; exact hz⟩
    by_cases hzf : z = fill.1
    · subst hzf
      rcases hx' with hx' | hx'
      · by_contra hne'
        have hz2 : P ∈ region reg g 2 (material fill.1) := hz
        rw [r2] at hz2
        exact hz2.2 x (fun h => hne' h.symm) ((hmat P x).2 hx')
      · exact hx'.symm
    · have := r3 z hzf hz
      exact hone z ((hmat P z).1 this.2)
  · intro i c hi
    have hlt := (List.getElem?_eq_some_iff.1 hi).1
    rw [r1 i (o.next + (i : ℤ)) ((cellTags_get o cs _ _).2 ⟨hlt, rfl⟩)]
    ext P
    constructor
    · rintro (⟨R, hR, hRe, -⟩ | ⟨k', c', hk', hke, hP⟩)
      · have := hc.below R hR; omega
      · obtain rfl : i = k' := by omega
        rw [hi] at hk'; cases hk'
        exact hP
    · intro hP
      exact Or.inr ⟨_, c, hi, rfl, hP⟩
  · rintro P n d ⟨e, hin, hP⟩
    obtain ⟨-, t, ht, het⟩ := r5 d n e hin
    refine (hdom P).1 ⟨t, ht, ?_⟩
    rw [cell_pieces o hc cs map all reg F t (Or.inr ht)]
    exact ⟨e, het, hP⟩

/-- **C107.**  Lattices of pins on an empty model, the grid of coarse cells and its overlay.  The program comes to the overlay without
an error.  Whatever fragments the kernel then finds, the overlay succeeds, and for every point: if the point is in rings of one material
at most, it has this material, or the fill material if it is in none; it is in the coarse cell in whose rectangle it is; and nothing is
left outside the domain. -/
theorem C107_points (clos : DimTag → List DimTag) (hself : ∀ e, (2, e) ∈ clos (2, e)) (hother : ∀ e e', (2, e) ∈ clos (2, e') → e = e')
    (sort : List K → List K) (hsort : ∀ l, IsStdSort (fun a b => decide (a < b)) l (sort l)) (eps : K) (he : 0 < eps)
    (color : DimTag → C) (pls : List (Placement K C)) (hgood : ∀ pl ∈ pls, Good eps pl)
    (hsome : ∃ pl ∈ pls, ∃ i j p k r, Stands pl.ids.reverse pl.radii i j p k r)
    (s : Mpact.Model K M) (hs : Fresh s) (ext : K × K) (nx ny : Nat) (hx : 0 < nx) (hy : 0 < ny) (hn : nx * ny ≤ 100000)
    (hw : eps ≤ ext.1 / nx) (hh : eps ≤ ext.2 / ny) (fill : Name × C) :
    Yields clos sort eps color pls s ext nx ny fill fun g reg =>
      (∀ P : K × K, 0 ≤ P.1 → P.1 < ext.1 → 0 ≤ P.2 → P.2 < ext.2 → ∀ x,
        (∀ y, (∃ pl ∈ pls, Shows pl P y) → y = x) → ((∃ pl ∈ pls, Shows pl P x) ∨ x = fill.1) → MaterialAt g reg P x) ∧
      GridCells ext nx ny g reg := by
  obtain ⟨o, h1, hc, -, hhas, hne⟩ := all_calls clos hself hother sort hsort eps he pls (start color) (start_clean color) hgood
  have hne := hne hsome
  have hhas : ∀ P y, Has o P y ↔ ∃ pl ∈ pls, Shows pl P y := by
    intro P y
    have h0 : ¬ Has (start color : Occ K C) P y := by rintro ⟨R, hR, _⟩; cases hR
    exact Iff.trans (hhas P y) ⟨fun h => h.resolve_left h0, Or.inr⟩
  have h2 := CoarseGrid.C102_grid hsort eps he s hs ext nx ny hx hy (by omega) hw hh
  obtain ⟨cs, h3, hlen, hcut⟩ := grid_cuts s (ext.1 / nx) (ext.2 / ny) ext nx ny hx hy
  have hpos : 0 < nx * ny := Nat.mul_pos hx hy
  have hxK : (0 : K) < nx := by exact_mod_cast hx
  have hyK : (0 : K) < ny := by exact_mod_cast hy
  have hw0 := he.trans_le hw
  have hh0 := he.trans_le hh
  have ex : (nx : K) * (ext.1 / nx) = ext.1 := mul_div_cancel₀ _ hxK.ne'
  have ey : (ny : K) * (ext.2 / ny) = ext.2 := mul_div_cancel₀ _ hyK.ne'
  have hex : ∀ c ∈ cs, ∃ i < nx, ∃ j < ny, rectSet c =
      {P | i * (ext.1 / nx) ≤ P.1 ∧ P.1 < (i + 1) * (ext.1 / nx) ∧ j * (ext.2 / ny) ≤ P.2 ∧ P.2 < (j + 1) * (ext.2 / ny)} := by
    intro c hcm
    obtain ⟨k, hk⟩ := List.mem_iff_getElem?.1 hcm
    have hlt := (List.getElem?_eq_some_iff.1 hk).1
    have hj : k / nx < ny := by rw [Nat.div_lt_iff_lt_mul hx, Nat.mul_comm]; omega
    obtain ⟨c', q1, q2⟩ := hcut (k % nx) (Nat.mod_lt _ hx) (k / nx) hj
    rw [Nat.mul_comm, Nat.mod_add_div, hk] at q1
    cases q1
    exact ⟨_, Nat.mod_lt _ hx, _, hj, q2⟩
  refine ⟨o, gridModel s (ext.1 / nx) (ext.2 / ny) ext nx ny, cs, ?_, ?_⟩
  · unfold build
    rw [h1]
    show (Res.ofOption _).bind _ = _
    rw [h2]
    show (cuts (gridModel s (ext.1 / nx) (ext.2 / ny) ext nx ny)).bind _ = _
    rw [h3]
    rfl
  intro map all reg F
  obtain ⟨g, gone, g1, g2, g3, g4⟩ := lay_points clos o hc hne cs (by intro h; rw [h] at hlen; simp at hlen; omega) (by omega) (by
    intro c hcm
    obtain ⟨i, hi, j, hj, q2⟩ := hex c hcm
    rw [q2]
    refine ⟨(i * (ext.1 / nx), j * (ext.2 / ny)), le_refl _, ?_, le_refl _, ?_⟩ <;> dsimp only <;> rw [add_one_mul] <;> linarith)
    map all reg F fill
  refine ⟨g, gone, g1, ?_, ?_, ?_⟩
  · intro P p1 p2 p3 p4 x hone hx'
    obtain ⟨i, hi, ⟨hi1, hi2⟩, -⟩ := CoarseGrid.interval hw0 nx p1 (by rw [ex]; exact p2)
    obtain ⟨j, hj, ⟨hj1, hj2⟩, -⟩ := CoarseGrid.interval hh0 ny p3 (by rw [ey]; exact p4)
    obtain ⟨c, q1, q2⟩ := hcut i hi j hj
    refine g2 P ⟨c, List.mem_of_getElem? q1, by rw [q2]; exact ⟨hi1, hi2, hj1, hj2⟩⟩ x (fun y hy => hone y ((hhas P y).1 hy)) ?_
    exact hx'.imp (hhas P x).2 id
  · intro i hi j hj
    obtain ⟨c, q1, q2⟩ := hcut i hi j hj
    rw [g3 _ c q1, q2]
  · intro P n d hP
    obtain ⟨c, hcm, hP⟩ := g4 P n d hP
    obtain ⟨i, hi, j, hj, q2⟩ := hex c hcm
    rw [q2] at hP
    obtain ⟨p1, p2, p3, p4⟩ := hP
    have hiK : (i : K) + 1 ≤ nx := by exact_mod_cast hi
    have hjK : (j : K) + 1 ≤ ny := by exact_mod_cast hj
    refine ⟨(mul_nonneg (Nat.cast_nonneg _) hw0.le).trans p1, ?_, (mul_nonneg (Nat.cast_nonneg _) hh0.le).trans p3, ?_⟩
    · exact lt_of_lt_of_le p2 ((mul_le_mul_of_nonneg_right hiK hw0.le).trans_eq ex)
    · exact lt_of_lt_of_le p4 ((mul_le_mul_of_nonneg_right hjK hh0.le).trans_eq ey)

/-! ### Lattices side by side -/

theorem sq_lt_half {a r w : K} (h : a ^ 2 ≤ r ^ 2) (hr : 0 < r) (hw : r < w / 2) : -(w / 2) < a ∧ a < w / 2 := by
  have := abs_le.1 (abs_le_of_sq_le_sq h hr.le)
  constructor <;> linarith [this.1, this.2]

/-- A ring stays in the cell of its pin. -/
theorem ring_inCell (pl : Placement K C) (i j : Nat) (P : K × K) (r : K) (hr : 0 < r) (h1 : r < pl.pitch.1 / 2) (h2 : r < pl.pitch.2 / 2)
    (h : dist2 P (centre pl i j) ≤ r ^ 2) : InCell pl i j P := by
  unfold dist2 centre at h
  dsimp only at h
  have a1 := sq_lt_half (a := P.1 - (pl.off.1 + (i + 1 / 2) * pl.pitch.1)) (by nlinarith [sq_nonneg (P.2 - (pl.off.2 + (j + 1 / 2) * pl.pitch.2))]) hr h1
  have a2 := sq_lt_half (a := P.2 - (pl.off.2 + (j + 1 / 2) * pl.pitch.2)) (by nlinarith [sq_nonneg (P.1 - (pl.off.1 + (i + 1 / 2) * pl.pitch.1))]) hr h2
  refine ⟨?_, ?_, ?_, ?_⟩ <;> nlinarith [a1.1, a1.2, a2.1, a2.2]

theorem cell_unique {w x a : K} (hw : 0 < w) {i i' : Nat} (h1 : a + i * w ≤ x) (h2 : x < a + (i + 1) * w) (h3 : a + i' * w ≤ x)
    (h4 : x < a + (i' + 1) * w) : i = i' := by
  have k1 : (i : K) < i' + 1 := lt_of_mul_lt_mul_right (by linarith) hw.le
  have k2 : (i' : K) < i + 1 := lt_of_mul_lt_mul_right (by linarith) hw.le
  have k1 : i < i' + 1 := by exact_mod_cast k1
  have k2 : i' < i + 1 := by exact_mod_cast k2
  omega

/-- The first circle that reaches a point. -/
theorem look_iff (rad : List K) (ms : List (Name × C)) (hl : rad.length ≤ ms.length) (D : K) (x : Name) :
    look rad ms D = some x ↔ ∃ (k : Nat) (r : K) (c : C), rad[k]? = some r ∧ ms[k]? = some (x, c) ∧ D ≤ r ^ 2 ∧
      ∀ k' < k, ∀ r', rad[k']? = some r' → r' ^ 2 < D := by
  induction rad generalizing ms with
  | nil =>
    simp [look]
  | cons r0 rs ih =>
    cases ms with
    | nil => simp at hl
    | cons m ms =>
      rw [look]
      by_cases h : D ≤ r0 ^ 2
      · rw [if_pos h]
        constructor
        · intro hx
          have hx : m.1 = x := by simpa using hx
          exact ⟨0, r0, m.2, rfl, by rw [← hx]; rfl, h, fun k' hk => by omega⟩
        · rintro ⟨k, r, c, h1, h2, h3, h4⟩
          cases k with
          | zero =>
            simp only [List.getElem?_cons_zero, Option.some.injEq] at h2
            rw [h2]
          | succ k => exact absurd h (not_le.2 (h4 0 (by omega) r0 rfl))
      · rw [if_neg h, ih ms (by simpa using hl)]
        constructor
        · rintro ⟨k, r, c, h1, h2, h3, h4⟩
          refine ⟨k + 1, r, c, h1, h2, h3, ?_⟩
          intro k' hk' r' hr'
          cases k' with
          | zero =>
            simp only [List.getElem?_cons_zero, Option.some.injEq] at hr'
            rw [← hr']; exact not_le.1 h
          | succ k' => exact h4 k' (by omega) r' hr'
        · rintro ⟨k, r, c, h1, h2, h3, h4⟩
          cases k with
          | zero =>
            simp only [List.getElem?_cons_zero, Option.some.injEq] at h1
            rw [← h1] at h3
            exact absurd h3 h
          | succ k => exact ⟨k, r, c, h1, h2, h3, fun k' hk' r' hr' => h4 (k' + 1) (by omega) r' hr'⟩

/-- Within a cell, exactly the rings of its pin show. -/
theorem shows_iff {eps : K} (he : 0 < eps) (pl : Placement K C) (hg : Good eps pl) (hin : Inside pl) (i j p : Nat) (rad : List K)
    (ms : List (Name × C)) (hp : idAt pl.ids.reverse i j = some (p : ℤ)) (hr : pl.radii[p]? = some rad) (hm : pl.mats[p]? = some ms)
    (P : K × K) (hP : InCell pl i j P) (x : Name) : Shows pl P x ↔ look rad ms (dist2 P (centre pl i j)) = some x := by
  have hlen : rad.length ≤ ms.length := by
    obtain ⟨h1, h1'⟩ := List.getElem?_eq_some_iff.1 hr
    obtain ⟨h2, h2'⟩ := List.getElem?_eq_some_iff.1 hm
    have := List.Forall₂.get hg.mats h1 h2
    simp only [List.get_eq_getElem, h1', h2'] at this
    exact this
  have hmem := List.mem_of_getElem? hr
  rw [look_iff rad ms hlen]
  constructor
  · rintro ⟨i', j', p', k, rad', r, ms', c, s1, s2, s3, s4, s5, s6, s7⟩
    have hmem' := List.mem_of_getElem? s2
    have hrm := List.mem_of_getElem? s4
    obtain ⟨b1, b2⟩ := hin.small rad' hmem' r hrm
    obtain ⟨q1, q2, q3, q4⟩ := ring_inCell pl i' j' P r (hin.pos rad' hmem' r hrm) b1 b2 s6
    obtain ⟨p1, p2, p3, p4⟩ := hP
    obtain rfl := cell_unique (he.trans_le hg.pitch.1) q1 q2 p1 p2
    obtain rfl := cell_unique (he.trans_le hg.pitch.2) q3 q4 p3 p4
    rw [hp] at s1
    have : p = p' := by simpa using s1
    subst this
    rw [hr] at s2; cases s2
    rw [hm] at s3; cases s3
    refine ⟨k, r, c, s4, s5, s6, ?_⟩
    intro k' hk' r' hr'
    exact ((PinsP.first_ring rad (hin.pos rad hmem) (hin.order rad hmem) _ k r s4).1 ⟨s6, s7⟩).2 k' r' hk' hr'
  · rintro ⟨k, r, c, h1, h2, h3, h4⟩
    have := (PinsP.first_ring rad (hin.pos rad hmem) (hin.order rad hmem) (dist2 P (centre pl i j)) k r h1).2 ⟨h3, fun k' r' hk' hr' => h4 k' hk' r' hr'⟩
    exact ⟨i, j, p, k, rad, r, ms, c, hp, hr, hm, h1, h2, this.1, this.2⟩

theorem Yields.mono {clos : DimTag → List DimTag} {sort : List K → List K} {eps : K} {color : DimTag → C} {pls : List (Placement K C)}
    {s : Mpact.Model K M} {ext : K × K} {nx ny : ℤ} {fill : Name × C} {Q Q' : Gm Name C → (ℤ → Set (K × K)) → Prop}
    (h : Yields clos sort eps color pls s ext nx ny fill Q) (hQ : ∀ g reg, Q g reg → Q' g reg) :
    Yields clos sort eps color pls s ext nx ny fill Q' := by
  obtain ⟨o, m, cs, h1, h2⟩ := h
  refine ⟨o, m, cs, h1, fun map all reg F => ?_⟩
  obtain ⟨g, gone, h3, h4⟩ := h2 map all reg F
  exact ⟨g, gone, h3, hQ g reg h4⟩

/-- In a cell of lattices side by side, nothing shows but what the pin of the cell shows. -/
theorem point_in {eps : K} (he : 0 < eps) (pls : List (Placement K C)) (hgood : ∀ pl ∈ pls, Good eps pl) (hin : ∀ pl ∈ pls, Inside pl)
    (hsym : ∀ a ∈ pls, ∀ b ∈ pls, a ≠ b → ∀ P i j i' j', (idAt a.ids.reverse i j).isSome → (idAt b.ids.reverse i' j').isSome →
      InCell a i j P → ¬ InCell b i' j' P)
    (pl : Placement K C) (hpl : pl ∈ pls) (i j p : Nat) (rad : List K) (ms : List (Name × C)) (e1 : idAt pl.ids.reverse i j = some (p : ℤ))
    (e2 : pl.radii[p]? = some rad) (e3 : pl.mats[p]? = some ms) (P : K × K) (hP : InCell pl i j P) (y : Name) :
    (∃ q ∈ pls, Shows q P y) ↔ look rad ms (dist2 P (centre pl i j)) = some y := by
  have hiff := shows_iff he pl (hgood pl hpl) (hin pl hpl) i j p rad ms e1 e2 e3 P hP
  constructor
  · rintro ⟨q, hq, hy⟩
    by_cases hqp : q = pl
    · rw [hqp] at hy; exact (hiff y).1 hy
    · exfalso
      obtain ⟨i', j', p', k, rad', r, ms', c, s1, s2, s3, s4, s5, s6, s7⟩ := hy
      have hmem' := List.mem_of_getElem? s2
      have hrm := List.mem_of_getElem? s4
      obtain ⟨b1, b2⟩ := (hin q hq).small rad' hmem' r hrm
      have hQ := ring_inCell q i' j' P r ((hin q hq).pos rad' hmem' r hrm) b1 b2 s6
      exact hsym q hq pl hpl hqp P i' j' i j (by rw [s1]; rfl) (by rw [e1]; rfl) hQ hP
  · intro h
    exact ⟨pl, hpl, (hiff y).2 h⟩

/-- **C107.**  Lattices that do not overlap, of pins that stay in their cells: a point in a cell of a lattice has the material of the first
circle of the pin that reaches it, or the fill material if none does; a point in no cell has the fill material. -/
theorem C107_lattices (clos : DimTag → List DimTag) (hself : ∀ e, (2, e) ∈ clos (2, e)) (hother : ∀ e e', (2, e) ∈ clos (2, e') → e = e')
    (sort : List K → List K) (hsort : ∀ l, IsStdSort (fun a b => decide (a < b)) l (sort l)) (eps : K) (he : 0 < eps)
    (color : DimTag → C) (pls : List (Placement K C)) (hgood : ∀ pl ∈ pls, Good eps pl) (hin : ∀ pl ∈ pls, Inside pl)
    (hapart : pls.Pairwise fun a b => ∀ P i j i' j', (idAt a.ids.reverse i j).isSome → (idAt b.ids.reverse i' j').isSome →
      InCell a i j P → ¬ InCell b i' j' P)
    (hsome : ∃ pl ∈ pls, ∃ i j p k r, Stands pl.ids.reverse pl.radii i j p k r)
    (s : Mpact.Model K M) (hs : Fresh s) (ext : K × K) (nx ny : Nat) (hx : 0 < nx) (hy : 0 < ny) (hn : nx * ny ≤ 100000)
    (hw : eps ≤ ext.1 / nx) (hh : eps ≤ ext.2 / ny) (fill : Name × C) :
    Yields clos sort eps color pls s ext nx ny fill fun g reg =>
      (∀ P : K × K, 0 ≤ P.1 → P.1 < ext.1 → 0 ≤ P.2 → P.2 < ext.2 →
        (∀ pl ∈ pls, ∀ (i j p : Nat) rad ms, idAt pl.ids.reverse i j = some (p : ℤ) → pl.radii[p]? = some rad → pl.mats[p]? = some ms →
          InCell pl i j P → MaterialAt g reg P ((look rad ms (dist2 P (centre pl i j))).getD fill.1)) ∧
        ((∀ pl ∈ pls, ∀ i j, (idAt pl.ids.reverse i j).isSome → ¬ InCell pl i j P) → MaterialAt g reg P fill.1)) ∧
      GridCells ext nx ny g reg := by
  refine Yields.mono (C107_points clos hself hother sort hsort eps he color pls hgood hsome s hs ext nx ny hx hy hn hw hh fill) ?_
  rintro g reg ⟨h1, h2⟩
  refine ⟨fun P p1 p2 p3 p4 => ⟨?_, ?_⟩, h2⟩
  · intro pl hpl i j p rad ms e1 e2 e3 hP
    have hiff := point_in he pls hgood hin (by
        intro a ha b hb hab
        have : Std.Symm fun a b : Placement K C => ∀ P i j i' j', (idAt a.ids.reverse i j).isSome →
            (idAt b.ids.reverse i' j').isSome → InCell a i j P → ¬ InCell b i' j' P :=
          ⟨fun a b h P i j i' j' q1 q2 q3 q4 => h P i' j' i j q2 q1 q4 q3⟩
        exact hapart.forall ha hb hab) pl hpl i j p rad ms e1 e2 e3 P hP
    refine h1 P p1 p2 p3 p4 _ ?_ ?_
    · intro y hy
      rw [(hiff y).1 hy]
      rfl
    · cases hl : look rad ms (dist2 P (centre pl i j)) with
      | none => exact Or.inr rfl
      | some x => exact Or.inl ((hiff x).2 hl)
  · intro hno
    refine h1 P p1 p2 p3 p4 _ ?_ (Or.inr rfl)
    rintro y ⟨q, hq, i', j', p', k, rad', r, ms', c, s1, s2, s3, s4, s5, s6, s7⟩
    have hmem' := List.mem_of_getElem? s2
    have hrm := List.mem_of_getElem? s4
    obtain ⟨b1, b2⟩ := (hin q hq).small rad' hmem' r hrm
    exact absurd (ring_inCell q i' j' P r ((hin q hq).pos rad' hmem' r hrm) b1 b2 s6) (hno q hq i' j' (by rw [s1]; rfl))

/-! ### Fragments exist -/

/-- Whatever the surfaces are, they have fragments in the sense of `Fragments`: the assumption on the kernel can be met. -/
theorem C107_fragments (o : Occ K C) (cs : List (Cut K)) : ∃ map all reg, Fragments o cs map all reg := by
  classical
  let n := (surfaces o).length + cs.length
  let S : Nat → Set (K × K) := fun k =>
    if h : k < (surfaces o).length then ringSet o (surfaces o)[k] else
    if h : k - (surfaces o).length < cs.length then rectSet cs[k - (surfaces o).length] else ∅
  let map : List (List DimTag) := (List.range n).map fun k =>
    ((List.range (2 ^ n)).filter fun c => c.testBit k).map fun c : Nat => ((2, (c : ℤ)) : DimTag)
  let all : List ℤ := (List.range (2 ^ n)).map fun c : Nat => (c : ℤ)
  let reg : ℤ → Set (K × K) := fun e => {P | ∀ k < n, (P ∈ S k ↔ e.toNat.testBit k = true)}
  have key : ∀ k < n, ∀ l, map[k]? = some l → S k = {P | ∃ c ∈ l, P ∈ reg c.2} := by
    intro k hk l hl
    have hl : (((List.range (2 ^ n)).filter fun c => c.testBit k).map fun c : Nat => ((2, (c : ℤ)) : DimTag)) = l := by
      simpa [map, List.getElem?_map, List.getElem?_range hk] using hl
    ext P
    constructor
    · intro hP
      let f : Fin n → Bool := fun i => decide (P ∈ S i)
      refine ⟨(2, (Nat.ofBits f : ℤ)), ?_, ?_⟩
      · rw [← hl]
        refine List.mem_map.2 ⟨Nat.ofBits f, ?_, rfl⟩
        rw [List.mem_filter, List.mem_range]
        refine ⟨Nat.ofBits_lt_two_pow f, ?_⟩
        rw [Nat.testBit_ofBits_lt f k hk]
        simpa [f] using hP
      · intro i hi
        show P ∈ S i ↔ ((Nat.ofBits f : ℤ).toNat).testBit i = true
        rw [Int.toNat_natCast, Nat.testBit_ofBits_lt f i hi]
        simp [f]
    · rintro ⟨c, hc, hP⟩
      rw [← hl] at hc
      obtain ⟨a, ha, rfl⟩ := List.mem_map.1 hc
      rw [List.mem_filter] at ha
      exact (hP k hk).2 (by simpa using ha.2)
  have hmem : ∀ c ∈ map.flatten, ∃ a : Nat, a < 2 ^ n ∧ c.2 = a := by
    intro c hc
    obtain ⟨l, hl, hc⟩ := List.mem_flatten.1 hc
    obtain ⟨k, -, rfl⟩ := List.mem_map.1 hl
    obtain ⟨a, ha, rfl⟩ := List.mem_map.1 hc
    exact ⟨a, List.mem_range.1 (List.mem_filter.1 ha).1, rfl⟩
  refine ⟨map, all, reg, ?_, ?_, ?_, ?_, ?_, ?_⟩
  · simp [map, n]
  · intro i e l hi hl
    obtain ⟨hlt, rfl⟩ := List.getElem?_eq_some_iff.1 hi
    rw [← key i (by omega) l hl]
    simp only [S, dif_pos hlt]
  · intro i c l hi hl
    obtain ⟨hlt, rfl⟩ := List.getElem?_eq_some_iff.1 hi
    rw [← key _ (by omega) l hl]
    simp only [S]
    rw [dif_neg (by omega), dif_pos (by omega)]
    simp
  · intro a ha b hb hne
    obtain ⟨x, hx, hax⟩ := hmem a ha
    obtain ⟨y, hy, hby⟩ := hmem b hb
    rw [Set.disjoint_left]
    intro P hP hP'
    apply hne
    rw [hax, hby]
    congr 1
    apply Nat.eq_of_testBit_eq
    intro k
    by_cases hk : k < n
    · have h1 := hP k hk
      have h2 := hP' k hk
      rw [hax, Int.toNat_natCast] at h1
      rw [hby, Int.toNat_natCast] at h2
      rw [Bool.eq_iff_iff, ← h1, ← h2]
    · rw [Nat.testBit_lt_two_pow (lt_of_lt_of_le hx (Nat.pow_le_pow_right (by omega) (by omega))),
        Nat.testBit_lt_two_pow (lt_of_lt_of_le hy (Nat.pow_le_pow_right (by omega) (by omega)))]
  · rw [List.pairwise_map]
    exact List.pairwise_lt_range.imp fun h => by exact_mod_cast h
  · intro c hc
    obtain ⟨a, ha, hca⟩ := hmem c hc
    rw [hca]
    exact List.mem_map.2 ⟨a, List.mem_range.2 ha, rfl⟩

/-! ### A concrete case -/

/-- One row of two pins, of which the second has a ring of its own material within a clad. -/
def pair : Placement ℚ Unit where
  ids := [[0, 1]]
  pitch := (2, 2)
  radii := [[], [1 / 2, 3 / 4]]
  mats := [[], [([70], ()), ([67], ())]]
  off := (1, 0)

theorem pair_good : Good (1 / 10 ^ 7) pair :=
  ⟨by decide, ⟨2, by decide, by decide⟩, by decide, by simp [pair], by norm_num [pair]⟩

theorem pair_inside : Inside pair := by
  refine ⟨?_, ?_, ?_⟩ <;> simp [pair] <;> norm_num

/-- The two pins on a grid of three by two cells. -/
example : Yields (fun e => [e]) CoarseGrid.sortQ (1 / 10 ^ 7) (fun _ => ()) [pair] CoarseGrid.none_ (6, 4) (3 : Nat) (2 : Nat) ([87], ())
    fun g reg => MaterialAt g reg (4, 1) [70] ∧ MaterialAt g reg (4, 1 / 3) [67] ∧ MaterialAt g reg (4, 1 / 8) [87] ∧
      MaterialAt g reg (2, 1) [87] ∧ MaterialAt g reg (4, 3) [87] := by
  refine Yields.mono (C107_lattices (fun e => [e]) (by simp) (by simp) CoarseGrid.sortQ CoarseGrid.sortQ_ok (1 / 10 ^ 7) (by norm_num)
    (fun _ => ()) [pair] (by simpa using pair_good) (by simpa using pair_inside) (by simp)
    ⟨pair, by simp, 1, 0, 1, 0, 1 / 2, by decide, [1 / 2, 3 / 4], rfl, rfl⟩ CoarseGrid.none_ CoarseGrid.fresh (6, 4) 3 2 (by decide)
    (by decide) (by decide) (by norm_num) (by norm_num) ([87], ())) ?_
  rintro g reg ⟨h, -⟩
  have hin : ∀ (i j : Nat) (P : ℚ × ℚ), 1 + i * 2 ≤ P.1 → P.1 < 1 + (i + 1) * 2 → j * 2 ≤ P.2 → P.2 < (j + 1) * 2 → InCell pair i j P := by
    intro i j P a b c d
    refine ⟨a, b, ?_, ?_⟩ <;> simpa [pair] using by assumption
  refine ⟨?_, ?_, ?_, ?_, ?_⟩
  · have := (h (4, 1) (by norm_num) (by norm_num) (by norm_num) (by norm_num)).1 pair (by simp) 1 0 1 _ _ (by decide) rfl rfl
      (hin _ _ _ (by norm_num) (by norm_num) (by norm_num) (by norm_num))
    convert this using 1
    decide +kernel
  · have := (h (4, 1 / 3) (by norm_num) (by norm_num) (by norm_num) (by norm_num)).1 pair (by simp) 1 0 1 _ _ (by decide) rfl rfl
      (hin _ _ _ (by norm_num) (by norm_num) (by norm_num) (by norm_num))
    convert this using 1
    decide +kernel
  · have := (h (4, 1 / 8) (by norm_num) (by norm_num) (by norm_num) (by norm_num)).1 pair (by simp) 1 0 1 _ _ (by decide) rfl rfl
      (hin _ _ _ (by norm_num) (by norm_num) (by norm_num) (by norm_num))
    convert this using 1
    decide +kernel
  · exact (h (2, 1) (by norm_num) (by norm_num) (by norm_num) (by norm_num)).1 pair (by simp) 0 0 0 _ _ (by decide) rfl rfl
      (hin _ _ _ (by norm_num) (by norm_num) (by norm_num) (by norm_num))
  · refine (h (4, 3) (by norm_num) (by norm_num) (by norm_num) (by norm_num)).2 ?_
    intro pl hpl i j hid hP
    obtain rfl := List.mem_singleton.1 hpl
    have hj : j = 0 := by
      by_contra hj
      rw [show idAt pair.ids.reverse i j = none by
        unfold idAt
        rw [List.getElem?_eq_none (by simp [pair]; omega)]; rfl] at hid
      cases hid
    subst hj
    have := hP.2.2.2
    norm_num [pair] at this

end Verif.ProgramsP
