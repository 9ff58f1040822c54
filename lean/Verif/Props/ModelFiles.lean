import Verif.Lemmas.ModelFiles
import Verif.Props.ModelFilesSpec
import Mathlib.Data.List.Sort

/-!
# C87 Volumes of the materials and representative chord length
-/

namespace Verif.MFiles

open Verif.Pin (Mesh)
open Verif.Mpact

set_option linter.unusedSectionVars false
variable {K M : Type} [Field K] [LinearOrder K]

/-! ## Volumes -/

/-- The volumes of the faces of one material in a slab. -/
def slabVols (s : Model K M) (F : ℤ → List (Int8 × K)) (m : Nat) (p : ℤ × K) : List K :=
  (slabCells s p.1).flatMap fun c => faceVols (F c) p.2 m

theorem mem_placed {s : Model K M} {a l c : ℤ} {asy : Assembly K} (ha : a ∈ s.core.children) (h1 : at? s.assemblies a = some asy)
    (hl : l ∈ asy.children) (hc : c ∈ slabCells s l) : c ∈ placedCells s := by
  have hpl : l ∈ placedLattices s := mem_below (children := fun a : Assembly K => a.children) ha h1 hl
  unfold slabCells at hc
  rw [below, List.mem_flatMap] at hc
  obtain ⟨r, hr, hc⟩ := hc
  rw [below, List.mem_flatMap] at hr
  obtain ⟨l', hl', hr⟩ := hr
  simp only [List.mem_singleton] at hl'
  subst hl'
  unfold placedCells
  rw [below, List.mem_flatMap]
  refine ⟨r, ?_, hc⟩
  unfold placedRTMs
  rw [below, List.mem_flatMap]
  exact ⟨l', hpl, hr⟩

theorem appends_lats (area : Mesh K → Nat → K) (s : Model K M) (h : Valid s) (F : ℤ → List (Int8 × K)) (hF : FaceAreas area s F)
    (a : ℤ) (ha : a ∈ s.core.children) (asy : Assembly K) (hasy : at? s.assemblies a = some asy) :
    ∀ (k i : Nat), i + k = asy.children.length → Appends s.materials.length (volLats area s asy k i)
      fun m => ((asy.children.drop i).zip ((thick asy.zs).drop i)).flatMap (slabVols s F m) := by
  have hmem : asy ∈ s.assemblies := List.mem_of_getElem? (at?_eq.1 hasy).2
  obtain ⟨hlen, -, -, hlat⟩ := h.assembly asy hmem
  intro k
  induction k with
  | zero =>
    intro i hi V
    rw [List.drop_eq_nil_of_le (by omega : asy.children.length ≤ i)]
    simp [volLats]
  | succ k ih =>
    intro i hi V
    have hc : i < asy.children.length := by omega
    have hz : i < asy.zs.length := by omega
    have hz' : i + 1 < asy.zs.length := by omega
    have ht : i < (thick asy.zs).length := by unfold thick; simp; omega
    have hti : (thick asy.zs)[i] = asy.zs[i + 1] - asy.zs[i] := by simp [thick]
    obtain ⟨lat, hl, hlm⟩ := at?_of_lt (hlat _ (List.getElem_mem hc)).1 (hlat _ (List.getElem_mem hc)).2
    rw [volLats, List.getElem?_eq_getElem hc, Option.bind_some, List.getElem?_eq_getElem hz, Option.bind_some,
      List.getElem?_eq_getElem hz', Option.bind_some, hl, Option.bind_some]
    have step : Appends s.materials.length (forIds (fun r vols => (at? s.rtms r).bind fun rtm =>
        forIds (volCell area s (asy.zs[i + 1] - asy.zs[i])) rtm.children vols) lat.children)
        fun m => slabVols s F m (asy.children[i], asy.zs[i + 1] - asy.zs[i]) := by
      have : (fun m => slabVols s F m (asy.children[i], asy.zs[i + 1] - asy.zs[i])) =
          fun m => lat.children.flatMap fun r => (below s.rtms (fun r : Rect K => r.children) [r]).flatMap
            fun c => faceVols (F c) (asy.zs[i + 1] - asy.zs[i]) m := by
        funext m
        rw [flatMap_below, slabVols, slabCells, below_singleton hl]
      rw [this]
      refine appends_forIds (g := fun r m => (below s.rtms (fun r : Rect K => r.children) [r]).flatMap
            fun c => faceVols (F c) (asy.zs[i + 1] - asy.zs[i]) m) lat.children fun r hr => ?_
      obtain ⟨hr0, hr1⟩ := (h.lattice lat hlm).2 r hr
      obtain ⟨rtm, hrt, hrm⟩ := at?_of_lt hr0 hr1
      simp only [hrt, Option.bind_some, below_singleton hrt]
      refine appends_forIds (g := fun c m => faceVols (F c) (asy.zs[i + 1] - asy.zs[i]) m) rtm.children fun c hcc => ?_
      have hpc : c ∈ placedCells s := by
        refine mem_placed ha hasy (List.getElem_mem hc) ?_
        unfold slabCells
        rw [below_singleton hl]
        exact mem_below hr hrt hcc
      obtain ⟨cell, mesh, hcell, hmesh, hFc⟩ := hF c hpc
      obtain ⟨hc0, -⟩ := h.rtm rtm hrm c hcc
      have hne : cell.meshId ≠ -1 := fun e => by have := hmesh.1; omega
      obtain ⟨mesh', hm1, hm2, hm3⟩ := (h.cell cell (List.mem_of_getElem? hcell)).2.2 hne
      obtain rfl := isMeshOf_unique hmesh hm1
      obtain ⟨l, hml, hma⟩ := isMeshOf_meshes hmesh
      have := appends_faces area mesh cell.mats (asy.zs[i + 1] - asy.zs[i]) s.materials.length hm3 mesh.faces.length 0 (by omega)
      rw [List.drop_zero, ← List.range_eq_range', ← hFc] at this
      intro V
      unfold volCell
      rw [at?_eq.2 ⟨hc0, hcell⟩, Option.bind_some, hml]
      dsimp only
      rw [hma, Option.bind_some]
      exact this V
    rw [step V, Option.bind_some, ih (i + 1) (by omega) _, List.drop_eq_getElem_cons hc, List.drop_eq_getElem_cons ht, List.zip_cons_cons,
      hti]
    simp

/-- The volumes collected for each material. -/
theorem collected (area : Mesh K → Nat → K) (s : Model K M) (h : Valid s) (F : ℤ → List (Int8 × K)) (hF : FaceAreas area s F) :
    forIds (fun a vols => (at? s.assemblies a).bind fun asy => volLats area s asy asy.children.length 0 vols) s.core.children
      (List.replicate s.materials.length []) =
    some ((List.range s.materials.length).map fun m => (placedSlabs s).flatMap (slabVols s F m)) := by
  have key := appends_forIds (n := s.materials.length)
    (f := fun a vols => (at? s.assemblies a).bind fun asy => volLats area s asy asy.children.length 0 vols)
    (g := fun a m => ((s.assemblies[a.toNat]?).elim [] fun asy => asy.children.zip (thick asy.zs)).flatMap (slabVols s F m))
    s.core.children (by
      intro a ha V
      obtain ⟨asy, hasy, -⟩ := at?_of_lt (h.core a ha).1 (h.core a ha).2
      have := appends_lats area s h F hF a ha asy hasy asy.children.length 0 (by omega) V
      dsimp only
      rw [hasy, Option.bind_some, this, (at?_eq.1 hasy).2]
      simp) (fun _ => [])
  have e : List.replicate s.materials.length ([] : List K) = (List.range s.materials.length).map fun _ => [] := by
    simp [List.map_const']
  rw [e, key]
  simp [placedSlabs, List.flatMap_assoc]

theorem sum_flat {α : Type} (l : List α) (f : α → List K) : (l.flatMap f).sum = (l.map fun a => (f a).sum).sum := by
  induction l with
  | nil => simp
  | cons a l ih => simp [ih]

theorem sum_slabVols (s : Model K M) (F : ℤ → List (Int8 × K)) (m : Nat) :
    ((placedSlabs s).flatMap (slabVols s F m)).sum = volume s F m := by
  unfold volume
  rw [sum_flat]
  congr 1
  apply List.map_congr_left
  intro p _
  unfold slabVols
  rw [sum_flat, ← List.sum_map_mul_right]
  congr 1
  apply List.map_congr_left
  intro c _
  unfold faceVols matArea
  rw [List.sum_map_mul_right]

theorem slabs_lattices (s : Model K M) (h : Valid s) {c : ℤ} (hc : c ∈ placedCells s) : ∃ p ∈ placedSlabs s, c ∈ slabCells s p.1 := by
  unfold placedCells at hc
  rw [below, List.mem_flatMap] at hc
  obtain ⟨r, hr, hc⟩ := hc
  unfold placedRTMs at hr
  rw [below, List.mem_flatMap] at hr
  obtain ⟨l, hl, hr⟩ := hr
  unfold placedLattices at hl
  rw [below, List.mem_flatMap] at hl
  obtain ⟨a, ha, hl⟩ := hl
  obtain ⟨asy, hasy, hmem⟩ := at?_of_lt (h.core a ha).1 (h.core a ha).2
  rw [(at?_eq.1 hasy).2] at hl
  change l ∈ asy.children at hl
  obtain ⟨i, hi, rfl⟩ := List.getElem_of_mem hl
  have hlen := (h.assembly asy hmem).1
  have ht : i < (thick asy.zs).length := by unfold thick; simp; omega
  refine ⟨(asy.children[i], (thick asy.zs)[i]), ?_, ?_⟩
  · unfold placedSlabs
    rw [List.mem_flatMap]
    refine ⟨a, ha, ?_⟩
    rw [(at?_eq.1 hasy).2]
    change _ ∈ asy.children.zip (thick asy.zs)
    have hz : i < (asy.children.zip (thick asy.zs)).length := by rw [List.length_zip]; omega
    have := List.getElem_mem hz
    rwa [List.getElem_zip] at this
  · unfold slabCells
    rw [below, List.mem_flatMap]
    exact ⟨r, by rw [below, List.mem_flatMap]; exact ⟨_, by simp, hr⟩, hc⟩

theorem slab_placed (s : Model K M) (h : Valid s) {p : ℤ × K} (hp : p ∈ placedSlabs s) {c : ℤ} (hc : c ∈ slabCells s p.1) : c ∈ placedCells s := by
  unfold placedSlabs at hp
  rw [List.mem_flatMap] at hp
  obtain ⟨a, ha, hp⟩ := hp
  obtain ⟨asy, hasy, -⟩ := at?_of_lt (h.core a ha).1 (h.core a ha).2
  rw [(at?_eq.1 hasy).2] at hp
  exact mem_placed ha hasy (List.of_mem_zip hp).1 hc

theorem used_iff (s : Model K M) (h : Valid s) (F : ℤ → List (Int8 × K)) (m : Nat) :
    (placedSlabs s).flatMap (slabVols s F m) ≠ [] ↔ Used s F m := by
  unfold slabVols faceVols Used
  constructor
  · intro hne
    obtain ⟨v, hv⟩ := List.exists_mem_of_ne_nil _ hne
    rw [List.mem_flatMap] at hv
    obtain ⟨p, hp, hv⟩ := hv
    rw [List.mem_flatMap] at hv
    obtain ⟨c, hc, hv⟩ := hv
    simp only [List.mem_map, List.mem_filter, decide_eq_true_eq] at hv
    obtain ⟨q, ⟨hq, hqm⟩, -⟩ := hv
    exact ⟨c, slab_placed s h hp hc, q, hq, hqm⟩
  · rintro ⟨c, hc, q, hq, hqm⟩
    obtain ⟨p, hp, hcp⟩ := slabs_lattices s h hc
    apply List.ne_nil_of_mem (a := q.2 * p.2)
    rw [List.mem_flatMap]
    refine ⟨p, hp, ?_⟩
    rw [List.mem_flatMap]
    refine ⟨c, hcp, ?_⟩
    simp only [List.mem_map, List.mem_filter, decide_eq_true_eq]
    exact ⟨q, ⟨hq, hqm⟩, rfl⟩

/-- The volumes written are those of the materials, if every material occurs in the core; see `C87_unused_fails`. -/
theorem C87_volumes_partial (sorter : List K → List K) (hs : ∀ l, (sorter l).Perm l) (area : Mesh K → Nat → K) (s : Model K M) (h : Valid s)
    (F : ℤ → List (Int8 × K)) (hF : FaceAreas area s F) (hu : ∀ m < s.materials.length, Used s F m) :
    totalVolumes sorter area s = some ((List.range s.materials.length).map (volume s F)) := by
  unfold totalVolumes
  rw [collected area s h F hF, Option.bind_some, mapM_some (g := fun l => l.sum), List.map_map]
  · congr 1
    apply List.map_congr_left
    intro m _
    exact sum_slabVols s F m
  · intro l hl
    simp only [List.mem_map, List.mem_range] at hl
    obtain ⟨m, hm, rfl⟩ := hl
    have hne := (used_iff s h F m).2 (hu m hm)
    rw [Stats.C18_sum, if_neg, (hs _).sum_eq]
    intro e
    have := hs ((placedSlabs s).flatMap (slabVols s F m))
    rw [e] at this
    exact hne this.nil_eq.symm

/-- With a material that does not occur in the core, the sum of nothing is computed: undefined behaviour. -/
theorem C87_unused_fails (sorter : List K → List K) (hs : ∀ l, (sorter l).Perm l) (area : Mesh K → Nat → K) (s : Model K M) (h : Valid s)
    (F : ℤ → List (Int8 × K)) (hF : FaceAreas area s F) (m : Nat) (hm : m < s.materials.length) (hu : ¬ Used s F m) :
    totalVolumes sorter area s = none := by
  unfold totalVolumes
  rw [collected area s h F hF, Option.bind_some, mapM_none]
  refine ⟨(placedSlabs s).flatMap (slabVols s F m), by simp only [List.mem_map, List.mem_range]; exact ⟨m, hm, rfl⟩, ?_⟩
  have he : (placedSlabs s).flatMap (slabVols s F m) = [] := by
    by_contra hne
    exact hu ((used_iff s h F m).1 hne)
  have := hs ((placedSlabs s).flatMap (slabVols s F m))
  rw [he] at this ⊢
  rw [List.perm_nil.1 this, Stats.C18_sum, if_pos rfl]

theorem sum_filter (fs : List (Int8 × K)) (n : Nat) (hf : ∀ q ∈ fs, 0 ≤ q.1.toInt ∧ q.1.toInt < n) :
    ((List.range n).map fun m : Nat => ((fs.filter fun q => q.1.toInt = (m : ℤ)).map (·.2)).sum).sum = (fs.map (·.2)).sum := by
  induction fs with
  | nil => simp
  | cons q fs ih =>
    obtain ⟨h0, h1⟩ := hf q (by simp)
    rw [List.map_cons, List.sum_cons, ← ih fun x hx => hf x (by simp [hx])]
    have : ∀ m : Nat, (((q :: fs).filter fun q => q.1.toInt = (m : ℤ)).map (·.2)).sum =
        (if m = q.1.toInt.toNat then q.2 else 0) + ((fs.filter fun q => q.1.toInt = (m : ℤ)).map (·.2)).sum := by
      intro m
      rw [List.filter_cons]
      by_cases hm : m = q.1.toInt.toNat
      · rw [if_pos hm, if_pos (by simp; omega)]; simp
      · rw [if_neg hm, if_neg (by simp; omega)]; simp
    simp only [this, List.sum_map_add]
    congr 1
    rw [← List.sum_toFinset _ List.nodup_range, List.toFinset_range, Finset.sum_ite_eq', if_pos (by rw [Finset.mem_range]; omega)]

theorem sum_swap {α β : Type} (l : List α) (l' : List β) (f : α → β → K) :
    (l.map fun a => (l'.map fun b => f a b).sum).sum = (l'.map fun b => (l.map fun a => f a b).sum).sum := by
  induction l with
  | nil => simp
  | cons a l ih => simp [ih, List.sum_map_add]

/-- The volumes of the materials add up to the volume of everything. -/
theorem C87_conserve (area : Mesh K → Nat → K) (s : Model K M) (h : Valid s) (F : ℤ → List (Int8 × K)) (hF : FaceAreas area s F) :
    ((List.range s.materials.length).map (volume s F)).sum = totalVolume s F := by
  unfold volume totalVolume
  rw [sum_swap]
  congr 1
  apply List.map_congr_left
  intro p hp
  rw [List.sum_map_mul_right]
  congr 1
  rw [sum_swap]
  congr 1
  apply List.map_congr_left
  intro c hc
  unfold matArea
  apply sum_filter
  intro q hq
  obtain ⟨cell, mesh, hcell, hmesh, hFc⟩ := hF c (slab_placed s h hp hc)
  have hne : cell.meshId ≠ -1 := fun e => by have := hmesh.1; omega
  obtain ⟨mesh', hm1, hm2, hm3⟩ := (h.cell cell (List.mem_of_getElem? hcell)).2.2 hne
  rw [hFc] at hq
  exact hm3 q.1 (List.of_mem_zip hq).1

/-! ## The representative chord length -/

theorem C87_index (n : Nat) (h0 : 0 < n) (h : n < 2 ^ 31) : repIndex n = (n - 1) / 10 := by
  unfold repIndex
  omega

theorem countP_ge {l : List K} (hs : l.Pairwise (· ≤ ·)) {i : Nat} {q : K} (hq : l[i]? = some q) :
    l.length - i ≤ l.countP (fun x => decide (q ≤ x)) ∧ i + 1 ≤ l.countP fun x => decide (x ≤ q) := by
  obtain ⟨hi, hq⟩ := List.getElem?_eq_some_iff.1 hq
  have hl : l = l.take i ++ q :: l.drop (i + 1) := by rw [← hq, ← List.drop_eq_getElem_cons hi, List.take_append_drop]
  rw [hl, List.pairwise_append] at hs
  obtain ⟨-, h2, h3⟩ := hs
  rw [List.pairwise_cons] at h2
  have e1 : (l.drop (i + 1)).countP (fun x => decide (q ≤ x)) = (l.drop (i + 1)).length :=
    List.countP_eq_length.2 fun x hx => by simpa using h2.1 x hx
  have e2 : (l.take i).countP (fun x => decide (x ≤ q)) = (l.take i).length :=
    List.countP_eq_length.2 fun x hx => by simpa using h3 x hx q (by simp)
  constructor
  · conv_rhs => rw [hl]
    rw [List.countP_append, List.countP_cons, e1, List.length_drop]
    simp
    omega
  · conv_rhs => rw [hl]
    rw [List.countP_append, List.countP_cons, e2, List.length_take]
    simp
    omega

/-- The representative chord length is that of a face; at least nine tenths of the faces have at least this length, and
at least one tenth of them has at most this length. -/
theorem C87_chord_partial (sorter : List K → List K) (hs : ∀ l, IsStdSort (fun a b => decide (a < b)) l (sorter l)) (mcls : List K)
    (h0 : mcls ≠ []) (h : mcls.length < 2 ^ 31) :
    ∃ q, repChord sorter mcls = some q ∧ q ∈ mcls ∧ 9 * mcls.length ≤ 10 * mcls.countP (fun x => decide (q ≤ x)) ∧
      mcls.length ≤ 10 * mcls.countP fun x => decide (x ≤ q) := by
  have hpos := List.length_pos_iff.2 h0
  have hlen := (hs mcls).perm.length_eq
  have hi : repIndex mcls.length < (sorter mcls).length := by
    rw [C87_index _ hpos h, hlen]
    omega
  have hp : (sorter mcls).Pairwise (· ≤ ·) := (hs mcls).sorted.imp fun hab => by simpa using hab
  obtain ⟨q, hq⟩ : ∃ q, (sorter mcls)[repIndex mcls.length]? = some q := ⟨_, List.getElem?_eq_getElem hi⟩
  obtain ⟨h1, h2⟩ := countP_ge hp hq
  rw [(hs mcls).perm.countP_eq, hlen, C87_index _ hpos h] at h1
  rw [(hs mcls).perm.countP_eq, C87_index _ hpos h] at h2
  exact ⟨q, hq, (hs mcls).perm.mem_iff.1 (List.mem_of_getElem? hq), by omega, by omega⟩

/-- Without faces, the element read does not exist. -/
theorem C87_nothing_fails (sorter : List K → List K) (hs : ∀ l, (sorter l).Perm l) : repChord sorter [] = none := by
  unfold repChord
  rw [List.perm_nil.1 (hs [])]
  rfl

/-! ## Examples -/

/-- A core of one assembly: a slab of thickness 1 and one of thickness 3, each with two cells of one face. -/
def sample (mats : List String) : Model ℚ String where
  core := ⟨[0, 2], [0, 1], [0]⟩
  assemblies := [⟨[0, 1, 4], [0, 1]⟩]
  lattices := [⟨(2, 1), 1, 1, [0]⟩, ⟨(2, 1), 1, 1, [1]⟩]
  rtms := [⟨[0, 1, 2], [0, 1], [0, 1]⟩, ⟨[0, 1, 2], [0, 1], [1, 1]⟩]
  cells := [⟨(1, 1), ElemTypes.MeshType.Quad, 0, [0]⟩, ⟨(1, 1), ElemTypes.MeshType.Quad, 0, [1]⟩]
  materials := mats
  tris := []
  quads := [exMesh]
  tri6s := []
  quad8s := []

/-- Its faces. -/
def sampleFaces (c : ℤ) : List (Int8 × ℚ) := [(if c = 0 then 0 else 1, 5)]

theorem sample_valid (mats : List String) (h : 2 ≤ mats.length) : Valid (sample mats) := by
  constructor
  · intro i hi
    simp only [sample, List.mem_singleton] at hi ⊢
    subst hi
    decide
  · intro a ha
    simp only [sample, List.mem_singleton] at ha
    subst ha
    refine ⟨rfl, by decide +kernel, by simp, fun i hi => ?_⟩
    simp only [List.mem_cons, List.not_mem_nil, or_false] at hi
    rcases hi with rfl | rfl <;> simp [sample]
  · intro l hl
    simp only [sample, List.mem_cons, List.not_mem_nil, or_false] at hl
    rcases hl with rfl | rfl
    · exact ⟨rfl, fun i hi => by simp only [List.mem_singleton] at hi; subst hi; simp [sample]⟩
    · exact ⟨rfl, fun i hi => by simp only [List.mem_singleton] at hi; subst hi; simp [sample]⟩
  · intro r hr i hi
    simp only [sample, List.mem_cons, List.not_mem_nil, or_false] at hr
    rcases hr with rfl | rfl
    · simp only [List.mem_cons, List.not_mem_nil, or_false] at hi
      rcases hi with rfl | rfl <;> simp [sample]
    · simp only [List.mem_cons, List.not_mem_nil, or_false] at hi
      rcases hi with rfl | rfl <;> simp [sample]
  · intro c hc
    simp only [sample, List.mem_cons, List.not_mem_nil, or_false] at hc
    rcases hc with rfl | rfl
    · refine ⟨by norm_num, by norm_num, fun _ => ⟨exMesh, ⟨by norm_num, .inr (.inl ⟨rfl, rfl⟩)⟩, rfl, fun x hx => ?_⟩⟩
      simp only [List.mem_singleton] at hx
      subst hx
      exact ⟨by decide, by change (0 : ℤ) < mats.length; omega⟩
    · refine ⟨by norm_num, by norm_num, fun _ => ⟨exMesh, ⟨by norm_num, .inr (.inl ⟨rfl, rfl⟩)⟩, rfl, fun x hx => ?_⟩⟩
      simp only [List.mem_singleton] at hx
      subst hx
      exact ⟨by decide, by change (1 : ℤ) < mats.length; omega⟩

theorem sample_placed (mats : List String) : placedCells (sample mats) = [0, 1, 1, 1] := rfl

theorem sample_faces (mats : List String) : FaceAreas (fun _ _ => 5) (sample mats) sampleFaces := by
  intro c hc
  rw [sample_placed] at hc
  have : c = 0 ∨ c = 1 := by simpa using hc
  rcases this with rfl | rfl
  · exact ⟨_, exMesh, rfl, ⟨by norm_num, .inr (.inl ⟨rfl, rfl⟩)⟩, rfl⟩
  · exact ⟨_, exMesh, rfl, ⟨by norm_num, .inr (.inl ⟨rfl, rfl⟩)⟩, rfl⟩

/-- The hypotheses of `C87_volumes_partial` hold for the sample. -/
example : totalVolumes id (fun _ _ => 5) (sample ["fuel", "water"]) = some [5, 35] := by
  rw [C87_volumes_partial id (fun _ => .rfl) _ _ (sample_valid _ (by simp)) sampleFaces (sample_faces _)]
  · decide +kernel
  · intro m hm
    have : m = 0 ∨ m = 1 := by change m < 2 at hm; omega
    rcases this with rfl | rfl
    · exact ⟨0, by decide, (0, 5), by decide +kernel, by decide⟩
    · exact ⟨1, by decide, (1, 5), by decide +kernel, by decide⟩

/-- A third material that no cell uses. -/
example : totalVolumes id (fun _ _ => 5) (sample ["fuel", "water", "air"]) = none := by
  refine C87_unused_fails id (fun _ => .rfl) _ _ (sample_valid _ (by simp)) sampleFaces (sample_faces _) 2 (by decide) ?_
  rintro ⟨c, -, q, hq, h⟩
  unfold sampleFaces at hq
  simp only [List.mem_singleton] at hq
  subst hq
  revert h
  dsimp only
  split_ifs <;> decide

/-- Twelve faces: the second shortest one is representative. -/
example : repChord (fun l => l.insertionSort (· ≤ ·)) ([12, 11, 10, 9, 8, 7, 6, 5, 4, 3, 2, 1] : List ℚ) = some 2 := by decide +kernel

end Verif.MFiles
