import Verif.Props.SceneSpec
import Verif.Props.LatticePrograms

/-! Lemmas on plane models made of any surfaces. -/

namespace Verif.SceneL

open Verif.XSLib (Res)
open Verif.Gmsh (Gm DimTag)
open Verif.GmshSpec Verif.PinsSpec Verif.PinsP Verif.Pins
open Verif.Overlay (Name Cut cuts overlay)
open Verif.OverlayGroupsSpec (material cell pieces Setting)
open Verif.Programs (Placement addAll start)
open Verif.ProgramsSpec Verif.ProgramsL Verif.ProgramsP
open Verif.Scene Verif.SceneSpec
open Verif.CoarseGrid (Fresh)

set_option linter.unusedSectionVars false
variable {K C M : Type} [Field K] [LinearOrder K] [IsStrictOrderedRing K]

theorem fresh_get (next : ℤ) (n i : Nat) (t : ℤ) : (fresh next n)[i]? = some t ↔ i < n ∧ t = next + i := by
  unfold fresh
  rw [List.getElem?_map]
  constructor
  · intro h
    obtain ⟨k, h1, h2⟩ := Option.map_eq_some_iff.1 h
    obtain ⟨h3, h4⟩ := List.getElem?_eq_some_iff.1 h1
    rw [List.getElem_range] at h4
    subst h4
    rw [List.length_range] at h3
    exact ⟨h3, h2.symm⟩
  · rintro ⟨h, rfl⟩
    rw [List.getElem?_range h]
    rfl

theorem mem_fresh (next : ℤ) (n : Nat) (t : ℤ) : t ∈ fresh next n ↔ ∃ i : Nat, i < n ∧ t = next + i := by
  rw [List.mem_iff_getElem?]
  exact exists_congr fun i => fresh_get next n i t

theorem fresh_sorted (next : ℤ) (n : Nat) : (fresh next n).Pairwise (· < ·) := by
  unfold fresh
  rw [List.pairwise_map]
  exact List.pairwise_lt_range.imp fun h => by omega

theorem fresh_length (next : ℤ) (n : Nat) : (fresh next n).length = n := by simp [fresh]

/-! ### The fragments -/

/-- The points of an entity: of a surface, or of a rectangle. -/
def before (S : Sheet C) (shape : ℤ → Set (K × K)) (cs : List (Cut K)) (e : ℤ) : Set (K × K) :=
  {P | e ∈ S.tags ∧ P ∈ shape e ∨ ∃ (i : Nat) (c : Cut K), cs[i]? = some c ∧ e = S.next + i ∧ P ∈ rectSet c}

theorem inputs_nodup (S : Sheet C) (hS : Drawn S) (n : Nat) :
    ((S.tags.map (fun t => ((2, t) : DimTag)) ++ (fresh S.next n).map fun t => ((2, t) : DimTag)).map (·.2)).Nodup := by
  rw [List.map_append, List.map_map, List.map_map]
  have e1 : ((fun x : DimTag => x.2) ∘ fun t : ℤ => ((2, t) : DimTag)) = id := rfl
  rw [e1, List.map_id, List.map_id, List.nodup_append]
  refine ⟨hS.sorted.imp fun h => h.ne, (fresh_sorted _ _).imp fun h => h.ne, ?_⟩
  intro a ha b hb hab
  obtain ⟨i, -, rfl⟩ := (mem_fresh _ _ b).1 hb
  have := hS.below a ha
  omega

theorem pieces_surf (S : Sheet C) (hS : Drawn S) (n : Nat) (map : List (List DimTag)) (i : Nat) (e : ℤ) (l : List DimTag)
    (h : S.tags[i]? = some e) (hl : map[i]? = some l) : pieces 2 S.tags (fresh S.next n) map e = l.map (·.2) := by
  unfold pieces become
  have hi := (List.getElem?_eq_some_iff.1 h).1
  rw [findIdx_nodup (inputs_nodup S hS n) (i := i) (x := (2, e)) (by
    rw [List.getElem?_append_left (by simpa using hi), List.getElem?_map, h]; rfl)]
  simp only [List.getD_eq_getElem?_getD, hl, Option.getD_some]

theorem pieces_rect (S : Sheet C) (hS : Drawn S) (n : Nat) (map : List (List DimTag)) (i : Nat) (t : ℤ) (l : List DimTag)
    (h : (fresh S.next n)[i]? = some t) (hl : map[S.tags.length + i]? = some l) :
    pieces 2 S.tags (fresh S.next n) map t = l.map (·.2) := by
  unfold pieces become
  rw [findIdx_nodup (inputs_nodup S hS n) (i := S.tags.length + i) (x := (2, t)) (by
    rw [List.getElem?_append_right (by simp)]; simp [h])]
  simp only [List.getD_eq_getElem?_getD, hl, Option.getD_some]

theorem cell_pieces (S : Sheet C) (hS : Drawn S) (shape : ℤ → Set (K × K)) (cs : List (Cut K)) (map : List (List DimTag)) (all : List ℤ)
    (reg : ℤ → Set (K × K)) (F : FragmentsOf S.tags shape cs map all reg) (e : ℤ) (he : e ∈ S.tags ∨ e ∈ fresh S.next cs.length) :
    before S shape cs e = {P | ∃ e' ∈ pieces 2 S.tags (fresh S.next cs.length) map e, P ∈ reg e'} := by
  rcases he with he | he
  · obtain ⟨i, hi⟩ := List.mem_iff_getElem?.1 he
    have hlt : i < map.length := by have := (List.getElem?_eq_some_iff.1 hi).1; rw [F.full]; omega
    have hl := List.getElem?_eq_getElem hlt
    rw [pieces_surf S hS _ map i e _ hi hl]
    have h1 : before S shape cs e = shape e := by
      ext P
      constructor
      · rintro (h | ⟨k, c, -, hk, -⟩)
        · exact h.2
        · have := hS.below e he
          omega
      · exact fun h => Or.inl ⟨he, h⟩
    rw [h1, F.surfs i e _ hi hl]
    ext P
    constructor
    · rintro ⟨c, hcl, hP⟩; exact ⟨c.2, List.mem_map.2 ⟨c, hcl, rfl⟩, hP⟩
    · rintro ⟨e', he', hP⟩
      obtain ⟨c, hcl, rfl⟩ := List.mem_map.1 he'
      exact ⟨c, hcl, hP⟩
  · obtain ⟨i, hi⟩ := List.mem_iff_getElem?.1 he
    obtain ⟨hil, hie⟩ := (fresh_get _ _ i e).1 hi
    have hlt : S.tags.length + i < map.length := by rw [F.full]; omega
    have hl := List.getElem?_eq_getElem hlt
    rw [pieces_rect S hS _ map i e _ hi hl]
    have h1 : before S shape cs e = rectSet (cs[i]) := by
      ext P
      constructor
      · rintro (⟨hR, -⟩ | ⟨k, c, hk, hke, hP⟩)
        · have := hS.below e hR
          omega
        · obtain rfl : k = i := by omega
          rw [List.getElem?_eq_getElem hil] at hk
          cases hk
          exact hP
      · intro hP
        exact Or.inr ⟨i, _, List.getElem?_eq_getElem hil, hie, hP⟩
    rw [h1, F.rects i _ _ (List.getElem?_eq_getElem hil) hl]
    ext P
    constructor
    · rintro ⟨c, hcl, hP⟩; exact ⟨c.2, List.mem_map.2 ⟨c, hcl, rfl⟩, hP⟩
    · rintro ⟨e', he', hP⟩
      obtain ⟨c, hcl, rfl⟩ := List.mem_map.1 he'
      exact ⟨c, hcl, hP⟩

theorem setting_of (S : Sheet C) (hS : Drawn S) (shape : ℤ → Set (K × K)) (cs : List (Cut K)) (h0 : cs ≠ []) (hcount : cs.length ≤ 100000)
    (hin : ∀ c ∈ cs, (rectSet c).Nonempty) (map : List (List DimTag)) (all : List ℤ) (reg : ℤ → Set (K × K))
    (F : FragmentsOf S.tags shape cs map all reg) : Setting S.gm 2 S.tags (fresh S.next cs.length) map all := by
  have hname : ∀ g ∈ S.gm.groups, ∃ x, g.name = material x := by
    intro g hg
    obtain ⟨e, he⟩ := List.exists_mem_of_ne_nil _ (hS.wf.ents g hg).2
    exact (hS.owned g.dim g.name e ⟨g, hg, rfl, rfl, he⟩).2.1
  refine ⟨Or.inl rfl, hS.wf, hS.distinct, ?_, ?_, ⟨hS.some, hS.sorted⟩, ⟨?_, fresh_sorted _ _⟩, ?_, ?_, ?_, ?_, ?_, F.sorted, F.after⟩
  · intro g hg h
    obtain ⟨x, hx⟩ := hname g hg
    rw [hx] at h
    have := congrArg List.length h
    simp [material] at this
  · intro g hg h
    obtain ⟨x, hx⟩ := hname g hg
    rw [hx] at h
    obtain ⟨t, ht⟩ := h
    have := congrArg List.head? ht
    simp [material] at this
  · unfold fresh
    rw [Ne, List.map_eq_nil_iff, List.range_eq_nil, List.length_eq_zero_iff]
    exact h0
  · intro t ht h
    obtain ⟨i, -, rfl⟩ := (mem_fresh _ _ t).1 ht
    have := hS.below _ h
    omega
  · simpa [fresh] using hcount
  · intro n e h
    exact (hS.owned 2 n e h).2.2
  · rw [F.full]; simp [fresh]
  · intro t ht h
    obtain ⟨i, hi, rfl⟩ := (mem_fresh _ _ t).1 ht
    have := cell_pieces S hS shape cs map all reg F (S.next + i) (Or.inr ht)
    rw [h] at this
    obtain ⟨P, hP⟩ := hin cs[i] (List.getElem_mem hi)
    have hmem : P ∈ before S shape cs (S.next + i) := Or.inr ⟨i, _, List.getElem?_eq_getElem hi, rfl, hP⟩
    rw [this] at hmem
    obtain ⟨e', he', -⟩ := hmem
    cases he'

/-- The overlay of any rectangles on any surfaces. -/
theorem lay_points (clos : DimTag → List DimTag) (S : Sheet C) (hS : Drawn S) (shape : ℤ → Set (K × K)) (cs : List (Cut K)) (h0 : cs ≠ [])
    (hcount : cs.length ≤ 100000) (hrect : ∀ c ∈ cs, (rectSet c).Nonempty) (map : List (List DimTag)) (all : List ℤ) (reg : ℤ → Set (K × K))
    (F : FragmentsOf S.tags shape cs map all reg) (fill : Name × C) :
    ∃ g gone, lay clos S cs map all fill = .ok (g, gone) ∧
      (∀ P, (∃ c ∈ cs, P ∈ rectSet c) → ∀ x, (∀ y, Lies S shape P y → y = x) → (Lies S shape P x ∨ x = fill.1) → MaterialAt g reg P x) ∧
      (∀ (i : Nat) c, cs[i]? = some c → region reg g 2 (cell i) = rectSet c) ∧
      ∀ P n d, P ∈ region reg g d n → ∃ c ∈ cs, P ∈ rectSet c := by
  have hT := setting_of S hS shape cs h0 hcount hrect map all reg F
  obtain ⟨g, gone, h4⟩ := OverlayGroups.C92_defined clos S.gm 2 S.tags (fresh S.next cs.length) map all fill hT
  obtain ⟨r1, r2, r3, r4⟩ := OverlayGroups.C92_region clos S.gm g 2 S.tags (fresh S.next cs.length) map all gone fill hT h4 (before S shape cs) reg
    (fun e he => cell_pieces S hS shape cs map all reg F e he) F.apart
  have r5 := (OverlayGroups.C92_removed clos S.gm g 2 S.tags (fresh S.next cs.length) map all gone fill hT h4).2
  have hdom : ∀ P : K × K, (∃ t ∈ fresh S.next cs.length, P ∈ before S shape cs t) ↔ ∃ c ∈ cs, P ∈ rectSet c := by
    intro P
    constructor
    · rintro ⟨t, ht, hP⟩
      obtain ⟨k, hk, rfl⟩ := (mem_fresh _ _ t).1 ht
      rcases hP with ⟨hR, -⟩ | ⟨k', c, hk', hke, hP⟩
      · have := hS.below _ hR; omega
      · exact ⟨c, List.mem_of_getElem? hk', hP⟩
    · rintro ⟨c, hcm, hP⟩
      obtain ⟨k, hk⟩ := List.mem_iff_getElem?.1 hcm
      have hlt := (List.getElem?_eq_some_iff.1 hk).1
      exact ⟨S.next + (k : ℤ), (mem_fresh _ _ _).2 ⟨k, hlt, rfl⟩, Or.inr ⟨k, c, hk, rfl, hP⟩⟩
  have hmat : ∀ P y, P ∈ region (before S shape cs) S.gm 2 (material y) ↔ Lies S shape P y := by
    intro P y
    constructor
    · rintro ⟨e, hin, hP⟩
      rcases hP with ⟨-, hP⟩ | ⟨k, c, -, hk, -⟩
      · exact ⟨e, hin, hP⟩
      · have := hS.below e (hS.owned 2 _ e hin).2.2
        omega
    · rintro ⟨e, hin, hP⟩
      exact ⟨e, hin, Or.inl ⟨(hS.owned 2 _ e hin).2.2, hP⟩⟩
  refine ⟨g, gone, h4, ?_, ?_, ?_⟩
  · intro P hP x hone hx' y
    obtain ⟨z, hz, hz'⟩ := r4 P ((hdom P).2 hP)
    suffices hzx : z = x by
      subst hzx
      exact ⟨fun h => hz' y h, fun h => by rw [h]; exact hz⟩
    by_cases hzf : z = fill.1
    · subst hzf
      rcases hx' with hx' | hx'
      · by_contra hne'
        have hz2 : P ∈ region reg g 2 (material fill.1) := hz
        rw [r2] at hz2
        exact hz2.2 x (fun h => hne' h.symm) ((hmat P x).2 hx')
      · exact hx'.symm
    · have := r3 z hzf hz
      exact hone z ((hmat P z).1 this.2)
  · intro i c hi
    have hlt := (List.getElem?_eq_some_iff.1 hi).1
    rw [r1 i (S.next + (i : ℤ)) ((fresh_get _ _ _ _).2 ⟨hlt, rfl⟩)]
    ext P
    constructor
    · rintro (⟨hR, -⟩ | ⟨k', c', hk', hke, hP⟩)
      · have := hS.below _ hR; omega
      · obtain rfl : i = k' := by omega
        rw [hi] at hk'; cases hk'
        exact hP
    · intro hP
      exact Or.inr ⟨_, c, hi, rfl, hP⟩
  · rintro P n d ⟨e, hin, hP⟩
    obtain ⟨-, t, ht, het⟩ := r5 d n e hin
    refine (hdom P).1 ⟨t, ht, ?_⟩
    rw [cell_pieces S hS shape cs map all reg F t (Or.inr ht)]
    exact ⟨e, het, hP⟩

/-- The grid of coarse cells on any surfaces. -/
theorem grid_points (clos : DimTag → List DimTag) (sort : List K → List K) (hsort : ∀ l, IsStdSort (fun a b => decide (a < b)) l (sort l))
    (eps : K) (he : 0 < eps) (s : Mpact.Model K M) (hs : Fresh s) (ext : K × K) (nx ny : Nat) (hx : 0 < nx) (hy : 0 < ny) (hn : nx * ny ≤ 100000)
    (hw : eps ≤ ext.1 / nx) (hh : eps ≤ ext.2 / ny) : ∃ m cs, gridCuts sort eps s ext nx ny = .ok (m, cs) ∧
      ∀ (S : Sheet C), Drawn S → ∀ shape map all reg, FragmentsOf S.tags shape cs map all reg → ∀ fill : Name × C,
        ∃ g gone, lay clos S cs map all fill = .ok (g, gone) ∧
        (∀ P : K × K, 0 ≤ P.1 → P.1 < ext.1 → 0 ≤ P.2 → P.2 < ext.2 → ∀ x, (∀ y, Lies S shape P y → y = x) → (Lies S shape P x ∨ x = fill.1) →
          MaterialAt g reg P x) ∧ GridCells ext nx ny g reg := by
  have h2 := CoarseGrid.C102_grid hsort eps he s hs ext nx ny hx hy (by omega) hw hh
  obtain ⟨cs, h3, hlen, hcut⟩ := grid_cuts s (ext.1 / nx) (ext.2 / ny) ext nx ny hx hy
  have hpos : 0 < nx * ny := Nat.mul_pos hx hy
  have hxK : (0 : K) < nx := by exact_mod_cast hx
  have hyK : (0 : K) < ny := by exact_mod_cast hy
  have hw0 := he.trans_le hw
  have hh0 := he.trans_le hh
  have ex : (nx : K) * (ext.1 / nx) = ext.1 := mul_div_cancel₀ _ hxK.ne'
  have ey : (ny : K) * (ext.2 / ny) = ext.2 := mul_div_cancel₀ _ hyK.ne'
  have hex : ∀ c ∈ cs, ∃ i < nx, ∃ j < ny, rectSet c =
      {P | i * (ext.1 / nx) ≤ P.1 ∧ P.1 < (i + 1) * (ext.1 / nx) ∧ j * (ext.2 / ny) ≤ P.2 ∧ P.2 < (j + 1) * (ext.2 / ny)} := by
    intro c hcm
    obtain ⟨k, hk⟩ := List.mem_iff_getElem?.1 hcm
    have hlt := (List.getElem?_eq_some_iff.1 hk).1
    have hj : k / nx < ny := by rw [Nat.div_lt_iff_lt_mul hx, Nat.mul_comm]; omega
    obtain ⟨c', q1, q2⟩ := hcut (k % nx) (Nat.mod_lt _ hx) (k / nx) hj
    rw [Nat.mul_comm, Nat.mod_add_div, hk] at q1
    cases q1
    exact ⟨_, Nat.mod_lt _ hx, _, hj, q2⟩
  refine ⟨gridModel s (ext.1 / nx) (ext.2 / ny) ext nx ny, cs, ?_, ?_⟩
  · unfold gridCuts
    rw [h2]
    show (cuts (gridModel s (ext.1 / nx) (ext.2 / ny) ext nx ny)).bind _ = _
    rw [h3]
    rfl
  intro S hS shape map all reg F fill
  obtain ⟨g, gone, g1, g2, g3, g4⟩ := lay_points clos S hS shape cs (by intro h; rw [h] at hlen; simp at hlen; omega) (by omega) (by
    intro c hcm
    obtain ⟨i, hi, j, hj, q2⟩ := hex c hcm
    rw [q2]
    refine ⟨(i * (ext.1 / nx), j * (ext.2 / ny)), le_refl _, ?_, le_refl _, ?_⟩ <;> dsimp only <;> rw [add_one_mul] <;> linarith)
    map all reg F fill
  refine ⟨g, gone, g1, ?_, ?_, ?_⟩
  · intro P p1 p2 p3 p4 x hone hx'
    obtain ⟨i, hi, ⟨hi1, hi2⟩, -⟩ := CoarseGrid.interval hw0 nx p1 (by rw [ex]; exact p2)
    obtain ⟨j, hj, ⟨hj1, hj2⟩, -⟩ := CoarseGrid.interval hh0 ny p3 (by rw [ey]; exact p4)
    obtain ⟨c, q1, q2⟩ := hcut i hi j hj
    exact g2 P ⟨c, List.mem_of_getElem? q1, by rw [q2]; exact ⟨hi1, hi2, hj1, hj2⟩⟩ x hone hx'
  · intro i hi j hj
    obtain ⟨c, q1, q2⟩ := hcut i hi j hj
    rw [g3 _ c q1, q2]
  · intro P n d hP
    obtain ⟨c, hcm, hP⟩ := g4 P n d hP
    obtain ⟨i, hi, j, hj, q2⟩ := hex c hcm
    rw [q2] at hP
    obtain ⟨p1, p2, p3, p4⟩ := hP
    have hiK : (i : K) + 1 ≤ nx := by exact_mod_cast hi
    have hjK : (j : K) + 1 ≤ ny := by exact_mod_cast hj
    refine ⟨(mul_nonneg (Nat.cast_nonneg _) hw0.le).trans p1, ?_, (mul_nonneg (Nat.cast_nonneg _) hh0.le).trans p3, ?_⟩
    · exact lt_of_lt_of_le p2 ((mul_le_mul_of_nonneg_right hiK hw0.le).trans_eq ex)
    · exact lt_of_lt_of_le p4 ((mul_le_mul_of_nonneg_right hjK hh0.le).trans_eq ey)

end Verif.SceneL
