import Verif.Lemmas.Scene

/-! Lemmas on plane models whose surfaces overlap (C119): the group with the lowest tag has precedence. -/

namespace Verif.SceneL

open Verif.XSLib (Res)
open Verif.Gmsh (Gm DimTag)
open Verif.GmshSpec Verif.PinsSpec
open Verif.Overlay (Name Cut cuts overlay getMaterials moveFill preMaterial)
open Verif.OverlayGroupsSpec (material cell pieces Setting)
open Verif.ProgramsSpec Verif.ProgramsL Verif.ProgramsP
open Verif.Scene Verif.SceneSpec
open Verif.CoarseGrid (Fresh)

set_option linter.unusedSectionVars false
variable {K C M : Type} [Field K] [LinearOrder K] [IsStrictOrderedRing K]

theorem getMaterials_names (color : DimTag → C) (names : List Name) : ∀ (gs : List (Gmsh.Group Name)) (acc : List (Name × C)),
    gs.map (·.name) = names.map material → (∀ g ∈ gs, g.ents ≠ []) → (acc.map (·.1) ++ names).Nodup →
    ∃ mats, getMaterials color gs acc = .ok mats ∧ mats.map (·.1) = acc.map (·.1) ++ names := by
  induction names with
  | nil =>
    intro gs acc h _ _
    have : gs = [] := by simpa using h
    subst this
    exact ⟨acc, rfl, by simp⟩
  | cons n names ih =>
    intro gs acc h hents hn
    cases gs with
    | nil => cases h
    | cons g gs =>
      simp only [List.map_cons, List.cons.injEq] at h
      obtain ⟨h1, h2⟩ := h
      have hd : g.name.drop 9 = n := by rw [h1]; rfl
      have hp : preMaterial.isPrefixOf g.name = true := by
        rw [List.isPrefixOf_iff_prefix, h1]
        exact ⟨95 :: n, rfl⟩
      have hl : ¬ g.name.length < 9 := by rw [h1]; simp [material]
      have ha : (acc.any fun m => m.1 == g.name.drop 9) = false := by
        rw [List.any_eq_false]
        intro m hm hmn
        rw [hd, beq_iff_eq] at hmn
        have := (List.nodup_append.1 hn).2.2 m.1 (List.mem_map.2 ⟨m, hm, rfl⟩) n (by simp)
        exact this hmn
      obtain ⟨e, es, he⟩ := List.exists_cons_of_ne_nil (hents g (by simp))
      obtain ⟨mats, k1, k2⟩ := ih gs (acc ++ [(n, color (g.dim, e))]) h2 (fun g hg => hents g (by simp [hg])) (by simpa using hn)
      refine ⟨mats, ?_, by simpa using k2⟩
      rw [getMaterials, if_pos hp, if_neg hl, ha, he, hd]
      exact k1

theorem moveFill_last (mats : List (Name × C)) (L : List Name) (fill : Name × C) (h : mats.map (·.1) = L ++ [fill.1]) (hn : fill.1 ∉ L) :
    (moveFill mats fill).map (·.1) = L ++ [fill.1] := by
  obtain ⟨l, r, rfl, hl, hr⟩ := List.map_eq_append_iff.1 h
  obtain ⟨⟨a, c⟩, rfl, ha⟩ := List.map_eq_singleton_iff.1 hr
  obtain rfl : fill.1 = a := ha.symm
  have hf : (l ++ [(fill.1, c)]).findIdx? (fun m => m.1 == fill.1) = some l.length := by
    rw [List.findIdx?_append]
    have h0 : l.findIdx? (fun m => m.1 == fill.1) = none := by
      rw [List.findIdx?_eq_none_iff]
      intro m hm
      have : m.1 ∈ L := by rw [← hl]; exact List.mem_map.2 ⟨m, hm, rfl⟩
      simp only [beq_eq_false_iff_ne, ne_eq]
      rintro h; exact hn (h ▸ this)
    rw [h0]
    simp [List.findIdx?_cons]
  unfold moveFill
  rw [hf]
  simp [hl]

/-- The overlay of any rectangles on surfaces that may overlap. -/
theorem lay_ranked (clos : DimTag → List DimTag) (S : Sheet C) (hS : Drawn S) (shape : ℤ → Set (K × K)) (cs : List (Cut K)) (h0 : cs ≠ [])
    (hcount : cs.length ≤ 100000) (hrect : ∀ c ∈ cs, (rectSet c).Nonempty) (map : List (List DimTag)) (all : List ℤ) (reg : ℤ → Set (K × K))
    (F : FragmentsOf S.tags shape cs map all reg) (fill : Name × C) (L : List Name) (hL : S.gm.groups.map (·.name) = (L ++ [fill.1]).map material)
    (hnd : (L ++ [fill.1]).Nodup) (g : Gm Name C) (gone : List ℤ) (hlay : lay clos S cs map all fill = .ok (g, gone))
    (P : K × K) (hP : ∃ c ∈ cs, P ∈ rectSet c) (x : Name) (hx : Lies S shape P x)
    (hall : ∀ y, Lies S shape P y → y = x ∨ [x, y].Sublist (L ++ [fill.1])) : MaterialAt g reg P x := by
  have hT := setting_of S hS shape cs h0 hcount hrect map all reg F
  have h4 : overlay clos S.gm 2 S.tags (fresh S.next cs.length) map all fill = .ok (g, gone) := hlay
  obtain ⟨r1, r2, r3, r4⟩ := OverlayGroups.C92_region clos S.gm g 2 S.tags (fresh S.next cs.length) map all gone fill hT h4 (before S shape cs) reg
    (fun e he => cell_pieces S hS shape cs map all reg F e he) F.apart
  obtain ⟨mats, l, c, s', gone', m0, m1, m2, -, -, m6, -, m5⟩ := OverlayGroups.overlay_members clos S.gm 2 S.tags (fresh S.next cs.length) map all fill hT
  rw [h4] at m0
  cases m0
  obtain ⟨mats', n1, n2⟩ := getMaterials_names S.gm.color (L ++ [fill.1]) S.gm.groups [] hL (fun g hg => (hS.wf.ents g hg).2) (by simpa using hnd)
  rw [m1] at n1
  cases n1
  have hmf := moveFill_last mats L fill (by simpa using n2) (by
    intro h
    exact (List.nodup_append.1 hnd).2.2 _ h _ (by simp) rfl)
  have hmat : ∀ P y, P ∈ region (before S shape cs) S.gm 2 (material y) ↔ Lies S shape P y := by
    intro P y
    constructor
    · rintro ⟨e, hin, hP⟩
      rcases hP with ⟨-, hP⟩ | ⟨k, c, -, hk, -⟩
      · exact ⟨e, hin, hP⟩
      · have := hS.below e (hS.owned 2 _ e hin).2.2
        omega
    · rintro ⟨e, hin, hP⟩
      exact ⟨e, hin, Or.inl ⟨(hS.owned 2 _ e hin).2.2, hP⟩⟩
  have hdom : ∃ t ∈ fresh S.next cs.length, P ∈ before S shape cs t := by
    obtain ⟨c, hcm, hP⟩ := hP
    obtain ⟨k, hk⟩ := List.mem_iff_getElem?.1 hcm
    have hlt := (List.getElem?_eq_some_iff.1 hk).1
    exact ⟨S.next + (k : ℤ), (mem_fresh _ _ _).2 ⟨k, hlt, rfl⟩, Or.inr ⟨k, c, hk, rfl, hP⟩⟩
  obtain ⟨z, hz, hz'⟩ := r4 P hdom
  suffices hzx : z = x by
    subst hzx
    exact fun y => ⟨fun h => hz' y h, fun h => by rw [h]; exact hz⟩
  by_contra hne
  by_cases hzf : z = fill.1
  · subst hzf
    have hz2 : P ∈ region reg g 2 (material fill.1) := hz
    rw [r2] at hz2
    exact hz2.2 x (fun h => hne h.symm) ((hmat P x).2 hx)
  · have hzl := (hmat P z).1 (r3 z hzf hz).2
    rcases hall z hzl with h | h
    · exact hne h
    obtain ⟨e, hin, hPe⟩ := hz
    refine ((m5 z e).1 hin).2.2 x (by rw [hmf]; exact h) ?_
    obtain ⟨e0, hin0, hP0⟩ := hx
    refine ⟨e0, hin0, ?_⟩
    have ht := (hS.owned 2 _ e0 hin0).2.2
    have hP1 : P ∈ before S shape cs e0 := Or.inl ⟨ht, hP0⟩
    rw [cell_pieces S hS shape cs map all reg F e0 (Or.inl ht)] at hP1
    obtain ⟨e', he', hPe'⟩ := hP1
    have hf' := OverlayGroups.pieces_flat 2 S.tags (fresh S.next cs.length) map e0 e' (Or.inl ht) he'
    obtain ⟨-, t, htc, het⟩ := m6 2 _ e hin
    have hf := OverlayGroups.pieces_flat 2 S.tags (fresh S.next cs.length) map t e (Or.inr htc) het
    obtain ⟨a, ha, rfl⟩ := List.mem_map.1 hf
    obtain ⟨b, hb, rfl⟩ := List.mem_map.1 hf'
    by_cases hab : a.2 = b.2
    · rw [hab]; exact he'
    · exact absurd hPe' (Set.disjoint_left.1 (F.apart a ha b hb hab) hPe)

/-- The rectangles of a grid. -/
theorem grid_rects (sort : List K → List K) (hsort : ∀ l, IsStdSort (fun a b => decide (a < b)) l (sort l))
    (eps : K) (he : 0 < eps) (s : Mpact.Model K M) (hs : Fresh s) (ext : K × K) (nx ny : Nat) (hx : 0 < nx) (hy : 0 < ny) (hn : nx * ny ≤ 100000)
    (hw : eps ≤ ext.1 / nx) (hh : eps ≤ ext.2 / ny) (m : Mpact.Model K M) (cs : List (Cut K)) (h : gridCuts sort eps s ext nx ny = .ok (m, cs)) :
    cs ≠ [] ∧ cs.length ≤ 100000 ∧ (∀ c ∈ cs, (rectSet c).Nonempty) ∧
      ∀ P : K × K, 0 ≤ P.1 → P.1 < ext.1 → 0 ≤ P.2 → P.2 < ext.2 → ∃ c ∈ cs, P ∈ rectSet c := by
  have h2 := CoarseGrid.C102_grid hsort eps he s hs ext nx ny hx hy (by omega) hw hh
  obtain ⟨cs', h3, hlen, hcut⟩ := grid_cuts s (ext.1 / nx) (ext.2 / ny) ext nx ny hx hy
  obtain rfl : cs' = cs := by
    unfold gridCuts at h
    rw [h2] at h
    change (cuts (gridModel s (ext.1 / nx) (ext.2 / ny) ext nx ny)).bind _ = _ at h
    rw [h3] at h
    simp only [Res.bind, Res.ok.injEq, Prod.mk.injEq] at h
    exact h.2
  have hpos : 0 < nx * ny := Nat.mul_pos hx hy
  have hxK : (0 : K) < nx := by exact_mod_cast hx
  have hyK : (0 : K) < ny := by exact_mod_cast hy
  have hw0 := he.trans_le hw
  have hh0 := he.trans_le hh
  have ex : (nx : K) * (ext.1 / nx) = ext.1 := mul_div_cancel₀ _ hxK.ne'
  have ey : (ny : K) * (ext.2 / ny) = ext.2 := mul_div_cancel₀ _ hyK.ne'
  refine ⟨by intro h; rw [h] at hlen; simp at hlen; omega, by omega, ?_, ?_⟩
  · intro c hcm
    obtain ⟨k, hk⟩ := List.mem_iff_getElem?.1 hcm
    have hlt := (List.getElem?_eq_some_iff.1 hk).1
    have hj : k / nx < ny := by rw [Nat.div_lt_iff_lt_mul hx, Nat.mul_comm]; omega
    obtain ⟨c', q1, q2⟩ := hcut (k % nx) (Nat.mod_lt _ hx) (k / nx) hj
    rw [Nat.mul_comm, Nat.mod_add_div, hk] at q1
    cases q1
    rw [q2]
    refine ⟨(((k % nx : ℕ) : K) * (ext.1 / nx), ((k / nx : ℕ) : K) * (ext.2 / ny)), le_refl _, ?_, le_refl _, ?_⟩ <;> dsimp only <;> rw [add_one_mul] <;> linarith
  · intro P p1 p2 p3 p4
    obtain ⟨i, hi, ⟨hi1, hi2⟩, -⟩ := CoarseGrid.interval hw0 nx p1 (by rw [ex]; exact p2)
    obtain ⟨j, hj, ⟨hj1, hj2⟩, -⟩ := CoarseGrid.interval hh0 ny p3 (by rw [ey]; exact p4)
    obtain ⟨c, q1, q2⟩ := hcut i hi j hj
    exact ⟨c, List.mem_of_getElem? q1, by rw [q2]; exact ⟨hi1, hi2, hj1, hj2⟩⟩

end Verif.SceneL
