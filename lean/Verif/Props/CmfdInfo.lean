import Verif.Lemmas.CmfdInfo
import Verif.Props.ModelXdmf
import Verif.Props.XSec
import Mathlib.Data.Nat.Find
import Mathlib.Tactic.IntervalCases
import Mathlib.Tactic.NormNum
import Mathlib.Algebra.Order.Ring.Rat

/-!
# C86: the CMFD data written for an MPACT model
-/

set_option linter.unusedSectionVars false

namespace Verif.CmfdInfo

open Verif.Mpact Verif.ModelXdmf Verif.Polytope Verif.Phys
open Verif.Str (Byte)
open Verif.XSLib (Res)

section
variable {K M : Type} [Field K] [LinearOrder K]

/-- The materials have `ng` groups and are macroscopic, the meshes of the coarse cells have these materials and an area. -/
structure Ready (s : Model K M) (ng : Nat) (mats : List (XSec K)) (meshes : List (List (K × Nat))) : Prop where
  built : Built s s.cells.length
  count : meshes.length = s.cells.length
  groups : 0 < ng ∧ ng ≤ 100000
  nonempty : mats ≠ []
  macros : ∀ m ∈ mats, m.WF ng ∧ m.macro_ = true
  areas : ∀ faces ∈ meshes, (∀ f ∈ faces, f.2 < mats.length) ∧ (faces.map (·.1)).sum ≠ 0

/-- The set of a coarse cell. -/
def cellSet (L : List (Tile K)) (c : Nat) : ElSet (List Byte) K := ⟨label "Coarse_Cell_" c, facesOf L c, []⟩

/-- A set with a value for every face. -/
def groupSet (text : String) (L : List (Tile K)) (v : Nat → Nat → K) (g : Nat) : ElSet (List Byte) K :=
  ⟨label text g, List.range L.length, L.map fun t => v t.id g⟩

/-- The value of the third family: −1 for a scattering ratio above one. -/
def radiusOf (rho : K → K → K → K) (s : Model K M) (mats : List (XSec K)) (meshes : List (List (K × Nat))) (c g : Nat) : K :=
  if 1 < mean mats meshes .s c g / sigT mats meshes c g then -1
  else rho (width s c) (sigT mats meshes c g) (mean mats meshes .s c g / sigT mats meshes c g)

section
variable {s : Model K M} {ng : Nat} {mats : List (XSec K)} {meshes : List (List (K × Nat))}

theorem Ready.valid (h : Ready s ng mats meshes) : mats.all valid = true := by
  rw [List.all_eq_true]
  intro m hm
  obtain ⟨⟨h1, h2⟩, h3⟩ := h.macros m hm
  have a1 := h2 .a
  have a2 := h2 .f
  have a3 := h2 .nuf
  have a4 := h2 .tr
  have a5 := h2 .s
  have a6 := h2 .ss
  simp only [XSec.get, Rx.size] at a1 a2 a3 a4 a5 a6
  have h0 := h.groups.1
  simp [CmfdInfo.valid, h1, h3, a1, a2, a3, a4, a5, a6, h0]

theorem Ready.xsecs (h : Ready s ng mats meshes) :
    ∃ xs, ((List.range s.cells.length).mapM fun c => (meshes[c]?).bind fun f => homogenize f mats) = some xs ∧
      ∀ c < s.cells.length, ∃ x, xs[c]? = some x ∧ ∀ g < ng, x.a[g]? = some (mean mats meshes .a c g) ∧
        x.s[g]? = some (mean mats meshes .s c g) := by
  have key : ∀ c, c < s.cells.length → ∃ x, ((meshes[c]?).bind fun f => homogenize f mats) = some x ∧
      ∀ g < ng, x.a[g]? = some (mean mats meshes .a c g) ∧ x.s[g]? = some (mean mats meshes .s c g) := by
    intro c hc
    obtain ⟨f, hf⟩ := get_of_lt meshes c (by rw [h.count]; exact hc)
    obtain ⟨f1, f2⟩ := h.areas f (List.mem_of_getElem? hf)
    obtain ⟨r, r1, r2, -, -, r5⟩ := C55_mean ng f mats (fun m hm => (h.macros m hm).1) h.nonempty f1 f2
    refine ⟨r, by rw [hf, Option.bind_some, r1], ?_⟩
    intro g hg
    have ha := r5 .a g hg
    have hs := r5 .s g hg
    have la := r2.2 .a
    have ls := r2.2 .s
    simp only [XSec.get, Rx.size] at la ls
    unfold mean
    rw [hf, Option.getD_some, ← ha, ← hs]
    simp only [XSec.val, XSec.get]
    rw [List.getElem?_eq_getElem (by omega), List.getElem?_eq_getElem (by omega)]
    exact ⟨rfl, rfl⟩
  classical
  refine ⟨(List.range s.cells.length).map fun c => if hc : c < s.cells.length then (key c hc).choose else XSec.zero 0, ?_, ?_⟩
  · apply mapM_eq_map
    intro c hc
    have hc := List.mem_range.1 hc
    rw [dif_pos hc]
    exact (key c hc).choose_spec.1
  · intro c hc
    refine ⟨(key c hc).choose, ?_, (key c hc).choose_spec.2⟩
    rw [List.getElem?_map, List.getElem?_range hc, Option.map_some, dif_pos hc]

theorem names_nodup (l : List Nat) (hl : l.Nodup) (f : Nat → ElSet (List Byte) K) (text : String) (hf : ∀ x ∈ l, (f x).name = label text x)
    (hs : ∀ x ∈ l, x < 100000) (sets : List (ElSet (List Byte) K)) (hn : (sets.map (·.name)).Nodup)
    (hd : ∀ e ∈ sets, e.name.length ≠ text.toList.length + 5) : ((sets ++ l.map f).map (·.name)).Nodup := by
  rw [List.map_append, List.nodup_append]
  refine ⟨hn, ?_, ?_⟩
  · rw [List.map_map]
    refine (List.nodup_map_iff_inj_on hl).2 ?_
    intro x hx y hy e
    simp only [Function.comp, hf x hx, hf y hy] at e
    exact label_inj text x y (hs x hx) (hs y hy) e
  · intro a ha b hb e
    obtain ⟨e1, h1, rfl⟩ := List.mem_map.1 ha
    rw [List.map_map] at hb
    obtain ⟨x, hx, rfl⟩ := List.mem_map.1 hb
    simp only [Function.comp, hf x hx] at e
    apply hd e1 h1
    rw [e, label_length]

/-- Adding the sets of the coarse cells from a list of used cells. -/
theorem cellSets_ok (L : List (Tile K)) (n : Nat) (hn : n ≤ 100000) (l : List Nat) (hl : l.Nodup) (hlt : ∀ c ∈ l, c < n)
    (hu : ∀ c ∈ l, facesOf L c ≠ []) (soup : CSoup K) (els : List (ℤ × List Nat)) (h : Rep soup els []) :
    ∃ soup', loop (fun soup (c : Nat) => (Res.ofOption (((List.range n).map (facesOf L))[c]?)).bind fun ids =>
        addSet soup (preCell ++ Names.getASCIINumber c) ids []) soup l = .ok soup' ∧ soup'.verts = soup.verts ∧
      Rep soup' els (l.map (cellSet L)) := by
  refine loop_sets _ (cellSet L) els l soup [] h ?_ ?_
  · intro c hc soup sets hr hname
    have h1 := hlt c hc
    rw [List.getElem?_map, List.getElem?_range h1, Option.map_some, of_some, ok_bind, digits5 c (by omega)]
    exact addSet_ok soup els sets hr (cellSet L c) hname (hu c hc) (Or.inl rfl)
  · exact names_nodup l hl (cellSet L) "Coarse_Cell_" (fun _ _ => rfl) (fun c hc => lt_of_lt_of_le (hlt c hc) hn) [] (by simp) (by simp)

/-- Adding one family of sets. -/
theorem groupSets_ok (ninf : K) (L : List (Tile K)) (hL : L ≠ []) (n : Nat) (hid : ∀ t ∈ L, t.id < n) (text : String) (pre : List Byte)
    (hpre : pre = text.toList.map fun c => UInt8.ofNat c.toNat)
    (l : List Nat) (hl : l.Nodup) (hlt : ∀ g ∈ l, g < 100000) (val : Nat → Nat → Res K) (v : Nat → Nat → K)
    (hv : ∀ g ∈ l, ∀ c < n, val c g = .ok (v c g)) (soup : CSoup K) (sets : List (ElSet (List Byte) K))
    (h : Rep soup (quads L.length) sets) (hn : (sets.map (·.name)).Nodup) (hd : ∀ e ∈ sets, e.name.length ≠ text.toList.length + 5) :
    ∃ soup', loop (fun (soup : CSoup K) g =>
      (loop (fun d (c : Nat) => (val c g).bind fun v => (Res.ofOption (((List.range n).map (facesOf L))[c]?)).bind fun ids => paint d ids v)
        (List.replicate soup.types.length ninf) (List.range ((List.range n).map (facesOf L)).length)).bind fun data =>
      addSet soup (pre ++ Names.getASCIINumber g) (List.range soup.types.length) data) soup l = .ok soup' ∧ soup'.verts = soup.verts ∧
      Rep soup' (quads L.length) (sets ++ l.map (groupSet text L v)) ∧ ((sets ++ l.map (groupSet text L v)).map (·.name)).Nodup := by
  have hnd := names_nodup l hl (groupSet text L v) text (fun _ _ => rfl) hlt sets hn hd
  have key := loop_sets (fun (soup : CSoup K) g =>
      (loop (fun d (c : Nat) => (val c g).bind fun v => (Res.ofOption (((List.range n).map (facesOf L))[c]?)).bind fun ids => paint d ids v)
        (List.replicate soup.types.length ninf) (List.range ((List.range n).map (facesOf L)).length)).bind fun data =>
      addSet soup (pre ++ Names.getASCIINumber g) (List.range soup.types.length) data) (groupSet text L v) (quads L.length) l soup sets h ?_ hnd
  · obtain ⟨soup', e, a, b⟩ := key
    exact ⟨soup', e, a, b, hnd⟩
  · intro g hg soup sets hr hname
    have ht : soup.types.length = L.length := by rw [hr.types]; simp [quads]
    rw [ht, map_replicate L ninf fun c => v c g, List.length_map, List.length_range,
      fill_spec ninf L n (fun c => val c g) (fun c => v c g) (List.range n) [] fun c hc =>
        ⟨List.mem_range.1 hc, hv g hg c (List.mem_range.1 hc)⟩, ok_bind, digits5 g (hlt g hg)]
    have : (L.map fun t => if t.id ∈ [] ++ List.range n then v t.id g else ninf) = L.map fun t => v t.id g := by
      apply List.map_congr_left
      intro t htm
      rw [if_pos (by simpa using hid t htm)]
    rw [this, hpre]
    refine addSet_ok soup _ sets hr (groupSet text L v g) hname ?_ (Or.inr ?_)
    · simp only [groupSet]
      rw [Ne, List.range_eq_nil]
      simpa using hL
    · simp [groupSet]

theorem total_ok (xs : List (XSec K)) (n ng : Nat)
    (h : ∀ c < n, ∃ x, xs[c]? = some x ∧ ∀ g < ng, x.a[g]? = some (mean mats meshes .a c g) ∧ x.s[g]? = some (mean mats meshes .s c g))
    (c g : Nat) (hc : c < n) (hg : g < ng) : total xs c g = .ok (sigT mats meshes c g) := by
  obtain ⟨x, h1, h2⟩ := h c hc
  obtain ⟨h3, h4⟩ := h2 g hg
  unfold total
  rw [h1, of_some, ok_bind, h3, of_some, ok_bind, h4, of_some, ok_bind]
  rfl

theorem ratio_eq (xs : List (XSec K)) (n ng : Nat)
    (h : ∀ c < n, ∃ x, xs[c]? = some x ∧ ∀ g < ng, x.a[g]? = some (mean mats meshes .a c g) ∧ x.s[g]? = some (mean mats meshes .s c g))
    (c g : Nat) (hc : c < n) (hg : g < ng) :
    ratio xs c g = if sigT mats meshes c g = 0 then .undef else .ok (mean mats meshes .s c g / sigT mats meshes c g) := by
  obtain ⟨x, h1, h2⟩ := h c hc
  obtain ⟨h3, h4⟩ := h2 g hg
  unfold ratio
  rw [total_ok xs n ng h c g hc hg, ok_bind, h1, of_some, ok_bind, h4, of_some, ok_bind]

/-- The part before the sets of the groups. -/
theorem start (h : Ready s ng mats meshes) : ∃ st L, addCore s = .ok st ∧ Inv s.cells.length st L ∧ (∀ t, t ∈ L ↔ IsTile s t) ∧
    (L.map Tile.path).Nodup ∧ (∀ t ∈ L, t.id < s.cells.length) := by
  obtain ⟨st, L, e, i, q, d⟩ := addCore_inv s s.cells.length h.built rfl
  refine ⟨st, L, e, i, q, d, ?_⟩
  intro t ht
  obtain ⟨_, _, _, _, _, r, _, _, _, _, _, _, _, _, -, -, ⟨-, -, -, hr⟩, ⟨hc, -⟩, -⟩ := (q t).1 ht
  have := (h.built.rtm r (List.mem_of_getElem? hr)).2.2.1 _ (List.mem_of_getElem? hc)
  omega

theorem range_split (c n : Nat) (h : c < n) : List.range n = List.range c ++ c :: List.range' (c + 1) (n - (c + 1)) := by
  rw [← List.range'_succ, List.range_eq_range', List.range_eq_range']
  have := List.range'_append (s := 0) (m := c) (n := n - (c + 1) + 1) (step := 1)
  rw [Nat.one_mul, Nat.zero_add] at this
  rw [this]
  congr 1
  omega

theorem ne_of_used (L : List (Tile K)) (c : Nat) (h : ∃ t ∈ L, t.id = c) : facesOf L c ≠ [] := by
  obtain ⟨t, ht, rfl⟩ := h
  obtain ⟨i, hi⟩ := List.mem_iff_getElem?.1 ht
  exact List.ne_nil_of_mem ((mem_facesOf L t.id i).2 ⟨t, hi, rfl⟩)

/-- `info` after the checks and the homogenisation. -/
theorem info_eq (h : Ready s ng mats meshes) (ninf : K) (rho : K → K → K → K) :
    ∃ xs, (∀ c < s.cells.length, ∃ x, xs[c]? = some x ∧ ∀ g < ng, x.a[g]? = some (mean mats meshes .a c g) ∧
        x.s[g]? = some (mean mats meshes .s c g)) ∧
      info ninf rho s mats meshes = (addCore s).bind fun st =>
        (addCellSets st.soup st.faces).bind fun soup =>
        (addGroupSets ninf soup st.faces preTotal ng (total xs)).bind fun soup =>
        (addGroupSets ninf soup st.faces preRatio ng (ratio xs)).bind fun soup =>
        addGroupSets ninf soup st.faces preRadius ng (radius rho s.cells xs) := by
  obtain ⟨xs, x1, x2⟩ := h.xsecs
  refine ⟨xs, x2, ?_⟩
  obtain ⟨m0, ms, hms⟩ := List.exists_cons_of_ne_nil h.nonempty
  have hv := h.valid
  have hm0 := (h.macros m0 (by rw [hms]; simp)).1.1
  unfold info
  rw [x1, hv]
  subst hms
  simp only [List.getElem?_cons_zero, of_some, ok_bind, Bool.not_true, Bool.false_eq_true, if_false, hm0]
  rw [if_neg h.built.core.1]

end

/-- **C86.**  For a built model whose coarse cells are all in the core and whose homogenised total cross sections are not zero,
there is a list `L` of the places of the coarse cells in the core, each of them once, such that the soup has for each of them the
rectangle of the cell at the height of the middle of its lattice; a set for every coarse cell, of its places; and for every group
three sets with, at every face, the total cross section, the scattering ratio and the spectral radius of the cell there. -/
theorem C86_info_partial (ninf : K) (rho : K → K → K → K) (s : Model K M) (ng : Nat) (mats : List (XSec K))
    (meshes : List (List (K × Nat))) (h : Ready s ng mats meshes)
    (hused : ∀ c < s.cells.length, ∃ t, IsTile s t ∧ t.id = c)
    (hne : ∀ c < s.cells.length, ∀ g < ng, sigT mats meshes c g ≠ 0) :
    ∃ (soup : CSoup K) (L : List (Tile K)), info ninf rho s mats meshes = .ok soup ∧ (L.map Tile.path).Nodup ∧ (∀ t, t ∈ L ↔ IsTile s t) ∧
      soup.verts = L.flatMap Tile.corners ∧
      Rep soup ((List.range L.length).map fun i => (9, [4 * i, 4 * i + 1, 4 * i + 2, 4 * i + 3]))
        ((List.range s.cells.length).map (cellSet L) ++
          (List.range ng).map (groupSet "Homogenized_Total_XS_Group_" L (sigT mats meshes)) ++
          (List.range ng).map (groupSet "Homogenized_Scattering_Ratio_Group_" L
            fun c g => mean mats meshes .s c g / sigT mats meshes c g) ++
          (List.range ng).map (groupSet "1D_odCMFD_Spectral_Radius_Group_" L (radiusOf rho s mats meshes))) := by
  obtain ⟨xs, x2, e0⟩ := info_eq h ninf rho
  obtain ⟨st, L, e1, i1, q1, d1, hid⟩ := start h
  have hn := h.built.small.2.2.2
  have hng := h.groups.2
  have hu : ∀ c < s.cells.length, facesOf L c ≠ [] := by
    intro c hc
    obtain ⟨t, t1, t2⟩ := hused c hc
    exact ne_of_used L c ⟨t, (q1 t).2 t1, t2⟩
  obtain ⟨s1, f1, v1, r1⟩ := cellSets_ok L s.cells.length hn (List.range s.cells.length) List.nodup_range
    (fun c hc => List.mem_range.1 hc) (fun c hc => hu c (List.mem_range.1 hc)) st.soup (quads L.length) i1.rep
  have n1 := names_nodup (List.range s.cells.length) List.nodup_range (cellSet L) "Coarse_Cell_" (fun _ _ => rfl)
    (fun c hc => lt_of_lt_of_le (List.mem_range.1 hc) hn) [] (by simp) (by simp)
  rw [List.nil_append] at n1
  have hL : L ≠ [] := by
    rintro rfl
    have h1 := h.built.core.1
    obtain ⟨c, hc⟩ := List.exists_mem_of_ne_nil _ h1
    obtain ⟨b1, b2, b3, -, -⟩ := h.built.core
    obtain ⟨c1, c2⟩ := b3 c hc
    obtain ⟨a, ha⟩ := get_of_lt s.assemblies c.toNat (by omega)
    obtain ⟨g1, g2, g3, -⟩ := h.built.asy a (List.mem_of_getElem? ha)
    obtain ⟨c', hc'⟩ := List.exists_mem_of_ne_nil _ g1
    obtain ⟨c3, c4⟩ := g3 c' hc'
    obtain ⟨l, hl⟩ := get_of_lt s.lattices c'.toNat (by omega)
    obtain ⟨g1, g2, g3, -⟩ := h.built.lat l (List.mem_of_getElem? hl)
    obtain ⟨c', hc'⟩ := List.exists_mem_of_ne_nil _ g1
    obtain ⟨c3, c4⟩ := g3 c' hc'
    obtain ⟨r, hr⟩ := get_of_lt s.rtms c'.toNat (by omega)
    obtain ⟨g1, g2, g3, -⟩ := h.built.rtm r (List.mem_of_getElem? hr)
    obtain ⟨c', hc'⟩ := List.exists_mem_of_ne_nil _ g1
    obtain ⟨c3, c4⟩ := g3 c' hc'
    exact hu c'.toNat (by omega) rfl
  have l1 : ∀ e ∈ (List.range s.cells.length).map (cellSet L), e.name.length = 17 := by
    intro e he
    obtain ⟨c, _, rfl⟩ := List.mem_map.1 he
    exact label_length _ _
  have lg : ∀ (text : String) (v : Nat → Nat → K), ∀ e ∈ (List.range ng).map (groupSet text L v), e.name.length = text.toList.length + 5 := by
    intro text v e he
    obtain ⟨c, _, rfl⟩ := List.mem_map.1 he
    exact label_length _ _
  have hlt : ∀ g ∈ List.range ng, g < 100000 := fun g hg => lt_of_lt_of_le (List.mem_range.1 hg) hng
  have p1 : "Homogenized_Total_XS_Group_".toList.length = 27 := by decide
  have p2 : "Homogenized_Scattering_Ratio_Group_".toList.length = 35 := by decide
  have p3 : "1D_odCMFD_Spectral_Radius_Group_".toList.length = 32 := by decide
  obtain ⟨s2, f2, v2, r2, n2⟩ := groupSets_ok ninf L hL s.cells.length hid "Homogenized_Total_XS_Group_" preTotal rfl (List.range ng)
    List.nodup_range hlt (total xs) (sigT mats meshes) (fun g hg c hc => total_ok xs _ ng x2 c g hc (List.mem_range.1 hg)) s1 _ r1 n1
    (by intro e he; rw [l1 e he, p1]; omega)
  obtain ⟨s3, f3, v3, r3, n3⟩ := groupSets_ok ninf L hL s.cells.length hid "Homogenized_Scattering_Ratio_Group_" preRatio rfl (List.range ng)
    List.nodup_range hlt (ratio xs) (fun c g => mean mats meshes .s c g / sigT mats meshes c g) (fun g hg c hc => by
      rw [ratio_eq xs _ ng x2 c g hc (List.mem_range.1 hg), if_neg (hne c hc g (List.mem_range.1 hg))]) s2 _ r2 n2
    (by
      intro e he
      rcases List.mem_append.1 he with he | he
      · rw [l1 e he, p2]; omega
      · rw [lg _ _ e he, p1, p2]; omega)
  obtain ⟨s4, f4, v4, r4, n4⟩ := groupSets_ok ninf L hL s.cells.length hid "1D_odCMFD_Spectral_Radius_Group_" preRadius rfl (List.range ng)
    List.nodup_range hlt (radius rho s.cells xs) (radiusOf rho s mats meshes) (fun g hg c hc => by
      obtain ⟨cell, hcell⟩ := get_of_lt s.cells c hc
      unfold radius
      rw [total_ok xs _ ng x2 c g hc (List.mem_range.1 hg), ok_bind, ratio_eq xs _ ng x2 c g hc (List.mem_range.1 hg),
        if_neg (hne c hc g (List.mem_range.1 hg)), ok_bind, hcell, of_some, ok_bind]
      simp only [radiusOf, width, hcell]) s3 _ r3 n3
    (by
      intro e he
      rcases List.mem_append.1 he with he | he
      · rcases List.mem_append.1 he with he | he
        · rw [l1 e he, p3]; omega
        · rw [lg _ _ e he, p1, p3]; omega
      · rw [lg _ _ e he, p2, p3]; omega)
  refine ⟨s4, L, ?_, d1, q1, by rw [v4, v3, v2, v1, i1.verts], r4⟩
  rw [e0, e1, ok_bind, i1.faces]
  unfold addCellSets
  rw [List.length_map, List.length_range, f1, ok_bind]
  unfold addGroupSets
  rw [f2, ok_bind, f3, ok_bind, f4]

/-- A material without groups, with cross sections that are not macroscopic or with vectors of a wrong length ends the program. -/
theorem C86_checks (ninf : K) (rho : K → K → K → K) (s : Model K M) (mats : List (XSec K)) (meshes : List (List (K × Nat)))
    (h : ∃ m ∈ mats, ¬ (m.macro_ = true ∧ 0 < m.ng ∧ m.WF m.ng)) : info ninf rho s mats meshes = .refused := by
  obtain ⟨m, hm, hb⟩ := h
  cases mats with
  | nil => cases hm
  | cons m0 ms =>
    have hv : CmfdInfo.valid m = false := by
      rw [← Bool.not_eq_true]
      intro hv
      simp only [CmfdInfo.valid, Bool.and_eq_true, decide_eq_true_eq] at hv
      obtain ⟨h1, h2, a1, a2, a3, a4, a5, a6⟩ := hv
      refine hb ⟨h1, h2, rfl, fun r => ?_⟩
      cases r <;> assumption
    unfold info
    rw [List.getElem?_cons_zero, of_some, ok_bind, if_pos]
    rw [Bool.not_eq_true', ← Bool.not_eq_true, List.all_eq_true]
    intro hall
    have := hall m hm
    rw [hv] at this
    cases this

/-- **C86 fails** when a coarse cell is not in the core: the program ends with an error and nothing is written. -/
theorem C86_unused_fails (ninf : K) (rho : K → K → K → K) (s : Model K M) (ng : Nat) (mats : List (XSec K))
    (meshes : List (List (K × Nat))) (h : Ready s ng mats meshes)
    (hunused : ∃ c < s.cells.length, ∀ t, IsTile s t → t.id ≠ c) :
    info ninf rho s mats meshes = .refused := by
  classical
  obtain ⟨xs, -, e0⟩ := info_eq h ninf rho
  obtain ⟨st, L, e1, i1, q1, -, -⟩ := start h
  have hn := h.built.small.2.2.2
  obtain ⟨c, ⟨hc, hun⟩, hmin⟩ : ∃ c, (c < s.cells.length ∧ ∀ t, IsTile s t → t.id ≠ c) ∧
      ∀ m < c, ¬ (m < s.cells.length ∧ ∀ t, IsTile s t → t.id ≠ m) :=
    ⟨Nat.find hunused, Nat.find_spec hunused, fun m hm => Nat.find_min hunused hm⟩
  obtain ⟨s1, f1, -, -⟩ := cellSets_ok L s.cells.length hn (List.range c) List.nodup_range
    (fun m hm => by have := List.mem_range.1 hm; omega) (fun m hm => by
      have hm := List.mem_range.1 hm
      have := hmin m hm
      push Not at this
      obtain ⟨t, t1, t2⟩ := this (by omega)
      exact ne_of_used L m ⟨t, (q1 t).2 t1, t2⟩) st.soup (quads L.length) i1.rep
  have hempty : facesOf L c = [] := by
    rw [List.eq_nil_iff_forall_not_mem]
    intro i hi
    obtain ⟨t, t1, t2⟩ := (mem_facesOf L c i).1 hi
    exact hun t ((q1 t).1 (List.mem_of_getElem? t1)) t2
  have hsplit := range_split c s.cells.length hc
  rw [e0, e1, ok_bind, i1.faces]
  unfold addCellSets
  have f2 := loop_append (fun soup (c : Nat) => (Res.ofOption (((List.range s.cells.length).map (facesOf L))[c]?)).bind fun ids =>
    addSet soup (preCell ++ Names.getASCIINumber c) ids []) st.soup (List.range c) (c :: List.range' (c + 1) (s.cells.length - (c + 1)))
  rw [← hsplit] at f2
  rw [List.length_map, List.length_range, f2, f1, ok_bind, loop, List.getElem?_map, List.getElem?_range hc, Option.map_some, of_some, ok_bind, hempty, addSet_empty]
  rfl

/-- **C86 fails** when the homogenised total cross section of a coarse cell is zero in some group, as it is for a void: the
scattering ratio is `0 / 0`. -/
theorem C86_void_fails (ninf : K) (rho : K → K → K → K) (s : Model K M) (ng : Nat) (mats : List (XSec K))
    (meshes : List (List (K × Nat))) (h : Ready s ng mats meshes)
    (hused : ∀ c < s.cells.length, ∃ t, IsTile s t ∧ t.id = c)
    (hvoid : ∃ g, g < ng ∧ ∃ c < s.cells.length, sigT mats meshes c g = 0) :
    info ninf rho s mats meshes = .undef := by
  classical
  obtain ⟨xs, x2, e0⟩ := info_eq h ninf rho
  obtain ⟨st, L, e1, i1, q1, d1, hid⟩ := start h
  have hn := h.built.small.2.2.2
  have hng := h.groups.2
  have hu : ∀ c < s.cells.length, facesOf L c ≠ [] := by
    intro c hc
    obtain ⟨t, t1, t2⟩ := hused c hc
    exact ne_of_used L c ⟨t, (q1 t).2 t1, t2⟩
  obtain ⟨s1, f1, v1, r1⟩ := cellSets_ok L s.cells.length hn (List.range s.cells.length) List.nodup_range
    (fun c hc => List.mem_range.1 hc) (fun c hc => hu c (List.mem_range.1 hc)) st.soup (quads L.length) i1.rep
  have n1 := names_nodup (List.range s.cells.length) List.nodup_range (cellSet L) "Coarse_Cell_" (fun _ _ => rfl)
    (fun c hc => lt_of_lt_of_le (List.mem_range.1 hc) hn) [] (by simp) (by simp)
  rw [List.nil_append] at n1
  have hL : L ≠ [] := by
    rintro rfl
    obtain ⟨g, hg, c, hc, -⟩ := hvoid
    exact hu c hc rfl
  have l1 : ∀ e ∈ (List.range s.cells.length).map (cellSet L), e.name.length = 17 := by
    intro e he
    obtain ⟨c, _, rfl⟩ := List.mem_map.1 he
    exact label_length _ _
  have p1 : "Homogenized_Total_XS_Group_".toList.length = 27 := by decide
  have p2 : "Homogenized_Scattering_Ratio_Group_".toList.length = 35 := by decide
  obtain ⟨s2, f2, v2, r2, n2⟩ := groupSets_ok ninf L hL s.cells.length hid "Homogenized_Total_XS_Group_" preTotal rfl (List.range ng)
    List.nodup_range (fun g hg => lt_of_lt_of_le (List.mem_range.1 hg) hng) (total xs) (sigT mats meshes)
    (fun g hg c hc => total_ok xs _ ng x2 c g hc (List.mem_range.1 hg)) s1 _ r1 n1
    (by intro e he; rw [l1 e he, p1]; omega)
  obtain ⟨g, ⟨hg, hc0⟩, gmin⟩ : ∃ g, (g < ng ∧ ∃ c < s.cells.length, sigT mats meshes c g = 0) ∧
      ∀ m < g, ¬ (m < ng ∧ ∃ c < s.cells.length, sigT mats meshes c m = 0) :=
    ⟨Nat.find hvoid, Nat.find_spec hvoid, fun m hm => Nat.find_min hvoid hm⟩
  obtain ⟨c, ⟨hc, hz⟩, cmin⟩ : ∃ c, (c < s.cells.length ∧ sigT mats meshes c g = 0) ∧
      ∀ m < c, ¬ (m < s.cells.length ∧ sigT mats meshes m g = 0) :=
    ⟨Nat.find hc0, Nat.find_spec hc0, fun m hm => Nat.find_min hc0 hm⟩
  obtain ⟨s3, f3, v3, r3, n3⟩ := groupSets_ok ninf L hL s.cells.length hid "Homogenized_Scattering_Ratio_Group_" preRatio rfl (List.range g)
    List.nodup_range (fun m hm => by have := List.mem_range.1 hm; omega) (ratio xs)
    (fun c g => mean mats meshes .s c g / sigT mats meshes c g) (fun m hm c hc => by
      have hm := List.mem_range.1 hm
      rw [ratio_eq xs _ ng x2 c m hc (by omega), if_neg]
      intro hz
      exact gmin m hm ⟨by omega, c, hc, hz⟩) s2 _ r2 n2
    (by
      intro e he
      rcases List.mem_append.1 he with he | he
      · rw [l1 e he, p2]; omega
      · obtain ⟨_, _, rfl⟩ := List.mem_map.1 he
        simp only [groupSet]
        rw [label_length, p1, p2]; omega)
  have ht : s3.types.length = L.length := by rw [r3.types]; simp [quads]
  have f4 := fill_spec ninf L s.cells.length (fun c => ratio xs c g) (fun c => mean mats meshes .s c g / sigT mats meshes c g)
    (List.range c) [] (fun m hm => by
      have hm := List.mem_range.1 hm
      refine ⟨by omega, ?_⟩
      rw [ratio_eq xs _ ng x2 m g (by omega) hg, if_neg]
      intro hz
      exact cmin m hm ⟨by omega, hz⟩)
  rw [e0, e1, ok_bind, i1.faces]
  unfold addCellSets
  rw [List.length_map, List.length_range, f1, ok_bind]
  unfold addGroupSets
  rw [f2, ok_bind, range_split g ng hg, loop_append, f3, ok_bind, loop, ht,
    map_replicate L ninf fun c => mean mats meshes .s c g / sigT mats meshes c g, List.length_map, List.length_range]
  have f5 := loop_append (fun d (c : Nat) => (ratio xs c g).bind fun x =>
    (Res.ofOption (((List.range s.cells.length).map (facesOf L))[c]?)).bind fun ids => paint d ids x)
    (L.map fun t => if t.id ∈ ([] : List Nat) then mean mats meshes .s t.id g / sigT mats meshes t.id g else ninf)
    (List.range c) (c :: List.range' (c + 1) (s.cells.length - (c + 1)))
  rw [← range_split c s.cells.length hc] at f5
  rw [f5, f4, ok_bind, loop, ratio_eq xs _ ng x2 c g hc hg, if_pos hz]
  rfl

end

/-! ### Cases -/

open Verif.PropsModelXdmf (twoLattices built_sample)

/-- One assembly of two lattices; cells of sides 1 and 1. -/
def core2 : Model ℚ Unit := { twoLattices with cells := [⟨(1, 1), 4, 0, [0, 0]⟩, ⟨(1, 1), 4, 0, [0, 0]⟩] }

/-- The same with a third cell that is in no module. -/
def core3 : Model ℚ Unit := { twoLattices with cells := [⟨(1, 1), 4, 0, [0, 0]⟩, ⟨(1, 1), 4, 0, [0, 0]⟩, ⟨(1, 1), 4, 0, [0, 0]⟩] }

/-- A void. -/
def void : XSec ℚ := ⟨true, false, 2, [0, 0], [0, 0], [0, 0], [0, 0], [0, 0], [0, 0, 0, 0]⟩

theorem wf_demo : demo.WF 2 ∧ demo.macro_ = true := ⟨⟨rfl, fun r => by cases r <;> rfl⟩, rfl⟩
theorem wf_void : void.WF 2 ∧ void.macro_ = true := ⟨⟨rfl, fun r => by cases r <;> rfl⟩, rfl⟩

theorem ready2 (m : List (XSec ℚ)) (h : m = [demo] ∨ m = [demo, void]) (j : Nat) (hj : j < m.length) :
    Ready core2 2 m [[(1 / 2, 0), (1 / 2, 0)], [(1 / 4, 0), (3 / 4, j)]] where
  built := by
    have : Built twoLattices 2 := by apply built_sample <;> simp [InRange]
    exact ⟨this.core, this.asy, this.lat, this.rtm, this.small⟩
  count := rfl
  groups := by omega
  nonempty := by rcases h with rfl | rfl <;> simp
  macros := by
    intro x hx
    rcases h with rfl | rfl <;> simp at hx
    · subst hx; exact wf_demo
    · rcases hx with rfl | rfl
      · exact wf_demo
      · exact wf_void
  areas := by
    intro f hf
    simp only [List.mem_cons, List.not_mem_nil, or_false] at hf
    rcases hf with rfl | rfl
    · exact ⟨by simp; omega, by norm_num⟩
    · refine ⟨?_, by norm_num⟩
      simp
      omega

/-- A place of cell 0 and one of cell 1. -/
theorem used2 : ∀ c < core2.cells.length, ∃ t, IsTile core2 t ∧ t.id = c := by
  intro c hc
  have : c < 2 := hc
  interval_cases c
  · exact ⟨⟨⟨(0, 0), 0, (0, 0), (0, 0)⟩, 0, (0, 0), (1, 1), 1 / 2⟩, ⟨0, 0, 0, _, _, _, 0, 0, 0, 1, 0, 1, 0, 1,
      ⟨by decide, by decide, rfl, rfl, rfl, rfl⟩, ⟨rfl, rfl, rfl, rfl⟩, ⟨by decide, by decide, rfl, rfl⟩,
      ⟨rfl, rfl, rfl, rfl, rfl⟩, by norm_num, by norm_num, by norm_num⟩, rfl⟩
  · exact ⟨⟨⟨(0, 0), 1, (0, 1), (1, 0)⟩, 1, (1, 1), (2, 2), 2⟩, ⟨0, 1, 1, _, _, _, 0, 0, 1, 3, 1, 2, 0, 1,
      ⟨by decide, by decide, rfl, rfl, rfl, rfl⟩, ⟨rfl, rfl, rfl, rfl⟩, ⟨by decide, by decide, rfl, rfl⟩,
      ⟨rfl, rfl, rfl, rfl, rfl⟩, by norm_num, by norm_num, by norm_num⟩, rfl⟩

/-- The hypotheses of `C86_info_partial` are met. -/
example : ∃ soup : CSoup ℚ, info (-1000000) (fun w t c => w * t * c) core2 [demo] [[(1 / 2, 0), (1 / 2, 0)], [(1 / 4, 0), (3 / 4, 0)]] =
    .ok soup := by
  obtain ⟨soup, _, h, -⟩ := C86_info_partial (-1000000) (fun w t c => w * t * c) core2 2 [demo] _
    (ready2 _ (Or.inl rfl) 0 (by simp)) used2 (by
      intro c hc g hg
      have : c < 2 := hc
      interval_cases c <;> interval_cases g <;> decide +kernel)
  exact ⟨soup, h⟩

/-- Three quarters of the second cell void: the cross section is a quarter of that of the material. -/
example : sigT [demo, void] [[(1 / 2, 0), (1 / 2, 0)], [(1 / 4, 0), (3 / 4, 1)]] 1 0 = 5 / 4 := by decide +kernel

/-- The second cell void: no data. -/
example : info (-1000000) (fun w t c => w * t * c) core2 [void] [[(1, 0)], [(1, 0)]] = .undef := by
  refine C86_void_fails _ _ core2 2 _ _ ?_ used2 ⟨0, by omega, 1, by decide, by decide +kernel⟩
  have h := ready2 [demo] (Or.inl rfl) 0 (by simp)
  refine ⟨h.built, rfl, h.groups, by simp, by simp [wf_void], ?_⟩
  intro f hf
  simp only [List.mem_cons, List.not_mem_nil, or_false] at hf
  rcases hf with rfl | rfl <;> exact ⟨by simp, by norm_num⟩

/-- A cell in no module. -/
example : info (-1000000) (fun w t c => w * t * c) core3 [demo] [[(1, 0)], [(1, 0)], [(1, 0)]] = .refused := by
  have hr : ∀ r ∈ core3.rtms, InRange 2 r.children := by
    have : Built twoLattices 2 := by apply built_sample <;> simp [InRange]
    exact fun r h => (this.rtm r h).2.2.1
  refine C86_unused_fails _ _ core3 2 _ _ ?_ ⟨2, by decide, ?_⟩
  · have : Built twoLattices 2 := by apply built_sample <;> simp [InRange]
    refine ⟨⟨this.core, this.asy, this.lat, fun r h => ?_, ?_⟩, rfl, by omega, by simp, by simp [wf_demo], ?_⟩
    · obtain ⟨a, b, c, d⟩ := this.rtm r h
      exact ⟨a, b, fun x hx => ⟨(c x hx).1, lt_of_lt_of_le (c x hx).2 (by decide)⟩, d⟩
    · exact ⟨this.small.1, this.small.2.1, this.small.2.2.1, by decide⟩
    · intro f hf
      simp only [List.mem_cons, List.not_mem_nil, or_false] at hf
      rcases hf with rfl | rfl | rfl <;> exact ⟨by simp, by norm_num⟩
  · rintro t ⟨_, _, _, _, _, r, _, _, _, _, _, _, _, _, -, -, ⟨-, -, -, h⟩, ⟨hc, -⟩, -⟩ e
    have := (hr r (List.mem_of_getElem? h)) _ (List.mem_of_getElem? hc)
    rw [e] at this
    omega

end Verif.CmfdInfo
