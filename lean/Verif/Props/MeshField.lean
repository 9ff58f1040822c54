import Verif.Lemmas.MeshField
import Verif.Model.Geom

/-! The mesh size from the Knudsen number (C97). -/

namespace Verif.KnSpec

open Verif.Kn
open Verif.KnL
open Verif.XSLib (Res)
open Verif.Overlay (Name)
open Verif.GmshSpec (WF)
open Verif.MFiles (str)
open Verif.Geom (Poly sqDist triArea)

variable {P : Type}

/-- No two groups of the dimension share a name. -/
def OneName (groups : List (Gmsh.Group Name)) (d : ℤ) : Prop :=
  ∀ g ∈ groups, ∀ h ∈ groups, g.dim = d → h.dim = d → g.name = h.name → g = h

/-- The field of one material, before the largest size is taken into account. -/
noncomputable def fieldOf (G : Geo P) (prt : ℝ → ℝ) (q : Par) (fuel : Set ℤ) (x : Info) : P → ℝ :=
  let f := constant G x.lc q.dim x.ents
  let f := if 0 ≤ q.fuelThr then (if !x.fissile && !x.absorber then up prt x q.fuelThr q.fuelScl (G.dist q.dim fuel) f else f) else f
  if 0 ≤ q.absThr then (if x.absorber then up prt x q.absThr q.absScl (G.dist (q.dim - 1) {b | ∃ e ∈ x.ents, b ∈ G.down (q.dim, e)}) f else f) else f

theorem fuelFields_spec (G : Geo P) (prt : ℝ → ℝ) (dim : ℤ) (thr scl : ℝ) (xs : List Info) (ids : List Nat) (fs : List (P → ℝ)) (f : Info → P → ℝ)
    (h : Hold fs ids (xs.map f)) : (∀ r, fuelFields G prt dim thr scl xs ids fs = .ok r →
      ((∃ x ∈ xs, x.fissile = true) ∧ ((xs.filter (·.fissile)).flatMap (·.ents)).Nodup) ∧
      ∃ gs, r.1 = fs ++ gs ∧ Hold r.1 r.2 (xs.map fun x => if !x.fissile && !x.absorber then
        up prt x thr scl (G.dist dim {e | ∃ x ∈ xs, x.fissile = true ∧ e ∈ x.ents}) (f x) else f x)) ∧
    (listOk dim = true → (∃ x ∈ xs, x.fissile = true ∧ x.ents ≠ []) → ((xs.filter (·.fissile)).flatMap (·.ents)).Nodup →
      ∃ r, fuelFields G prt dim thr scl xs ids fs = .ok r) := by
  unfold fuelFields
  constructor
  · intro r hr
    by_cases h1 : (xs.all fun x => !x.fissile) = true
    · rw [if_pos h1] at hr; cases hr
    rw [if_neg h1] at hr
    dsimp only at hr
    cases ht : twice (((xs.filter (·.fissile)).flatMap (·.ents)).insertionSort (· ≤ ·)) with
    | none => rw [ht] at hr; cases hr
    | some v =>
      cases v with
      | true => rw [ht] at hr; cases hr
      | false =>
        rw [ht] at hr
        dsimp only at hr
        split_ifs at hr with h2
        cases hr
        have hset : {e | e ∈ ((xs.filter (·.fissile)).flatMap (·.ents)).insertionSort (· ≤ ·)} = {e | ∃ x ∈ xs, x.fissile = true ∧ e ∈ x.ents} := by
          ext y
          simp only [Set.mem_ofPred_eq]
          rw [(List.perm_insertionSort _ _).mem_iff, List.mem_flatMap]
          simp only [List.mem_filter, and_assoc]
        rw [hset]
        obtain ⟨gs, a, b⟩ := fuelLoop_spec prt (fs.length + 1) thr scl (G.dist dim {e | ∃ x ∈ xs, x.fissile = true ∧ e ∈ x.ents}) f xs ids
          (fs ++ [G.dist dim {e | ∃ x ∈ xs, x.fissile = true ∧ e ∈ x.ents}]) (by simp) (field_last _ _) (h.append _)
        refine ⟨⟨?_, ((twice_sort _).1 ht).2⟩, _, a.trans (List.append_assoc _ _ _), b⟩
        simp only [Bool.not_eq_true, List.all_eq_false] at h1
        obtain ⟨x, hx, hf⟩ := h1
        exact ⟨x, hx, by simpa using hf⟩
  · rintro hd ⟨x, hx, hf, he⟩ hn
    rw [if_neg (by
      simp only [Bool.not_eq_true, List.all_eq_false]
      exact ⟨x, hx, by simp [hf]⟩)]
    dsimp only
    rw [(twice_sort _).2 ⟨by
      obtain ⟨e, l, hl⟩ := List.exists_cons_of_ne_nil he
      refine List.ne_nil_of_mem (a := e) (List.mem_flatMap.2 ⟨x, List.mem_filter.2 ⟨hx, hf⟩, by rw [hl]; simp⟩), hn⟩]
    dsimp only
    rw [if_neg (by rw [hd]; simp)]
    exact ⟨_, rfl⟩

theorem absFields_spec (G : Geo P) (prt : ℝ → ℝ) (dim : ℤ) (thr scl : ℝ) (xs : List Info) (ids : List Nat) (fs : List (P → ℝ)) (f : Info → P → ℝ)
    (h : Hold fs ids (xs.map f)) : (∀ r, absFields G prt dim thr scl xs ids fs = .ok r →
      ((∃ x ∈ xs, x.absorber = true) ∧ ∀ x ∈ xs, x.absorber = true → (1 ≤ dim ∧ dim ≤ 3) ∧ ∀ e ∈ x.ents, G.down (dim, e) ≠ [] ∧ (G.down (dim, e)).Nodup) ∧
      Hold r.1 r.2 (xs.map fun x => if x.absorber then
        up prt x thr scl (G.dist (dim - 1) {b | ∃ e ∈ x.ents, b ∈ G.down (dim, e)}) (f x) else f x)) ∧
    ((∃ x ∈ xs, x.absorber = true) → (∀ x ∈ xs, x.absorber = true → (1 ≤ dim ∧ dim ≤ 3) ∧ ∀ e ∈ x.ents, G.down (dim, e) ≠ [] ∧ (G.down (dim, e)).Nodup) →
      ∃ r, absFields G prt dim thr scl xs ids fs = .ok r) := by
  unfold absFields
  constructor
  · intro r hr
    split_ifs at hr with h1
    obtain ⟨a, gs, _, b⟩ := absLoop_spec G prt dim thr scl f xs ids fs r h hr
    refine ⟨⟨?_, a⟩, b⟩
    simp only [Bool.not_eq_true, List.all_eq_false] at h1
    obtain ⟨x, hx, hf⟩ := h1
    exact ⟨x, hx, by simpa using hf⟩
  · rintro ⟨x, hx, hf⟩ ha
    rw [if_neg (by
      simp only [Bool.not_eq_true, List.all_eq_false]
      exact ⟨x, hx, by simp [hf]⟩)]
    refine absLoop_some G prt dim thr scl _ fs ?_
    rintro ⟨y, i⟩ hy
    exact ha y (List.of_mem_zip hy).1

theorem listOk_iff (d : ℤ) : listOk d = true ↔ 0 ≤ d ∧ d ≤ 3 := by
  unfold listOk
  simp
  omega

/-- The arguments that are accepted. -/
theorem C97_accepted (G : Geo P) (prt : ℝ → ℝ) (groups : List (Gmsh.Group Name)) (mats : List Mat) (q : Par) (fs : List (P → ℝ))
    (hf : ∀ m ∈ mats, Full m) (hl : mats.length ≤ 10000) (hg : ∀ g ∈ groups, g.ents.Pairwise (· < ·) ∧ g.ents ≠ []) (hn : OneName groups q.dim) :
    (∃ r, knudsen G prt groups mats q fs = .ok r) ↔ Accepted G groups mats q := by
  have hents : ∀ m ∈ mats, (matGroups groups q.dim).length = mats.length → (∃ g ∈ groups, g.dim = q.dim ∧ g.name = str "Material_" ++ m.name) →
      ∀ e, e ∈ entsOf groups q.dim m ↔ e ∈ Ents groups q.dim m := fun m _ hc he e => mem_entsOf groups q.dim m (by omega) he hn e
  have hnd : ∀ m, (entsOf groups q.dim m).Nodup := by
    intro m
    unfold entsOf
    cases h : (matGroups groups q.dim)[indexOf (matGroups groups q.dim) m]? with
    | none => simp
    | some g =>
      have hm : g ∈ groups := (List.mem_filter.1 (List.mem_of_getElem? h)).1
      exact (hg g hm).1.imp fun hab => ne_of_lt hab
  have hfuel : (matGroups groups q.dim).length = mats.length → (∀ m ∈ mats, ∃ g ∈ groups, g.dim = q.dim ∧ g.name = str "Material_" ++ m.name) →
      ((((mats.map (inf groups q)).filter (·.fissile)).flatMap (·.ents)).Nodup ↔
      mats.Pairwise fun m n => m.xsec.fissile = true → n.xsec.fissile = true → ∀ e, e ∈ Ents groups q.dim m → e ∉ Ents groups q.dim n) := by
    intro hc he
    rw [List.nodup_flatMap, List.pairwise_filter, List.pairwise_map]
    constructor
    · rintro ⟨_, h⟩
      refine h.imp_of_mem ?_
      intro a b ha hb hab fa fb e h1 h2
      exact hab fa fb ((hents a ha hc (he a ha) e).2 h1) ((hents b hb hc (he b hb) e).2 h2)
    · intro h
      refine ⟨?_, h.imp_of_mem ?_⟩
      · intro x hx
        obtain ⟨m, _, rfl⟩ := List.mem_map.1 (List.mem_filter.1 hx).1
        exact hnd m
      · intro a b ha hb hab fa fb e h1 h2
        exact hab fa fb e ((hents a ha hc (he a ha) e).1 h1) ((hents b hb hc (he b hb) e).1 h2)
  unfold knudsen
  constructor
  · rintro ⟨r, hr⟩
    cases hp : prepare groups mats q with
    | undef => rw [hp] at hr; cases hr
    | refused => rw [hp] at hr; cases hr
    | ok xs =>
      obtain ⟨⟨p1, p2, p3, p4⟩, rfl⟩ := (prepare_iff groups mats q hf hl xs).1 hp
      rw [hp, CmfdInfo.ok_bind] at hr
      by_cases hd : (!(mats.map (inf groups q)).isEmpty && !listOk q.dim) = true
      · rw [if_pos hd] at hr; cases hr
      rw [if_neg hd] at hr
      dsimp only at hr
      have hdim : mats ≠ [] → 0 ≤ q.dim ∧ q.dim ≤ 3 := by
        intro hne
        rw [← listOk_iff]
        by_contra hk
        simp only [Bool.not_eq_true] at hk
        exact hd (by simp [hk, hne])
      obtain ⟨gs, b1, b2⟩ := base_spec G q.dim (mats.map (inf groups q)) fs
      have hA : 0 ≤ q.absThr → ∀ (b : List (P → ℝ) × List Nat) (f : Info → P → ℝ) (r), Hold b.1 b.2 ((mats.map (inf groups q)).map f) →
          absFields G prt q.dim q.absThr q.absScl (mats.map (inf groups q)) b.2 b.1 = .ok r → (∃ m ∈ mats, Absorber m) ∧ 1 ≤ q.dim ∧
          ∀ m ∈ mats, Absorber m → ∀ e ∈ Ents groups q.dim m, G.down (q.dim, e) ≠ [] ∧ (G.down (q.dim, e)).Nodup := by
        intro _ b f r hb hr
        obtain ⟨⟨⟨x, hx, hax⟩, h2⟩, _⟩ := (absFields_spec G prt q.dim q.absThr q.absScl _ b.2 b.1 f hb).1 r hr
        have h3 := (h2 x hx hax).1.1
        obtain ⟨m, hm, rfl⟩ := List.mem_map.1 hx
        refine ⟨⟨m, hm, by simpa [inf] using hax⟩, h3, ?_⟩
        intro m' hm' ha' e he
        exact (h2 (inf groups q m') (List.mem_map.2 ⟨m', hm', rfl⟩) (by simpa [inf] using ha')).2 e ((hents m' hm' p1 (p2 m' hm') e).2 he)
      by_cases hft : 0 ≤ q.fuelThr
      · rw [if_pos hft] at hr
        cases hF : fuelFields G prt q.dim q.fuelThr q.fuelScl (mats.map (inf groups q)) (baseFields G q.dim (mats.map (inf groups q)) fs).2
            (baseFields G q.dim (mats.map (inf groups q)) fs).1 with
        | undef => rw [hF] at hr; cases hr
        | refused => rw [hF] at hr; cases hr
        | ok b =>
          rw [hF, CmfdInfo.ok_bind] at hr
          obtain ⟨⟨⟨x, hx, hfx⟩, f2⟩, gs', f3, f4⟩ := (fuelFields_spec G prt q.dim q.fuelThr q.fuelScl _ _ _ _ b2).1 b hF
          obtain ⟨m, hm, rfl⟩ := List.mem_map.1 hx
          refine ⟨p1, p2, p3, p4, hdim, fun _ => ⟨⟨m, hm, hfx⟩, (hfuel p1 p2).1 f2⟩, ?_⟩
          intro hat
          rw [if_pos hat] at hr
          cases hb : absFields G prt q.dim q.absThr q.absScl (mats.map (inf groups q)) b.2 b.1 with
          | undef => rw [hb] at hr; cases hr
          | refused => rw [hb] at hr; cases hr
          | ok b' => exact hA hat b _ b' f4 hb
      · rw [if_neg hft, CmfdInfo.ok_bind] at hr
        refine ⟨p1, p2, p3, p4, hdim, fun h => absurd h hft, ?_⟩
        intro hat
        rw [if_pos hat] at hr
        cases hb : absFields G prt q.dim q.absThr q.absScl (mats.map (inf groups q)) (baseFields G q.dim (mats.map (inf groups q)) fs).2
            (baseFields G q.dim (mats.map (inf groups q)) fs).1 with
        | undef => rw [hb] at hr; cases hr
        | refused => rw [hb] at hr; cases hr
        | ok b' => exact hA hat _ _ b' b2 hb
  · intro h
    have p1 : (matGroups groups q.dim).length = mats.length := h.count
    rw [(prepare_iff groups mats q hf hl _).2 ⟨⟨p1, h.group, h.pos, h.xsec⟩, rfl⟩, CmfdInfo.ok_bind]
    have hd : ¬ ((!(mats.map (inf groups q)).isEmpty && !listOk q.dim) = true) := by
      by_cases hne : mats = []
      · simp [hne]
      · rw [(listOk_iff q.dim).2 (h.dim hne)]; simp
    rw [if_neg hd]
    dsimp only
    obtain ⟨gs, b1, b2⟩ := base_spec G q.dim (mats.map (inf groups q)) fs
    have hF : ∃ (b : List (P → ℝ) × List Nat) (f : Info → P → ℝ), (if 0 ≤ q.fuelThr then fuelFields G prt q.dim q.fuelThr q.fuelScl (mats.map (inf groups q))
        (baseFields G q.dim (mats.map (inf groups q)) fs).2 (baseFields G q.dim (mats.map (inf groups q)) fs).1 else
        .ok (baseFields G q.dim (mats.map (inf groups q)) fs)) = .ok b ∧ Hold b.1 b.2 ((mats.map (inf groups q)).map f) := by
      by_cases hft : 0 ≤ q.fuelThr
      · rw [if_pos hft]
        obtain ⟨⟨m, hm, hfm⟩, f2⟩ := h.fuel hft
        have hspec := fuelFields_spec G prt q.dim q.fuelThr q.fuelScl _ _ _ _ b2
        have hne : entsOf groups q.dim m ≠ [] := by
          obtain ⟨g, g1, g2, g3⟩ := h.group m hm
          obtain ⟨e, l, hel⟩ := List.exists_cons_of_ne_nil (hg g g1).2
          exact List.ne_nil_of_mem ((hents m hm p1 (h.group m hm) e).2 ⟨g, g1, g2, g3, by rw [hel]; simp⟩)
        obtain ⟨b, hb⟩ := hspec.2 ((listOk_iff q.dim).2 (h.dim (List.ne_nil_of_mem hm))) ⟨inf groups q m, List.mem_map.2 ⟨m, hm, rfl⟩, hfm, hne⟩
          ((hfuel p1 h.group).2 f2)
        obtain ⟨_, gs', _, f4⟩ := hspec.1 b hb
        exact ⟨b, _, hb, f4⟩
      · rw [if_neg hft]
        exact ⟨_, _, rfl, b2⟩
    obtain ⟨b, f, hb, hhold⟩ := hF
    rw [hb, CmfdInfo.ok_bind]
    by_cases hat : 0 ≤ q.absThr
    · rw [if_pos hat]
      obtain ⟨⟨m, hm, ham⟩, a2, a3⟩ := h.abs hat
      obtain ⟨r, hr⟩ := (absFields_spec G prt q.dim q.absThr q.absScl _ b.2 b.1 f hhold).2 ⟨inf groups q m, List.mem_map.2 ⟨m, hm, rfl⟩, by simpa [inf] using ham⟩ (by
        intro x hx hxa
        obtain ⟨m', hm', rfl⟩ := List.mem_map.1 hx
        refine ⟨⟨a2, (h.dim (List.ne_nil_of_mem hm)).2⟩, fun e he => ?_⟩
        exact a3 m' hm' (by simpa [inf] using hxa) e ((hents m' hm' p1 (h.group m' hm') e).1 he))
      rw [hr]
      exact ⟨_, rfl⟩
    · rw [if_neg hat]
      exact ⟨_, rfl⟩

/-! ## The size -/

theorem foldl_min (c : ℝ) (l : List ℝ) : (∀ v ∈ l, l.foldl min c ≤ v) ∧ l.foldl min c ≤ c ∧ (l.foldl min c = c ∨ l.foldl min c ∈ l) := by
  induction l generalizing c with
  | nil => simp
  | cons a l ih =>
    obtain ⟨h1, h2, h3⟩ := ih (min c a)
    rw [List.foldl_cons]
    refine ⟨?_, h2.trans (min_le_left _ _), ?_⟩
    · intro v hv
      rcases List.mem_cons.1 hv with rfl | hv
      · exact h2.trans (min_le_right _ _)
      · exact h1 v hv
    · rcases h3 with h3 | h3
      · rcases min_choice c a with h | h
        · left; rw [h3, h]
        · right; rw [h3, h]; simp
      · right; simp [h3]

/-- The background field of an accepted model: at a place on some materials, the smallest of their sizes; elsewhere, the largest
size of Gmsh. -/
theorem C97_size (G : Geo P) (prt : ℝ → ℝ) (groups : List (Gmsh.Group Name)) (mats : List Mat) (q : Par) (fs fs' : List (P → ℝ)) (bg : Nat)
    (hf : ∀ m ∈ mats, Full m) (hl : mats.length ≤ 10000) (hn : OneName groups q.dim) (hs : ∀ m ∈ mats, 0 < sigma m)
    (h : knudsen G prt groups mats q fs = .ok (fs', bg)) (p : P) (hmax : ∀ m ∈ mats, On G groups q.dim m p → size G prt groups mats q m p ≤ 10 ^ 22) :
    (∀ m ∈ mats, On G groups q.dim m p → field fs' bg p ≤ size G prt groups mats q m p) ∧
    ((∃ m ∈ mats, On G groups q.dim m p) → ∃ m ∈ mats, On G groups q.dim m p ∧ field fs' bg p = size G prt groups mats q m p) ∧
    ((¬ ∃ m ∈ mats, On G groups q.dim m p) → field fs' bg p = 10 ^ 22) := by
  change ∀ m ∈ mats, On G groups q.dim m p → size G prt groups mats q m p ≤ maxLc at hmax
  change _ ∧ _ ∧ (_ → field fs' bg p = maxLc)
  have hmpos : (0 : ℝ) < maxLc := by unfold maxLc; positivity
  unfold knudsen at h
  cases hp : prepare groups mats q with
  | undef => rw [hp] at h; cases h
  | refused => rw [hp] at h; cases h
  | ok xs =>
    obtain ⟨⟨p1, p2, p3, p4⟩, rfl⟩ := (prepare_iff groups mats q hf hl xs).1 hp
    have hents : ∀ m ∈ mats, ∀ e, e ∈ entsOf groups q.dim m ↔ e ∈ Ents groups q.dim m := fun m hm e => mem_entsOf groups q.dim m (by omega) (p2 m hm) hn e
    rw [hp, CmfdInfo.ok_bind] at h
    by_cases hd : (!(mats.map (inf groups q)).isEmpty && !listOk q.dim) = true
    · rw [if_pos hd] at h; cases h
    rw [if_neg hd] at h
    dsimp only at h
    obtain ⟨gs, b1, b2⟩ := base_spec G q.dim (mats.map (inf groups q)) fs
    have hfuelset : {e | ∃ x ∈ mats.map (inf groups q), x.fissile = true ∧ e ∈ x.ents} = Fuel groups q.dim mats := by
      ext e
      simp only [Fuel, Set.mem_ofPred_eq, List.mem_map]
      constructor
      · rintro ⟨x, ⟨m, hm, rfl⟩, h1, h2⟩
        exact ⟨m, hm, h1, (hents m hm e).1 h2⟩
      · rintro ⟨m, hm, h1, h2⟩
        exact ⟨inf groups q m, ⟨m, hm, rfl⟩, h1, (hents m hm e).2 h2⟩
    -- the fields of the materials
    have hfields : ∃ b : List (P → ℝ) × List Nat, fs' = b.1 ++ [minField b.1 b.2] ∧ bg = b.1.length + 1 ∧
        Hold b.1 b.2 ((mats.map (inf groups q)).map (fieldOf G prt q (Fuel groups q.dim mats))) := by
      have hlast : ∀ (b : List (P → ℝ) × List Nat) (f : Info → P → ℝ), Hold b.1 b.2 ((mats.map (inf groups q)).map f) →
          (if 0 ≤ q.absThr then absFields G prt q.dim q.absThr q.absScl (mats.map (inf groups q)) b.2 b.1 else .ok b).bind
            (fun b => .ok (b.1 ++ [minField b.1 b.2], b.1.length + 1)) = Res.ok (fs', bg) →
          ∃ b' : List (P → ℝ) × List Nat, fs' = b'.1 ++ [minField b'.1 b'.2] ∧ bg = b'.1.length + 1 ∧ Hold b'.1 b'.2 ((mats.map (inf groups q)).map
            fun x => if 0 ≤ q.absThr then (if x.absorber then up prt x q.absThr q.absScl (G.dist (q.dim - 1) {b | ∃ e ∈ x.ents, b ∈ G.down (q.dim, e)}) (f x) else f x) else f x) := by
        intro b f hb hr
        by_cases hat : 0 ≤ q.absThr
        · rw [if_pos hat] at hr
          cases hA : absFields G prt q.dim q.absThr q.absScl (mats.map (inf groups q)) b.2 b.1 with
          | undef => rw [hA] at hr; cases hr
          | refused => rw [hA] at hr; cases hr
          | ok b' =>
            rw [hA] at hr
            cases hr
            refine ⟨b', rfl, rfl, ?_⟩
            simp only [if_pos hat]
            exact ((absFields_spec G prt q.dim q.absThr q.absScl _ b.2 b.1 f hb).1 b' hA).2
        · rw [if_neg hat] at hr
          cases hr
          refine ⟨b, rfl, rfl, ?_⟩
          simp only [if_neg hat]
          exact hb
      by_cases hft : 0 ≤ q.fuelThr
      · rw [if_pos hft] at h
        cases hF : fuelFields G prt q.dim q.fuelThr q.fuelScl (mats.map (inf groups q)) (baseFields G q.dim (mats.map (inf groups q)) fs).2
            (baseFields G q.dim (mats.map (inf groups q)) fs).1 with
        | undef => rw [hF] at h; cases h
        | refused => rw [hF] at h; cases h
        | ok b =>
          rw [hF, CmfdInfo.ok_bind] at h
          obtain ⟨_, gs', _, f4⟩ := (fuelFields_spec G prt q.dim q.fuelThr q.fuelScl _ _ _ _ b2).1 b hF
          rw [hfuelset] at f4
          obtain ⟨b', c1, c2, c3⟩ := hlast b _ f4 h
          refine ⟨b', c1, c2, ?_⟩
          unfold fieldOf
          simp only [if_pos hft]
          exact c3
      · rw [if_neg hft, CmfdInfo.ok_bind] at h
        obtain ⟨b', c1, c2, c3⟩ := hlast _ _ b2 h
        refine ⟨b', c1, c2, ?_⟩
        unfold fieldOf
        simp only [if_neg hft]
        exact c3
    obtain ⟨b, rfl, rfl, hb⟩ := hfields
    rw [field_last]
    -- the values
    have hval : minField b.1 b.2 p = ((mats.map fun m => fieldOf G prt q (Fuel groups q.dim mats) (inf groups q m) p)).foldl min maxLc := by
      have key : ∀ (ids : List Nat) (Fs : List (P → ℝ)) (c : ℝ), Hold b.1 ids Fs →
          ids.foldl (fun v i => min v (field b.1 i p)) c = (Fs.map fun F => F p).foldl min c := by
        intro ids Fs c hh
        induction hh generalizing c with
        | nil => rfl
        | cons h1 _ ih => rw [List.foldl_cons, List.map_cons, List.foldl_cons, ih, h1.2]
      unfold minField
      rw [key _ _ _ hb, List.map_map, List.map_map]
      rfl
    have hbase : ∀ m ∈ mats, 0 < base q.kn (sigma m) := by
      intro m hm
      unfold base
      have := hs m hm
      have := Real.pi_pos
      positivity
    have hon : ∀ m ∈ mats, (∃ e ∈ (inf groups q m).ents, G.on (q.dim, e) p) ↔ On G groups q.dim m p := by
      intro m hm
      unfold On
      constructor
      · rintro ⟨e, he, h⟩; exact ⟨e, (hents m hm e).1 he, h⟩
      · rintro ⟨e, he, h⟩; exact ⟨e, (hents m hm e).2 he, h⟩
    have hbnd : ∀ m ∈ mats, {b | ∃ e ∈ (inf groups q m).ents, b ∈ G.down (q.dim, e)} = Bnd G groups q.dim m := by
      intro m hm
      ext y
      simp only [Bnd, Set.mem_ofPred_eq]
      constructor
      · rintro ⟨e, he, h⟩; exact ⟨e, (hents m hm e).1 he, h⟩
      · rintro ⟨e, he, h⟩; exact ⟨e, (hents m hm e).2 he, h⟩
    have hup : ∀ m, ∀ thr scl (D F : P → ℝ), -maxLc ≤ F p → up prt (inf groups q m) thr scl D F p =
        max (F p) (D p * prt (base q.kn (sigma m) * sigma m * scl) + if 0 ≤ base q.kn (sigma m) * (1 - thr * scl) then
          prt (base q.kn (sigma m) * (1 - thr * scl)) else -prt (-(base q.kn (sigma m) * (1 - thr * scl)))) := by
      intro m thr scl D F hF
      unfold up
      rw [max_eq_right hF]
      have e1 : (inf groups q m).lc = base q.kn (sigma m) := rfl
      have e2 : (inf groups q m).sigma = sigma m := rfl
      rw [e1, e2]
      split_ifs with hh
      · rfl
      · rw [sub_eq_add_neg]
    have hfi : ∀ m, (inf groups q m).fissile = m.xsec.fissile := fun m => rfl
    have hab : ∀ m, (inf groups q m).absorber = true ↔ Absorber m := fun m => by simp [inf]
    have hin : ∀ m ∈ mats, On G groups q.dim m p → fieldOf G prt q (Fuel groups q.dim mats) (inf groups q m) p = size G prt groups mats q m p := by
      intro m hm hon'
      have hc : constant G (inf groups q m).lc q.dim (inf groups q m).ents p = base q.kn (sigma m) := by
        unfold constant; rw [if_pos ((hon m hm).2 hon')]; rfl
      have hge : -maxLc ≤ constant G (inf groups q m).lc q.dim (inf groups q m).ents p := by
        rw [hc]; have := hbase m hm; linarith
      unfold fieldOf size grown
      rw [hbnd m hm]
      have hfi' := hfi m
      by_cases ha : Absorber m
      · have ha' := (hab m).2 ha
        by_cases hat : 0 ≤ q.absThr
        · simp only [hat, ha, ha', if_true, and_self, Bool.not_true, Bool.and_false, Bool.false_eq_true, if_false, ite_self]
          rw [hup _ _ _ _ _ hge, hc]
        · simp only [hat, ha, ha', not_true_eq_false, false_and, and_false, Bool.not_true, Bool.and_false, Bool.false_eq_true, if_false, ite_self]
          exact hc
      · have ha' : (inf groups q m).absorber = false := by
          rw [← Bool.not_eq_true, hab]; exact ha
        by_cases hft : 0 ≤ q.fuelThr
        · cases hfm : m.xsec.fissile with
          | true =>
            rw [hfm] at hfi'
            simp only [ha, ha', hfi', hft, and_false, false_and, Bool.not_true, Bool.false_and, Bool.false_eq_true, Bool.true_eq_false, if_false, ite_self]
            exact hc
          | false =>
            rw [hfm] at hfi'
            simp only [ha, ha', hfi', hft, and_false, not_false_eq_true, and_self, Bool.not_false, Bool.and_self, Bool.false_eq_true, if_false, if_true, ite_self]
            rw [hup _ _ _ _ _ hge, hc]
        · simp only [ha, ha', hft, and_false, false_and, Bool.false_eq_true, if_false, ite_self]
          exact hc
    have hout : ∀ m ∈ mats, ¬ On G groups q.dim m p → maxLc ≤ fieldOf G prt q (Fuel groups q.dim mats) (inf groups q m) p := by
      intro m hm hon'
      have hc : constant G (inf groups q m).lc q.dim (inf groups q m).ents p = maxLc := by
        unfold constant; rw [if_neg fun hh => hon' ((hon m hm).1 hh)]
      have hup' : ∀ thr scl (D F : P → ℝ), maxLc ≤ F p → maxLc ≤ up prt (inf groups q m) thr scl D F p := by
        intro thr scl D F hF
        unfold up
        exact hF.trans ((le_max_right _ _).trans (le_max_left _ _))
      unfold fieldOf
      have h1 : maxLc ≤ (if 0 ≤ q.fuelThr then (if (!(inf groups q m).fissile && !(inf groups q m).absorber) = true then
          up prt (inf groups q m) q.fuelThr q.fuelScl (G.dist q.dim (Fuel groups q.dim mats)) (constant G (inf groups q m).lc q.dim (inf groups q m).ents)
          else constant G (inf groups q m).lc q.dim (inf groups q m).ents) else constant G (inf groups q m).lc q.dim (inf groups q m).ents) p := by
        split_ifs
        · exact hup' _ _ _ _ hc.ge
        · exact hc.ge
        · exact hc.ge
      split_ifs at h1 ⊢ <;> first | exact h1 | exact hup' _ _ _ _ h1
    obtain ⟨f1, f2, f3⟩ := foldl_min maxLc (mats.map fun m => fieldOf G prt q (Fuel groups q.dim mats) (inf groups q m) p)
    rw [← hval] at f1 f2 f3
    refine ⟨?_, ?_, ?_⟩
    · intro m hm ho
      rw [← hin m hm ho]
      exact f1 _ (List.mem_map.2 ⟨m, hm, rfl⟩)
    · rintro ⟨m, hm, ho⟩
      rcases f3 with f3 | f3
      · refine ⟨m, hm, ho, le_antisymm ?_ ?_⟩
        · rw [← hin m hm ho]; exact f1 _ (List.mem_map.2 ⟨m, hm, rfl⟩)
        · rw [f3]; exact hmax m hm ho
      · obtain ⟨m', hm', he⟩ := List.mem_map.1 f3
        by_cases ho' : On G groups q.dim m' p
        · exact ⟨m', hm', ho', by rw [← he, hin m' hm' ho']⟩
        · have h1 := hout m' hm' ho'
          refine ⟨m, hm, ho, le_antisymm ?_ ?_⟩
          · rw [← hin m hm ho]; exact f1 _ (List.mem_map.2 ⟨m, hm, rfl⟩)
          · rw [← he]; exact (hmax m hm ho).trans h1
    · intro hno
      rcases f3 with f3 | f3
      · exact f3
      · obtain ⟨m', hm', he⟩ := List.mem_map.1 f3
        refine le_antisymm f2 ?_
        rw [← he]
        exact hout m' hm' fun ho' => hno ⟨m', hm', ho'⟩

/-- With different names of the materials, every place on a `Material` group is on a material, so it has the size of one. -/
theorem C97_cover (G : Geo P) (groups : List (Gmsh.Group Name)) (mats : List Mat) (q : Par) (h : Accepted G groups mats q) (hd : (mats.map (·.name)).Nodup)
    (g : Gmsh.Group Name) (hg : g ∈ groups) (hgd : g.dim = q.dim) (hgn : str "Material" <+: g.name) (e : ℤ) (he : e ∈ g.ents) (p : P) (hp : G.on (q.dim, e) p) :
    ∃ m ∈ mats, On G groups q.dim m p := by
  have hnd : (mats.map fun m => str "Material_" ++ m.name).Nodup := by
    have h1 := hd.map (f := fun n : Name => str "Material_" ++ n) fun a b hab => List.append_cancel_left hab
    rwa [List.map_map] at h1
  have hsub : (mats.map fun m => str "Material_" ++ m.name) ⊆ (matGroups groups q.dim).map (·.name) := by
    intro n hn
    obtain ⟨m, hm, rfl⟩ := List.mem_map.1 hn
    obtain ⟨g', h1, h2, h3⟩ := h.group m hm
    obtain ⟨h4, h5⟩ := (mem_matGroups groups q.dim m g').2 ⟨h1, h2, h3⟩
    exact List.mem_map.2 ⟨g', h4, h5⟩
  have hperm : (mats.map fun m => str "Material_" ++ m.name).Perm ((matGroups groups q.dim).map (·.name)) := by
    refine (List.subperm_of_subset hnd hsub).perm_of_length_le ?_
    rw [List.length_map, List.length_map]
    exact h.count.le
  have hin : g.name ∈ (matGroups groups q.dim).map (·.name) := by
    refine List.mem_map.2 ⟨g, List.mem_filter.2 ⟨hg, ?_⟩, rfl⟩
    rw [Bool.and_eq_true, beq_iff_eq, List.isPrefixOf_iff_prefix]
    exact ⟨hgd, hgn⟩
  obtain ⟨m, hm, hn⟩ := List.mem_map.1 (hperm.mem_iff.2 hin)
  exact ⟨m, hm, e, ⟨g, hg, hgd, hn.symm, he⟩, hp⟩

/-! ## What the sizes mean -/

/-- In an equilateral triangle of the base size, the mean free path over the mean chord is the Knudsen number. The mean chord length is
that of polygon.hpp 238-245: pi times the area over the perimeter. -/
theorem C97_knudsen (kn s : ℝ) (hk : 0 < kn) (hs : 0 < s) (t : Poly 3 2 ℝ) (h0 : 0 ≤ triArea t)
    (h1 : sqDist (t 0) (t 1) = base kn s ^ 2) (h2 : sqDist (t 1) (t 2) = base kn s ^ 2) (h3 : sqDist (t 2) (t 0) = base kn s ^ 2) :
    1 / s / (Real.pi * triArea t / (base kn s + base kn s + base kn s)) = kn := by
  have hpi := Real.pi_pos
  have h3p : (0 : ℝ) < √3 := by positivity
  have hsq : √3 * √3 = (3 : ℝ) := Real.mul_self_sqrt (by norm_num)
  have hL : 0 < base kn s := by unfold base; positivity
  have hA : triArea t = √3 / 4 * base kn s ^ 2 := by
    have h4 : (4 * triArea t) ^ 2 = 3 * (base kn s ^ 2) ^ 2 := by
      simp only [sqDist, Fin.sum_univ_two] at h1 h2 h3
      simp only [triArea, Geom.cross, Mx.det2x2, Pi.sub_apply]
      generalize t 0 0 = a0 at *
      generalize t 0 1 = a1 at *
      generalize t 1 0 = b0 at *
      generalize t 1 1 = b1 at *
      generalize t 2 0 = c0 at *
      generalize t 2 1 = c1 at *
      generalize base kn s ^ 2 = L at *
      have e1 : (b0 - a0) * (c0 - a0) + (b1 - a1) * (c1 - a1) = L / 2 := by linarith
      have e2 : (b0 - a0) * (b0 - a0) + (b1 - a1) * (b1 - a1) = L := by linarith
      have e3 : (c0 - a0) * (c0 - a0) + (c1 - a1) * (c1 - a1) = L := by linarith
      have e4 : ((b0 - a0) * (c1 - a1) - (b1 - a1) * (c0 - a0)) ^ 2 =
        ((b0 - a0) * (b0 - a0) + (b1 - a1) * (b1 - a1)) * ((c0 - a0) * (c0 - a0) + (c1 - a1) * (c1 - a1)) -
          ((b0 - a0) * (c0 - a0) + (b1 - a1) * (c1 - a1)) ^ 2 := by ring
      rw [e1, e2, e3] at e4
      linear_combination 4 * e4
    have h5 : (4 * triArea t) ^ 2 = (√3 * base kn s ^ 2) ^ 2 := by rw [h4, mul_pow, sq (√3), hsq]
    have h6 := (pow_left_inj₀ (by positivity) (by positivity) (by norm_num : (2 : ℕ) ≠ 0)).1 h5
    linarith
  rw [hA]
  have hb : base kn s * (Real.pi * √3 * kn * s) = 12 := by unfold base; field_simp
  field_simp
  field_simp at hb
  nlinarith [hb]

/-- The size away from the fuel or the boundary, if the coefficients are exact: the base size up to `thr` mean free paths, then rising
by `scl` base sizes with every mean free path. -/
theorem C97_growth (lc s thr scl d : ℝ) (hl : 0 < lc) (hc : 0 < scl) :
    grown id lc s thr scl d = if s * d ≤ thr then lc else lc * (1 + scl * (s * d - thr)) := by
  have e : (d * id (lc * s * scl) + if 0 ≤ lc * (1 - thr * scl) then id (lc * (1 - thr * scl)) else -id (-(lc * (1 - thr * scl)))) =
      lc + lc * scl * (s * d - thr) := by
    simp only [id]
    split_ifs <;> ring
  unfold grown
  rw [e]
  have hp : 0 < lc * scl := mul_pos hl hc
  split_ifs with h
  · exact max_eq_left (by nlinarith)
  · rw [max_eq_right (by nlinarith [not_le.1 h])]
    ring

/-- The printed coefficients change the size at distance `d` by at most `ε (d + 1)`. -/
theorem C97_text (prt : ℝ → ℝ) (ε lc s thr scl d : ℝ) (hp : ∀ x, 0 ≤ x → |prt x - x| ≤ ε) (hd : 0 ≤ d) (hc : 0 ≤ lc * s * scl) :
    |grown prt lc s thr scl d - grown id lc s thr scl d| ≤ ε * (d + 1) := by
  unfold grown
  refine (abs_max_sub_max_le_max _ _ _ _).trans ?_
  have h1 := abs_le.1 (hp _ hc)
  have hε : 0 ≤ ε := (abs_nonneg _).trans (hp 0 le_rfl)
  refine max_le (by rw [sub_self, abs_zero]; positivity) ?_
  simp only [id]
  split_ifs with h
  · have h2 := abs_le.1 (hp _ h)
    rw [abs_le]
    constructor <;> nlinarith
  · have h2 := abs_le.1 (hp (-(lc * (1 - thr * scl))) (by linarith))
    rw [abs_le]
    constructor <;> nlinarith

/-! ## Examples -/

/-- Places are the tags of the surfaces; the curve of surface `e` has tag `e`. -/
def exGeo : Geo ℤ where
  on := fun x p => x.2 = p
  dist := fun _ _ p => p
  down := fun x => [x.2]

def exMat (n : String) (fis : Bool) (a s : ℝ) : Mat := ⟨str n, ⟨true, fis, 1, [a], [0], [0], [a + s], [s], [s]⟩⟩

theorem ex_sigma (n : String) (fis : Bool) (a s : ℝ) : sigma (exMat n fis a s) = a + s := by
  simp [sigma, avg, exMat]

theorem ex_absorber (n : String) (fis : Bool) (a s : ℝ) : Absorber (exMat n fis a s) ↔ s / (a + s) < 0.2 ∧ 0.9 < a + s := by
  unfold Absorber
  rw [ex_sigma]
  simp [avg, exMat]

theorem ex_full (n : String) (fis : Bool) (a s : ℝ) : Full (exMat n fis a s) := by simp [Full, exMat]

/-- Fuel on surface 1, coolant on 2 and 3, a control rod on 4. -/
def exGroups : List (Gmsh.Group Name) := [⟨2, 1, str "Material_f", [1]⟩, ⟨2, 2, str "Material_w", [2, 3]⟩, ⟨2, 3, str "Material_c", [4]⟩, ⟨2, 4, str "Pin", [1, 2]⟩]

def exMats : List Mat := [exMat "w" false 1 9, exMat "f" true 1 1, exMat "c" false 9 1]

noncomputable def exPar : Par := ⟨2, 1, 2, 1, 1, 3⟩

theorem ex_ents (n : String) (fis : Bool) (a s : ℝ) (e : ℤ) : e ∈ Ents exGroups 2 (exMat n fis a s) ↔ ∃ g ∈ exGroups, g.dim = 2 ∧ g.name = str "Material_" ++ str n ∧ e ∈ g.ents := Iff.rfl

theorem ex_accepted : Accepted exGeo exGroups exMats exPar where
  count := by show _ = 3; decide +kernel
  group := by
    intro m hm
    simp only [exMats, List.mem_cons, List.not_mem_nil, or_false] at hm
    rcases hm with rfl | rfl | rfl
    · exact ⟨⟨2, 2, str "Material_w", [2, 3]⟩, by simp [exGroups], rfl, by show str "Material_w" = str "Material_" ++ str "w"; decide +kernel⟩
    · exact ⟨⟨2, 1, str "Material_f", [1]⟩, by simp [exGroups], rfl, by show str "Material_f" = str "Material_" ++ str "f"; decide +kernel⟩
    · exact ⟨⟨2, 3, str "Material_c", [4]⟩, by simp [exGroups], rfl, by show str "Material_c" = str "Material_" ++ str "c"; decide +kernel⟩
  pos := by norm_num [exPar]
  xsec := by
    intro m hm
    simp only [exMats, List.mem_cons, List.not_mem_nil, or_false] at hm
    rcases hm with rfl | rfl | rfl <;> simp [exMat]
  dim := fun _ => by simp [exPar]
  fuel := fun _ => by
    refine ⟨⟨exMat "f" true 1 1, by simp [exMats], rfl⟩, ?_⟩
    simp [exMats, exMat]
  abs := fun _ => by
    refine ⟨⟨exMat "c" false 9 1, by simp [exMats], by rw [ex_absorber]; norm_num⟩, by norm_num [exPar], ?_⟩
    intro m hm _ e _
    simp [exGeo]

theorem ex_names : OneName exGroups 2 := by
  unfold OneName
  decide +kernel

/-- The hypotheses of `C97_accepted`, `C97_size` and `C97_cover` hold for it, and the coolant at distance 3 gets more than its base size. -/
example : (∃ r, knudsen exGeo id exGroups exMats exPar [] = .ok r) ∧ (∀ m ∈ exMats, Full m ∧ 0 < sigma m) ∧ (exMats.map (·.name)).Nodup ∧
    size exGeo id exGroups exMats exPar (exMat "w" false 1 9) 3 = base 1 10 * 29 := by
  have hf : ∀ m ∈ exMats, Full m := by
    intro m hm
    simp only [exMats, List.mem_cons, List.not_mem_nil, or_false] at hm
    rcases hm with rfl | rfl | rfl <;> exact ex_full _ _ _ _
  refine ⟨(C97_accepted exGeo id exGroups exMats exPar [] hf (by simp [exMats]) (by decide +kernel) ex_names).2 ex_accepted, fun m hm => ⟨hf m hm, ?_⟩, ?_, ?_⟩
  · simp only [exMats, List.mem_cons, List.not_mem_nil, or_false] at hm
    rcases hm with rfl | rfl | rfl <;> rw [ex_sigma] <;> norm_num
  · show [str "w", str "f", str "c"].Nodup
    decide +kernel
  · have hna : ¬ Absorber (exMat "w" false 1 9) := by rw [ex_absorber]; norm_num
    unfold size
    rw [if_neg fun h => hna h.2, if_pos ⟨by norm_num [exPar], rfl, hna⟩, ex_sigma,
      C97_growth _ _ _ _ _ (by simp only [exPar, base]; positivity) (by norm_num [exPar])]
    norm_num [exPar, exGeo]

/-- `C97_knudsen` is not about no triangle. -/
example : ∃ t : Poly 3 2 ℝ, 0 ≤ triArea t ∧ sqDist (t 0) (t 1) = base 1 1 ^ 2 ∧ sqDist (t 1) (t 2) = base 1 1 ^ 2 ∧ sqDist (t 2) (t 0) = base 1 1 ^ 2 := by
  have hsq : √3 * √3 = (3 : ℝ) := Real.mul_self_sqrt (by norm_num)
  refine ⟨![![0, 0], ![base 1 1, 0], ![base 1 1 / 2, √3 / 2 * base 1 1]], ?_, ?_, ?_, ?_⟩
  · simp only [triArea, Geom.cross, Mx.det2x2, Pi.sub_apply, Matrix.cons_val]
    have : 0 ≤ √3 * (base 1 1 * base 1 1) := mul_nonneg (Real.sqrt_nonneg _) (mul_self_nonneg _)
    linarith
  · simp only [sqDist, Fin.sum_univ_two, Matrix.cons_val]; ring
  · simp only [sqDist, Fin.sum_univ_two, Matrix.cons_val]
    linear_combination (base 1 1 ^ 2 / 4) * hsq
  · simp only [sqDist, Fin.sum_univ_two, Matrix.cons_val]
    linear_combination (base 1 1 ^ 2 / 4) * hsq

/-- Two materials with one name: the model is accepted, but the places of another `Material` group get the largest size. -/
theorem C97_same_fails : ∃ (G : Geo ℤ) (groups : List (Gmsh.Group Name)) (mats : List Mat) (q : Par) (fs : List (ℤ → ℝ)) (bg : Nat),
    OneName groups q.dim ∧ (∀ m ∈ mats, Full m ∧ 0 < sigma m) ∧ knudsen G id groups mats q [] = .ok (fs, bg) ∧
    ∃ g ∈ groups, g.dim = q.dim ∧ str "Material_" <+: g.name ∧ ∃ e ∈ g.ents, ∃ p, G.on (q.dim, e) p ∧ field fs bg p = maxLc := by
  have hm : ∀ m ∈ [exMat "w" false 1 9, exMat "w" false 1 9], m = exMat "w" false 1 9 := by simp
  have hn : OneName [(⟨2, 1, str "Material_w", [1]⟩ : Gmsh.Group Name), ⟨2, 2, str "Material_x", [2]⟩] 2 := by unfold OneName; decide +kernel
  have hf : ∀ m ∈ [exMat "w" false 1 9, exMat "w" false 1 9], Full m := fun m h => by rw [hm m h]; exact ex_full _ _ _ _
  have hs : ∀ m ∈ [exMat "w" false 1 9, exMat "w" false 1 9], 0 < sigma m := fun m h => by rw [hm m h, ex_sigma]; norm_num
  have hacc : Accepted exGeo [(⟨2, 1, str "Material_w", [1]⟩ : Gmsh.Group Name), ⟨2, 2, str "Material_x", [2]⟩] [exMat "w" false 1 9, exMat "w" false 1 9]
      ⟨2, 1, -1, 0, -1, 0⟩ := by
    refine ⟨by show _ = 2; decide +kernel, ?_, by norm_num, ?_, fun _ => by norm_num, fun h => ?_, fun h => ?_⟩
    · intro m h
      rw [hm m h]
      exact ⟨⟨2, 1, str "Material_w", [1]⟩, by simp, rfl, by show str "Material_w" = str "Material_" ++ str "w"; decide +kernel⟩
    · intro m h
      rw [hm m h]
      simp [exMat]
    · norm_num at h
    · norm_num at h
  obtain ⟨⟨fs, bg⟩, hr⟩ := (C97_accepted exGeo id _ _ ⟨2, 1, -1, 0, -1, 0⟩ [] hf (by simp) (by decide +kernel) hn).2 hacc
  refine ⟨exGeo, _, _, ⟨2, 1, -1, 0, -1, 0⟩, fs, bg, hn, fun m h => ⟨hf m h, hs m h⟩, hr, ⟨2, 2, str "Material_x", [2]⟩, by simp, rfl, ?_, 2, by simp, 2, rfl, ?_⟩
  · rw [← List.isPrefixOf_iff_prefix]
    decide +kernel
  · have hno : ∀ m ∈ [exMat "w" false 1 9, exMat "w" false 1 9], ¬ On exGeo [(⟨2, 1, str "Material_w", [1]⟩ : Gmsh.Group Name), ⟨2, 2, str "Material_x", [2]⟩] 2 m 2 := by
      rintro m h ⟨e, ⟨g, hg, _, hgn, he⟩, hon⟩
      rw [hm m h] at hgn
      have hon : e = 2 := hon
      subst hon
      simp only [List.mem_cons, List.not_mem_nil, or_false] at hg
      rcases hg with rfl | rfl
      · simp at he
      · exact absurd (hgn : str "Material_x" = str "Material_" ++ str "w") (by decide +kernel)
    exact (C97_size exGeo id _ _ ⟨2, 1, -1, 0, -1, 0⟩ [] fs bg hf (by simp) hn hs hr 2 fun m h ho => absurd ho (hno m h)).2.2 fun ⟨m, h, ho⟩ => hno m h ho

end Verif.KnSpec
