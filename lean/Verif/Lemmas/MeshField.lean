import Verif.Props.MeshFieldSpec
import Verif.Props.Stats
import Verif.Lemmas.CmfdInfo

/-! Auxiliary facts for the mesh size from the Knudsen number. -/

namespace Verif.KnL

open Verif.Kn
open Verif.KnSpec
open Verif.XSLib (Res)
open Verif.Gmsh (DimTag)
open Verif.Overlay (Name)
open Verif.Phys (XSec collapse)
open Verif.MFiles (str)

variable {P : Type}

/-! ## Fields -/

theorem field_append (fs gs : List (P → ℝ)) (id : Nat) (h : 1 ≤ id ∧ id ≤ fs.length) : field (fs ++ gs) id = field fs id := by
  unfold field
  have : id - 1 < fs.length := by omega
  simp [List.getD, List.getElem?_append_left this]

theorem field_last (fs : List (P → ℝ)) (f : P → ℝ) : field (fs ++ [f]) (fs.length + 1) = f := by
  unfold field
  simp [List.getD]

/-- The fields numbered `ids` are `Fs`. -/
def Hold (fs : List (P → ℝ)) (ids : List Nat) (Fs : List (P → ℝ)) : Prop :=
  List.Forall₂ (fun (id : Nat) (F : P → ℝ) => (1 ≤ id ∧ id ≤ fs.length) ∧ field fs id = F) ids Fs

theorem Hold.append {fs : List (P → ℝ)} {ids : List Nat} {Fs : List (P → ℝ)} (h : Hold fs ids Fs) (gs : List (P → ℝ)) : Hold (fs ++ gs) ids Fs := by
  refine List.Forall₂.imp ?_ h
  intro id F hF
  refine ⟨⟨hF.1.1, by rw [List.length_append]; omega⟩, ?_⟩
  rw [field_append _ _ _ hF.1, hF.2]

theorem base_spec (G : Geo P) (d : ℤ) : ∀ (xs : List Info) (fs : List (P → ℝ)), ∃ gs, (baseFields G d xs fs).1 = fs ++ gs ∧
    Hold (baseFields G d xs fs).1 (baseFields G d xs fs).2 (xs.map fun x => constant G x.lc d x.ents) := by
  intro xs
  induction xs with
  | nil => intro fs; exact ⟨[], by simp [baseFields], .nil⟩
  | cons x xs ih =>
    intro fs
    obtain ⟨gs, h1, h2⟩ := ih (fs ++ [constant G x.lc d x.ents])
    refine ⟨constant G x.lc d x.ents :: gs, by rw [baseFields]; simp [h1], ?_⟩
    rw [baseFields, List.map_cons]
    refine .cons ?_ h2
    dsimp only
    rw [h1, field_append _ _ _ (by simp), field_last]
    exact ⟨by simp, rfl⟩

/-- The larger of a field and the printed line over `D`. -/
noncomputable def up (prt : ℝ → ℝ) (x : Info) (thr scl : ℝ) (D F : P → ℝ) : P → ℝ := fun p =>
  max (max (-maxLc) (F p)) (if 0 ≤ x.lc * (1 - thr * scl) then D p * prt (x.lc * x.sigma * scl) + prt (x.lc * (1 - thr * scl))
    else D p * prt (x.lc * x.sigma * scl) - prt (-(x.lc * (1 - thr * scl))))

theorem scaled_spec (prt : ℝ → ℝ) (fs : List (P → ℝ)) (id dist : Nat) (x : Info) (thr scl : ℝ) (hi : 1 ≤ id ∧ id ≤ fs.length)
    (D F : P → ℝ) (hD : field fs dist = D) (hF : field fs id = F) :
    ∃ gs, (scaled prt fs id dist x thr scl).1 = fs ++ gs ∧
      (1 ≤ (scaled prt fs id dist x thr scl).2 ∧ (scaled prt fs id dist x thr scl).2 ≤ (scaled prt fs id dist x thr scl).1.length) ∧
      field (scaled prt fs id dist x thr scl).1 (scaled prt fs id dist x thr scl).2 = up prt x thr scl D F := by
  unfold scaled
  dsimp only
  refine ⟨_, List.append_assoc _ _ _, by simp, ?_⟩
  rw [field_last]
  funext p
  unfold maxField up
  simp only [List.foldl_cons, List.foldl_nil]
  rw [field_append _ _ _ hi, List.length_append, List.length_singleton, field_last, hF]
  unfold linear
  rw [hD]

theorem fuelLoop_spec (prt : ℝ → ℝ) (dist : Nat) (thr scl : ℝ) (D : P → ℝ) (f : Info → P → ℝ) : ∀ (xs : List Info) (ids : List Nat) (fs : List (P → ℝ)),
    (1 ≤ dist ∧ dist ≤ fs.length) → field fs dist = D → Hold fs ids (xs.map f) →
    ∃ gs, (fuelLoop prt dist thr scl (xs.zip ids) fs).1 = fs ++ gs ∧
      Hold (fuelLoop prt dist thr scl (xs.zip ids) fs).1 (fuelLoop prt dist thr scl (xs.zip ids) fs).2
        (xs.map fun x => if !x.fissile && !x.absorber then up prt x thr scl D (f x) else f x) := by
  intro xs
  induction xs with
  | nil => intro ids fs _ _ _; exact ⟨[], by simp [fuelLoop], .nil⟩
  | cons x xs ih =>
    intro ids fs hd hD h
    rw [List.map_cons] at h
    cases ids with
    | nil => cases h
    | cons id ids =>
      obtain ⟨⟨h1, h2⟩, h3⟩ := List.forall₂_cons.1 h
      rw [List.zip_cons_cons, fuelLoop, List.map_cons]
      by_cases hc : (!x.fissile && !x.absorber) = true
      · rw [if_pos hc, if_pos hc]
        obtain ⟨gs, s1, s2, s3⟩ := scaled_spec prt fs id dist x thr scl h1 D (f x) hD h2
        obtain ⟨gs', t1, t2⟩ := ih ids (scaled prt fs id dist x thr scl).1 (by rw [s1, List.length_append]; omega)
          (by rw [s1, field_append _ _ _ hd, hD]) (by rw [s1]; exact Hold.append h3 gs)
        refine ⟨gs ++ gs', ?_, ?_⟩
        · dsimp only; rw [t1, s1, List.append_assoc]
        · refine .cons ?_ t2
          dsimp only
          rw [t1, field_append _ _ _ s2, s3]
          exact ⟨⟨s2.1, by rw [List.length_append]; omega⟩, rfl⟩
      · rw [if_neg hc, if_neg hc]
        obtain ⟨gs', t1, t2⟩ := ih ids fs hd hD h3
        refine ⟨gs', t1, .cons ?_ t2⟩
        dsimp only
        rw [t1, field_append _ _ _ h1, h2]
        exact ⟨⟨h1.1, by rw [List.length_append]; omega⟩, rfl⟩

/-! ## Boundaries -/

theorem twice_sorted (l : List ℤ) (h : l.Pairwise (· ≤ ·)) : twice l = some false ↔ l ≠ [] ∧ l.Nodup := by
  unfold twice
  by_cases h0 : l = []
  · simp [h0]
  · rw [if_neg h0]
    simp only [Option.some.injEq, decide_eq_false_iff_not, not_not, ne_eq, h0, not_false_eq_true, true_and]
    constructor
    · intro hc
      have hlt : l.IsChain (· < ·) := by
        have h2 : l.IsChain (· ≤ ·) := h.isChain
        rw [List.isChain_iff_getElem] at hc h2 ⊢
        intro i hi
        exact lt_of_le_of_ne (h2 i hi) (hc i hi)
      exact (List.isChain_iff_pairwise.1 hlt).imp fun hab => ne_of_lt hab
    · intro hn
      exact hn.isChain

theorem foldl_new (d : List ℤ) : ∀ (acc : List ℤ) (y : ℤ), y ∈ d.foldl (fun acc x => if x ∈ acc then acc else acc ++ [x]) acc ↔ y ∈ acc ∨ y ∈ d := by
  induction d with
  | nil => intro acc y; simp
  | cons x d ih =>
    intro acc y
    rw [List.foldl_cons, ih]
    split_ifs with hx
    · rw [List.mem_cons]
      constructor
      · rintro (h | h)
        · exact Or.inl h
        · exact Or.inr (Or.inr h)
      · rintro (h | h | h)
        · exact Or.inl h
        · exact Or.inl (h ▸ hx)
        · exact Or.inr h
    · simp [or_assoc]

theorem twice_sort (l : List ℤ) : twice (l.insertionSort (· ≤ ·)) = some false ↔ l ≠ [] ∧ l.Nodup := by
  rw [twice_sorted _ (List.pairwise_insertionSort _ _)]
  have hp := List.perm_insertionSort (· ≤ ·) l
  rw [hp.nodup_iff]
  constructor
  · rintro ⟨h1, h2⟩
    exact ⟨fun h => h1 (by rw [h]; rfl), h2⟩
  · rintro ⟨h1, h2⟩
    refine ⟨fun h => h1 ?_, h2⟩
    rw [h] at hp
    exact hp.symm.eq_nil

theorem boundary_ok (down : ℤ → List ℤ) : ∀ (es acc b : List ℤ), boundary down es acc = .ok b →
    (∀ e ∈ es, down e ≠ [] ∧ (down e).Nodup) ∧ ∀ y, y ∈ b ↔ y ∈ acc ∨ ∃ e ∈ es, y ∈ down e := by
  intro es
  induction es with
  | nil => intro acc b h; cases h; simp
  | cons e es ih =>
    intro acc b h
    rw [boundary] at h
    cases ht : twice ((down e).insertionSort (· ≤ ·)) with
    | none => rw [ht] at h; cases h
    | some v =>
      cases v with
      | true => rw [ht] at h; cases h
      | false =>
        rw [ht] at h
        obtain ⟨h1, h2⟩ := ih _ b h
        refine ⟨?_, ?_⟩
        · intro e' he'
          rcases List.mem_cons.1 he' with rfl | he'
          · exact (twice_sort _).1 ht
          · exact h1 e' he'
        · intro y
          rw [h2, foldl_new, (List.perm_insertionSort _ _).mem_iff]
          simp [or_assoc]

theorem boundary_some (down : ℤ → List ℤ) : ∀ (es acc : List ℤ), (∀ e ∈ es, down e ≠ [] ∧ (down e).Nodup) → ∃ b, boundary down es acc = .ok b := by
  intro es
  induction es with
  | nil => intro acc _; exact ⟨acc, rfl⟩
  | cons e es ih =>
    intro acc h
    rw [boundary]
    rw [(twice_sort _).2 (h e (by simp))]
    exact ih _ fun e' he' => h e' (by simp [he'])

theorem absLoop_spec (G : Geo P) (prt : ℝ → ℝ) (dim : ℤ) (thr scl : ℝ) (f : Info → P → ℝ) : ∀ (xs : List Info) (ids : List Nat) (fs : List (P → ℝ))
    (r : List (P → ℝ) × List Nat), Hold fs ids (xs.map f) → absLoop G prt dim thr scl (xs.zip ids) fs = .ok r →
    (∀ x ∈ xs, x.absorber = true → (1 ≤ dim ∧ dim ≤ 3) ∧ ∀ e ∈ x.ents, G.down (dim, e) ≠ [] ∧ (G.down (dim, e)).Nodup) ∧
    ∃ gs, r.1 = fs ++ gs ∧ Hold r.1 r.2 (xs.map fun x => if x.absorber then
      up prt x thr scl (G.dist (dim - 1) {b | ∃ e ∈ x.ents, b ∈ G.down (dim, e)}) (f x) else f x) := by
  intro xs
  induction xs with
  | nil => intro ids fs r _ h; cases h; exact ⟨by simp, [], by simp, .nil⟩
  | cons x xs ih =>
    intro ids fs r h hr
    rw [List.map_cons] at h
    cases ids with
    | nil => cases h
    | cons id ids =>
      obtain ⟨⟨h1, h2⟩, h3⟩ := List.forall₂_cons.1 h
      rw [List.zip_cons_cons, absLoop] at hr
      by_cases hc : x.absorber = true
      · rw [if_pos hc] at hr
        cases hb : boundary (fun e => G.down (dim, e)) x.ents [] with
        | undef => rw [hb] at hr; cases hr
        | refused => rw [hb] at hr; cases hr
        | ok b =>
          obtain ⟨b1, b2⟩ := boundary_ok _ _ _ _ hb
          rw [hb, CmfdInfo.ok_bind] at hr
          split_ifs at hr with hd
          have hset : {e | e ∈ b.insertionSort (· ≤ ·)} = {b | ∃ e ∈ x.ents, b ∈ G.down (dim, e)} := by
            ext y
            simp only [Set.mem_ofPred_eq]
            rw [(List.perm_insertionSort _ _).mem_iff, b2]
            simp
          rw [hset] at hr
          obtain ⟨gs, s1, s2, s3⟩ := scaled_spec prt (fs ++ [G.dist (dim - 1) {b | ∃ e ∈ x.ents, b ∈ G.down (dim, e)}]) id (fs.length + 1) x thr scl
            (by rw [List.length_append]; omega) (G.dist (dim - 1) {b | ∃ e ∈ x.ents, b ∈ G.down (dim, e)}) (f x) (field_last _ _) (by rw [field_append _ _ _ h1, h2])
          cases hq : absLoop G prt dim thr scl (xs.zip ids) (scaled prt (fs ++ [G.dist (dim - 1) {b | ∃ e ∈ x.ents, b ∈ G.down (dim, e)}]) id (fs.length + 1) x thr scl).1 with
          | undef => simp only [hq] at hr; cases hr
          | refused => simp only [hq] at hr; cases hr
          | ok q =>
            simp only [hq] at hr
            cases hr
            obtain ⟨t0, gs', t1, t2⟩ := ih ids _ q (by rw [s1]; exact (Hold.append (Hold.append h3 _) gs)) hq
            refine ⟨?_, G.dist (dim - 1) {b | ∃ e ∈ x.ents, b ∈ G.down (dim, e)} :: (gs ++ gs'), ?_, ?_⟩
            · intro y hy hya
              rcases List.mem_cons.1 hy with rfl | hy
              · refine ⟨?_, b1⟩
                simp at hd
                omega
              · exact t0 y hy hya
            · dsimp only
              rw [t1, s1]
              simp
            · dsimp only
              rw [List.map_cons, if_pos hc]
              refine .cons ?_ t2
              rw [t1, field_append _ _ _ s2, s3]
              exact ⟨⟨s2.1, by rw [List.length_append]; omega⟩, rfl⟩
      · rw [if_neg hc] at hr
        cases hq : absLoop G prt dim thr scl (xs.zip ids) fs with
        | undef => rw [hq] at hr; cases hr
        | refused => rw [hq] at hr; cases hr
        | ok q =>
          rw [hq] at hr
          cases hr
          obtain ⟨t0, gs', t1, t2⟩ := ih ids _ q h3 hq
          refine ⟨?_, gs', t1, ?_⟩
          · intro y hy hya
            rcases List.mem_cons.1 hy with rfl | hy
            · exact absurd hya hc
            · exact t0 y hy hya
          · dsimp only
            rw [List.map_cons, if_neg hc]
            refine .cons ?_ t2
            rw [t1, field_append _ _ _ h1, h2]
            exact ⟨⟨h1.1, by rw [List.length_append]; omega⟩, rfl⟩

theorem absLoop_some (G : Geo P) (prt : ℝ → ℝ) (dim : ℤ) (thr scl : ℝ) : ∀ (l : List (Info × Nat)) (fs : List (P → ℝ)),
    (∀ x ∈ l, x.1.absorber = true → (1 ≤ dim ∧ dim ≤ 3) ∧ ∀ e ∈ x.1.ents, G.down (dim, e) ≠ [] ∧ (G.down (dim, e)).Nodup) →
    ∃ r, absLoop G prt dim thr scl l fs = .ok r := by
  intro l
  induction l with
  | nil => intro fs _; exact ⟨_, rfl⟩
  | cons a l ih =>
    obtain ⟨x, id⟩ := a
    intro fs h
    rw [absLoop]
    have hl := fun y hy => h y (List.mem_cons_of_mem _ hy)
    by_cases hc : x.absorber = true
    · rw [if_pos hc]
      obtain ⟨hd, he⟩ := h (x, id) (by simp) hc
      obtain ⟨b, hb⟩ := boundary_some (fun e => G.down (dim, e)) x.ents [] he
      rw [hb, CmfdInfo.ok_bind, if_neg (by simp; omega)]
      dsimp only
      obtain ⟨q, hq⟩ := ih (scaled prt (fs ++ [G.dist (dim - 1) {e | e ∈ b.insertionSort (· ≤ ·)}]) id (fs.length + 1) x thr scl).1 hl
      rw [hq]
      exact ⟨_, rfl⟩
    · rw [if_neg hc]
      obtain ⟨q, hq⟩ := ih fs hl
      rw [hq]
      exact ⟨_, rfl⟩

/-! ## Materials -/

/-- The entities of the group of a material. -/
def entsOf (groups : List (Gmsh.Group Name)) (d : ℤ) (m : Mat) : List ℤ :=
  (((matGroups groups d)[indexOf (matGroups groups d) m]?).map (·.ents)).getD []

open Classical in
/-- The data of a material. -/
noncomputable def inf (groups : List (Gmsh.Group Name)) (q : Par) (m : Mat) : Info :=
  ⟨entsOf groups q.dim m, base q.kn (sigma m), sigma m, m.xsec.fissile, decide (Absorber m)⟩

theorem info_eq (kn : ℝ) (m : Mat) (h : Full m) (ha : m.xsec.a ≠ []) (ents : List ℤ) :
    info kn m ents = some ⟨ents, base kn (sigma m), sigma m, m.xsec.fissile, open Classical in decide (Absorber m)⟩ := by
  obtain ⟨h1, h2, h3, h4, h5, h6⟩ := h
  have hng : 0 < m.xsec.ng := by rw [← h1]; exact List.length_pos_iff.2 ha
  have ne : ∀ l : List ℝ, l.length = m.xsec.ng → l ≠ [] := fun l hl h0 => by rw [h0] at hl; simp at hl; omega
  have hss : m.xsec.ss ≠ [] := fun h0 => by
    rw [h0] at h6
    have : 0 < m.xsec.ng * m.xsec.ng := Nat.mul_pos hng hng
    simp only [List.length_nil] at h6
    omega
  unfold info collapse
  rw [Stats.C18_mean _ (ne _ h1), Stats.C18_mean _ (ne _ h2), Stats.C18_mean _ (ne _ h3), Stats.C18_mean _ (ne _ h4), Stats.C18_mean _ (ne _ h5),
    Stats.C18_mean _ hss]
  simp only [Option.bind_eq_bind, Option.bind_some, Option.pure_def, List.getElem?_cons_zero, Option.some.injEq, Info.mk.injEq, true_and]
  refine ⟨rfl, rfl, ?_⟩
  exact decide_eq_decide.2 Iff.rfl

theorem indexOf_spec (mg : List (Gmsh.Group Name)) (m : Mat) (hl : mg.length ≤ 10000) :
    (indexOf mg m = 10000 ↔ ¬ ∃ g ∈ mg, g.name = str "Material_" ++ m.name) ∧
    ((∃ g ∈ mg, g.name = str "Material_" ++ m.name) → ∃ g ∈ mg, g.name = str "Material_" ++ m.name ∧ mg[indexOf mg m]? = some g) := by
  unfold indexOf
  cases h : mg.findIdx? fun g => str "Material_" ++ m.name == g.name with
  | none =>
    rw [List.findIdx?_eq_none_iff] at h
    have hn : ¬ ∃ g ∈ mg, g.name = str "Material_" ++ m.name := by
      rintro ⟨g, hg, he⟩
      have := h g hg
      rw [he] at this
      simp at this
    exact ⟨by simp [hn], fun h => absurd h hn⟩
  | some k =>
    rw [List.findIdx?_eq_some_iff_getElem] at h
    obtain ⟨hk, h1, _⟩ := h
    have he : mg[k].name = str "Material_" ++ m.name := by
      rw [beq_iff_eq] at h1; exact h1.symm
    have hex : ∃ g ∈ mg, g.name = str "Material_" ++ m.name := ⟨mg[k], List.getElem_mem hk, he⟩
    refine ⟨⟨fun h => ?_, fun h => absurd hex h⟩, fun _ => ⟨mg[k], List.getElem_mem hk, he, by simp [hk]⟩⟩
    simp only [Option.getD_some] at h
    omega

theorem prefix_name (n : Name) : (str "Material").isPrefixOf (str "Material_" ++ n) = true := by
  have : str "Material_" = str "Material" ++ [95] := by decide +kernel
  rw [List.isPrefixOf_iff_prefix, this, List.append_assoc]
  exact List.prefix_append _ _

theorem mem_matGroups (groups : List (Gmsh.Group Name)) (d : ℤ) (m : Mat) (g : Gmsh.Group Name) :
    (g ∈ matGroups groups d ∧ g.name = str "Material_" ++ m.name) ↔ (g ∈ groups ∧ g.dim = d ∧ g.name = str "Material_" ++ m.name) := by
  unfold matGroups
  rw [List.mem_filter]
  constructor
  · rintro ⟨⟨h1, h2⟩, h3⟩
    simp at h2
    exact ⟨h1, h2.1, h3⟩
  · rintro ⟨h1, h2, h3⟩
    refine ⟨⟨h1, ?_⟩, h3⟩
    rw [h3, prefix_name]
    simp [h2]

theorem mapM_some {α β : Type} (f : α → Option β) (g : α → β) : ∀ l : List α, (∀ x ∈ l, f x = some (g x)) → l.mapM f = some (l.map g) := by
  intro l
  induction l with
  | nil => intro _; rfl
  | cons a l ih =>
    intro h
    rw [List.mapM_cons, h a (by simp), ih fun x hx => h x (by simp [hx])]
    rfl

theorem prepare_iff (groups : List (Gmsh.Group Name)) (mats : List Mat) (q : Par) (hf : ∀ m ∈ mats, Full m) (hl : mats.length ≤ 10000) (xs : List Info) :
    prepare groups mats q = .ok xs ↔ ((matGroups groups q.dim).length = mats.length ∧
      (∀ m ∈ mats, ∃ g ∈ groups, g.dim = q.dim ∧ g.name = str "Material_" ++ m.name) ∧ 0 < q.kn ∧ (∀ m ∈ mats, m.xsec.macro_ = true ∧ m.xsec.a ≠ [])) ∧
      xs = mats.map (inf groups q) := by
  unfold prepare
  dsimp only
  by_cases h1 : (matGroups groups q.dim).length = mats.length
  swap
  · rw [if_pos h1]; constructor
    · intro h; cases h
    · rintro ⟨⟨h, _⟩, _⟩; exact absurd h h1
  rw [if_neg (not_not.2 h1)]
  have hidx := fun m => indexOf_spec (matGroups groups q.dim) m (h1 ▸ hl)
  have hgrp : ∀ m : Mat, (∃ g ∈ matGroups groups q.dim, g.name = str "Material_" ++ m.name) ↔ ∃ g ∈ groups, g.dim = q.dim ∧ g.name = str "Material_" ++ m.name :=
    fun m => exists_congr fun g => mem_matGroups groups q.dim m g
  by_cases h2 : ∀ m ∈ mats, ∃ g ∈ groups, g.dim = q.dim ∧ g.name = str "Material_" ++ m.name
  swap
  · rw [if_pos]
    · constructor
      · intro h; cases h
      · rintro ⟨⟨_, h, _⟩, _⟩; exact absurd h h2
    · push Not at h2
      obtain ⟨m, hm, hg⟩ := h2
      rw [List.any_eq_true]
      refine ⟨m, hm, ?_⟩
      rw [beq_iff_eq, (hidx m).1, hgrp]
      rintro ⟨g, a, b, c⟩
      exact hg g a b c
  rw [if_neg (by
    rw [List.any_eq_true]
    rintro ⟨m, hm, h⟩
    rw [beq_iff_eq, (hidx m).1, hgrp] at h
    exact h (h2 m hm))]
  by_cases h3 : 0 < q.kn
  swap
  · rw [if_pos (not_lt.1 h3)]; constructor
    · intro h; cases h
    · rintro ⟨⟨_, _, h, _⟩, _⟩; exact absurd h h3
  rw [if_neg (not_le.2 h3)]
  by_cases h4 : ∀ m ∈ mats, m.xsec.macro_ = true ∧ m.xsec.a ≠ []
  swap
  · rw [if_pos]
    · constructor
      · intro h; cases h
      · rintro ⟨⟨_, _, _, h⟩, _⟩; exact absurd h h4
    · push Not at h4
      obtain ⟨m, hm, h⟩ := h4
      rw [List.any_eq_true]
      refine ⟨m, hm, ?_⟩
      unfold hasXSec
      by_cases hmac : m.xsec.macro_ = true
      · simp [hmac, h hmac]
      · simp [Bool.not_eq_true _ ▸ hmac]
  rw [if_neg (by
    rw [List.any_eq_true]
    rintro ⟨m, hm, h⟩
    obtain ⟨a, b⟩ := h4 m hm
    simp [hasXSec, a, b] at h)]
  rw [mapM_some _ (inf groups q) _ (by
    intro m hm
    obtain ⟨g, _, _, hg⟩ := (hidx m).2 ((hgrp m).2 (h2 m hm))
    rw [hg, Option.bind_some, info_eq _ _ (hf m hm) (h4 m hm).2]
    unfold inf entsOf
    rw [hg]
    rfl)]
  rw [CmfdInfo.of_some]
  constructor
  · intro h; cases h; exact ⟨⟨by assumption, h2, h3, h4⟩, rfl⟩
  · rintro ⟨_, rfl⟩; rfl

theorem mem_entsOf (groups : List (Gmsh.Group Name)) (d : ℤ) (m : Mat) (hl : (matGroups groups d).length ≤ 10000)
    (hex : ∃ g ∈ groups, g.dim = d ∧ g.name = str "Material_" ++ m.name)
    (hd : ∀ g ∈ groups, ∀ h ∈ groups, g.dim = d → h.dim = d → g.name = h.name → g = h) (e : ℤ) : e ∈ entsOf groups d m ↔ e ∈ Ents groups d m := by
  have hgrp : (∃ g ∈ matGroups groups d, g.name = str "Material_" ++ m.name) ↔ ∃ g ∈ groups, g.dim = d ∧ g.name = str "Material_" ++ m.name :=
    exists_congr fun g => mem_matGroups groups d m g
  obtain ⟨g, h1, h2, h3⟩ := (indexOf_spec _ m hl).2 (hgrp.2 hex)
  obtain ⟨g1, g2, g3⟩ := (mem_matGroups groups d m g).1 ⟨h1, h2⟩
  unfold entsOf Ents
  rw [h3]
  simp only [Option.map_some, Option.getD_some, Set.mem_ofPred_eq]
  constructor
  · intro he; exact ⟨g, g1, g2, g3, he⟩
  · rintro ⟨g', a, b, c, he⟩
    rw [hd g g1 g' a g2 b (g3.trans c.symm)]
    exact he

end Verif.KnL
