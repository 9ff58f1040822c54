import Verif.Lemmas.FnrDraw
import Verif.Lemmas.Scene
import Verif.Lemmas.Reopen

/-! Lemmas on the plane models of the Ford Nuclear Reactor (C117). -/

namespace Verif.FnrL

open Verif.XSLib (Res)
open Verif.Gmsh (Gm DimTag Group)
open Verif.GmshSpec
open Verif.Overlay (Name matName)
open Verif.OverlayGroupsSpec (material)
open Verif.ProgramsSpec Verif.Scene Verif.SceneSpec Verif.SceneL Verif.ReopenL
open Verif.Fnr Verif.FnrSpec

/-! ### The groups -/

variable {C : Type}

theorem add_groups (s : Gm Name C) (l : List ℤ) (n : Name) (hs : WF s) (hd : Distinct s 2) (hn : ∀ g ∈ s.groups, g.name ≠ n) :
    WF (s.add 2 l (-1) n) ∧ Distinct (s.add 2 l (-1) n) 2 ∧ (∀ g, g ∈ (s.add 2 l (-1) n).groups → g ∈ s.groups ∨ g.name = n) ∧
    ∀ d n' e, In (s.add 2 l (-1) n) d n' e ↔ In s d n' e ∨ (d = 2 ∧ n' = n ∧ e ∈ l) := by
  have e0 : s.add 2 l (-1) n = s.addTagged 2 l (s.newTag 2) n := rfl
  rw [e0]
  clear e0
  obtain ⟨h1, h2⟩ := Gmsh.newTag_gt s 2
  have hm := Gmsh.addTagged_mem s 2 l (s.newTag 2) n
  refine ⟨⟨?_, ?_, ?_⟩, ?_, ?_, ?_⟩
  · exact Gmsh.addTagged_sorted s 2 l _ n hs.sorted fun g hg ⟨q1, q2⟩ => by have := h2 g hg q1; omega
  · intro g hg
    rcases (hm g).1 hg with hg | ⟨-, rfl⟩
    · exact hs.pos g hg
    · exact h1
  · intro g hg
    rcases (hm g).1 hg with hg | ⟨hl, rfl⟩
    · exact hs.ents g hg
    · refine ⟨Gmsh.sorted_entSet l, fun h0 => hl ?_⟩
      cases l with
      | nil => rfl
      | cons x l =>
        have h0 : Gm.entSet (x :: l) = [] := h0
        have := (Gmsh.mem_entSet (x :: l) x).2 List.mem_cons_self
        rw [h0] at this
        cases this
  · intro g hg h hh q1 q2 q3
    rcases (hm g).1 hg with hg | ⟨-, rfl⟩ <;> rcases (hm h).1 hh with hh | ⟨-, rfl⟩
    · exact hd g hg h hh q1 q2 q3
    · exact absurd q3 (hn g hg)
    · exact absurd q3.symm (hn h hh)
    · rfl
  · intro g hg
    rcases (hm g).1 hg with hg | ⟨-, rfl⟩
    · exact Or.inl hg
    · exact Or.inr rfl
  · intro d n' e
    constructor
    · rintro ⟨g, hg, q1, q2, q3⟩
      rcases (hm g).1 hg with hg | ⟨-, rfl⟩
      · exact Or.inl ⟨g, hg, q1, q2, q3⟩
      · exact Or.inr ⟨q1.symm, q2.symm, (Gmsh.mem_entSet l e).1 q3⟩
    · rintro (⟨g, hg, q⟩ | ⟨rfl, rfl, q⟩)
      · exact ⟨g, (hm g).2 (Or.inl hg), q⟩
      · exact ⟨_, (hm _).2 (Or.inr ⟨List.ne_nil_of_mem q, rfl⟩), rfl, rfl, (Gmsh.mem_entSet l e).2 q⟩

theorem fold_groups (col : String → C) (groups : List (List ℤ × String)) (s : Gm Name C) (hs : WF s) (hd : Distinct s 2)
    (hn : ∀ g ∈ s.groups, ∀ q ∈ groups, g.name ≠ material (MFiles.str q.2)) (hnd : (groups.map fun q => MFiles.str q.2).Nodup) :
    WF (groups.foldl (fun s g => s.add 2 g.1 (-1) (mat col g.2).1) s) ∧ Distinct (groups.foldl (fun s g => s.add 2 g.1 (-1) (mat col g.2).1) s) 2 ∧
    ∀ d n e, In (groups.foldl (fun s g => s.add 2 g.1 (-1) (mat col g.2).1) s) d n e ↔
      In s d n e ∨ (d = 2 ∧ ∃ q ∈ groups, n = material (MFiles.str q.2) ∧ e ∈ q.1) := by
  induction groups generalizing s with
  | nil => exact ⟨hs, hd, fun d n e => by simp⟩
  | cons q l ih =>
    obtain ⟨h1, h2, h3, h4⟩ := add_groups s q.1 (material (MFiles.str q.2)) hs hd fun g hg => hn g hg q List.mem_cons_self
    rw [List.map_cons, List.nodup_cons] at hnd
    obtain ⟨k1, k2, k3⟩ := ih (s.add 2 q.1 (-1) (mat col q.2).1) h1 h2 (by
      intro g hg q' hq' hname
      rcases h3 g hg with h | h
      · exact hn g h q' (List.mem_cons_of_mem _ hq') hname
      · rw [h] at hname
        refine hnd.1 ?_
        rw [ProgramsL.material_inj hname]
        exact List.mem_map.2 ⟨q', hq', rfl⟩) hnd.2
    refine ⟨k1, k2, fun d n e => ?_⟩
    rw [List.foldl_cons, k3]
    have : In (s.add 2 q.1 (-1) (mat col q.2).1) d n e ↔ _ := h4 d n e
    rw [this]
    constructor
    · rintro ((h | ⟨h, h', h''⟩) | ⟨h, q', hq', h'⟩)
      · exact Or.inl h
      · exact Or.inr ⟨h, q, List.mem_cons_self, h', h''⟩
      · exact Or.inr ⟨h, q', List.mem_cons_of_mem _ hq', h'⟩
    · rintro (h | ⟨h, q', hq', h'⟩)
      · exact Or.inl (Or.inl h)
      · rcases List.mem_cons.1 hq' with rfl | hq'
        · exact Or.inl (Or.inr ⟨h, h'⟩)
        · exact Or.inr ⟨h, q', hq', h'⟩

theorem sheet_ok (clos : DimTag → List DimTag) (col : String → C) (blue : DimTag → C) (groups : List (List ℤ × String)) (d : Draw)
    (hd : ∀ q ∈ groups, ∀ t ∈ q.1, 1 ≤ t ∧ t ≤ d.surfs.length) (hne : ∃ q ∈ groups, q.1 ≠ []) (hnd : (groups.map fun q => MFiles.str q.2).Nodup) :
    ∃ S, sheet clos col blue groups d = .ok S ∧ Drawn S ∧ S.tags = fresh 1 d.surfs.length ∧
      ∀ P x, Lies S (shapeOf d) P x ↔ ∃ q ∈ groups, x = MFiles.str q.2 ∧ ∃ t ∈ q.1, P ∈ shapeOf d t := by
  obtain ⟨h1, h2, h3⟩ := fold_groups col groups (⟨[], blue⟩ : Gm Name C) ⟨List.Pairwise.nil, fun g hg => (by cases hg), fun g hg => (by cases hg)⟩
    (fun g hg => by cases hg) (fun g hg => by cases hg) hnd
  have h3' : ∀ d n e, In (groups.foldl (fun s g => s.add 2 g.1 (-1) (mat col g.2).1) (⟨[], blue⟩ : Gm Name C)) d n e ↔
      d = 2 ∧ ∃ q ∈ groups, n = material (MFiles.str q.2) ∧ e ∈ q.1 := by
    intro d n e
    rw [h3]
    exact or_iff_right (fun ⟨g, hg, _⟩ => by cases hg)
  obtain ⟨q, hq, hq1⟩ := hne
  obtain ⟨t, ht⟩ := List.exists_mem_of_ne_nil _ hq1
  obtain ⟨gm, g1, g2, -⟩ := colorMaterials_all (Q := fun _ : C => True) clos _ (groups.map fun g => mat col g.2) (fun _ => trivial) (fun _ _ => trivial) (by
    obtain ⟨g, hg, -⟩ := (h3' 2 _ t).2 ⟨rfl, q, hq, rfl, ht⟩
    exact List.ne_nil_of_mem hg)
  have hin : ∀ d n e, In gm d n e ↔ d = 2 ∧ ∃ q ∈ groups, n = material (MFiles.str q.2) ∧ e ∈ q.1 := fun d n e => by
    rw [colorMaterials_in g2, h3']
  have hlen : 0 < d.surfs.length := by have := hd q hq t ht; omega
  refine ⟨⟨gm, fresh 1 d.surfs.length, d.surfs.length + 1⟩, ?_, ?_, rfl, ?_⟩
  · unfold sheet dress
    rw [g1]
    rfl
  · refine ⟨⟨?_, ?_, ?_⟩, ?_, ?_, fresh_sorted _ _, ?_, ?_⟩
    · show gm.groups.Pairwise _
      rw [g2]; exact h1.sorted
    · show ∀ g ∈ gm.groups, _
      rw [g2]; exact h1.pos
    · show ∀ g ∈ gm.groups, _
      rw [g2]; exact h1.ents
    · show ∀ g ∈ gm.groups, ∀ h ∈ gm.groups, _
      rw [g2]; exact h2
    · refine List.ne_nil_of_length_pos ?_
      rw [fresh_length]; exact hlen
    · intro e he
      obtain ⟨i, hi, rfl⟩ := (mem_fresh _ _ e).1 he
      show 1 + (i : ℤ) < d.surfs.length + 1
      omega
    · intro d' n e he
      obtain ⟨q1, q', hq', q2, q3⟩ := (hin d' n e).1 he
      refine ⟨q1, ⟨_, q2⟩, (mem_fresh _ _ e).2 ⟨(e - 1).toNat, ?_, ?_⟩⟩
      · have := hd q' hq' e q3; omega
      · have := hd q' hq' e q3; omega
  · intro P x
    constructor
    · rintro ⟨e, he, hP⟩
      obtain ⟨-, q', hq', q2, q3⟩ := (hin _ _ _).1 he
      exact ⟨q', hq', ProgramsL.material_inj q2, e, q3, hP⟩
    · rintro ⟨q', hq', rfl, e, he, hP⟩
      exact ⟨e, (hin _ _ _).2 ⟨rfl, q', hq', rfl, he⟩, hP⟩

/-! ### Meat and plates -/

/-- The height of an arc over the one in the middle. -/
noncomputable def lift (r : ℝ) : ℝ := r * Real.cos α - dome (r * Real.sin α)

theorem arcThrough_eq (r u : ℝ) : arcThrough r u = lift r + dome u := rfl

theorem dome_arg {r : ℝ} (h0 : 0 ≤ r) (h1 : r ≤ 2 * R) : |r * Real.sin α| ≤ R := by
  rw [abs_of_nonneg (mul_nonneg h0 sin_pos.le)]
  have := mul_le_mul_of_nonneg_left sin_le h0
  linarith

theorem dome_meat {r : ℝ} (h0 : 0 ≤ r) (h1 : r ≤ 2 * R) : dome (r * Real.sin α) ^ 2 = R ^ 2 - r ^ 2 + (r * Real.cos α) ^ 2 := by
  rw [dome_sq (dome_arg h0 h1)]
  have := Real.sin_sq_add_cos_sq α
  have e : Real.sin α ^ 2 = 1 - Real.cos α ^ 2 := by linarith
  rw [mul_pow, e]
  ring

theorem lift_le {r h : ℝ} (h0 : 0 ≤ r) (h1 : r ≤ 2 * R) (hh : r ^ 2 - R ^ 2 + h ^ 2 ≤ 2 * (r * Real.cos α) * h) : lift r ≤ h := by
  unfold lift
  have := dome_meat h0 h1
  have := dome_nonneg (r * Real.sin α)
  by_contra hc
  push Not at hc
  nlinarith

theorem le_lift {r h : ℝ} (h0 : 0 ≤ r) (h1 : r ≤ 2 * R) (hk : h ≤ r * Real.cos α) (hh : 2 * (r * Real.cos α) * h ≤ r ^ 2 - R ^ 2 + h ^ 2) : h ≤ lift r := by
  unfold lift
  have := dome_meat h0 h1
  have := dome_nonneg (r * Real.sin α)
  by_contra hc
  push Not at hc
  nlinarith

/-- One of the two elements. -/
def Known (E : Elem) : Prop := E = lowElem ∨ E = highElem

theorem R_eq : R = 1397 / 100 := by unfold R inches; norm_num

theorem low_eq : lowElem.plate = 651256 / 100000 ∧ lowElem.side = 8001 / 1000 ∧ lowElem.meat = 8128 / 100000 ∧ lowElem.clad = 3810 / 100000 := by
  unfold lowElem inches
  refine ⟨?_, ?_, ?_, ?_⟩ <;> norm_num

theorem high_eq : highElem.plate = 650748 / 100000 ∧ highElem.side = 80518 / 10000 ∧ highElem.meat = 5588 / 100000 ∧ highElem.clad = 5080 / 100000 := by
  unfold highElem inches
  refine ⟨?_, ?_, ?_, ?_⟩ <;> norm_num

theorem lift_bounds {E : Elem} (hE : Known E) :
    -(E.meat / 2 + 4 / 100 * E.clad) ≤ lift (R - E.meat / 2) ∧ lift (R + E.meat / 2) ≤ E.meat / 2 + 4 / 100 * E.clad ∧
    lift (R - E.meat / 2) ≤ -(102 / 100 * (E.meat / 2)) ∧ 102 / 100 * (E.meat / 2) ≤ lift (R + E.meat / 2) := by
  have h1 := cos_ge
  have h2 := cos_le
  have hR := R_eq
  rcases hE with rfl | rfl
  · obtain ⟨-, -, h3, h4⟩ := low_eq
    rw [h3, h4]
    refine ⟨le_lift ?_ ?_ ?_ ?_, lift_le ?_ ?_ ?_, lift_le ?_ ?_ ?_, le_lift ?_ ?_ ?_ ?_⟩ <;> rw [hR] <;> norm_num <;> linarith
  · obtain ⟨-, -, h3, h4⟩ := high_eq
    rw [h3, h4]
    refine ⟨le_lift ?_ ?_ ?_ ?_, lift_le ?_ ?_ ?_, lift_le ?_ ?_ ?_, le_lift ?_ ?_ ?_ ?_⟩ <;> rw [hR] <;> norm_num <;> linarith

theorem meat_within {E : Elem} (hE : Known E) {k : Nat} {u v : ℝ} (h : Meat E k u v) : |u| < E.plate / 2 ∧
    foot E k + 96 / 100 * E.clad ≤ v - (dome u - dome (E.plate / 2)) ∧
    v - (dome u - dome (E.plate / 2)) < foot E k + (E.meat + 2 * E.clad) - 96 / 100 * E.clad := by
  obtain ⟨q1, q2, q3⟩ := h
  obtain ⟨b1, b2, -, -⟩ := lift_bounds hE
  rw [arcThrough_eq] at q2 q3
  refine ⟨?_, ?_, ?_⟩
  · have hs := sin_pos
    have hk := cos_pos
    have hm : 0 < R + E.meat / 2 ∧ (R + E.meat / 2) * (12 / 55) < E.plate / 2 := by
      rcases hE with rfl | rfl
      · obtain ⟨h2, -, h3, -⟩ := low_eq
        rw [h2, h3, R_eq]; norm_num
      · obtain ⟨h2, -, h3, -⟩ := high_eq
        rw [h2, h3, R_eq]; norm_num
    refine lt_of_lt_of_le ?_ ((mul_le_mul_of_nonneg_left sin_le hm.1.le).trans hm.2.le)
    by_contra hc
    push Not at hc
    have hr := mul_pos hm.1 hs
    have hd : dome u ≤ dome ((R + E.meat / 2) * Real.sin α) := dome_le (by rw [abs_of_pos hr]; exact hc)
    have : v - hub E k < (R + E.meat / 2) * Real.cos α := by unfold lift at q3; linarith
    have h1 := mul_lt_mul_of_pos_right this hs
    have h2 := mul_le_mul_of_nonneg_right hc hk.le
    nlinarith
  · unfold hub at q2; linarith
  · unfold hub at q3; linarith

theorem meat_plate {E : Elem} (hE : Known E) {k : Nat} {u v : ℝ} (h : Meat E k u v) : Plate E k u v := by
  obtain ⟨h1, h2, h3⟩ := meat_within hE h
  have hc : 0 < E.clad := by
    rcases hE with rfl | rfl
    · rw [low_eq.2.2.2]; norm_num
    · rw [high_eq.2.2.2]; norm_num
  have := abs_lt.1 h1
  exact ⟨by linarith, by linarith, by linarith, by linarith⟩

/-- Circles come together from the middle outwards. -/
theorem closer {a b x y : ℝ} (hab : b ≤ a) (hxy : x ≤ y) (hy : y ≤ b) :
    Real.sqrt (a - x) - Real.sqrt (b - x) ≤ Real.sqrt (a - y) - Real.sqrt (b - y) := by
  have hA := Real.sq_sqrt (show 0 ≤ a - x by linarith)
  have hB := Real.sq_sqrt (show 0 ≤ b - x by linarith)
  have hC := Real.sq_sqrt (show 0 ≤ a - y by linarith)
  have hD := Real.sq_sqrt (show 0 ≤ b - y by linarith)
  have h1 : Real.sqrt (a - y) ≤ Real.sqrt (a - x) := Real.sqrt_le_sqrt (by linarith)
  have h2 : Real.sqrt (b - y) ≤ Real.sqrt (b - x) := Real.sqrt_le_sqrt (by linarith)
  have h3 : Real.sqrt (b - y) ≤ Real.sqrt (a - y) := Real.sqrt_le_sqrt (by linarith)
  have h4 := Real.sqrt_nonneg (b - y)
  generalize Real.sqrt (a - x) = A at *
  generalize Real.sqrt (b - x) = B at *
  generalize Real.sqrt (a - y) = G at *
  generalize Real.sqrt (b - y) = D at *
  by_contra hc
  push Not at hc
  rcases eq_or_lt_of_le (show 0 ≤ G + D by linarith) with h0 | h0
  · have hG : G = 0 := by linarith
    have hD0 : D = 0 := by linarith
    subst hG hD0
    have : A ^ 2 = B ^ 2 := by linarith
    have : A = B := by
      rcases sq_eq_sq_iff_eq_or_eq_neg.1 this with h | h
      · exact h
      · linarith
    linarith
  · nlinarith [mul_lt_mul_of_pos_right hc h0, mul_le_mul_of_nonneg_left (show G + D ≤ A + B by linarith) (show 0 ≤ A - B by linarith)]

theorem even_meat {E : Elem} (hE : Known E) {k : Nat} {u v : ℝ} (h : EvenMeat E k u v) : Meat E k u v := by
  obtain ⟨h1, h2, h3⟩ := h
  unfold Meat
  generalize v - hub E k = Y at h1 h2 h3 ⊢
  have hm : 0 < E.meat ∧ E.meat < 1 := by
    rcases hE with rfl | rfl
    · rw [low_eq.2.2.1]; norm_num
    · rw [high_eq.2.2.1]; norm_num
  have hR := R_eq
  have hs := sin_pos
  have hk := cos_pos
  have hsc := Real.sin_sq_add_cos_sq α
  have hY : 0 ≤ Y := by
    by_contra hc
    push Not at hc
    have := mul_nonneg (abs_nonneg u) hk.le
    have := mul_neg_of_neg_of_pos hc hs
    linarith
  have hu2 : u ^ 2 ≤ Real.sin α ^ 2 * (u ^ 2 + Y ^ 2) := by
    have := pow_le_pow_left₀ (mul_nonneg (abs_nonneg u) hk.le) h1 2
    rw [mul_pow, sq_abs, mul_pow] at this
    nlinarith
  have key : ∀ r, 0 ≤ r → r ≤ 2 * R → dome (r * Real.sin α) = Real.sqrt (R ^ 2 - (r * Real.sin α) ^ 2) ∧
      r * Real.cos α = Real.sqrt (r ^ 2 - (r * Real.sin α) ^ 2) ∧ (r * Real.sin α) ^ 2 ≤ r ^ 2 ∧ (r * Real.sin α) ^ 2 ≤ R ^ 2 := by
    intro r h0 hr
    refine ⟨rfl, ?_, ?_, ?_⟩
    · rw [show r ^ 2 - (r * Real.sin α) ^ 2 = (r * Real.cos α) ^ 2 from by
        have : Real.cos α ^ 2 = 1 - Real.sin α ^ 2 := by linarith
        rw [mul_pow, mul_pow, this]; ring]
      exact (Real.sqrt_sq (mul_nonneg h0 hk.le)).symm
    · rw [mul_pow]
      have : Real.sin α ^ 2 ≤ 1 := Real.sin_sq_le_one α
      nlinarith [sq_nonneg r]
    · have := dome_arg h0 hr
      rw [← sq_abs]
      exact pow_le_pow_left₀ (abs_nonneg _) this 2
  refine ⟨h1, ?_, ?_⟩
  · show (R - E.meat / 2) * Real.cos α - dome ((R - E.meat / 2) * Real.sin α) + dome u ≤ Y
    obtain ⟨k1, k2, k3, -⟩ := key (R - E.meat / 2) (by linarith) (by linarith)
    rcases le_total (u ^ 2) (((R - E.meat / 2) * Real.sin α) ^ 2) with hle | hle
    · have hc := closer (a := R ^ 2) (b := (R - E.meat / 2) ^ 2) (by nlinarith) hle k3
      rw [k1, k2]
      show _ + Real.sqrt (R ^ 2 - u ^ 2) ≤ Y
      have : Real.sqrt ((R - E.meat / 2) ^ 2 - u ^ 2) ≤ Y := by
        rw [Real.sqrt_le_left hY]
        linarith
      linarith
    · have hp : 0 < (R - E.meat / 2) * Real.sin α := mul_pos (by linarith) hs
      have ha : |(R - E.meat / 2) * Real.sin α| ≤ |u| := sq_le_sq.1 hle
      have hd := dome_le ha
      rw [abs_of_pos hp] at ha
      have h4 := mul_le_mul_of_nonneg_right ha hk.le
      have : (R - E.meat / 2) * Real.cos α ≤ Y := le_of_mul_le_mul_right (by linarith [mul_right_comm (R - E.meat / 2) (Real.sin α) (Real.cos α)]) hs
      linarith
  · show Y < (R + E.meat / 2) * Real.cos α - dome ((R + E.meat / 2) * Real.sin α) + dome u
    obtain ⟨k1, k2, k3, k4⟩ := key (R + E.meat / 2) (by linarith) (by linarith)
    have hle : u ^ 2 ≤ ((R + E.meat / 2) * Real.sin α) ^ 2 := by
      rw [mul_pow]
      have := mul_le_mul_of_nonneg_left h3.le (sq_nonneg (Real.sin α))
      linarith
    have hc := closer (a := (R + E.meat / 2) ^ 2) (b := R ^ 2) (by nlinarith) hle k4
    rw [k1, k2]
    show Y < _ + Real.sqrt (R ^ 2 - u ^ 2)
    have : Y < Real.sqrt ((R + E.meat / 2) ^ 2 - u ^ 2) := by
      rw [Real.lt_sqrt hY]
      linarith
    linarith

/-! ### Nothing overlaps -/

theorem bulge_of {E : Elem} (hE : Known E) {u : ℝ} (h : |u| ≤ E.plate / 2) :
    0 ≤ dome u - dome (E.plate / 2) ∧ dome u - dome (E.plate / 2) ≤ inches (152 / 1000) := by
  have h0 : 0 < E.plate / 2 ∧ E.plate / 2 ≤ 325628 / 100000 := by
    rcases hE with rfl | rfl
    · rw [low_eq.1]; norm_num
    · rw [high_eq.1]; norm_num
  constructor
  · have := dome_le (a := u) (b := E.plate / 2) (by rw [abs_of_pos h0.1]; exact h)
    linarith
  · have h1 := dome_le (a := 0) (b := u) (by rw [abs_zero]; exact abs_nonneg u)
    have h2 : dome 0 = R := by unfold dome; rw [zero_pow two_ne_zero, sub_zero]; exact Real.sqrt_sq R_pos.le
    have h5 := dome_le (a := E.plate / 2) (b := 325628 / 100000) (by rw [abs_of_pos h0.1, abs_of_pos (by norm_num)]; exact h0.2)
    have h3 := dome_sq (a := 325628 / 100000) (by rw [abs_of_pos (by norm_num), R_eq]; norm_num)
    have h4 := dome_nonneg (325628 / 100000)
    rw [R_eq] at h3
    rw [h2, R_eq] at h1
    unfold inches
    generalize dome (325628 / 100000) = x at h3 h4 h5
    norm_num at h3 h1 h4 ⊢
    nlinarith

theorem bulge {u : ℝ} (h : |u| ≤ lowElem.plate / 2) : 0 ≤ dome u - dome (lowElem.plate / 2) ∧ dome u - dome (lowElem.plate / 2) ≤ inches (152 / 1000) :=
  bulge_of (Or.inl rfl) h

theorem foot_eq (k : Nat) : foot lowElem k = 19558 / 100000 + k * (44958 / 100000) := by
  unfold foot
  rw [low_eq.2.1]
  unfold inches
  norm_num

theorem thickness : lowElem.meat + 2 * lowElem.clad = 15748 / 100000 := by unfold lowElem inches; norm_num

/-- Where the points of an element are: `w` is the height without the bulge. -/
def Spot (K : Kind) (m : Ink) (u v w : ℝ) : Prop :=
  (m = .alu ∧ (u < -(lowElem.plate / 2) ∨ lowElem.plate / 2 ≤ u)) ∨
  ((-(lowElem.plate / 2) ≤ u ∧ u < lowElem.plate / 2) ∧
    ((∃ k : Nat, HasPlate K k ∧ 19558 / 100000 + k * (44958 / 100000) ≤ w ∧ w < 19558 / 100000 + k * (44958 / 100000) + 15748 / 100000 ∧
      ((m = .alu ∧ ¬ Meat lowElem k u v) ∨ (m = .fuel ∧ Meat lowElem k u v))) ∨
    (Rodded K ∧ 215138 / 100000 ≤ w ∧ w < 648970 / 100000 ∧
      ((m = .alu ∧ (v < 321056 / 100000 ∨ 604012 / 100000 ≤ v)) ∨
        (((m = .borated ∧ K = .shim) ∨ (m = .steel ∧ K = .control)) ∧ 321056 / 100000 ≤ v ∧ v < 604012 / 100000)))))

theorem spot {K : Kind} {m : Ink} {u v : ℝ} (h : Of lowElem K m u v) :
    Spot K m u v (v - (dome u - dome (lowElem.plate / 2))) ∧ |u| ≤ 373634 / 100000 ∧ 0 ≤ v ∧ v < 85 / 10 := by
  have hp := low_eq.1
  have hi : ∀ k : Nat, k < 18 → (k : ℝ) ≤ 17 := fun k hk => by exact_mod_cast (by omega : k ≤ 17)
  have hplate : ∀ k, HasPlate K k → k < 18 := by
    intro k hk
    cases K
    · exact hk.elim
    · exact hk
    · rcases hk with hk | hk <;> omega
    · rcases hk with hk | hk <;> omega
  have plate : ∀ k, HasPlate K k → Plate lowElem k u v → (-(lowElem.plate / 2) ≤ u ∧ u < lowElem.plate / 2) ∧
      19558 / 100000 + k * (44958 / 100000) ≤ v - (dome u - dome (lowElem.plate / 2)) ∧
      v - (dome u - dome (lowElem.plate / 2)) < 19558 / 100000 + k * (44958 / 100000) + 15748 / 100000 ∧
      |u| ≤ 373634 / 100000 ∧ 0 ≤ v ∧ v < 85 / 10 := by
    rintro k hk ⟨h1, h2, h3, h4⟩
    rw [foot_eq] at h3
    rw [foot_eq, thickness] at h4
    obtain ⟨b1, b2⟩ := bulge (abs_le.2 ⟨h1, h2.le⟩)
    have := hi k (hplate k hk)
    have hk0 : (0 : ℝ) ≤ k := Nat.cast_nonneg k
    unfold inches at b2
    rw [hp] at h1 h2
    exact ⟨⟨by rw [hp]; exact h1, by rw [hp]; exact h2⟩, h3, h4, abs_le.2 ⟨by linarith, by linarith⟩, by linarith, by linarith⟩
  have rod : RodShape lowElem u v → (-(lowElem.plate / 2) ≤ u ∧ u < lowElem.plate / 2) ∧ 215138 / 100000 ≤ v - (dome u - dome (lowElem.plate / 2)) ∧
      v - (dome u - dome (lowElem.plate / 2)) < 648970 / 100000 ∧ 321056 / 100000 ≤ v ∧ v < 604012 / 100000 ∧ |u| ≤ 373634 / 100000 := by
    rintro ⟨h1, h2, h3, h4, -⟩
    rw [foot_eq, foot_eq] at h3 h4
    unfold inches at h3 h4
    push_cast at h3 h4
    have hu : |u| ≤ lowElem.plate / 2 := by rw [hp]; exact abs_le.2 ⟨by linarith, by linarith⟩
    obtain ⟨b1, b2⟩ := bulge hu
    unfold inches at b2
    refine ⟨⟨by rw [hp]; linarith, by rw [hp]; linarith⟩, by linarith, by linarith, by linarith, by linarith, abs_le.2 ⟨by linarith, by linarith⟩⟩
  rcases h with ⟨rfl, h | ⟨k, hk, h1, h2⟩ | ⟨hK, h1, h2, h3⟩⟩ | ⟨rfl, k, hk, h1⟩ | ⟨rfl, rfl, h1⟩ | ⟨rfl, rfl, h1⟩
  · obtain ⟨h1, h2, h3⟩ := h
    rw [low_eq.2.1] at h2 h3
    unfold inches at h1 h2 h3
    refine ⟨Or.inl ⟨rfl, ?_⟩, ?_, by linarith, by linarith⟩
    · rcases h1 with h1 | h1
      · exact Or.inl h1.2
      · exact Or.inr h1.1
    · rw [hp] at h1
      rcases h1 with h1 | h1 <;> exact abs_le.2 ⟨by linarith, by linarith⟩
  · obtain ⟨q1, q2, q3, q4⟩ := plate k hk h1
    exact ⟨Or.inr ⟨q1, Or.inl ⟨k, hk, q2, q3, Or.inl ⟨rfl, h2⟩⟩⟩, q4⟩
  · obtain ⟨b1, b2⟩ := bulge (abs_le.2 ⟨h1, h2.le⟩)
    rw [foot_eq, foot_eq] at h3
    unfold inches at b2 h3
    push_cast at h3
    refine ⟨Or.inr ⟨⟨h1, h2⟩, Or.inr ⟨hK, ?_, ?_, Or.inl ⟨rfl, ?_⟩⟩⟩, ?_, ?_, ?_⟩
    · rcases h3 with h3 | h3 <;> linarith
    · rcases h3 with h3 | h3 <;> linarith
    · rcases h3 with h3 | h3
      · left; linarith
      · right; linarith
    · rw [hp] at h1 h2
      exact abs_le.2 ⟨by linarith, by linarith⟩
    · rcases h3 with h3 | h3 <;> linarith
    · rcases h3 with h3 | h3 <;> linarith
  · obtain ⟨q1, q2, q3, q4⟩ := plate k hk (meat_plate (Or.inl rfl) h1)
    exact ⟨Or.inr ⟨q1, Or.inl ⟨k, hk, q2, q3, Or.inr ⟨rfl, h1⟩⟩⟩, q4⟩
  · obtain ⟨q1, q2, q3, q4, q5, q6⟩ := rod h1
    exact ⟨Or.inr ⟨q1, Or.inr ⟨Or.inl rfl, q2, q3, Or.inr ⟨Or.inl ⟨rfl, rfl⟩, q4, q5⟩⟩⟩, q6, by linarith, by linarith⟩
  · obtain ⟨q1, q2, q3, q4, q5, q6⟩ := rod h1
    exact ⟨Or.inr ⟨q1, Or.inr ⟨Or.inr rfl, q2, q3, Or.inr ⟨Or.inr ⟨rfl, rfl⟩, q4, q5⟩⟩⟩, q6, by linarith, by linarith⟩

theorem kind_bounds {c r : Nat} {K : Kind} (h : kindAt c r = some K) : c < 6 ∧ r < 8 := by
  unfold kindAt at h
  obtain ⟨row, h1, h2⟩ := Option.bind_eq_some_iff.1 h
  have hr : r < 8 := (List.getElem?_eq_some_iff.1 h1).1
  refine ⟨?_, hr⟩
  have hl : ∀ row ∈ figure.reverse, row.length = 6 := by decide
  have := (List.getElem?_eq_some_iff.1 h2).1
  rw [hl row (List.mem_of_getElem? h1)] at this
  exact this

/-- Two things of the core at a point have the same material. -/
theorem once {P : ℝ × ℝ} {m m' : Ink} (h : Somewhere P fun K u v => Of lowElem K m u v) (h' : Somewhere P fun K u v => Of lowElem K m' u v) : m = m' := by
  obtain ⟨c, r, K, hK, h⟩ := h
  obtain ⟨c', r', K', hK', h'⟩ := h'
  obtain ⟨s1, u1, -, -⟩ := spot h
  obtain ⟨s2, u2, -, -⟩ := spot h'
  clear h h'
  have hp := low_eq.1
  have ci : inches (3031 / 1000) = 769874 / 100000 := by unfold inches; norm_num
  have ri : inches (3189 / 1000) = 810006 / 100000 := by unfold inches; norm_num
  have hcc : c = c' := by
    unfold local_ at u1 u2
    rw [ci] at u1 u2
    obtain ⟨a1, a2⟩ := abs_le.1 u1
    obtain ⟨b1, b2⟩ := abs_le.1 u2
    have q1 : (c : ℝ) < c' + 1 := by linarith
    have q2 : (c' : ℝ) < c + 1 := by linarith
    have q1' : c < c' + 1 := by exact_mod_cast q1
    have q2' : c' < c + 1 := by exact_mod_cast q2
    omega
  subst hcc
  have hu : (local_ c r P).1 = (local_ c r' P).1 := rfl
  rw [← hu] at s2
  generalize hx : (local_ c r P).1 = u at s1 s2
  have hv : (local_ c r P).2 = P.2 - (corner.2 + r * (810006 / 100000)) := by unfold local_; rw [ri]
  have hv' : (local_ c r' P).2 = P.2 - (corner.2 + r' * (810006 / 100000)) := by unfold local_; rw [ri]
  rcases s1 with ⟨rfl, s1⟩ | ⟨hm, s1⟩ <;> rcases s2 with ⟨rfl, s2⟩ | ⟨hm', s2⟩
  · rfl
  · rcases s1 with s1 | s1 <;> linarith
  · rcases s2 with s2 | s2 <;> linarith
  have h18 : ∀ {K : Kind} {k : Nat}, HasPlate K k → k < 18 := by
    intro K k hk
    cases K
    · exact hk.elim
    · exact hk
    · rcases hk with hk | hk <;> omega
    · rcases hk with hk | hk <;> omega
  have hi : ∀ k : Nat, k < 18 → (k : ℝ) ≤ 17 ∧ (0 : ℝ) ≤ k := fun k hk => ⟨by exact_mod_cast (by omega : k ≤ 17), Nat.cast_nonneg k⟩
  have hr : r = r' := by
    have band : ∀ {K : Kind} {m : Ink} {v w : ℝ}, ((∃ k : Nat, HasPlate K k ∧ 19558 / 100000 + k * (44958 / 100000) ≤ w ∧
        w < 19558 / 100000 + k * (44958 / 100000) + 15748 / 100000 ∧ ((m = .alu ∧ ¬ Meat lowElem k u v) ∨ (m = .fuel ∧ Meat lowElem k u v))) ∨
        (Rodded K ∧ 215138 / 100000 ≤ w ∧ w < 648970 / 100000 ∧ ((m = .alu ∧ (v < 321056 / 100000 ∨ 604012 / 100000 ≤ v)) ∨
        (((m = .borated ∧ K = .shim) ∨ (m = .steel ∧ K = .control)) ∧ 321056 / 100000 ≤ v ∧ v < 604012 / 100000)))) → 19558 / 100000 ≤ w ∧ w < 8 := by
      intro K m v w h
      rcases h with ⟨k, hk, h1, h2, -⟩ | ⟨-, h1, h2, -⟩
      · obtain ⟨k1, k2⟩ := hi k (h18 hk)
        constructor <;> linarith
      · constructor <;> linarith
    obtain ⟨a1, a2⟩ := band s1
    obtain ⟨b1, b2⟩ := band s2
    rw [hv] at a1 a2
    rw [hv'] at b1 b2
    have q1 : (r : ℝ) < r' + 1 := by linarith
    have q2 : (r' : ℝ) < r + 1 := by linarith
    have q1' : r < r' + 1 := by exact_mod_cast q1
    have q2' : r' < r + 1 := by exact_mod_cast q2
    omega
  subst hr
  rw [hK] at hK'
  obtain rfl := Option.some.inj hK'
  generalize hvv : (local_ c r P).2 = v at s1 s2
  generalize hw : v - (dome u - dome (lowElem.plate / 2)) = w at s1 s2
  have mixed : ∀ k : Nat, HasPlate K k → 19558 / 100000 + k * (44958 / 100000) ≤ w → w < 19558 / 100000 + k * (44958 / 100000) + 15748 / 100000 →
      Rodded K → 215138 / 100000 ≤ w → w < 648970 / 100000 → False := by
    intro k hk h1 h2 hR h3 h4
    have : k < 5 ∨ 14 ≤ k ∧ k < 18 := by
      rcases hR with rfl | rfl <;> exact hk
    rcases this with hk | hk
    · have : (k : ℝ) ≤ 4 := by exact_mod_cast (by omega : k ≤ 4)
      linarith
    · have : (14 : ℝ) ≤ k := by exact_mod_cast hk.1
      linarith
  rcases s1 with ⟨k, hk, h1, h2, h3⟩ | ⟨hR, h1, h2, h3⟩ <;> rcases s2 with ⟨k', hk', g1, g2, g3⟩ | ⟨hR', g1, g2, g3⟩
  · have hkk : k = k' := by
      have q1 : (k : ℝ) < k' + 1 := by linarith
      have q2 : (k' : ℝ) < k + 1 := by linarith
      have q1' : k < k' + 1 := by exact_mod_cast q1
      have q2' : k' < k + 1 := by exact_mod_cast q2
      omega
    subst hkk
    rcases h3 with ⟨rfl, h3⟩ | ⟨rfl, h3⟩ <;> rcases g3 with ⟨rfl, g3⟩ | ⟨rfl, g3⟩
    · rfl
    · exact absurd g3 h3
    · exact absurd h3 g3
    · rfl
  · exact (mixed k hk h1 h2 hR' g1 g2).elim
  · exact (mixed k' hk' g1 g2 hR h1 h2).elim
  · rcases h3 with ⟨rfl, h3⟩ | ⟨hh, h3⟩ <;> rcases g3 with ⟨rfl, g3⟩ | ⟨gg, g3⟩
    · rfl
    · rcases h3 with h3 | h3 <;> linarith
    · rcases g3 with g3 | g3 <;> linarith
    · rcases hh with ⟨rfl, rfl⟩ | ⟨rfl, rfl⟩ <;> rcases gg with ⟨rfl, hc⟩ | ⟨rfl, hc⟩
      · rfl
      · cases hc
      · cases hc
      · rfl

/-- The core is within its bounds and left of the tank. -/
theorem core_bounds {P : ℝ × ℝ} {m : Ink} (h : Somewhere P fun K u v => Of lowElem K m u v) :
    corner.1 ≤ P.1 ∧ P.1 < corner.1 + 6 * inches (3031 / 1000) ∧ corner.2 ≤ P.2 ∧ P.2 < corner.2 + 66 := by
  obtain ⟨c, r, K, hK, h⟩ := h
  obtain ⟨-, u1, v1, v2⟩ := spot h
  obtain ⟨hc, hr⟩ := kind_bounds hK
  have ci : inches (3031 / 1000) = 769874 / 100000 := by unfold inches; norm_num
  have ri : inches (3189 / 1000) = 810006 / 100000 := by unfold inches; norm_num
  unfold local_ at u1 v1 v2
  rw [ci] at u1
  rw [ri] at v1 v2
  have c1 : (c : ℝ) ≤ 5 := by exact_mod_cast (by omega : c ≤ 5)
  have r1 : (r : ℝ) ≤ 7 := by exact_mod_cast (by omega : r ≤ 7)
  have c0 : (0 : ℝ) ≤ c := Nat.cast_nonneg c
  have r0 : (0 : ℝ) ≤ r := Nat.cast_nonneg r
  obtain ⟨a1, a2⟩ := abs_le.1 u1
  dsimp only at a1 a2 v1 v2
  rw [ci]
  refine ⟨by linarith, by linarith, by linarith, by linarith⟩

end Verif.FnrL
