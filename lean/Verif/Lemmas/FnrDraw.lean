import Verif.Lemmas.FnrShapes
import Verif.Lemmas.LatticeText
import Mathlib.Analysis.SpecialFunctions.Trigonometric.Bounds

/-! What the programs for the Ford Nuclear Reactor add to the drawing. -/

namespace Verif.FnrL

open Verif.Fnr Verif.FnrSpec

/-! ### More shapes -/

theorem line_level {a b y : ℝ} (h : a < b) (P : Pt) : ((Curve.line (a, y) (b, y)).above P ↔ (a ≤ P.1 ∧ P.1 < b) ∧ P.2 < y) ∧
    ((Curve.line (b, y) (a, y)).above P ↔ (a ≤ P.1 ∧ P.1 < b) ∧ P.2 < y) := by
  constructor
  · show (min a b ≤ P.1 ∧ P.1 < max a b) ∧ P.2 < y + (P.1 - a) / (b - a) * (y - y) ↔ _
    rw [min_eq_left h.le, max_eq_right h.le, sub_self y, mul_zero, add_zero]
  · show (min b a ≤ P.1 ∧ P.1 < max b a) ∧ P.2 < y + (P.1 - b) / (a - b) * (y - y) ↔ _
    rw [min_eq_right h.le, max_eq_left h.le, sub_self y, mul_zero, add_zero]

theorem rect_in (a b c d : ℝ) (h1 : a < b) (h2 : c < d) (P : Pt) :
    P ∈ inside [.line (a, c) (b, c), .line (b, c) (b, d), .line (b, d) (a, d), .line (a, d) (a, c)] ↔ a ≤ P.1 ∧ P.1 < b ∧ c ≤ P.2 ∧ P.2 < d := by
  rw [inside4, (line_level h1 P).1, (line_level h1 P).2]
  have n1 := line_upright (x := b) (y := c) (y' := d) P
  have n2 := line_upright (x := a) (y := d) (y' := c) P
  constructor
  · intro h
    have h := h.2 (iff_of_false n1 n2)
    by_cases hx : a ≤ P.1 ∧ P.1 < b
    · by_cases hy : P.2 < c
      · exact absurd ⟨hx, by linarith⟩ (h.1 ⟨hx, hy⟩)
      · by_cases hz : P.2 < d
        · exact ⟨hx.1, hx.2, not_lt.1 hy, hz⟩
        · exact absurd (h.2 fun q => hz q.2).2 hy
    · exact absurd (h.2 fun q => hx q.1).1 hx
  · rintro ⟨q1, q2, q3, q4⟩
    exact iff_of_true (iff_of_false (fun q => absurd q.2 (not_lt.2 q3)) (not_not.2 ⟨⟨q1, q2⟩, q4⟩)) (iff_of_false n1 n2)

theorem max_abs (u a : ℝ) : max (-u - a) (u - a) = |u| - a := by
  rcases le_total 0 u with h | h
  · rw [abs_of_nonneg h, max_eq_right (by linarith)]
  · rw [abs_of_nonpos h, max_eq_left (by linarith)]

/-! ### Drawings -/

/-- The vectors of tags. -/
inductive Ink
  | alu
  | heavy
  | fuel
  | borated
  | steel
  deriving DecidableEq

def tagsOf (d : Draw) : Ink → List ℤ
  | .alu => d.clad
  | .heavy => d.heavy
  | .fuel => d.fuel
  | .borated => d.borated
  | .steel => d.steel

/-- All tags belong to surfaces. -/
def Inv (d : Draw) : Prop := ∀ m, ∀ t ∈ tagsOf d m, 1 ≤ t ∧ t ≤ d.surfs.length

/-- The point is in a surface with a tag of the vector. -/
def Has (d : Draw) (m : Ink) (P : Pt) : Prop := ∃ t ∈ tagsOf d m, P ∈ shapeOf d t

/-- The function adds the points `N`. -/
def Adds (f : Draw → Draw) (N : Ink → Pt → Prop) : Prop := ∀ d, Inv d → Inv (f d) ∧ ∀ m P, Has (f d) m P ↔ Has d m P ∨ N m P

theorem Adds.comp {f g : Draw → Draw} {N N' : Ink → Pt → Prop} (hf : Adds f N) (hg : Adds g N') : Adds (fun d => g (f d)) fun m P => N m P ∨ N' m P := by
  intro d hd
  have h1 := hf d hd
  have h2 := hg _ h1.1
  exact ⟨h2.1, fun m P => by rw [h2.2, h1.2, or_assoc]⟩

theorem Adds.congr {f : Draw → Draw} {N N' : Ink → Pt → Prop} (hf : Adds f N) (h : ∀ m P, N m P ↔ N' m P) : Adds f N' := by
  intro d hd
  exact ⟨(hf d hd).1, fun m P => by rw [(hf d hd).2, h]⟩

theorem Adds.id : Adds (fun d => d) fun _ _ => False := fun d hd => ⟨hd, fun m P => by simp⟩

theorem Adds.foldl {α : Type} {g : Draw → α → Draw} {N : α → Ink → Pt → Prop} (l : List α) (h : ∀ x ∈ l, Adds (fun d => g d x) (N x)) :
    Adds (fun d => l.foldl g d) fun m P => ∃ x ∈ l, N x m P := by
  induction l with
  | nil => exact Adds.id.congr fun m P => by simp
  | cons x l ih =>
    refine ((h x List.mem_cons_self).comp (ih fun y hy => h y (List.mem_cons_of_mem _ hy))).congr fun m P => ?_
    simp

/-- A surface with its tag in a vector. -/
def put (d : Draw) (S : Set Pt) : Ink → Draw
  | .alu => { d with surfs := d.surfs ++ [S], clad := d.clad ++ [(d.surfs.length : ℤ) + 1] }
  | .heavy => { d with surfs := d.surfs ++ [S], heavy := d.heavy ++ [(d.surfs.length : ℤ) + 1] }
  | .fuel => { d with surfs := d.surfs ++ [S], fuel := d.fuel ++ [(d.surfs.length : ℤ) + 1] }
  | .borated => { d with surfs := d.surfs ++ [S], borated := d.borated ++ [(d.surfs.length : ℤ) + 1] }
  | .steel => { d with surfs := d.surfs ++ [S], steel := d.steel ++ [(d.surfs.length : ℤ) + 1] }

theorem put_surfs (d : Draw) (S : Set Pt) (m : Ink) : (put d S m).surfs = d.surfs ++ [S] := by cases m <;> rfl

theorem put_tags (d : Draw) (S : Set Pt) (m m' : Ink) (t : ℤ) : t ∈ tagsOf (put d S m) m' ↔ t ∈ tagsOf d m' ∨ (m' = m ∧ t = d.surfs.length + 1) := by
  cases m <;> cases m' <;> simp [put, tagsOf]

theorem shape_put (d : Draw) (S : Set Pt) (m : Ink) (t : ℤ) (ht : 1 ≤ t ∧ t ≤ d.surfs.length) : shapeOf (put d S m) t = shapeOf d t := by
  unfold shapeOf
  rw [put_surfs, List.getElem?_append_left (by omega)]

theorem shape_new (d : Draw) (S : Set Pt) (m : Ink) : shapeOf (put d S m) (d.surfs.length + 1) = S := by
  ext P
  unfold shapeOf
  rw [put_surfs, show ((d.surfs.length : ℤ) + 1 - 1).toNat = d.surfs.length from by omega, List.getElem?_append_right (le_refl _), Nat.sub_self]
  constructor
  · rintro ⟨-, S', h, hP⟩
    rw [List.getElem?_cons_zero] at h
    rw [Option.some.inj h]
    exact hP
  · intro hP
    exact ⟨by omega, S, rfl, hP⟩

theorem put_adds (S : Set Pt) (m : Ink) : Adds (fun d => put d S m) fun m' P => m' = m ∧ P ∈ S := by
  intro d hd
  constructor
  · intro m' t ht
    rw [put_surfs, List.length_append, List.length_singleton]
    rcases (put_tags d S m m' t).1 ht with h | ⟨-, rfl⟩
    · have := hd m' t h; constructor <;> push_cast <;> omega
    · constructor <;> push_cast <;> omega
  · intro m' P
    unfold Has
    constructor
    · rintro ⟨t, ht, hP⟩
      rcases (put_tags d S m m' t).1 ht with h | ⟨rfl, rfl⟩
      · rw [shape_put d S m t (hd m' t h)] at hP
        exact Or.inl ⟨t, h, hP⟩
      · rw [shape_new] at hP
        exact Or.inr ⟨rfl, hP⟩
    · rintro (⟨t, ht, hP⟩ | ⟨rfl, hP⟩)
      · refine ⟨t, (put_tags d S m m' t).2 (Or.inl ht), ?_⟩
        rw [shape_put d S m t (hd m' t ht)]
        exact hP
      · refine ⟨_, (put_tags d S m' m' _).2 (Or.inr ⟨rfl, rfl⟩), ?_⟩
        rw [shape_new]
        exact hP

/-! ### The elements -/

/-- The element of the specification. -/
def elemOf (q : Sizes) : Elem := ⟨q.plateToPlate, q.sideWidth, q.meatThickness, q.cladThickness⟩

theorem elem_leu : elemOf leu = lowElem := rfl

theorem elem_heu : elemOf heu = highElem := rfl

/-- What is needed of the sizes. -/
structure Fine (q : Sizes) : Prop where
  width : q.meatWidth = inches (24 / 10)
  plate : 0 < q.plateToPlate ∧ q.plateToPlate / 2 ≤ R
  meat : 0 < q.meatThickness ∧ q.meatThickness ≤ R
  clad : 0 ≤ q.cladThickness

theorem fine_leu : Fine leu := by
  constructor
  · rfl
  · constructor <;> (unfold leu inch; try unfold R inches) <;> norm_num
  · constructor <;> (unfold leu inch; try unfold R inches) <;> norm_num
  · unfold leu inch; norm_num

theorem fine_heu : Fine heu := by
  constructor
  · rfl
  · constructor <;> (unfold heu inch; try unfold R inches) <;> norm_num
  · constructor <;> (unfold heu inch; try unfold R inches) <;> norm_num
  · unfold heu inch; norm_num

theorem α_eq : α = 12 / 55 := by unfold α R inches; norm_num

theorem sin_pos : 0 < Real.sin α := Real.sin_pos_of_pos_of_lt_pi (by rw [α_eq]; norm_num) (by rw [α_eq]; linarith [Real.two_le_pi])

theorem sin_le : Real.sin α ≤ 12 / 55 := by have := Real.sin_le (x := α) (by rw [α_eq]; norm_num); rwa [α_eq] at this ⊢

theorem cos_ge : 976 / 1000 ≤ Real.cos α := by
  have := Real.one_sub_sq_div_two_le_cos (x := α)
  rw [α_eq] at this ⊢
  norm_num at this ⊢
  linarith

theorem cos_le : Real.cos α ≤ 9764 / 10000 := by
  have := Real.cos_bound (x := α) (by rw [α_eq]; norm_num [abs_of_pos])
  rw [α_eq, abs_of_pos (by norm_num : (0 : ℝ) < 12 / 55)] at this
  have := (abs_le.1 this).2
  rw [α_eq]
  norm_num at this ⊢
  linarith

theorem cos_pos : 0 < Real.cos α := by linarith [cos_ge]

theorem plate_loop (q : Sizes) (hq : Fine q) (x0 y0 : ℝ) (P : Pt) : P ∈ inside (plateLoops q x0 y0).1 ↔
    -(q.plateToPlate / 2) ≤ P.1 - (x0 + q.plateToPlate / 2) ∧ P.1 - (x0 + q.plateToPlate / 2) < q.plateToPlate / 2 ∧
    y0 ≤ P.2 - (dome (P.1 - (x0 + q.plateToPlate / 2)) - dome (q.plateToPlate / 2)) ∧
    P.2 - (dome (P.1 - (x0 + q.plateToPlate / 2)) - dome (q.plateToPlate / 2)) < y0 + (q.meatThickness + 2 * q.cladThickness) :=
  plate_in x0 y0 q.plateToPlate _ hq.plate.1 hq.plate.2 (by linarith [hq.meat.1, hq.clad]) P

theorem meat_loop (q : Sizes) (hq : Fine q) (x0 y0 : ℝ) (P : Pt) : P ∈ inside (plateLoops q x0 y0).2 ↔
    |P.1 - (x0 + q.plateToPlate / 2)| * Real.cos α ≤ (P.2 - (y0 + (q.meatThickness + 2 * q.cladThickness) / 2 - dome (q.plateToPlate / 2))) * Real.sin α ∧
    arcThrough (R - q.meatThickness / 2) (P.1 - (x0 + q.plateToPlate / 2)) ≤ P.2 - (y0 + (q.meatThickness + 2 * q.cladThickness) / 2 - dome (q.plateToPlate / 2)) ∧
    P.2 - (y0 + (q.meatThickness + 2 * q.cladThickness) / 2 - dome (q.plateToPlate / 2)) <
      arcThrough (R + q.meatThickness / 2) (P.1 - (x0 + q.plateToPlate / 2)) := by
  have h := meat_in (x0 + q.plateToPlate / 2) (y0 + (q.meatThickness + 2 * q.cladThickness) / 2 - dome (q.plateToPlate / 2)) (R - q.meatThickness / 2)
    (R + q.meatThickness / 2) (Real.sin α) (Real.cos α) sin_pos cos_pos (by linarith [hq.meat.1, hq.meat.2]) (by linarith [hq.meat.1]) (by
      have h1 := sin_le
      have h2 := hq.meat
      have h3 := R_pos
      have := mul_le_mul_of_nonneg_left h1 (by linarith : (0 : ℝ) ≤ R + q.meatThickness / 2)
      linarith) P
  rw [show arcThrough = arcHeight (Real.sin α) (Real.cos α) from rfl, ← h]
  unfold plateLoops
  dsimp only
  rw [center_eq (by linarith [hq.plate.1]), center_eq (by linarith [hq.plate.1]), hq.width, curvature_eq]
  have e0 : inches (24 / 10) / R / 2 = α := rfl
  rw [e0]
  have e1 : (x0 + q.plateToPlate - x0) / 2 = q.plateToPlate / 2 := by ring
  have e2 : (x0 + (x0 + q.plateToPlate)) / 2 = x0 + q.plateToPlate / 2 := by ring
  rw [e1, e2]
  have e3 : ((x0 + q.plateToPlate / 2) + (x0 + q.plateToPlate / 2)) / 2 = x0 + q.plateToPlate / 2 := by ring
  have e4 : (y0 - dome (q.plateToPlate / 2) + (y0 + (q.meatThickness + 2 * q.cladThickness) - dome (q.plateToPlate / 2))) / 2 =
      y0 + (q.meatThickness + 2 * q.cladThickness) / 2 - dome (q.plateToPlate / 2) := by ring
  dsimp only
  rw [e3, e4, neg_neg]
  simp only [mul_neg, ← sub_eq_add_neg]

theorem addPlate_adds (q : Sizes) (hq : Fine q) (x0 y0 : ℝ) (k : Nat) : Adds (fun d => addPlate q x0 y0 d k) fun m P =>
    (m = .alu ∧ Plate (elemOf q) k (P.1 - (x0 + xPitch / 2)) (P.2 - y0) ∧ ¬ Meat (elemOf q) k (P.1 - (x0 + xPitch / 2)) (P.2 - y0)) ∨
    (m = .fuel ∧ Meat (elemOf q) k (P.1 - (x0 + xPitch / 2)) (P.2 - y0)) := by
  have e : (fun d => addPlate q x0 y0 d k) = fun d => put (put d
      (inside (plateLoops q (x0 + sideThickness + xShift q) (y0 + k * unitCell + waterGap / 2 + yShift q)).1 \
        inside (plateLoops q (x0 + sideThickness + xShift q) (y0 + k * unitCell + waterGap / 2 + yShift q)).2) .alu)
      (inside (plateLoops q (x0 + sideThickness + xShift q) (y0 + k * unitCell + waterGap / 2 + yShift q)).2) .fuel := rfl
  rw [e]
  refine ((put_adds _ .alu).comp (put_adds _ .fuel)).congr fun m P => ?_
  have e1 : x0 + sideThickness + xShift q + q.plateToPlate / 2 = x0 + xPitch / 2 := by unfold xShift; ring
  have e2 : y0 + k * unitCell + waterGap / 2 + yShift q = y0 + foot (elemOf q) k := by
    unfold yShift foot elemOf unitCell waterGap yPitch inches inch; ring
  have h1 : P ∈ inside (plateLoops q (x0 + sideThickness + xShift q) (y0 + k * unitCell + waterGap / 2 + yShift q)).1 ↔
      Plate (elemOf q) k (P.1 - (x0 + xPitch / 2)) (P.2 - y0) := by
    rw [plate_loop q hq, e1, e2]
    refine and_congr Iff.rfl (and_congr Iff.rfl (and_congr ?_ ?_))
    · exact ⟨fun h => by show foot (elemOf q) k ≤ P.2 - y0 - (dome _ - dome (q.plateToPlate / 2)); linarith,
        fun h => by change foot (elemOf q) k ≤ P.2 - y0 - (dome _ - dome (q.plateToPlate / 2)) at h; linarith⟩
    · exact ⟨fun h => by
          show P.2 - y0 - (dome _ - dome (q.plateToPlate / 2)) < foot (elemOf q) k + (q.meatThickness + 2 * q.cladThickness); linarith,
        fun h => by
          change P.2 - y0 - (dome _ - dome (q.plateToPlate / 2)) < foot (elemOf q) k + (q.meatThickness + 2 * q.cladThickness) at h; linarith⟩
  have h2 : P ∈ inside (plateLoops q (x0 + sideThickness + xShift q) (y0 + k * unitCell + waterGap / 2 + yShift q)).2 ↔
      Meat (elemOf q) k (P.1 - (x0 + xPitch / 2)) (P.2 - y0) := by
    rw [meat_loop q hq, e1, e2]
    have e3 : P.2 - (y0 + foot (elemOf q) k + (q.meatThickness + 2 * q.cladThickness) / 2 - dome (q.plateToPlate / 2)) = P.2 - y0 - hub (elemOf q) k := by
      show _ = P.2 - y0 - (foot (elemOf q) k + (q.meatThickness + 2 * q.cladThickness) / 2 - dome (q.plateToPlate / 2))
      ring
    rw [e3]
    rfl
  rw [Set.mem_sdiff, h1, h2]

theorem addSides_adds (q : Sizes) (x0 y0 : ℝ) : Adds (addSides q x0 y0) fun m P => m = .alu ∧ Sides (elemOf q) (P.1 - (x0 + xPitch / 2)) (P.2 - y0) := by
  refine ((put_adds (rectangle (x0 + xShift q) (y0 + yShift q) sideThickness q.sideWidth) .alu).comp
    (put_adds (rectangle (x0 + q.plateToPlate + sideThickness + xShift q) (y0 + yShift q) sideThickness q.sideWidth) .alu)).congr fun m P => ?_
  rw [← and_or_left]
  refine and_congr_right fun _ => ?_
  show (x0 + xShift q ≤ P.1 ∧ P.1 < x0 + xShift q + sideThickness ∧ y0 + yShift q ≤ P.2 ∧ P.2 < y0 + yShift q + q.sideWidth) ∨
    (x0 + q.plateToPlate + sideThickness + xShift q ≤ P.1 ∧ P.1 < x0 + q.plateToPlate + sideThickness + xShift q + sideThickness ∧
      y0 + yShift q ≤ P.2 ∧ P.2 < y0 + yShift q + q.sideWidth) ↔
    ((-(q.plateToPlate / 2) - sideThickness ≤ P.1 - (x0 + xPitch / 2) ∧ P.1 - (x0 + xPitch / 2) < -(q.plateToPlate / 2)) ∨
      (q.plateToPlate / 2 ≤ P.1 - (x0 + xPitch / 2) ∧ P.1 - (x0 + xPitch / 2) < q.plateToPlate / 2 + sideThickness)) ∧
    (yPitch - q.sideWidth) / 2 ≤ P.2 - y0 ∧ P.2 - y0 < (yPitch + q.sideWidth) / 2
  unfold xShift yShift
  constructor
  · rintro (⟨a, b, c, d⟩ | ⟨a, b, c, d⟩)
    · exact ⟨Or.inl ⟨by linarith, by linarith⟩, by linarith, by linarith⟩
    · exact ⟨Or.inr ⟨by linarith, by linarith⟩, by linarith, by linarith⟩
  · rintro ⟨⟨a, b⟩ | ⟨a, b⟩, c, d⟩
    · exact Or.inl ⟨by linarith, by linarith, by linarith, by linarith⟩
    · exact Or.inr ⟨by linarith, by linarith, by linarith, by linarith⟩

/-- The points of an element. -/
def Of (E : Elem) (K : Kind) (m : Ink) (u v : ℝ) : Prop :=
  (m = .alu ∧ (Sides E u v ∨ (∃ k, HasPlate K k ∧ Plate E k u v ∧ ¬ Meat E k u v) ∨ (Rodded K ∧ Guides E u v))) ∨
  (m = .fuel ∧ ∃ k, HasPlate K k ∧ Meat E k u v) ∨ (m = .borated ∧ K = .shim ∧ RodShape E u v) ∨ (m = .steel ∧ K = .control ∧ RodShape E u v)

theorem empty_adds (q : Sizes) (x0 y0 : ℝ) : Adds (makeEmpty q x0 y0) fun m P => Of (elemOf q) .empty m (P.1 - (x0 + xPitch / 2)) (P.2 - y0) := by
  refine (addSides_adds q x0 y0).congr fun m P => ?_
  constructor
  · exact fun h => Or.inl ⟨h.1, Or.inl h.2⟩
  · rintro (⟨h, h1 | ⟨k, h1, -⟩ | ⟨h1 | h1, -⟩⟩ | ⟨-, k, h, -⟩ | ⟨-, h, -⟩ | ⟨-, h, -⟩)
    · exact ⟨h, h1⟩
    · exact h1.elim
    · cases h1
    · cases h1
    · exact h.elim
    · cases h
    · cases h

theorem regular_adds (q : Sizes) (hq : Fine q) (x0 y0 : ℝ) :
    Adds (makeRegular q x0 y0) fun m P => Of (elemOf q) .regular m (P.1 - (x0 + xPitch / 2)) (P.2 - y0) := by
  refine ((Adds.foldl (List.range 18) fun k _ => addPlate_adds q hq x0 y0 k).comp (addSides_adds q x0 y0)).congr fun m P => ?_
  constructor
  · rintro (⟨k, hk, ⟨h, h1, h2⟩ | ⟨h, h1⟩⟩ | ⟨h, h1⟩)
    · exact Or.inl ⟨h, Or.inr (Or.inl ⟨k, List.mem_range.1 hk, h1, h2⟩)⟩
    · exact Or.inr (Or.inl ⟨h, k, List.mem_range.1 hk, h1⟩)
    · exact Or.inl ⟨h, Or.inl h1⟩
  · rintro (⟨h, h1 | ⟨k, hk, h1, h2⟩ | ⟨h1 | h1, -⟩⟩ | ⟨h, k, hk, h1⟩ | ⟨-, h, -⟩ | ⟨-, h, -⟩)
    · exact Or.inr ⟨h, h1⟩
    · exact Or.inl ⟨k, List.mem_range.2 hk, Or.inl ⟨h, h1, h2⟩⟩
    · cases h1
    · cases h1
    · exact Or.inl ⟨k, List.mem_range.2 hk, Or.inr ⟨h, h1⟩⟩
    · cases h
    · cases h

/-- The vector of a rod. -/
def inkOf : Rod → Ink
  | .borated => .borated
  | .steel => .steel

theorem rod_adds (x0 y0 : ℝ) (rod : Rod) : Adds (makeRod x0 y0 rod) fun m P => m = inkOf rod ∧ RodAt (P.1 - x0) (P.2 - y0) := by
  have e : makeRod x0 y0 rod = fun d => put d (rounded (x0 - 5668 / 1000 / 2) (y0 - 2198 / 1000 / 2) (5668 / 1000) (2198 / 1000)
      (2198 / 1000 / 2 * (999 / 1000))) (inkOf rod) := by
    cases rod <;> rfl
  rw [e]
  refine (put_adds _ _).congr fun m P => and_congr_right fun _ => ?_
  unfold rounded RodAt rectangle ρ
  have m1 := max_abs (P.1 - x0) (2834 / 1000 - 1099 / 1000 * (999 / 1000))
  have m2 := max_abs (P.2 - y0) (1099 / 1000 - 1099 / 1000 * (999 / 1000))
  have r0 : (2198 / 1000 / 2 * (999 / 1000) : ℝ) = 1099 / 1000 * (999 / 1000) := by norm_num
  have q1 : x0 - 5668 / 1000 / 2 + 1099 / 1000 * (999 / 1000) - P.1 = -(P.1 - x0) - (2834 / 1000 - 1099 / 1000 * (999 / 1000)) := by ring
  have q2 : P.1 - (x0 - 5668 / 1000 / 2 + 5668 / 1000 - 1099 / 1000 * (999 / 1000)) = P.1 - x0 - (2834 / 1000 - 1099 / 1000 * (999 / 1000)) := by ring
  have q3 : y0 - 2198 / 1000 / 2 + 1099 / 1000 * (999 / 1000) - P.2 = -(P.2 - y0) - (1099 / 1000 - 1099 / 1000 * (999 / 1000)) := by ring
  have q4 : P.2 - (y0 - 2198 / 1000 / 2 + 2198 / 1000 - 1099 / 1000 * (999 / 1000)) = P.2 - y0 - (1099 / 1000 - 1099 / 1000 * (999 / 1000)) := by ring
  rw [r0, Set.mem_ofPred_eq, Set.mem_ofPred_eq, q1, q2, q3, q4, m1, m2]
  constructor
  · rintro ⟨⟨a, b, c, d⟩, h⟩
    exact ⟨by linarith, by linarith, by linarith, by linarith, h⟩
  · rintro ⟨a, b, c, d, h⟩
    exact ⟨⟨by linarith, by linarith, by linarith, by linarith⟩, h⟩

/-- The element of a rod. -/
def kindOf : Rod → Kind
  | .borated => .shim
  | .steel => .control

theorem addClad_eq (d : Draw) (S : Set Pt) : addClad d S = put d S .alu := rfl

theorem special_adds (x0 y0 : ℝ) (rod : Rod) :
    Adds (makeSpecial leu x0 y0 rod) fun m P => Of lowElem (kindOf rod) m (P.1 - (x0 + xPitch / 2)) (P.2 - y0) := by
  have hrest : ∀ k, k ∈ (List.range 18).drop 14 ↔ 14 ≤ k ∧ k < 18 := by
    intro k
    have : (List.range 18).drop 14 = [14, 15, 16, 17] := by decide
    rw [this]
    simp only [List.mem_cons, List.not_mem_nil, or_false]
    omega
  have e : makeSpecial leu x0 y0 rod = fun d => makeRod (x0 + sideThickness + xShift leu + 2564 / 1000 * inch / 2)
      ((y0 + 6 * unitCell + waterGap / 2 + yShift leu + 125 / 1000 * inch + (y0 + 13 * unitCell + waterGap / 2 + yShift leu)) / 2) rod
      (put (put (addSides leu x0 y0 (((List.range 18).drop 14).foldl (addPlate leu x0 y0) ((List.range 5).foldl (addPlate leu x0 y0) d)))
        (rectangle (x0 + sideThickness + xShift leu) (y0 + 6 * unitCell + waterGap / 2 + yShift leu) (2564 / 1000 * inch) (125 / 1000 * inch)) .alu)
        (rectangle (x0 + sideThickness + xShift leu) (y0 + 13 * unitCell + waterGap / 2 + yShift leu) (2564 / 1000 * inch) (125 / 1000 * inch)) .alu) := by
    funext d
    unfold makeSpecial
    dsimp only
    rw [addClad_eq, addClad_eq]
  rw [e]
  refine ((((((Adds.foldl (List.range 5) fun k _ => addPlate_adds leu fine_leu x0 y0 k).comp
    (Adds.foldl ((List.range 18).drop 14) fun k _ => addPlate_adds leu fine_leu x0 y0 k)).comp (addSides_adds leu x0 y0)).comp
    (put_adds (rectangle (x0 + sideThickness + xShift leu) (y0 + 6 * unitCell + waterGap / 2 + yShift leu) (2564 / 1000 * inch) (125 / 1000 * inch)) .alu)).comp
    (put_adds (rectangle (x0 + sideThickness + xShift leu) (y0 + 13 * unitCell + waterGap / 2 + yShift leu) (2564 / 1000 * inch) (125 / 1000 * inch)) .alu)).comp
    (rod_adds (x0 + sideThickness + xShift leu + 2564 / 1000 * inch / 2) ((y0 + 6 * unitCell + waterGap / 2 + yShift leu + 125 / 1000 * inch +
      (y0 + 13 * unitCell + waterGap / 2 + yShift leu)) / 2) rod)).congr fun m P => ?_
  rw [elem_leu]
  have e1 : x0 + sideThickness + xShift leu + 2564 / 1000 * inch / 2 = x0 + xPitch / 2 := by
    unfold xShift leu; ring
  have f6 : y0 + 6 * unitCell + waterGap / 2 + yShift leu = y0 + foot lowElem 6 := by
    unfold yShift foot lowElem leu unitCell waterGap yPitch inches inch; push_cast; ring
  have f13 : y0 + 13 * unitCell + waterGap / 2 + yShift leu = y0 + foot lowElem 13 := by
    unfold yShift foot lowElem leu unitCell waterGap yPitch inches inch; push_cast; ring
  have hx : x0 + sideThickness + xShift leu = x0 + xPitch / 2 - lowElem.plate / 2 := by
    rw [← e1]
    have : lowElem.plate = 2564 / 1000 * inch := rfl
    rw [this]; ring
  have hw : 2564 / 1000 * inch = lowElem.plate := rfl
  have ht : 125 / 1000 * inch = inches (125 / 1000) := rfl
  have g1 : (P ∈ rectangle (x0 + sideThickness + xShift leu) (y0 + 6 * unitCell + waterGap / 2 + yShift leu) (2564 / 1000 * inch) (125 / 1000 * inch) ∨
      P ∈ rectangle (x0 + sideThickness + xShift leu) (y0 + 13 * unitCell + waterGap / 2 + yShift leu) (2564 / 1000 * inch) (125 / 1000 * inch)) ↔
      Guides lowElem (P.1 - (x0 + xPitch / 2)) (P.2 - y0) := by
    rw [f6, f13, hx, hw, ht]
    unfold rectangle Guides
    rw [Set.mem_ofPred_eq, Set.mem_ofPred_eq]
    constructor
    · rintro (⟨a, b, c, d⟩ | ⟨a, b, c, d⟩)
      · exact ⟨by linarith, by linarith, Or.inl ⟨by linarith, by linarith⟩⟩
      · exact ⟨by linarith, by linarith, Or.inr ⟨by linarith, by linarith⟩⟩
    · rintro ⟨a, b, ⟨c, d⟩ | ⟨c, d⟩⟩
      · exact Or.inl ⟨by linarith, by linarith, by linarith, by linarith⟩
      · exact Or.inr ⟨by linarith, by linarith, by linarith, by linarith⟩
  have g2 : RodAt (P.1 - (x0 + sideThickness + xShift leu + 2564 / 1000 * inch / 2)) (P.2 - (y0 + 6 * unitCell + waterGap / 2 + yShift leu + 125 / 1000 * inch +
      (y0 + 13 * unitCell + waterGap / 2 + yShift leu)) / 2) ↔ RodShape lowElem (P.1 - (x0 + xPitch / 2)) (P.2 - y0) := by
    rw [e1, f6, f13, ht]
    unfold RodShape
    rw [show P.2 - (y0 + foot lowElem 6 + inches (125 / 1000) + (y0 + foot lowElem 13)) / 2 =
      P.2 - y0 - (foot lowElem 6 + inches (125 / 1000) + foot lowElem 13) / 2 from by ring]
  have hplate : ∀ k, HasPlate (kindOf rod) k ↔ k < 5 ∨ 14 ≤ k ∧ k < 18 := by cases rod <;> exact fun k => Iff.rfl
  have hrodded : Rodded (kindOf rod) := by cases rod <;> first | exact Or.inl rfl | exact Or.inr rfl
  rw [g2]
  constructor
  · rintro (((((⟨k, hk, h⟩ | ⟨k, hk, h⟩) | ⟨h, h1⟩) | ⟨h, h1⟩) | ⟨h, h1⟩) | ⟨h, h1⟩)
    · have hk := (hplate k).2 (Or.inl (List.mem_range.1 hk))
      rcases h with ⟨h, h1, h2⟩ | ⟨h, h1⟩
      · exact Or.inl ⟨h, Or.inr (Or.inl ⟨k, hk, h1, h2⟩)⟩
      · exact Or.inr (Or.inl ⟨h, k, hk, h1⟩)
    · have hk := (hplate k).2 (Or.inr ((hrest k).1 hk))
      rcases h with ⟨h, h1, h2⟩ | ⟨h, h1⟩
      · exact Or.inl ⟨h, Or.inr (Or.inl ⟨k, hk, h1, h2⟩)⟩
      · exact Or.inr (Or.inl ⟨h, k, hk, h1⟩)
    · exact Or.inl ⟨h, Or.inl h1⟩
    · exact Or.inl ⟨h, Or.inr (Or.inr ⟨hrodded, g1.1 (Or.inl h1)⟩)⟩
    · exact Or.inl ⟨h, Or.inr (Or.inr ⟨hrodded, g1.1 (Or.inr h1)⟩)⟩
    · cases rod
      · exact Or.inr (Or.inr (Or.inl ⟨h, rfl, h1⟩))
      · exact Or.inr (Or.inr (Or.inr ⟨h, rfl, h1⟩))
  · have hpl : ∀ k, HasPlate (kindOf rod) k → ∀ Q : Nat → Prop, Q k → (∃ x ∈ List.range 5, Q x) ∨ ∃ x ∈ (List.range 18).drop 14, Q x := by
      intro k hk Q hQ
      rcases (hplate k).1 hk with hk | hk
      · exact Or.inl ⟨k, List.mem_range.2 hk, hQ⟩
      · exact Or.inr ⟨k, (hrest k).2 hk, hQ⟩
    rintro (⟨h, h1 | ⟨k, hk, h1, h2⟩ | ⟨-, h1⟩⟩ | ⟨h, k, hk, h1⟩ | ⟨h, hK, h1⟩ | ⟨h, hK, h1⟩)
    · exact Or.inl (Or.inl (Or.inl (Or.inr ⟨h, h1⟩)))
    · exact Or.inl (Or.inl (Or.inl (Or.inl (hpl k hk _ (Or.inl ⟨h, h1, h2⟩)))))
    · rcases g1.2 h1 with h1 | h1
      · exact Or.inl (Or.inl (Or.inr ⟨h, h1⟩))
      · exact Or.inl (Or.inr ⟨h, h1⟩)
    · exact Or.inl (Or.inl (Or.inl (Or.inl (hpl k hk _ (Or.inr ⟨h, h1⟩)))))
    · cases rod
      · exact Or.inr ⟨h, h1⟩
      · cases hK
    · cases rod
      · cases hK
      · exact Or.inr ⟨h, h1⟩

/-! ### The core -/

/-- The id of an element. -/
def idOf : Kind → ℤ
  | .empty => 0
  | .regular => 1
  | .shim => 2
  | .control => 3

theorem element_adds (K : Kind) (x y : ℝ) : Adds (makeElement (idOf K) x y) fun m P => Of lowElem K m (P.1 - (x + xPitch / 2)) (P.2 - y) := by
  cases K
  · exact empty_adds leu x y
  · exact regular_adds leu fine_leu x y
  · exact special_adds x y .borated
  · exact special_adds x y .steel

theorem offset_eq : coreOffset = corner := by
  unfold coreOffset leuDomain corner
  refine Prod.ext ?_ ?_ <;> norm_num

theorem row_adds (y : ℝ) (row : List Kind) : Adds (makeRow y (row.map idOf)) fun m P =>
    ∃ (c : Nat) (K : Kind), row[c]? = some K ∧ Of lowElem K m (P.1 - (corner.1 + c * xPitch + xPitch / 2)) (P.2 - y) := by
  have : makeRow y (row.map idOf) = fun d => row.zipIdx.foldl (fun d q => makeElement (idOf q.1) (coreOffset.1 + q.2 * xPitch) y d) d := by
    funext d
    unfold makeRow
    rw [List.zipIdx_map, List.foldl_map]
    rfl
  rw [this]
  refine (Adds.foldl row.zipIdx (N := fun q m P => Of lowElem q.1 m (P.1 - (corner.1 + q.2 * xPitch + xPitch / 2)) (P.2 - y)) fun q _ => ?_).congr
    fun m P => ?_
  · rw [offset_eq]
    exact element_adds q.1 _ _
  · constructor
    · rintro ⟨⟨K, c⟩, hq, h⟩
      exact ⟨c, K, List.mem_zipIdx_iff_getElem?.1 hq, h⟩
    · rintro ⟨c, K, hq, h⟩
      exact ⟨(K, c), List.mem_zipIdx_iff_getElem?.2 hq, h⟩

theorem core_adds : Adds (makeCore (figure.map fun row => row.map idOf)) fun m P => Somewhere P fun K u v => Of lowElem K m u v := by
  have : makeCore (figure.map fun row => row.map idOf) =
      fun d => figure.reverse.zipIdx.foldl (fun d q => makeRow (coreOffset.2 + q.2 * yPitch) (q.1.map idOf) d) d := by
    funext d
    unfold makeCore
    rw [← List.map_reverse, List.zipIdx_map, List.foldl_map]
    rfl
  rw [this]
  refine (Adds.foldl figure.reverse.zipIdx (N := fun q m P => ∃ (c : Nat) (K : Kind), q.1[c]? = some K ∧
    Of lowElem K m (P.1 - (corner.1 + c * xPitch + xPitch / 2)) (P.2 - (corner.2 + q.2 * yPitch))) fun q _ => ?_).congr fun m P => ?_
  · rw [offset_eq]
    exact row_adds _ _
  · have e : ∀ c : Nat, corner.1 + c * xPitch + xPitch / 2 = corner.1 + (c + 1 / 2) * inches (3031 / 1000) := by
      intro c
      have : xPitch = inches (3031 / 1000) := rfl
      rw [this]; ring
    constructor
    · rintro ⟨⟨row, r⟩, hq, c, K, hK, h⟩
      refine ⟨c, r, K, ?_, ?_⟩
      · unfold kindAt
        rw [List.mem_zipIdx_iff_getElem?.1 hq]
        exact hK
      · rw [e] at h
        exact h
    · rintro ⟨c, r, K, hK, h⟩
      unfold kindAt at hK
      obtain ⟨row, hr, hc⟩ := Option.bind_eq_some_iff.1 hK
      refine ⟨(row, r), List.mem_zipIdx_iff_getElem?.2 hr, c, K, hc, ?_⟩
      rw [e]
      exact h

theorem tank_adds : Adds (makeTank (coreOffset.1 + 6 * xPitch) coreOffset.2) fun m P =>
    (m = .alu ∧ Tank 0 P ∧ ¬ Tank (inches (1 / 2)) P) ∨ (m = .heavy ∧ Tank (inches (1 / 2)) P) := by
  rw [offset_eq]
  refine ((put_adds _ .alu).comp (put_adds _ .heavy)).congr fun m P => ?_
  rw [Set.mem_sdiff]
  have x6 : xPitch = inches (3031 / 1000) := rfl
  have ht : (254 / 100 / 2 : ℝ) = inches (1 / 2) := by unfold inches; norm_num
  have h0 : inches (1 / 2) = 127 / 100 := by unfold inches; norm_num
  rw [rect_in _ _ _ _ (by linarith) (by linarith), rect_in _ _ _ _ (by linarith) (by linarith), x6, ht]
  unfold Tank
  simp only [add_zero, sub_zero]

theorem draw_ok : ∃ d, leuDraw = some d ∧ Inv d ∧ ∀ m P, Has d m P ↔ Somewhere P (fun K u v => Of lowElem K m u v) ∨
    (m = .alu ∧ Tank 0 P ∧ ¬ Tank (inches (1 / 2)) P) ∨ (m = .heavy ∧ Tank (inches (1 / 2)) P) := by
  have e : Bench.lattice layoutText = some (figure.map fun row => row.map idOf) := LatticeText.lattice_eq (by decide +kernel)
  unfold leuDraw
  rw [e]
  have hb : Inv blank := by intro m t ht; cases m <;> cases ht
  obtain ⟨h1, h2⟩ := (core_adds.comp tank_adds) blank hb
  refine ⟨_, rfl, h1, fun m P => ?_⟩
  rw [h2]
  constructor
  · rintro (⟨t, ht, -⟩ | h)
    · cases m <;> cases ht
    · exact h
  · exact Or.inr

theorem heuDraw_ok : Inv heuDraw ∧ ∀ m P, Has heuDraw m P ↔ Of highElem .regular m (inSingle P).1 (inSingle P).2 := by
  have hb : Inv blank := by intro m t ht; cases m <;> cases ht
  obtain ⟨h1, h2⟩ := regular_adds heu fine_heu ((heuDomain.1 - xPitch) / 2) ((heuDomain.2 - yPitch) / 2) blank hb
  refine ⟨h1, fun m P => ?_⟩
  unfold heuDraw
  rw [h2, elem_heu]
  dsimp only
  have e1 : P.1 - ((heuDomain.1 - xPitch) / 2 + xPitch / 2) = (inSingle P).1 := by
    show _ = P.1 - heuDomain.1 / 2
    ring
  rw [e1]
  constructor
  · rintro (⟨t, ht, -⟩ | h)
    · cases m <;> cases ht
    · exact h
  · exact Or.inr

end Verif.FnrL
