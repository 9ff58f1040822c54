import Verif.Model.Box
import Mathlib.Tactic.Ring
import Mathlib.Tactic.FieldSimp
import Mathlib.Tactic.Linarith
import Mathlib.Tactic.NormNum
import Mathlib.Tactic.FinCases
import Mathlib.Data.Fin.VecNotation
import Mathlib.Data.Fintype.Basic

/-!
# C24, C25: axis-aligned boxes

Specification: a box stands for the set of points between its corners (`Inside`).
-/

namespace Verif.Box

/-- The point is between the corners. -/
def Inside {D : Nat} {K : Type} [LinearOrder K] (p : Fin D → K) (a : AABB D K) : Prop :=
  ∀ i, a.min i ≤ p i ∧ p i ≤ a.max i

/-- A box whose corners are in order. -/
def Valid {D : Nat} {K : Type} [LinearOrder K] (a : AABB D K) : Prop := ∀ i, a.min i ≤ a.max i

section
variable {D : Nat} {K : Type} [LinearOrder K]

theorem cmin_eq (a b : K) : cmin a b = Min.min a b := by
  unfold cmin
  split_ifs with h
  · exact (min_eq_right h.le).symm
  · exact (min_eq_left (not_lt.1 h)).symm

theorem cmax_eq (a b : K) : cmax a b = Max.max a b := by
  unfold cmax
  split_ifs with h
  · exact (max_eq_right h.le).symm
  · exact (max_eq_left (not_lt.1 h)).symm

theorem inside_min {a : AABB D K} (h : Valid a) : Inside a.min a := fun i => ⟨le_refl _, h i⟩
theorem inside_max {a : AABB D K} (h : Valid a) : Inside a.max a := fun i => ⟨h i, le_refl _⟩

/-! ## C24 -/

/-- `contains` holds exactly for the points between the corners. -/
theorem C24_contains (a : AABB D K) (p : Fin D → K) : contains a p = true ↔ Inside p a := by
  simp [contains, Inside]

/-- `a += b` is the smallest box that contains both. -/
theorem C24_join (a b : AABB D K) (ha : Valid a) (hb : Valid b) :
    Valid (add a b) ∧
    (∀ p, Inside p a ∨ Inside p b → Inside p (add a b)) ∧
    ∀ c, (∀ p, Inside p a → Inside p c) → (∀ p, Inside p b → Inside p c) →
      ∀ p, Inside p (add a b) → Inside p c := by
  unfold add
  simp only [cmin_eq, cmax_eq]
  refine ⟨fun i => ?_, ?_, ?_⟩
  · exact le_trans (min_le_left _ _) (le_trans (ha i) (le_max_left _ _))
  · rintro p (h | h) i
    · exact ⟨le_trans (min_le_left _ _) (h i).1, le_trans (h i).2 (le_max_left _ _)⟩
    · exact ⟨le_trans (min_le_right _ _) (h i).1, le_trans (h i).2 (le_max_right _ _)⟩
  · intro c h1 h2 p hp i
    have l1 := (h1 _ (inside_min ha) i).1
    have l2 := (h2 _ (inside_min hb) i).1
    have u1 := (h1 _ (inside_max ha) i).2
    have u2 := (h2 _ (inside_max hb) i).2
    exact ⟨le_trans (le_min l1 l2) (hp i).1, le_trans (hp i).2 (max_le u1 u2)⟩

/-- `+=` is associative, commutative and idempotent. -/
theorem C24_laws (a b c : AABB D K) :
    add (add a b) c = add a (add b c) ∧ add a b = add b a ∧ add a a = a := by
  unfold add
  simp only [cmin_eq, cmax_eq]
  refine ⟨?_, ?_, ?_⟩
  · ext i
    · exact min_assoc _ _ _
    · exact max_assoc _ _ _
  · ext i
    · exact min_comm _ _
    · exact max_comm _ _
  · ext i
    · exact min_self _
    · exact max_self _

/-- `empty()` is neutral for boxes within `±infDistance`, and contains no point. -/
theorem C24_empty (a : AABB D K) (inf ninf : K) (h1 : ∀ i, a.min i ≤ inf) (h2 : ∀ i, ninf ≤ a.max i) :
    add (empty inf ninf) a = a ∧ add a (empty inf ninf) = a ∧
    (0 < D → ninf < inf → ∀ p, contains (empty inf ninf : AABB D K) p = false) := by
  have h : add a (empty inf ninf) = a := by
    unfold add empty
    simp only [cmin_eq, cmax_eq]
    ext i
    · exact min_eq_left (h1 i)
    · exact max_eq_left (h2 i)
  refine ⟨by rw [(C24_laws _ a a).2.1, h], h, fun hD hlt p => ?_⟩
  rw [← Bool.not_eq_true, C24_contains]
  intro hp
  have := hp ⟨0, hD⟩
  exact absurd (le_trans this.1 this.2) (not_le.2 hlt)

/-- `box += point` is `+=` of the box that holds just that point. -/
theorem C24_addPoint (a : AABB D K) (p : Fin D → K) : addPoint a p = add a ⟨p, p⟩ := rfl

theorem foldl_least (ps : List (Fin D → K)) (a : AABB D K) (ha : Valid a) :
    Valid (ps.foldl addPoint a) ∧
    (∀ p, Inside p a → Inside p (ps.foldl addPoint a)) ∧
    (∀ p ∈ ps, Inside p (ps.foldl addPoint a)) ∧
    ∀ c, (∀ p, Inside p a → Inside p c) → (∀ p ∈ ps, Inside p c) →
      ∀ p, Inside p (ps.foldl addPoint a) → Inside p c := by
  induction ps generalizing a with
  | nil => exact ⟨ha, fun p h => h, by simp, fun c h _ p hp => h p hp⟩
  | cons q ps ih =>
    have hv : Valid (⟨q, q⟩ : AABB D K) := fun i => le_refl _
    obtain ⟨j1, j2, j3⟩ := C24_join a ⟨q, q⟩ ha hv
    rw [← C24_addPoint] at j1 j2 j3
    obtain ⟨h1, h2, h3, h4⟩ := ih (addPoint a q) j1
    rw [List.foldl_cons]
    refine ⟨h1, fun p hp => h2 p (j2 p (Or.inl hp)), ?_, ?_⟩
    · intro p hp
      rcases List.mem_cons.1 hp with rfl | hp
      · exact h2 _ (j2 _ (Or.inr fun i => ⟨le_refl _, le_refl _⟩))
      · exact h3 p hp
    · intro c hc hps
      refine h4 c (j3 c hc ?_) (fun p hp => hps p (List.mem_cons_of_mem _ hp))
      intro p hp
      have : p = q := by
        funext i; exact le_antisymm (hp i).2 (hp i).1
      rw [this]; exact hps q List.mem_cons_self

/-- `boundingBox(points)` is the least box that contains them all (undefined for no points). -/
theorem C24_boundingBox (ps : List (Fin D → K)) (h : ps ≠ []) :
    ∃ a, boundingBox ps = some a ∧ Valid a ∧ (∀ p ∈ ps, Inside p a) ∧
      ∀ c, (∀ p ∈ ps, Inside p c) → ∀ p, Inside p a → Inside p c := by
  cases ps with
  | nil => exact absurd rfl h
  | cons q ps =>
    obtain ⟨h1, h2, h3, h4⟩ := foldl_least ps ⟨q, q⟩ (fun i => le_refl _)
    refine ⟨_, rfl, h1, ?_, ?_⟩
    · intro p hp
      rcases List.mem_cons.1 hp with rfl | hp
      · exact h2 _ (fun i => ⟨le_refl _, le_refl _⟩)
      · exact h3 p hp
    · intro c hc
      refine h4 c ?_ (fun p hp => hc p (List.mem_cons_of_mem _ hp))
      intro p hp
      have : p = q := by
        funext i; exact le_antisymm (hp i).2 (hp i).1
      rw [this]; exact hc q List.mem_cons_self

/-- `intersects` is symmetric and holds iff the boxes share a point. -/
theorem C24_intersects (a b : AABB D K) (ha : Valid a) (hb : Valid b) :
    intersects a b = intersects b a ∧
    (intersects a b = true ↔ ∃ p, Inside p a ∧ Inside p b) := by
  have key : ∀ a b : AABB D K, Valid a → Valid b →
      (intersects a b = true ↔ ∃ p, Inside p a ∧ Inside p b) := by
    intro a b ha hb
    simp only [intersects, List.all_eq_true, List.mem_finRange, Bool.not_eq_true', Bool.or_eq_false_iff,
      decide_eq_false_iff_not, not_lt, forall_const, gt_iff_lt]
    constructor
    · intro h
      refine ⟨fun i => Max.max (a.min i) (b.min i), fun i => ⟨le_max_left _ _, ?_⟩,
        fun i => ⟨le_max_right _ _, ?_⟩⟩
      · exact max_le (ha i) (h i).1
      · exact max_le (h i).2 (hb i)
    · rintro ⟨p, h1, h2⟩ i
      exact ⟨le_trans (h2 i).1 (h1 i).2, le_trans (h1 i).1 (h2 i).2⟩
  refine ⟨?_, key a b ha hb⟩
  rw [Bool.eq_iff_iff, key a b ha hb, key b a hb ha]
  exact ⟨fun ⟨p, h1, h2⟩ => ⟨p, h2, h1⟩, fun ⟨p, h1, h2⟩ => ⟨p, h2, h1⟩⟩

end

/-- `scale(s)` keeps the centroid and multiplies the extents by `s`. -/
theorem C24_scale {D : Nat} {K : Type} [Field K] [LinearOrder K] [IsStrictOrderedRing K]
    (a : AABB D K) (s : K) (i : Fin D) :
    centroid (scale a s) i = centroid a i ∧ extents (scale a s) i = s * extents a i := by
  unfold scale centroid extents
  dsimp only
  constructor
  · ring
  · field_simp; ring

/-- Concrete boxes. -/
def unit2 : AABB 2 ℚ := ⟨fun _ => 0, fun _ => 1⟩
def far2 : AABB 2 ℚ := ⟨fun _ => 1, fun _ => 3⟩
example : Valid unit2 ∧ Valid far2 ∧ Inside (fun _ => 1) unit2 ∧ Inside (fun _ => 1) far2 := by
  refine ⟨fun i => ?_, fun i => ?_, fun i => ?_, fun i => ?_⟩ <;> simp [unit2, far2]

/-! ## C25 -/

section
set_option linter.unusedSectionVars false
variable {D : Nat} {K : Type} [Field K] [LinearOrder K] [IsStrictOrderedRing K]

/-- The point `ray(t)`, ray.hpp 56-60. -/
def rayAt (o d : Fin D → K) (t : K) : Fin D → K := fun i => o i + t * d i

/-- An IEEE number that is not NaN is at most / at least a finite one. -/
def leF (e : Ext K) (t : K) : Prop := ∃ v, e = some v ∧ v ≤ ((t : WithTop K) : WithBot (WithTop K))
def geF (e : Ext K) (t : K) : Prop := ∃ v, e = some v ∧ ((t : WithTop K) : WithBot (WithTop K)) ≤ v

/-- The lower bound is zero or more (or `+∞`). -/
def LowOK (e : Ext K) : Prop := (∃ x : K, 0 ≤ x ∧ e = fin x) ∨ e = pinf
/-- The upper bound is at most `inf` (or `-∞`). -/
def HighOK (inf : K) (e : Ext K) : Prop := (∃ x : K, x ≤ inf ∧ e = fin x) ∨ e = ninf

theorem emin_some (a b : WithBot (WithTop K)) : emin (some a) (some b) = some (Min.min a b) := by
  unfold emin lt
  simp only [decide_eq_true_eq]
  split_ifs with h
  · rw [min_eq_right h.le]
  · rw [min_eq_left (not_lt.1 h)]

theorem emax_some (a b : WithBot (WithTop K)) : emax (some a) (some b) = some (Max.max a b) := by
  unfold emax lt
  simp only [decide_eq_true_eq]
  split_ifs with h
  · rw [max_eq_right h.le]
  · rw [max_eq_left (not_lt.1 h)]

/-- One slab on numbers that are not NaN. -/
theorem slab_some (v1 v2 l u : WithBot (WithTop K)) :
    slab (some v1) (some v2) (some l, some u) =
      (some (Max.max l (Min.min v1 v2)), some (Min.min u (Max.max v1 v2))) := by
  unfold slab
  rw [emax_some, emax_some, emin_some, emin_some, emin_some, emax_some]
  refine Prod.ext ?_ ?_
  · simp only
    rw [max_comm v1, max_comm v2, ← max_min_distrib_left]
  · simp only
    rw [min_comm v1, min_comm v2, ← min_max_distrib_left]

theorem coe_le (x y : K) : ((x : WithTop K) : WithBot (WithTop K)) ≤ ((y : WithTop K) : WithBot (WithTop K)) ↔
    x ≤ y := by rw [WithBot.coe_le_coe, WithTop.coe_le_coe]

theorem ext_cases (v : WithBot (WithTop K)) : v = ⊥ ∨
    (∃ x : K, v = ((x : WithTop K) : WithBot (WithTop K))) ∨ v = ((⊤ : WithTop K) : WithBot (WithTop K)) := by
  induction v using WithBot.recBotCoe with
  | bot => exact Or.inl rfl
  | coe v =>
    induction v using WithTop.recTopCoe with
    | top => exact Or.inr (Or.inr rfl)
    | coe v => exact Or.inr (Or.inl ⟨v, rfl⟩)

theorem not_top_le (t : K) :
    ¬ ((⊤ : WithTop K) : WithBot (WithTop K)) ≤ ((t : WithTop K) : WithBot (WithTop K)) := by
  rw [WithBot.coe_le_coe, top_le_iff]; exact WithTop.coe_ne_top

theorem not_le_bot (t : K) : ¬ ((t : WithTop K) : WithBot (WithTop K)) ≤ ⊥ := by
  rw [le_bot_iff]; exact WithBot.coe_ne_bot

theorem le_pinf (v : WithBot (WithTop K)) : v ≤ ((⊤ : WithTop K) : WithBot (WithTop K)) :=
  le_top (α := WithBot (WithTop K))

/-- The two slab parameters of one coordinate describe exactly the times at which the ray is between
the two planes, unless the ray lies in one of them. -/
theorem slab_times (lo hi o d : K) (neg : Bool) (hv : lo ≤ hi) (hd : d ≠ 0 ∨ (o ≠ lo ∧ o ≠ hi)) :
    ∃ v1 v2, emul (lo - o) (recip d neg) = some v1 ∧ emul (hi - o) (recip d neg) = some v2 ∧
      (∀ t : K, (lo ≤ o + t * d ∧ o + t * d ≤ hi) ↔
        (Min.min v1 v2 ≤ ((t : WithTop K) : WithBot (WithTop K)) ∧
          ((t : WithTop K) : WithBot (WithTop K)) ≤ Max.max v1 v2)) := by
  by_cases h0 : d = 0
  · have ⟨hl, hh⟩ := hd.resolve_left (fun h => h h0)
    subst h0
    have hP : ∀ x : K, x ≠ 0 → emul x (recip 0 neg) =
        if (x < 0) = (neg = true) then pinf else ninf := by
      intro x hx
      cases neg
      · by_cases h : x < 0 <;> simp [recip, emul, pinf, ninf, hx, h]
      · by_cases h : x < 0 <;> simp [recip, emul, pinf, ninf, hx, h]
    have e1 : lo - o ≠ 0 := sub_ne_zero.2 (Ne.symm hl)
    have e2 : hi - o ≠ 0 := sub_ne_zero.2 (Ne.symm hh)
    rw [hP _ e1, hP _ e2]
    simp only [mul_zero, add_zero, sub_neg]
    -- both infinite of the same sign: outside; of different signs: inside
    have both : ∀ v : WithBot (WithTop K), (v = ⊥ ∨ v = ((⊤ : WithTop K) : WithBot (WithTop K))) →
        ∀ t : K, ¬ (Min.min v v ≤ ((t : WithTop K) : WithBot (WithTop K)) ∧
          ((t : WithTop K) : WithBot (WithTop K)) ≤ Max.max v v) := by
      rintro v (rfl | rfl) t ⟨h1, h2⟩
      · rw [max_self] at h2; exact not_le_bot t h2
      · rw [min_self] at h1; exact not_top_le t h1
    rcases lt_or_gt_of_ne hl with h1 | h1
    · have h2 : ¬ hi < o := not_lt.2 (le_trans h1.le hv)
      have h1' : ¬ lo < o := not_lt.2 h1.le
      have hno : ∀ t : K, ¬ (lo ≤ o ∧ o ≤ hi) := fun _ h => absurd h.1 (not_le.2 h1)
      cases neg
      · refine ⟨((⊤ : WithTop K) : WithBot (WithTop K)), ((⊤ : WithTop K) : WithBot (WithTop K)),
          by simp [h1', pinf], by simp [h2, pinf], fun t => ?_⟩
        exact iff_of_false (hno t) (both _ (Or.inr rfl) t)
      · refine ⟨⊥, ⊥, by simp [h1', ninf], by simp [h2, ninf], fun t => ?_⟩
        exact iff_of_false (hno t) (both _ (Or.inl rfl) t)
    · rcases lt_or_gt_of_ne hh with h2 | h2
      · have h2' : ¬ hi < o := not_lt.2 h2.le
        have h1' : lo < o := h1
        cases neg
        · refine ⟨⊥, ((⊤ : WithTop K) : WithBot (WithTop K)), by simp [h1', ninf], by simp [h2', pinf],
            fun t => iff_of_true ⟨h1'.le, h2.le⟩ ⟨?_, ?_⟩⟩
          · exact le_trans (min_le_left _ _) bot_le
          · exact le_trans (le_pinf _) (le_max_right _ _)
        · refine ⟨((⊤ : WithTop K) : WithBot (WithTop K)), ⊥, by simp [h1', pinf], by simp [h2', ninf],
            fun t => iff_of_true ⟨h1'.le, h2.le⟩ ⟨?_, ?_⟩⟩
          · exact le_trans (min_le_right _ _) bot_le
          · exact le_trans (le_pinf _) (le_max_left _ _)
      · have h1' : lo < o := h1
        have h2' : hi < o := h2
        have hno : ∀ t : K, ¬ (lo ≤ o ∧ o ≤ hi) := fun _ h => absurd h.2 (not_le.2 h2')
        cases neg
        · refine ⟨⊥, ⊥, by simp [h1', ninf], by simp [h2', ninf], fun t => ?_⟩
          exact iff_of_false (hno t) (both _ (Or.inl rfl) t)
        · refine ⟨((⊤ : WithTop K) : WithBot (WithTop K)), ((⊤ : WithTop K) : WithBot (WithTop K)),
            by simp [h1', pinf], by simp [h2', pinf], fun t => ?_⟩
          exact iff_of_false (hno t) (both _ (Or.inr rfl) t)
  · refine ⟨(((lo - o) * d⁻¹ : K) : WithTop K), (((hi - o) * d⁻¹ : K) : WithTop K),
      by simp only [recip, if_neg h0]; rfl, by simp only [recip, if_neg h0]; rfl, fun t => ?_⟩
    rw [min_le_iff, le_max_iff, coe_le, coe_le, coe_le, coe_le]
    rw [← div_eq_mul_inv, ← div_eq_mul_inv]
    rcases lt_or_gt_of_ne h0 with hd | hd
    · rw [div_le_iff_of_neg hd, div_le_iff_of_neg hd, le_div_iff_of_neg hd, le_div_iff_of_neg hd]
      constructor
      · rintro ⟨h1, h2⟩; exact ⟨Or.inr (by linarith), Or.inl (by linarith)⟩
      · rintro ⟨h1 | h1, h2 | h2⟩ <;> constructor <;> linarith
    · rw [div_le_iff₀ hd, div_le_iff₀ hd, le_div_iff₀ hd, le_div_iff₀ hd]
      constructor
      · rintro ⟨h1, h2⟩; exact ⟨Or.inl (by linarith), Or.inr (by linarith)⟩
      · rintro ⟨h1 | h1, h2 | h2⟩ <;> constructor <;> linarith

/-- The state after some coordinates: the bounds are not NaN and describe the times in `[0, inf]` at
which the ray is between the planes of those coordinates. -/
theorem loop_times (a : AABB D K) (o d : Fin D → K) (neg : Fin D → Bool)
    (hv : Valid a) (hd : ∀ i, d i ≠ 0 ∨ (o i ≠ a.min i ∧ o i ≠ a.max i)) (js : List (Fin D)) :
    ∀ (l u : WithBot (WithTop K)) (P : K → Prop),
      (∀ t : K, P t ↔ l ≤ ((t : WithTop K) : WithBot (WithTop K)) ∧
        ((t : WithTop K) : WithBot (WithTop K)) ≤ u) →
      ∃ l' u', js.foldl (fun s i =>
          slab (emul (a.min i - o i) (recip (d i) (neg i))) (emul (a.max i - o i) (recip (d i) (neg i))) s)
          (some l, some u) = (some l', some u') ∧ l ≤ l' ∧ u' ≤ u ∧
        ∀ t : K, (P t ∧ ∀ i ∈ js, a.min i ≤ o i + t * d i ∧ o i + t * d i ≤ a.max i) ↔
          l' ≤ ((t : WithTop K) : WithBot (WithTop K)) ∧ ((t : WithTop K) : WithBot (WithTop K)) ≤ u' := by
  induction js with
  | nil =>
    intro l u P h
    exact ⟨l, u, rfl, le_refl _, le_refl _, fun t => by simp [h t]⟩
  | cons i js ih =>
    intro l u P h
    obtain ⟨v1, v2, e1, e2, e3⟩ := slab_times (a.min i) (a.max i) (o i) (d i) (neg i) (hv i) (hd i)
    obtain ⟨l', u', f1, f2, f3, f4⟩ := ih (Max.max l (Min.min v1 v2)) (Min.min u (Max.max v1 v2))
      (fun t => P t ∧ (a.min i ≤ o i + t * d i ∧ o i + t * d i ≤ a.max i)) (by
        intro t
        rw [h t, e3 t, max_le_iff, le_min_iff]
        tauto)
    refine ⟨l', u', ?_, le_trans (le_max_left _ _) f2, le_trans f3 (min_le_left _ _), fun t => ?_⟩
    · rw [List.foldl_cons, e1, e2, slab_some]; exact f1
    · rw [← f4 t]
      simp only [List.mem_cons, forall_eq_or_imp]
      tauto

/-- Unless the ray lies in the plane of a face, `intersect` returns the entry and exit of the ray:
`0 ≤ r0 ≤ r1` and the ray is in the box (within `infDistance`) exactly between them; or it reports a
miss and the ray is never in the box. -/
theorem C25_intersect_partial (a : AABB D K) (o d : Fin D → K) (neg : Fin D → Bool) (inf : K)
    (hv : Valid a) (hd : ∀ i, d i ≠ 0 ∨ (o i ≠ a.min i ∧ o i ≠ a.max i)) :
    (∃ r0 r1 : K, intersect a o d neg inf = (fin r0, fin r1) ∧ 0 ≤ r0 ∧ r0 ≤ r1 ∧ r1 ≤ inf ∧
      ∀ t, 0 ≤ t → t ≤ inf → (Inside (rayAt o d t) a ↔ r0 ≤ t ∧ t ≤ r1)) ∨
    (intersect a o d neg inf = (fin (-1), fin (-1)) ∧
      ∀ t, 0 ≤ t → t ≤ inf → ¬ Inside (rayAt o d t) a) := by
  obtain ⟨l, u, h1, h2, h3, h4⟩ := loop_times a o d neg hv hd (List.finRange D)
    (((0 : K) : WithTop K) : WithBot (WithTop K)) ((inf : WithTop K) : WithBot (WithTop K))
    (fun t => 0 ≤ t ∧ t ≤ inf) (fun t => by rw [coe_le, coe_le])
  have hin : ∀ t, Inside (rayAt o d t) a ↔
      ∀ i ∈ List.finRange D, a.min i ≤ o i + t * d i ∧ o i + t * d i ≤ a.max i := by
    intro t; simp [Inside, rayAt]
  have hI : intersect a o d neg inf =
      if le (some l) (some u) then (some l, some u) else (fin (-1), fin (-1)) := by
    unfold intersect; unfold fin; dsimp only; rw [h1]
  by_cases hle : l ≤ u
  · left
    have hl : ∃ x : K, l = ((x : WithTop K) : WithBot (WithTop K)) := by
      rcases ext_cases l with h | h | h
      · rw [h] at h2; exact absurd h2 (not_le_bot 0)
      · exact h
      · rw [h] at hle; exact absurd (le_trans hle h3) (not_top_le inf)
    have hu : ∃ x : K, u = ((x : WithTop K) : WithBot (WithTop K)) := by
      rcases ext_cases u with h | h | h
      · rw [h] at hle; exact absurd (le_trans h2 hle) (not_le_bot 0)
      · exact h
      · rw [h] at h3; exact absurd h3 (not_top_le inf)
    obtain ⟨r0, rfl⟩ := hl
    obtain ⟨r1, rfl⟩ := hu
    refine ⟨r0, r1, ?_, (coe_le _ _).1 h2, (coe_le _ _).1 hle, (coe_le _ _).1 h3, ?_⟩
    · rw [hI, if_pos (by simp [le, hle])]; rfl
    · intro t t0 t1
      rw [hin, ← coe_le r0, ← coe_le t, ← h4 t]
      exact ⟨fun h => ⟨⟨t0, t1⟩, h⟩, fun h => h.2⟩
  · right
    refine ⟨?_, fun t t0 t1 h => hle ?_⟩
    · rw [hI, if_neg (by simp [le, hle])]
    · have := (h4 t).1 ⟨⟨t0, t1⟩, (hin t).1 h⟩
      exact le_trans this.1 this.2

end

/-- The hypotheses hold of a ray that hits the unit square, with a zero component. -/
example : (∀ i, unit2.min i ≤ unit2.max i) ∧
    (∀ i : Fin 2, (![1, 0] : Fin 2 → ℚ) i ≠ 0 ∨
      ((![-1, 1/2] : Fin 2 → ℚ) i ≠ unit2.min i ∧ (![-1, 1/2] : Fin 2 → ℚ) i ≠ unit2.max i)) := by
  refine ⟨fun i => by simp [unit2], fun i => ?_⟩
  fin_cases i <;> simp [unit2]
example : intersect unit2 ![-1, 1/2] ![1, 0] (fun _ => false) 100 = (fin 1, fin 2) := by decide +kernel

/-- A ray along a face with a zero component: `0 * ∞` is NaN, and the loop misses the box although the
ray runs through it. -/
theorem C25_face_fails :
    intersect unit2 ![-1, 0] ![1, 0] (fun _ => false) 100 = (fin (-1), fin (-1)) ∧
    Inside (rayAt ![-1, 0] ![1, 0] (3/2)) unit2 := by
  refine ⟨by decide +kernel, fun i => ?_⟩
  fin_cases i <;> simp [unit2, rayAt] <;> norm_num

end Verif.Box
