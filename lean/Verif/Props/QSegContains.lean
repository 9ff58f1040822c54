import Verif.Props.QSegLeft

/-!
# C77: points in a curved cell

Specification: a curved cell is the polygon of its corners, without the regions between chord and curve
of the edges that bulge inwards, together with those of the edges that bulge outwards.
-/

namespace Verif.Geom

/-- The region between the curve of an edge and its chord. -/
def EdgeRegion (e : Poly 3 2 ℝ) : Set (Pt 2 ℝ) := convexHull ℝ (qsegAt e '' Set.Icc 0 1)

/-- The edge bulges to its left, the inside of a counterclockwise cell. -/
def Inward (e : Poly 3 2 ℝ) : Prop := 0 < area2 (e 0) (e 1) (e 2)
/-- The edge bulges to its right. -/
def Outward (e : Poly 3 2 ℝ) : Prop := area2 (e 0) (e 1) (e 2) < 0

/-- The points of the curved cell. -/
def InCell {m : Nat} (v : Poly (2 * m) 2 ℝ) (p : Pt 2 ℝ) : Prop :=
  ((∀ i, 0 ≤ area2 (getEdge2 v i 0) (getEdge2 v i 1) p) ∧
    ∀ i, Inward (getEdge2 v i) → p ∉ EdgeRegion (getEdge2 v i)) ∨
  ∃ i, Outward (getEdge2 v i) ∧ p ∈ EdgeRegion (getEdge2 v i)

/-- The loop over the edges. -/
theorem contains_fold {m : Nat} (eps2 : ℝ) (v : Poly (2 * m) 2 ℝ) (p : Pt 2 ℝ) (b : Fin m → Bool)
    (hb : ∀ i, qsegIsLeft eps2 (getEdge2 v i) p = some (b i)) :
    qpolyContains eps2 v p = some ((List.finRange m).all b) := by
  unfold qpolyContains
  induction List.finRange m with
  | nil => rfl
  | cons i l ih =>
    rw [List.foldr_cons, hb, ih, List.all_cons]
    cases b i <;> rfl

/-- `contains` is the answer "left of every edge". -/
theorem C77_left_of_all {m : Nat} (eps2 : ℝ) (v : Poly (2 * m) 2 ℝ) (p : Pt 2 ℝ) (b : Fin m → Bool)
    (hb : ∀ i, qsegIsLeft eps2 (getEdge2 v i) p = some (b i)) :
    ∃ r, qpolyContains eps2 v p = some r ∧ (r = true ↔ ∀ i, b i = true) :=
  ⟨_, contains_fold eps2 v p b hb, by simp⟩

/-- A cell whose outward bulges stay left of the other chords and outside of the inward bulges:
`contains` answers membership in the cell, for every point that is not on a curved edge. -/
theorem C77_contains_partial {m : Nat} (eps2 : ℝ) (v : Poly (2 * m) 2 ℝ) (p : Pt 2 ℝ)
    (hc : ∀ i, (isStraight eps2 (getEdge2 v i) = true ∧ area2 (getEdge2 v i 0) (getEdge2 v i 1) (getEdge2 v i 2) = 0) ∨
      isStraight eps2 (getEdge2 v i) = false ∧ (Inward (getEdge2 v i) ∨ Outward (getEdge2 v i)))
    (hp : ∀ i, isStraight eps2 (getEdge2 v i) = false → ∀ r, 0 ≤ r → r ≤ 1 → qsegAt (getEdge2 v i) r ≠ p)
    (hsep : ∀ i j, i ≠ j → Outward (getEdge2 v i) → ∀ x ∈ EdgeRegion (getEdge2 v i),
      0 ≤ area2 (getEdge2 v j 0) (getEdge2 v j 1) x ∧
      (Inward (getEdge2 v j) → x ∉ EdgeRegion (getEdge2 v j))) :
    ∃ r, qpolyContains eps2 v p = some r ∧ (r = true ↔ InCell v p) := by
  have key : ∀ i, ∃ b, qsegIsLeft eps2 (getEdge2 v i) p = some b ∧ (b = true ↔
      (Inward (getEdge2 v i) → 0 ≤ area2 (getEdge2 v i 0) (getEdge2 v i 1) p ∧ p ∉ EdgeRegion (getEdge2 v i)) ∧
      (Outward (getEdge2 v i) → 0 ≤ area2 (getEdge2 v i 0) (getEdge2 v i 1) p ∨ p ∈ EdgeRegion (getEdge2 v i)) ∧
      (¬ Inward (getEdge2 v i) → ¬ Outward (getEdge2 v i) → 0 ≤ area2 (getEdge2 v i 0) (getEdge2 v i 1) p)) := by
    intro i
    rcases hc i with ⟨h, h0⟩ | ⟨h, h0⟩
    · obtain ⟨b, hb, hiff⟩ := (C76_straight eps2 (getEdge2 v i) p h).1
      refine ⟨b, hb, ?_⟩
      rw [hiff]
      have n1 : ¬ Inward (getEdge2 v i) := by unfold Inward; rw [h0]; exact lt_irrefl _
      have n2 : ¬ Outward (getEdge2 v i) := by unfold Outward; rw [h0]; exact lt_irrefl _
      simp [n1, n2]
    · obtain ⟨b, hb, hiff⟩ := C76_isLeft eps2 (getEdge2 v i) p h
        (h0.elim (fun h => ne_of_gt h) (fun h => ne_of_lt h)) (hp i h)
      refine ⟨b, hb, ?_⟩
      rw [hiff]
      rcases h0 with h0 | h0
      · have n2 : ¬ Outward (getEdge2 v i) := not_lt.2 (le_of_lt h0)
        rw [if_pos (show (0 : ℝ) < area2 (getEdge2 v i 0) (getEdge2 v i 1) (getEdge2 v i 2) from h0)]
        simp only [n2, h0, EdgeRegion, not_true_eq_false, false_imp_iff, and_true, forall_const]
      · have n1 : ¬ Inward (getEdge2 v i) := not_lt.2 (le_of_lt h0)
        rw [if_neg (show ¬ (0 : ℝ) < area2 (getEdge2 v i 0) (getEdge2 v i 1) (getEdge2 v i 2) from n1)]
        simp only [n1, h0, EdgeRegion, not_true_eq_false, false_imp_iff, forall_const, true_and, and_true,
          not_false_eq_true]
  choose b hb hiff using key
  refine ⟨_, contains_fold eps2 v p b hb, ?_⟩
  rw [List.all_eq_true]
  constructor
  · intro h
    have h' := fun i => (hiff i).1 (h i (List.mem_finRange i))
    by_cases hall : ∀ i, 0 ≤ area2 (getEdge2 v i 0) (getEdge2 v i 1) p
    · exact Or.inl ⟨hall, fun i hin => ((h' i).1 hin).2⟩
    · push Not at hall
      obtain ⟨i, hi⟩ := hall
      by_cases hout : Outward (getEdge2 v i)
      · exact Or.inr ⟨i, hout, ((h' i).2.1 hout).resolve_left (not_le.2 hi)⟩
      · by_cases hin : Inward (getEdge2 v i)
        · exact absurd ((h' i).1 hin).1 (not_le.2 hi)
        · exact absurd ((h' i).2.2 hin hout) (not_le.2 hi)
  · rintro (⟨hall, hin⟩ | ⟨i, hout, hi⟩) j -
    · rw [hiff]
      exact ⟨fun h => ⟨hall j, hin j h⟩, fun _ => Or.inl (hall j), fun _ _ => hall j⟩
    · rw [hiff]
      by_cases hij : i = j
      · subst hij
        exact ⟨fun h => absurd (lt_trans h hout) (lt_irrefl _), fun _ => Or.inr hi, fun _ h => absurd hout h⟩
      · have := hsep i j hij hout p hi
        exact ⟨fun h => ⟨this.1, this.2 h⟩, fun _ => Or.inl this.1, fun _ _ => this.1⟩

/-- A triangle whose bottom edge bulges outwards and leans over: the points of the bulge right of the
line of the neighbouring edge are not found inside. -/
theorem C77_lean_fails (eps2 : ℝ) (he : 0 < eps2) (he' : eps2 < 1 / 100) :
    let v : Poly (2 * 3) 2 ℝ := ![![0, 0], ![1, 0], ![0, 1], ![-1 / 2, -1 / 2], ![1 / 2, 1 / 2], ![0, 1 / 2]]
    InCell v ![-1 / 4, -3 / 8] ∧ qpolyContains eps2 v ![-1 / 4, -3 / 8] = some false := by
  intro v
  have e0 : getEdge2 v 0 = ![![0, 0], ![1, 0], ![-1 / 2, -1 / 2]] := rfl
  have e1 : getEdge2 v 1 = ![![1, 0], ![0, 1], ![1 / 2, 1 / 2]] := rfl
  have e2 : getEdge2 v 2 = ![![0, 1], ![0, 0], ![0, 1 / 2]] := rfl
  have hin : (![-1 / 4, -3 / 8] : Pt 2 ℝ) ∈ EdgeRegion (getEdge2 v 0) := by
    unfold EdgeRegion
    rw [hull_iff, e0]
    refine ⟨1 / 2, 3 / 16, by norm_num, by norm_num, ?_⟩
    refine Fin.forall_fin_two.2 ⟨?_, ?_⟩ <;>
    · simp only [polyCoeffs, Matrix.cons_val_zero, Matrix.cons_val_one, Matrix.cons_val]; norm_num
  have hout : Outward (getEdge2 v 0) := by
    unfold Outward area2
    rw [e0]
    simp only [Matrix.cons_val_zero, Matrix.cons_val_one, Matrix.cons_val]; norm_num
  have s0 : isStraight eps2 (getEdge2 v 0) = false := by
    rw [e0]
    unfold isStraight
    dsimp only
    rw [cross_eq]
    unfold sqNorm
    simp only [Fin.sum_univ_two, Pi.sub_apply, Matrix.cons_val_zero, Matrix.cons_val_one, Matrix.cons_val]
    norm_num
    linarith
  have s1 : isStraight eps2 (getEdge2 v 1) = true := by
    rw [e1]
    unfold isStraight
    dsimp only
    rw [cross_eq]
    unfold sqNorm
    simp only [Fin.sum_univ_two, Pi.sub_apply, Matrix.cons_val_zero, Matrix.cons_val_one, Matrix.cons_val]
    norm_num
    exact he
  have s2 : isStraight eps2 (getEdge2 v 2) = true := by
    rw [e2]
    unfold isStraight
    dsimp only
    rw [cross_eq]
    unfold sqNorm
    simp only [Fin.sum_univ_two, Pi.sub_apply, Matrix.cons_val_zero, Matrix.cons_val_one, Matrix.cons_val]
    norm_num
    exact he
  refine ⟨Or.inr ⟨0, hout, hin⟩, ?_⟩
  obtain ⟨b0, h0, -⟩ := C76_isLeft eps2 (getEdge2 v 0) ![-1 / 4, -3 / 8] s0 (ne_of_lt hout) (by
    intro r _ _ h
    rw [e0] at h
    have c0 := congrFun h 0
    have c1 := congrFun h 1
    simp only [qsegAt, Matrix.cons_val_zero, Matrix.cons_val_one, Matrix.cons_val] at c0 c1
    have : r = 1 / 2 := by linarith
    subst this
    norm_num at c1)
  obtain ⟨b1, h1, -⟩ := (C76_straight eps2 (getEdge2 v 1) ![-1 / 4, -3 / 8] s1).1
  obtain ⟨b2, h2, i2⟩ := (C76_straight eps2 (getEdge2 v 2) ![-1 / 4, -3 / 8] s2).1
  have hb2 : b2 = false := by
    rw [← Bool.not_eq_true, i2, e2]
    unfold area2
    simp only [Matrix.cons_val_zero, Matrix.cons_val_one]; norm_num
  rw [contains_fold eps2 v _ ![b0, b1, b2] (by
    intro i
    fin_cases i
    · exact h0
    · exact h1
    · exact h2), hb2]
  show some (b0 && (b1 && (false && true))) = some false
  simp

/-- The hypotheses of `C77_contains_partial` hold of a triangle with one edge bulging outwards. -/
example : let v : Poly (2 * 3) 2 ℝ := ![![0, 0], ![1, 0], ![0, 1], ![1 / 2, -1 / 4], ![1 / 2, 1 / 2], ![0, 1 / 2]]
    (∀ i, (isStraight (1 / 100) (getEdge2 v i) = true ∧ area2 (getEdge2 v i 0) (getEdge2 v i 1) (getEdge2 v i 2) = 0) ∨
      isStraight (1 / 100) (getEdge2 v i) = false ∧ (Inward (getEdge2 v i) ∨ Outward (getEdge2 v i))) ∧
    ∀ i j, i ≠ j → Outward (getEdge2 v i) → ∀ x ∈ EdgeRegion (getEdge2 v i),
      0 ≤ area2 (getEdge2 v j 0) (getEdge2 v j 1) x ∧
      (Inward (getEdge2 v j) → x ∉ EdgeRegion (getEdge2 v j)) := by
  intro v
  have e0 : getEdge2 v 0 = ![![0, 0], ![1, 0], ![1 / 2, -1 / 4]] := rfl
  have e1 : getEdge2 v 1 = ![![1, 0], ![0, 1], ![1 / 2, 1 / 2]] := rfl
  have e2 : getEdge2 v 2 = ![![0, 1], ![0, 0], ![0, 1 / 2]] := rfl
  have a1 : area2 (getEdge2 v 1 0) (getEdge2 v 1 1) (getEdge2 v 1 2) = 0 := by
    rw [e1]; unfold area2
    simp only [Matrix.cons_val_zero, Matrix.cons_val_one, Matrix.cons_val]; norm_num
  have a2 : area2 (getEdge2 v 2 0) (getEdge2 v 2 1) (getEdge2 v 2 2) = 0 := by
    rw [e2]; unfold area2
    simp only [Matrix.cons_val_zero, Matrix.cons_val_one, Matrix.cons_val]; norm_num
  have hout : Outward (getEdge2 v 0) := by
    unfold Outward area2
    rw [e0]
    simp only [Matrix.cons_val_zero, Matrix.cons_val_one, Matrix.cons_val]; norm_num
  constructor
  · intro i
    fin_cases i
    · refine Or.inr ⟨?_, Or.inr hout⟩
      show isStraight _ (getEdge2 v 0) = false
      rw [e0]
      unfold isStraight
      dsimp only
      rw [cross_eq]
      unfold sqNorm
      simp only [Fin.sum_univ_two, Pi.sub_apply, Matrix.cons_val_zero, Matrix.cons_val_one, Matrix.cons_val]
      norm_num
    · refine Or.inl ⟨?_, a1⟩
      show isStraight _ (getEdge2 v 1) = true
      rw [e1]
      unfold isStraight
      dsimp only
      rw [cross_eq]
      unfold sqNorm
      simp only [Fin.sum_univ_two, Pi.sub_apply, Matrix.cons_val_zero, Matrix.cons_val_one, Matrix.cons_val]
      norm_num
    · refine Or.inl ⟨?_, a2⟩
      show isStraight _ (getEdge2 v 2) = true
      rw [e2]
      unfold isStraight
      dsimp only
      rw [cross_eq]
      unfold sqNorm
      simp only [Fin.sum_univ_two, Pi.sub_apply, Matrix.cons_val_zero, Matrix.cons_val_one, Matrix.cons_val]
      norm_num
  · intro i j hij hi x hx
    have n1 : ¬ Outward (getEdge2 v 1) := by unfold Outward; rw [a1]; exact lt_irrefl _
    have n2 : ¬ Outward (getEdge2 v 2) := by unfold Outward; rw [a2]; exact lt_irrefl _
    have hi0 : i = 0 := by
      fin_cases i
      · rfl
      · exact absurd hi n1
      · exact absurd hi n2
    subst hi0
    unfold EdgeRegion at hx
    rw [hull_iff, e0] at hx
    obtain ⟨w, η, h0, h1, hx⟩ := hx
    have x0 := hx 0
    have x1 := hx 1
    simp only [polyCoeffs, Matrix.cons_val_zero, Matrix.cons_val_one, Matrix.cons_val] at x0 x1
    fin_cases j
    · exact absurd rfl hij
    · refine ⟨?_, fun h => absurd h (by unfold Inward; exact not_lt.2 a1.le)⟩
      show 0 ≤ area2 (getEdge2 v 1 0) (getEdge2 v 1 1) x
      rw [e1]; unfold area2
      simp only [Matrix.cons_val_zero, Matrix.cons_val_one]
      rw [x0, x1]
      nlinarith [sq_nonneg (w - 1)]
    · refine ⟨?_, fun h => absurd h (by unfold Inward; exact not_lt.2 a2.le)⟩
      show 0 ≤ area2 (getEdge2 v 2 0) (getEdge2 v 2 1) x
      rw [e2]; unfold area2
      simp only [Matrix.cons_val_zero, Matrix.cons_val_one]
      rw [x0, x1]
      nlinarith [sq_nonneg w]

end Verif.Geom
