import Verif.Lemmas.QCross
import Mathlib.Algebra.Order.Ring.Rat
import Mathlib.Tactic.NormNum

/-!
# C78: intersections of quadratic segments and self-intersecting polygons
-/

namespace Verif.QCross

open Verif.Geom

section
variable {K : Type} [Field K] [LinearOrder K] [IsStrictOrderedRing K]

/-- Every reported point is on the first segment, and closer than the square root of the tolerance to a point of the second
one; both parameters are in `[0, 1]` up to the tolerance. -/
theorem C78_sound (tol eps2 : K) (q1 q2 : Poly 3 2 K) (x : Pt 2 K) (h : x ∈ qsegCross tol eps2 q1 q2) :
    ∃ r s, x = qsegAt q1 r ∧ sqDist x (qsegAt q2 s) < tol ∧
      -(tol / 32) ≤ r ∧ r ≤ 1 + tol / 32 ∧ -(tol / 32) ≤ s ∧ s ≤ 1 + tol / 32 := by
  obtain ⟨r, s, h1, h2, h3, h4, h5, h6⟩ := crossings_sound tol eps2 5 q1 q2 x h
  have e : (2 : K) ^ 5 = 32 := by norm_num
  rw [e] at h3 h4 h5 h6
  exact ⟨r, s, h1, h1 ▸ h2, h3, h4, h5, h6⟩

/-- No two reported points are equal up to the tolerance of `isApprox`. -/
theorem C78_distinct (tol eps2 : K) (q1 q2 : Poly 3 2 K) :
    (qsegCross tol eps2 q1 q2).Pairwise fun x y => ¬ sqDist x y < eps2 := by
  unfold qsegCross crossings
  split
  · exact (dedup_spec eps2 _ _ le_rfl).2.1
  · exact List.Pairwise.nil

/-- `intersects` is true exactly when `intersect` reports a point. -/
theorem C78_agree (tol eps2 : K) (q1 q2 : Poly 3 2 K) : qsegMeets tol q1 q2 = true ↔ qsegCross tol eps2 q1 q2 ≠ [] :=
  meets_iff tol eps2 5 q1 q2

/-- Full claim: a common point is always reported (false, `C78_miss_fails`). The search by boxes loses no common point: some pair of the 32 pieces of either segment holds it and is handed to
Newton's method; if the method succeeds there, a point is reported. -/
theorem C78_keeps_partial (tol eps2 : K) (q1 q2 : Poly 3 2 K) (r s : K) (hr : 0 ≤ r ∧ r ≤ 1) (hs : 0 ≤ s ∧ s ≤ 1)
    (h : qsegAt q1 r = qsegAt q2 s) :
    ∃ i j : Nat, i < 32 ∧ j < 32 ∧ (i : K) ≤ 32 * r ∧ 32 * r ≤ i + 1 ∧ (j : K) ≤ 32 * s ∧ 32 * s ≤ j + 1 ∧
      ∃ Q1 Q2 : Poly 3 2 K, (∀ t, qsegAt Q1 t = qsegAt q1 ((i + t) / 32)) ∧ (∀ t, qsegAt Q2 t = qsegAt q2 ((j + t) / 32)) ∧
        (leaf tol Q1 Q2 ≠ none → qsegCross tol eps2 q1 q2 ≠ []) := by
  have e : (2 : K) ^ 5 = 32 := by norm_num
  obtain ⟨i, j, k1, k2, k3, k4, k5, k6, k7⟩ := crossings_keeps tol eps2 5 q1 q2 r s hr hs h
  rw [e] at k3 k4 k5 k6
  obtain ⟨Q1, p1, -⟩ := exists_piece 5 i q1 k1
  obtain ⟨Q2, p2, -⟩ := exists_piece 5 j q2 k2
  refine ⟨i, j, by simpa using k1, by simpa using k2, k3, k4, k5, k6, Q1, Q2, ?_, ?_, k7 Q1 Q2 p1 p2⟩
  · intro t; rw [p1, e]
  · intro t; rw [p2, e]

/-- Straight segments that are not parallel: the lines have one common point. It is reported, once, if it is on both
segments, and nothing is reported if it is away from one of them by more than the tolerance. -/
theorem C78_straight (tol eps2 : K) (ht : 0 < tol) (he : 0 < eps2) (q1 q2 : Poly 3 2 K) (h1 : Straight q1) (h2 : Straight q2)
    (h : turn q1 q2 ≠ 0) :
    ∃ r s, qsegAt q1 r = qsegAt q2 s ∧ (∀ r' s', qsegAt q1 r' = qsegAt q2 s' → r' = r ∧ s' = s) ∧
      (0 ≤ r → r ≤ 1 → 0 ≤ s → s ≤ 1 → qsegCross tol eps2 q1 q2 = [qsegAt q1 r]) ∧
      (r < -(tol / 32) ∨ 1 + tol / 32 < r ∨ s < -(tol / 32) ∨ 1 + tol / 32 < s → qsegCross tol eps2 q1 q2 = []) := by
  have e32 : (2 : K) ^ 5 = 32 := by norm_num
  obtain ⟨r, s, e⟩ := exists_common q1 q2 h1 h2 h
  have hp := crossings_point tol eps2 5 q1 q2 r s h1 h2 h e
  rw [e32] at hp
  refine ⟨r, s, e, fun r' s' e' => common_unique q1 q2 h1 h2 h r' s' r s e' e, ?_, ?_⟩
  · intro r0 r1 s0 s1
    have hne := crossings_found tol eps2 ht 5 q1 q2 r s h1 h2 h e ⟨r0, r1⟩ ⟨s0, s1⟩
    have hd := C78_distinct tol eps2 q1 q2
    unfold qsegCross at hd ⊢
    generalize crossings tol eps2 5 q1 q2 = l at hp hne hd
    match l, hne, hd, hp with
    | [], hne, _, _ => exact absurd rfl hne
    | [x], _, _, hp => rw [(hp x (by simp)).1]
    | x :: y :: l, _, hd, hp =>
      exfalso
      refine (List.pairwise_cons.1 hd).1 y (by simp) ?_
      rw [(hp x (by simp)).1, (hp y (by simp)).1]
      simpa [sqDist] using he
  · intro hout
    unfold qsegCross
    rw [List.eq_nil_iff_forall_not_mem]
    intro x hx
    obtain ⟨-, k1, k2, k3, k4⟩ := hp x hx
    rcases hout with ho | ho | ho | ho <;> linarith

/-- Parallel straight segments, also ones that overlap, are reported as having no common point. -/
theorem C78_parallel (tol eps2 : K) (q1 q2 : Poly 3 2 K) (h1 : Straight q1) (h2 : Straight q2) (h : turn q1 q2 = 0) :
    qsegCross tol eps2 q1 q2 = [] ∧ qsegMeets tol q1 q2 = false := by
  have := crossings_parallel tol eps2 5 q1 q2 h1 h2 h
  refine ⟨this, ?_⟩
  rw [Bool.eq_false_iff, Ne, C78_agree tol eps2]
  exact fun hne => hne this

/-! ### Polygons -/

theorem twice_spec (tol eps2 : K) {m : Nat} (v : Poly (2 * m) 2 K) (i j : Fin m) (h : twice tol eps2 v i j = true) :
    ∃ x y r s r' s', ¬ sqDist x y < eps2 ∧
      x = qsegAt (getEdge2 v i) r ∧ sqDist x (qsegAt (getEdge2 v j) s) < tol ∧
      y = qsegAt (getEdge2 v i) r' ∧ sqDist y (qsegAt (getEdge2 v j) s') < tol ∧
      ∀ t ∈ [r, s, r', s'], -(tol / 32) ≤ t ∧ t ≤ 1 + tol / 32 := by
  unfold twice at h
  rw [decide_eq_true_iff] at h
  have hd := C78_distinct tol eps2 (getEdge2 v i) (getEdge2 v j)
  have hs := C78_sound tol eps2 (getEdge2 v i) (getEdge2 v j)
  generalize qsegCross tol eps2 (getEdge2 v i) (getEdge2 v j) = l at h hd hs
  match l, h, hd, hs with
  | [], h, _, _ => simp at h
  | [x], h, _, _ => simp at h
  | x :: y :: l, _, hd, hs =>
    obtain ⟨r, s, a1, a2, a3, a4, a5, a6⟩ := hs x (by simp)
    obtain ⟨r', s', b1, b2, b3, b4, b5, b6⟩ := hs y (by simp)
    refine ⟨x, y, r, s, r', s', (List.pairwise_cons.1 hd).1 y (by simp), a1, a2, b1, b2, ?_⟩
    simp only [List.mem_cons, List.not_mem_nil, or_false]
    rintro t (rfl | rfl | rfl | rfl)
    exacts [⟨a3, a4⟩, ⟨a5, a6⟩, ⟨b3, b4⟩, ⟨b5, b6⟩]

/-- The pairs of edges that are looked at: neighbours, and opposite edges of a quadrilateral. -/
def Looked (k : Nat) (i j : Fin (k + 2)) : Prop :=
  j.val = (i.val + 1) % (k + 2) ∨ k = 2 ∧ i.val < 2 ∧ j.val = i.val + 2

theorem self_iff (tol eps2 : K) {k : Nat} (v : Poly (2 * (k + 2)) 2 K) :
    hasSelfIntersection tol eps2 v = true ↔ ∃ i j, Looked k i j ∧ twice tol eps2 v i j = true := by
  unfold hasSelfIntersection
  simp only [Bool.or_eq_true, List.any_eq_true, List.mem_finRange, true_and]
  constructor
  · rintro ((⟨i, hi⟩ | hi) | hi)
    · exact ⟨_, _, Or.inl (by simp only [Fin.val_succ, Fin.val_castSucc]; rw [Nat.mod_eq_of_lt (by omega)]), hi⟩
    · exact ⟨_, _, Or.inl (by simp), hi⟩
    · split at hi
      · rename_i hk
        rw [Bool.or_eq_true] at hi
        rcases hi with hi | hi
        · exact ⟨_, _, Or.inr ⟨hk, by simp, by simp⟩, hi⟩
        · exact ⟨_, _, Or.inr ⟨hk, by simp, by simp⟩, hi⟩
      · simp at hi
  · rintro ⟨i, j, hl | ⟨hk, hi, hj⟩, ht⟩
    · left
      rcases Nat.lt_or_ge i.val (k + 1) with h0 | h0
      · left
        refine ⟨⟨i.val, h0⟩, ?_⟩
        rw [Nat.mod_eq_of_lt (by omega)] at hl
        have e1 : Fin.castSucc ⟨i.val, h0⟩ = i := Fin.ext rfl
        have e2 : Fin.succ ⟨i.val, h0⟩ = j := Fin.ext (by simp [hl])
        rw [e1, e2]; exact ht
      · right
        have hi : i.val = k + 1 := by omega
        rw [hi, Nat.mod_self] at hl
        have e1 : i = Fin.last (k + 1) := Fin.ext hi
        have e2 : j = 0 := Fin.ext hl
        rw [← e1, ← e2]; exact ht
    · right
      rw [dif_pos hk, Bool.or_eq_true]
      rcases Nat.lt_or_ge i.val 1 with h0 | h0
      · left
        have e1 : i = ⟨0, by omega⟩ := Fin.ext (by simp only; omega)
        have e2 : j = ⟨2, by omega⟩ := Fin.ext (by simp only; omega)
        rw [← e1, ← e2]; exact ht
      · right
        have e1 : i = ⟨1, by omega⟩ := Fin.ext (by simp; omega)
        have e2 : j = ⟨3, by omega⟩ := Fin.ext (by simp; omega)
        rw [← e1, ← e2]; exact ht

/-- A polygon is reported exactly when two of the edges that are looked at have two reported points; then they come as close
as the tolerance at two points that are apart. -/
theorem C78_self (tol eps2 : K) {k : Nat} (v : Poly (2 * (k + 2)) 2 K) :
    (hasSelfIntersection tol eps2 v = true ↔
      ∃ i j, Looked k i j ∧ 2 ≤ (qsegCross tol eps2 (getEdge2 v i) (getEdge2 v j)).length) ∧
    (hasSelfIntersection tol eps2 v = true → ∃ i j x y r s r' s', Looked k i j ∧ ¬ sqDist x y < eps2 ∧
      x = qsegAt (getEdge2 v i) r ∧ sqDist x (qsegAt (getEdge2 v j) s) < tol ∧
      y = qsegAt (getEdge2 v i) r' ∧ sqDist y (qsegAt (getEdge2 v j) s') < tol ∧
      ∀ t ∈ [r, s, r', s'], -(tol / 32) ≤ t ∧ t ≤ 1 + tol / 32) := by
  constructor
  · rw [self_iff]
    simp only [twice, decide_eq_true_iff]
    rfl
  · rw [self_iff]
    rintro ⟨i, j, hl, ht⟩
    obtain ⟨x, y, r, s, r', s', hh⟩ := twice_spec tol eps2 v i j ht
    exact ⟨i, j, x, y, r, s, r', s', hl, hh⟩

/-- A polygon all of whose edges are straight is never reported, whether or not it intersects itself. -/
theorem C78_straight_polygon (tol eps2 : K) (ht : 0 < tol) (he : 0 < eps2) {k : Nat} (v : Poly (2 * (k + 2)) 2 K)
    (h : ∀ i, Straight (getEdge2 v i)) : hasSelfIntersection tol eps2 v = false := by
  rw [Bool.eq_false_iff]
  intro hc
  obtain ⟨i, j, -, h2⟩ := (C78_self tol eps2 v).1.1 hc
  by_cases h0 : turn (getEdge2 v i) (getEdge2 v j) = 0
  · rw [(C78_parallel tol eps2 _ _ (h i) (h j) h0).1] at h2; simp at h2
  · obtain ⟨r, s, e, -⟩ := C78_straight tol eps2 ht he _ _ (h i) (h j) h0
    have hp := crossings_point tol eps2 5 _ _ r s (h i) (h j) h0 e
    have hd := C78_distinct tol eps2 (getEdge2 v i) (getEdge2 v j)
    unfold qsegCross at hd h2
    generalize crossings tol eps2 5 (getEdge2 v i) (getEdge2 v j) = l at hp h2 hd
    match l, h2, hd, hp with
    | [], h2, _, _ => simp at h2
    | [x], h2, _, _ => simp at h2
    | x :: y :: l, _, hd, hp =>
      refine (List.pairwise_cons.1 hd).1 y (by simp) ?_
      rw [(hp x (by simp)).1, (hp y (by simp)).1]
      simpa [sqDist] using he

theorem bad_spec (tol eps2 : K) {k : Nat} (v : Poly (2 * (k + 2)) 2 K) :
    (∀ i j, badEdges tol eps2 v = some (i, j) → Looked k i j ∧ twice tol eps2 v i j = true) ∧
    (badEdges tol eps2 v = none ↔ hasSelfIntersection tol eps2 v = false) := by
  have key : (∀ i j, badEdges tol eps2 v = some (i, j) → Looked k i j ∧ twice tol eps2 v i j = true) ∧
      (badEdges tol eps2 v = none → hasSelfIntersection tol eps2 v = false) := by
    unfold badEdges
    dsimp only
    have h1 : ∀ i j, ((List.finRange (k + 1)).find? fun i => twice tol eps2 v i.castSucc i.succ).map
        (fun i => (i.castSucc, i.succ)) = some (i, j) → Looked k i j ∧ twice tol eps2 v i j = true := by
      intro i j h
      rw [Option.map_eq_some_iff] at h
      obtain ⟨a, ha, hb⟩ := h
      simp only [Prod.mk.injEq] at hb
      obtain ⟨rfl, rfl⟩ := hb
      refine ⟨Or.inl ?_, List.find?_some (p := fun i : Fin (k + 1) => twice tol eps2 v i.castSucc i.succ) ha⟩
      simp only [Fin.val_succ, Fin.val_castSucc]; rw [Nat.mod_eq_of_lt (by omega)]
    have h0 : ((List.finRange (k + 1)).find? fun i => twice tol eps2 v i.castSucc i.succ).map
        (fun i => (i.castSucc, i.succ)) = none →
        (List.finRange (k + 1)).any (fun i => twice tol eps2 v i.castSucc i.succ) = false := by
      intro h
      rw [Option.map_eq_none_iff, List.find?_eq_none] at h
      rw [Bool.eq_false_iff]
      intro hc
      rw [List.any_eq_true] at hc
      obtain ⟨i, hi, ht⟩ := hc
      exact h i hi ht
    unfold hasSelfIntersection
    generalize ((List.finRange (k + 1)).find? fun i => twice tol eps2 v i.castSucc i.succ).map
        (fun i => (i.castSucc, i.succ)) = e at h0 h1
    have h2 : ∀ i j, (if twice tol eps2 v (Fin.last (k + 1)) 0 = true then some (Fin.last (k + 1), 0) else e) = some (i, j) →
        Looked k i j ∧ twice tol eps2 v i j = true := by
      intro i j h
      split at h
      · rename_i hh
        simp only [Option.some.injEq, Prod.mk.injEq] at h
        obtain ⟨rfl, rfl⟩ := h
        exact ⟨Or.inl (by simp), hh⟩
      · exact h1 i j h
    constructor
    · intro i j h
      split at h
      · rename_i hk
        split at h
        · rename_i hh
          simp only [Option.some.injEq, Prod.mk.injEq] at h
          obtain ⟨rfl, rfl⟩ := h
          exact ⟨Or.inr ⟨hk, by simp, by simp⟩, hh⟩
        · split at h
          · rename_i hh
            simp only [Option.some.injEq, Prod.mk.injEq] at h
            obtain ⟨rfl, rfl⟩ := h
            exact ⟨Or.inr ⟨hk, by simp, by simp⟩, hh⟩
          · exact h2 i j h
      · exact h2 i j h
    · intro h
      split at h
      · rename_i hk
        split at h
        · simp at h
        · rename_i a1
          split at h
          · simp at h
          · rename_i a2
            split at h
            · simp at h
            · rename_i a3
              rw [h0 h, dif_pos hk, Bool.eq_false_iff.2 a1, Bool.eq_false_iff.2 a2, Bool.eq_false_iff.2 a3]
              rfl
      · rename_i hk
        split at h
        · simp at h
        · rename_i a3
          rw [h0 h, dif_neg hk, Bool.eq_false_iff.2 a3]
          rfl
  refine ⟨key.1, key.2, fun h => ?_⟩
  rcases hb : badEdges tol eps2 v with _ | ⟨i, j⟩
  · rfl
  · obtain ⟨h1, h2⟩ := key.1 i j hb
    rw [(self_iff tol eps2 v).2 ⟨i, j, h1, h2⟩] at h
    simp at h

theorem looked_ne {k : Nat} {i j : Fin (k + 2)} (h : Looked k i j) : i ≠ j := by
  rintro rfl
  rcases h with h | h
  · rcases Nat.lt_or_ge (i.val + 1) (k + 2) with h0 | h0
    · rw [Nat.mod_eq_of_lt h0] at h; omega
    · have : i.val + 1 = k + 2 := by omega
      rw [this, Nat.mod_self] at h; omega
  · omega

theorem edge_moved {k : Nat} (v : Poly (2 * (k + 2)) 2 K) (u : Pt 2 K) (e i : Fin (k + 2)) :
    getEdge2 (fun x : Fin (2 * (k + 2)) => if x = ⟨k + 2 + e.val, by omega⟩ then v x + u else v x) i =
      if i = e then moveMid (getEdge2 v i) u else getEdge2 v i := by
  unfold getEdge2 moveMid
  have hi := i.isLt
  have he := e.isLt
  by_cases h : i = e
  · subst h
    rw [if_pos rfl]
    split
    · funext x
      fin_cases x
      · simp
      · simp; omega
      · simp; omega
    · have : i.val = k + 1 := by omega
      funext x
      fin_cases x
      · simp; omega
      · simp
      · simp [this]; omega
  · rw [if_neg h]
    have hne : i.val ≠ e.val := fun hh => h (Fin.ext hh)
    split
    · funext x
      fin_cases x
      · simp; omega
      · simp; omega
      · simp; omega
    · funext x
      fin_cases x
      · simp; omega
      · simp
      · simp; omega

/-- The repair, on a polygon that was reported and whose edges have distinct ends, is defined. If it reports success then it
moved the middle vertex of one of two edges that had two points in common, by the distance of the middle vertex of the other
one from its chord, and nothing else; these two edges no longer have two points in common. -/
theorem C78_fix (tol eps2 : K) {k : Nat} (v : Poly (2 * (k + 2)) 2 K)
    (hne : ∀ i, getEdge2 v i 0 ≠ getEdge2 v i 1) (hs : hasSelfIntersection tol eps2 v = true) :
    ∃ res, fixSelfIntersection tol eps2 v = some res ∧ ∀ vid disp v', res = some (vid, disp, v') →
      ∃ e0 e1 : Fin (k + 2), (Looked k e0 e1 ∧ twice tol eps2 v e0 e1 = true ∨ Looked k e1 e0 ∧ twice tol eps2 v e1 e0 = true) ∧
        vid.val = k + 2 + e0.val ∧ v' vid = v vid + disp ∧ (∀ i, i ≠ vid → v' i = v i) ∧
        segSqDist ![getEdge2 v e1 0, getEdge2 v e1 1] (getEdge2 v e1 2) = some (sqNorm disp) ∧
        twice tol eps2 v' e0 e1 = false := by
  obtain ⟨i, j, hb⟩ : ∃ i j, badEdges tol eps2 v = some (i, j) := by
    rcases hb : badEdges tol eps2 v with _ | ⟨i, j⟩
    · rw [(bad_spec tol eps2 v).2.1 hb] at hs; simp at hs
    · exact ⟨i, j, rfl⟩
  obtain ⟨hl, ht⟩ := (bad_spec tol eps2 v).1 i j hb
  have hc : ∀ e, ∃ r, pointClosestTo ![getEdge2 v e 0, getEdge2 v e 1] (getEdge2 v e 2) = some r := by
    intro e
    unfold pointClosestTo
    dsimp only
    rw [if_neg]
    · exact ⟨_, rfl⟩
    · rw [sqNorm_eq_zero]
      intro h0
      exact hne e (sub_eq_zero.1 h0).symm
  obtain ⟨ri, hi⟩ := hc i
  obtain ⟨rj, hj⟩ := hc j
  have fin : ∀ (e0 e1 : Fin (k + 2)) (r : K), pointClosestTo ![getEdge2 v e1 0, getEdge2 v e1 1] (getEdge2 v e1 2) = some r →
      (Looked k e0 e1 ∧ twice tol eps2 v e0 e1 = true ∨ Looked k e1 e0 ∧ twice tol eps2 v e1 e0 = true) →
      ∃ res, repair tol eps2 v e0 e1 = some res ∧ ∀ vid disp v', res = some (vid, disp, v') →
      ∃ e0 e1 : Fin (k + 2), (Looked k e0 e1 ∧ twice tol eps2 v e0 e1 = true ∨ Looked k e1 e0 ∧ twice tol eps2 v e1 e0 = true) ∧
        vid.val = k + 2 + e0.val ∧ v' vid = v vid + disp ∧ (∀ i, i ≠ vid → v' i = v i) ∧
        segSqDist ![getEdge2 v e1 0, getEdge2 v e1 1] (getEdge2 v e1 2) = some (sqNorm disp) ∧
        twice tol eps2 v' e0 e1 = false := by
    intro e0 e1 r hr hp
    unfold repair
    dsimp only
    rw [hr]
    refine ⟨_, rfl, ?_⟩
    intro vid disp v' h
    dsimp only at h
    split at h
    · simp at h
    · rename_i hcount
      simp only [Option.some.injEq, Prod.mk.injEq] at h
      obtain ⟨rfl, rfl, rfl⟩ := h
      have hee : e0 ≠ e1 := by
        rcases hp with hp | hp
        · exact looked_ne hp.1
        · exact (looked_ne hp.1).symm
      refine ⟨e0, e1, hp, rfl, by simp, fun i hi => by simp [hi], ?_, ?_⟩
      · unfold segSqDist
        rw [hr]
        simp only [Option.map_some, Option.some.injEq, sqDist, sqNorm, Pi.sub_apply]
        exact Finset.sum_congr rfl fun x _ => by ring
      · unfold twice
        rw [edge_moved, edge_moved, if_pos rfl, if_neg (Ne.symm hee)]
        exact decide_eq_false hcount
  unfold fixSelfIntersection
  simp only [hb, segSqDist, hi, hj, Option.map_some]
  split
  · exact fin j i ri hi (Or.inr ⟨hl, ht⟩)
  · exact fin i j rj hj (Or.inl ⟨hl, ht⟩)

/-- On a polygon that is not reported the repair reads the edges with index `-1`. -/
theorem C78_fix_none_fails (tol eps2 : K) {k : Nat} (v : Poly (2 * (k + 2)) 2 K)
    (h : hasSelfIntersection tol eps2 v = false) : fixSelfIntersection tol eps2 v = none := by
  unfold fixSelfIntersection
  rw [(bad_spec tol eps2 v).2.2 h]

end

/-! ### Where it fails -/

/-- A diagonal. -/
def diag : Poly 3 2 ℚ := ![![0, 0], ![1, 1], ![1 / 2, 1 / 2]]

/-- The line `y = 0`. -/
def flat : Poly 3 2 ℚ := ![![0, 0], ![1, 0], ![1 / 2, 0]]

/-- The parabola `y = x² - 1/4096`, over `[0, 1]`. -/
def parab : Poly 3 2 ℚ := ![![0, -1 / 4096], ![1, 1 - 1 / 4096], ![1 / 2, 1 / 4 - 1 / 4096]]

/-- A point above the diagonal by `h + k (x - 33/64)²` (along either axis). -/
def above (k h x : ℚ) : Pt 2 ℚ := let y := h + k * (x - 33 / 64) ^ 2; ![x - y, x + y]

/-- A curve that stays above the diagonal. -/
def bump : Poly 3 2 ℚ := ![above 12 (9 / 10240) 0, above 12 (9 / 10240) 1, above 12 (9 / 10240) (1 / 2)]

/-- Missed: the segments cross at `(1/64, 0)`, at an angle, but Newton's method starts where they are parallel. -/
theorem C78_miss_fails :
    qsegAt flat (1 / 64) = qsegAt parab (1 / 64) ∧
    qsegJac flat (1 / 64) = ![1, 0] ∧ qsegJac parab (1 / 64) = ![1, 1 / 32] ∧
    ∀ tol eps2 : ℚ, tol = 1 / 10 ^ 5 → eps2 = 1 / 10 ^ 14 →
      qsegCross tol eps2 flat parab = [] ∧ qsegMeets tol flat parab = false := by
  refine ⟨by decide +kernel, by decide +kernel, by decide +kernel, ?_⟩
  rintro tol eps2 rfl rfl
  exact ⟨by decide +kernel, by decide +kernel⟩

/-- Reported although there is none: no two points of these segments, with any parameters, are closer than a thousandth. -/
theorem C78_false_fails :
    (∀ r s, (1 / 10 ^ 3) ^ 2 < sqDist (qsegAt diag r) (qsegAt bump s)) ∧
    ∀ tol eps2 : ℚ, tol = 1 / 10 ^ 5 → eps2 = 1 / 10 ^ 14 →
      (qsegCross tol eps2 diag bump).length = 1 ∧ qsegMeets tol diag bump = true := by
  constructor
  · intro r s
    have e1 : ∀ i, qsegAt diag r i = r := by
      refine Fin.forall_fin_two.2 ⟨?_, ?_⟩ <;> simp [qsegAt, diag] <;> ring
    have e2 : qsegAt bump s 0 = s - (9 / 10240 + 12 * (s - 33 / 64) ^ 2) := by
      simp [qsegAt, bump, above]; ring
    have e3 : qsegAt bump s 1 = s + (9 / 10240 + 12 * (s - 33 / 64) ^ 2) := by
      simp [qsegAt, bump, above]; ring
    simp only [sqDist, Fin.sum_univ_two, e1, e2, e3]
    nlinarith [sq_nonneg (r - s), sq_nonneg (s - 33 / 64), sq_nonneg ((s - 33 / 64) ^ 2)]
  · rintro tol eps2 rfl rfl
    exact ⟨by decide +kernel, by decide +kernel⟩

/-- A quadrilateral with straight edges, two of which cross. -/
def bow : Poly (2 * (2 + 2)) 2 ℚ := ![![0, 0], ![1, 1], ![1, 0], ![0, 1], ![1 / 2, 1 / 2], ![1, 1 / 2], ![1 / 2, 1 / 2], ![0, 1 / 2]]

/-- Not reported: edges 0 and 2 cross in the middle, but one common point is taken to be what edges have. -/
theorem C78_bowtie_fails :
    qsegAt (getEdge2 bow 0) (1 / 2) = qsegAt (getEdge2 bow 2) (1 / 2) ∧
    ∀ tol eps2 : ℚ, 0 < tol → 0 < eps2 →
      qsegCross tol eps2 (getEdge2 bow 0) (getEdge2 bow 2) = [![1 / 2, 1 / 2]] ∧ hasSelfIntersection tol eps2 bow = false := by
  have hs : ∀ i, Straight (getEdge2 bow i) := by
    unfold Straight; decide +kernel
  have e : qsegAt (getEdge2 bow 0) (1 / 2) = qsegAt (getEdge2 bow 2) (1 / 2) := by decide +kernel
  refine ⟨e, fun tol eps2 h1 h2 => ⟨?_, C78_straight_polygon tol eps2 h1 h2 bow hs⟩⟩
  obtain ⟨r, s, -, u, k, -⟩ := C78_straight tol eps2 h1 h2 _ _ (hs 0) (hs 2) (by unfold turn; decide +kernel)
  obtain ⟨rfl, rfl⟩ := u _ _ e
  rw [k (by norm_num) (by norm_num) (by norm_num) (by norm_num)]
  congr 1
  decide +kernel

/-- Two parabolas with four points in common. -/
def para1 : Poly 3 2 ℚ := ![![-4, 16], ![4, 16], ![0, 0]]
def para2 : Poly 3 2 ℚ := ![![-22 / 3, -4], ![-10, 12], ![2, 4]]

/-- All four are found; the code asserts that there are at most two. -/
theorem C78_four_fails (tol eps2 : ℚ) (h1 : tol = 1 / 10 ^ 5) (h2 : eps2 = 1 / 10 ^ 14) :
    (qsegCross tol eps2 para1 para2).length = 4 := by
  subst h1 h2
  decide +kernel

/-! ### Cases that meet the hypotheses -/

/-- A triangle whose second edge dips below the first one. -/
def dip : Poly (2 * (1 + 2)) 2 ℚ := ![![0, 0], ![1, 0], ![0, 1 / 4], ![1 / 2, 0], ![1 / 2, -1 / 16], ![0, 1 / 8]]

example : hasSelfIntersection (k := 1) (1 / 10 ^ 5 : ℚ) (1 / 10 ^ 14) dip = true ∧ (∀ i, getEdge2 dip i 0 ≠ getEdge2 dip i 1) :=
  ⟨by decide +kernel, by decide +kernel⟩

/-- The first edge is bent away; afterwards the triangle is not reported. -/
example : (match fixSelfIntersection (k := 1) (1 / 10 ^ 5 : ℚ) (1 / 10 ^ 14) dip with
    | some (some (vid, _, v')) => decide (vid = 3) && !hasSelfIntersection (k := 1) (1 / 10 ^ 5 : ℚ) (1 / 10 ^ 14) v'
    | _ => false) = true := by decide +kernel

example : qsegAt flat (1 / 2) = qsegAt flat (1 / 2) ∧ Straight flat ∧ Straight diag ∧ turn flat diag ≠ 0 ∧ turn flat flat = 0 :=
  ⟨rfl, by unfold Straight; decide +kernel, by unfold Straight; decide +kernel, by unfold turn; decide +kernel,
    by unfold turn; decide +kernel⟩

end Verif.QCross
