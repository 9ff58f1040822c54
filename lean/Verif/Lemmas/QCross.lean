import Verif.Model.QCross
import Verif.Props.Box
import Verif.Props.Quadratic
import Verif.Props.Geom
import Mathlib.Data.List.Perm.Basic
import Mathlib.Tactic.Linarith
import Mathlib.Tactic.Ring
import Mathlib.Tactic.FieldSimp
import Mathlib.Tactic.LinearCombination

namespace Verif.QCross

open Verif.Geom

section
variable {K : Type} [Field K] [LinearOrder K]

/-! ### Duplicates -/

theorem dropNear_perm (p : Pt 2 K → Bool) :
    ∀ (n : Nat) (done todo : List (Pt 2 K)), todo.length ≤ n →
      (dropNear p n done todo).Perm (done ++ todo.filter fun y => !p y)
  | n, done, [], _ => by cases n <;> simp [dropNear]
  | 0, done, y :: rest, h => by simp at h
  | n + 1, done, y :: rest, h => by
    simp only [List.length_cons] at h
    unfold dropNear
    by_cases hp : p y = true
    · simp only [hp, if_true]
      rcases List.eq_nil_or_concat rest with h0 | ⟨l, z, h0⟩
      · subst h0; simp [hp]
      · subst h0
        simp only [List.concat_eq_append, List.getLast?_append, List.getLast?_singleton, Option.some_or, List.dropLast_concat]
        refine (dropNear_perm p n done (z :: l) (by simp at h ⊢; omega)).trans ?_
        refine List.Perm.append_left _ ?_
        rw [List.filter_cons_of_neg (a := y) (by simp [hp])]
        exact List.Perm.filter _ (List.perm_append_comm (l₁ := [z]))
    · simp only [hp]
      refine (dropNear_perm p n (done ++ [y]) rest (by omega)).trans ?_
      rw [List.filter_cons_of_pos (by simpa using hp)]
      simp

theorem dedup_spec (eps2 : K) :
    ∀ (n : Nat) (l : List (Pt 2 K)), l.length ≤ n →
      (∀ x ∈ dedup eps2 n l, x ∈ l) ∧
      (dedup eps2 n l).Pairwise (fun x y => ¬ sqDist x y < eps2) ∧
      (∀ x ∈ l, ∃ y ∈ dedup eps2 n l, y = x ∨ sqDist y x < eps2)
  | n, [], _ => by cases n <;> simp [dedup]
  | 0, x :: l, h => by simp at h
  | n + 1, x :: l, h => by
    simp only [List.length_cons] at h
    unfold dedup
    have hp := dropNear_perm (fun y => decide (sqDist x y < eps2)) l.length [] l le_rfl
    obtain ⟨m, hm⟩ : ∃ m, m = dropNear (fun y => decide (sqDist x y < eps2)) l.length [] l := ⟨_, rfl⟩
    rw [← hm] at hp ⊢
    have mem : ∀ y, y ∈ m ↔ y ∈ l ∧ ¬ sqDist x y < eps2 := by
      intro y; rw [hp.mem_iff]; simp
    have len : m.length ≤ n := by
      have h1 := hp.length_eq
      have h2 := List.length_filter_le (fun y => !decide (sqDist x y < eps2)) l
      simp only [List.nil_append] at h1
      omega
    obtain ⟨h1, h2, h3⟩ := dedup_spec eps2 n m len
    refine ⟨?_, ?_, ?_⟩
    · intro y hy
      rcases List.mem_cons.1 hy with h0 | h0
      · simp [h0]
      · exact List.mem_cons_of_mem _ ((mem y).1 (h1 y h0)).1
    · refine List.pairwise_cons.2 ⟨fun y hy => ((mem y).1 (h1 y hy)).2, h2⟩
    · intro y hy
      rcases List.mem_cons.1 hy with h0 | h0
      · exact ⟨x, by simp, Or.inl h0.symm⟩
      · by_cases hc : sqDist x y < eps2
        · exact ⟨x, by simp, Or.inr hc⟩
        · obtain ⟨z, hz, h4⟩ := h3 y ((mem y).2 ⟨h0, hc⟩)
          exact ⟨z, List.mem_cons_of_mem _ hz, h4⟩

theorem dedup_nil (eps2 : K) (l : List (Pt 2 K)) : dedup eps2 l.length l = [] ↔ l = [] := by
  constructor
  · intro h
    by_contra hne
    obtain ⟨x, hx⟩ := List.exists_mem_of_ne_nil l hne
    obtain ⟨y, hy, -⟩ := (dedup_spec eps2 l.length l le_rfl).2.2 x hx
    rw [h] at hy; simp at hy
  · rintro rfl; simp [dedup]

/-- The four pairs of halves. -/
theorem mem_crossings (tol eps2 : K) (n : Nat) (q1 q2 : Poly 3 2 K) (x : Pt 2 K) (h : x ∈ crossings tol eps2 (n + 1) q1 q2) :
    ∃ a ∈ [qsegLeft q1, qsegRight q1], ∃ b ∈ [qsegLeft q2, qsegRight q2], x ∈ crossings tol eps2 n a b := by
  unfold crossings at h
  split at h
  · have := (dedup_spec eps2 _ _ le_rfl).1 x h
    simp only [List.mem_append] at this
    simp only [List.mem_cons, List.not_mem_nil, or_false, exists_eq_or_imp, exists_eq_left]
    tauto
  · simp at h

theorem meets_iff (tol eps2 : K) : ∀ (n : Nat) (q1 q2 : Poly 3 2 K),
    meets tol n q1 q2 = true ↔ crossings tol eps2 n q1 q2 ≠ []
  | 0, q1, q2 => by
    unfold meets crossings
    split
    · cases leaf tol q1 q2 <;> simp
    · simp
  | n + 1, q1, q2 => by
    unfold meets crossings
    split
    · simp only [Bool.or_eq_true, meets_iff tol eps2 n, ne_eq, dedup_nil, List.append_eq_nil_iff]
      tauto
    · simp

end

variable {K : Type} [Field K] [LinearOrder K] [IsStrictOrderedRing K]

/-! ### Newton -/

theorem newtonLoop_err (q1 q2 : Poly 3 2 K) : ∀ (n : Nat) (r s err r' s' err' : K),
    err = sqNorm (qsegAt q1 r - qsegAt q2 s) → newtonLoop q1 q2 n r s err = some (r', s', err') →
    err' = sqNorm (qsegAt q1 r' - qsegAt q2 s')
  | 0, r, s, err, r', s', err', h0, h => by
    simp only [newtonLoop, Option.some.injEq, Prod.mk.injEq] at h
    obtain ⟨rfl, rfl, rfl⟩ := h
    exact h0
  | n + 1, r, s, err, r', s', err', h0, h => by
    unfold newtonLoop at h
    split at h
    · simp at h
    · dsimp only at h
      split at h
      · exact newtonLoop_err q1 q2 n _ _ _ _ _ _ rfl h
      · simp only [Option.some.injEq, Prod.mk.injEq] at h
        obtain ⟨rfl, rfl, rfl⟩ := h
        rfl

theorem leaf_spec (tol : K) (q1 q2 : Poly 3 2 K) (x : Pt 2 K) (h : leaf tol q1 q2 = some x) :
    ∃ r s, x = qsegAt q1 r ∧ sqDist (qsegAt q1 r) (qsegAt q2 s) < tol ∧
      -tol ≤ r ∧ r ≤ 1 + tol ∧ -tol ≤ s ∧ s ≤ 1 + tol := by
  unfold leaf at h
  split at h
  · simp at h
  · rename_i r s err he
    split at h
    · rename_i hc
      have := newtonLoop_err q1 q2 10 _ _ _ _ _ _ rfl he
      refine ⟨r, s, (Option.some.inj h).symm, ?_, hc.2⟩
      have e : sqDist (qsegAt q1 r) (qsegAt q2 s) = err := by rw [this]; rfl
      rw [e]; exact hc.1
    · simp at h

theorem half_at (q a : Poly 3 2 K) (h : a ∈ [qsegLeft q, qsegRight q]) :
    ∃ c : K, (c = 0 ∨ c = 1) ∧ ∀ r, qsegAt a r = qsegAt q ((c + r) / 2) := by
  simp only [List.mem_cons, List.not_mem_nil, or_false] at h
  rcases h with rfl | rfl
  · refine ⟨0, Or.inl rfl, fun r => ?_⟩
    rw [zero_add]; exact (C31_bisection q r).1
  · exact ⟨1, Or.inr rfl, fun r => (C31_bisection q r).2⟩

theorem range_half (c r t : K) (hc : c = 0 ∨ c = 1) (ht : 0 ≤ t) (h1 : -t ≤ r) (h2 : r ≤ 1 + t) :
    -(t / 2) ≤ (c + r) / 2 ∧ (c + r) / 2 ≤ 1 + t / 2 := by
  rcases hc with rfl | rfl <;> constructor <;> linarith

theorem crossings_sound (tol eps2 : K) : ∀ (n : Nat) (q1 q2 : Poly 3 2 K) (x : Pt 2 K), x ∈ crossings tol eps2 n q1 q2 →
    ∃ r s, x = qsegAt q1 r ∧ sqDist (qsegAt q1 r) (qsegAt q2 s) < tol ∧
      -(tol / 2 ^ n) ≤ r ∧ r ≤ 1 + tol / 2 ^ n ∧ -(tol / 2 ^ n) ≤ s ∧ s ≤ 1 + tol / 2 ^ n
  | 0, q1, q2, x, h => by
    unfold crossings at h
    split at h
    · simp only [Option.mem_toList, Option.mem_def] at h
      simpa using leaf_spec tol q1 q2 x h
    · simp at h
  | n + 1, q1, q2, x, h => by
    obtain ⟨a, ha, b, hb, h⟩ := mem_crossings tol eps2 n q1 q2 x h
    obtain ⟨r, s, h1, h2, h3, h4, h5, h6⟩ := crossings_sound tol eps2 n a b x h
    obtain ⟨c, hc, ea⟩ := half_at q1 a ha
    obtain ⟨d, hd, eb⟩ := half_at q2 b hb
    rw [ea, eb] at h2
    rw [ea] at h1
    have ht : 0 ≤ tol / 2 ^ n := by
      have h0 : 0 ≤ sqDist (qsegAt q1 ((c + r) / 2)) (qsegAt q2 ((d + s) / 2)) :=
        Finset.sum_nonneg fun i _ => mul_self_nonneg _
      exact div_nonneg (le_of_lt (lt_of_le_of_lt h0 h2)) (by positivity)
    have e : tol / 2 ^ (n + 1) = tol / 2 ^ n / 2 := by rw [pow_succ, div_div]
    rw [e]
    obtain ⟨k1, k2⟩ := range_half c r _ hc ht h3 h4
    obtain ⟨k3, k4⟩ := range_half d s _ hd ht h5 h6
    exact ⟨_, _, h1, h2, k1, k2, k3, k4⟩

/-! ### Boxes -/

theorem near_of_common (q1 q2 : Poly 3 2 K) (r s : K) (hr : 0 ≤ r ∧ r ≤ 1) (hs : 0 ≤ s ∧ s ≤ 1)
    (h : qsegAt q1 r = qsegAt q2 s) : near q1 q2 = true := by
  have grow : ∀ (q : Poly 3 2 K) (r : K), 0 ≤ r ∧ r ≤ 1 → Box.Inside (qsegAt q r) (Box.scale (qsegBox q) (65 / 64)) := by
    intro q r hr i
    obtain ⟨h1, h2⟩ := (C31_boundingBox q).1 r hr.1 hr.2 i
    obtain ⟨e1, e2⟩ := Box.C24_scale (qsegBox q) (65 / 64) i
    unfold Box.centroid at e1
    unfold Box.extents at e2
    constructor <;> linarith
  have hv : ∀ (q : Poly 3 2 K), Box.Valid (Box.scale (qsegBox q) (65 / 64)) := by
    intro q i
    obtain ⟨h1, h2⟩ := grow q 0 ⟨le_rfl, zero_le_one⟩ i
    exact le_trans h1 h2
  unfold near
  refine ((Box.C24_intersects _ _ (hv q1) (hv q2)).2).2 ⟨qsegAt q1 r, grow q1 r hr, ?_⟩
  rw [h]; exact grow q2 s hs

/-- The half that holds a parameter. -/
theorem half_of (q : Poly 3 2 K) (r : K) (h : 0 ≤ r ∧ r ≤ 1) :
    ∃ a ∈ [qsegLeft q, qsegRight q], ∃ i : Nat, i < 2 ∧ (∀ t, qsegAt a t = qsegAt q ((i + t) / 2)) ∧
      0 ≤ 2 * r - i ∧ 2 * r - i ≤ 1 := by
  rcases le_total r (1 / 2) with hr | hr
  · refine ⟨_, List.mem_cons_self, 0, by omega, fun t => ?_, ?_, ?_⟩
    · rw [(C31_bisection q t).1]; simp
    · push_cast; linarith [h.1]
    · push_cast; linarith
  · refine ⟨_, List.mem_cons_of_mem _ (List.mem_singleton_self _), 1, by omega, fun t => ?_, ?_, ?_⟩
    · rw [(C31_bisection q t).2]; simp
    · push_cast; linarith
    · push_cast; linarith [h.2]

/-- `Q` is the piece number `i` of `2 ^ n` pieces of `q`. -/
def Piece (n i : Nat) (q Q : Poly 3 2 K) : Prop := ∀ t, qsegAt Q t = qsegAt q ((i + t) / 2 ^ n)

theorem poly_ext (a b : Poly 3 2 K) (h : ∀ t, qsegAt a t = qsegAt b t) : a = b := by
  have h0 := h 0
  have h1 := h 1
  have h2 := h (1 / 2)
  rw [(C31_interpolate a).1, (C31_interpolate b).1] at h0
  rw [(C31_interpolate a).2.1, (C31_interpolate b).2.1] at h1
  rw [(C31_interpolate a).2.2.1, (C31_interpolate b).2.2.1] at h2
  funext i
  fin_cases i
  · exact h0
  · exact h1
  · exact h2

theorem crossings_keeps (tol eps2 : K) : ∀ (n : Nat) (q1 q2 : Poly 3 2 K) (r s : K), 0 ≤ r ∧ r ≤ 1 → 0 ≤ s ∧ s ≤ 1 →
    qsegAt q1 r = qsegAt q2 s →
    ∃ i j : Nat, i < 2 ^ n ∧ j < 2 ^ n ∧ (i : K) ≤ 2 ^ n * r ∧ 2 ^ n * r ≤ i + 1 ∧ (j : K) ≤ 2 ^ n * s ∧ 2 ^ n * s ≤ j + 1 ∧
      ∀ Q1 Q2, Piece n i q1 Q1 → Piece n j q2 Q2 → leaf tol Q1 Q2 ≠ none → crossings tol eps2 n q1 q2 ≠ []
  | 0, q1, q2, r, s, hr, hs, h => by
    refine ⟨0, 0, by simp, by simp, by simpa using hr.1, by simpa using hr.2, by simpa using hs.1, by simpa using hs.2, ?_⟩
    intro Q1 Q2 h1 h2 hl
    have e1 : Q1 = q1 := poly_ext _ _ fun t => by rw [h1]; simp
    have e2 : Q2 = q2 := poly_ext _ _ fun t => by rw [h2]; simp
    subst e1 e2
    unfold crossings
    rw [if_pos (near_of_common _ _ r s hr hs h)]
    cases hh : leaf tol Q1 Q2 with
    | none => exact absurd hh hl
    | some x => simp
  | n + 1, q1, q2, r, s, hr, hs, h => by
    obtain ⟨a, ha, i, hi, ea, r1, r2⟩ := half_of q1 r hr
    obtain ⟨b, hb, j, hj, eb, s1, s2⟩ := half_of q2 s hs
    have hab : qsegAt a (2 * r - i) = qsegAt b (2 * s - j) := by
      rw [ea, eb]
      have e1 : ((i : K) + (2 * r - i)) / 2 = r := by ring
      have e2 : ((j : K) + (2 * s - j)) / 2 = s := by ring
      rw [e1, e2, h]
    obtain ⟨i', j', k1, k2, k3, k4, k5, k6, k7⟩ := crossings_keeps tol eps2 n a b _ _ ⟨r1, r2⟩ ⟨s1, s2⟩ hab
    refine ⟨2 ^ n * i + i', 2 ^ n * j + j', ?_, ?_, ?_, ?_, ?_, ?_, ?_⟩
    · rw [pow_succ]
      have := Nat.mul_le_mul_left (2 ^ n) (Nat.le_of_lt_succ hi)
      omega
    · rw [pow_succ]
      have := Nat.mul_le_mul_left (2 ^ n) (Nat.le_of_lt_succ hj)
      omega
    · push_cast; rw [pow_succ]; linarith
    · push_cast; rw [pow_succ]; linarith
    · push_cast; rw [pow_succ]; linarith
    · push_cast; rw [pow_succ]; linarith
    · intro Q1 Q2 h1 h2 hl
      have hp : (2 : K) ^ n ≠ 0 := by positivity
      have g1 : Piece n i' a Q1 := by
        intro t
        rw [h1, ea]
        congr 1
        push_cast
        rw [pow_succ]; field_simp; ring
      have g2 : Piece n j' b Q2 := by
        intro t
        rw [h2, eb]
        congr 1
        push_cast
        rw [pow_succ]; field_simp; ring
      have hne := k7 Q1 Q2 g1 g2 hl
      unfold crossings
      rw [if_pos (near_of_common _ _ r s hr hs h)]
      dsimp only
      rw [Ne, dedup_nil]
      simp only [List.append_eq_nil_iff]
      simp only [List.mem_cons, List.not_mem_nil, or_false] at ha hb
      rcases ha with rfl | rfl <;> rcases hb with rfl | rfl <;> tauto

/-! ### Straight segments -/

/-- The middle vertex is the midpoint of the ends. -/
def Straight (q : Poly 3 2 K) : Prop := ∀ i, 2 * q 2 i = q 0 i + q 1 i

theorem straight_at (q : Poly 3 2 K) (h : Straight q) (r : K) (i : Fin 2) : qsegAt q r i = q 0 i + r * (q 1 i - q 0 i) := by
  unfold qsegAt
  linear_combination (-2 * r * (r - 1)) * h i

theorem straight_jac (q : Poly 3 2 K) (h : Straight q) (r : K) (i : Fin 2) : qsegJac q r i = q 1 i - q 0 i := by
  unfold qsegJac
  linear_combination (2 - 4 * r) * h i

theorem straight_half (q a : Poly 3 2 K) (hq : Straight q) (ha : a ∈ [qsegLeft q, qsegRight q]) :
    Straight a ∧ ∀ i, 2 * (a 1 i - a 0 i) = q 1 i - q 0 i := by
  simp only [List.mem_cons, List.not_mem_nil, or_false] at ha
  rcases ha with rfl | rfl
  · refine ⟨fun i => ?_, fun i => ?_⟩
    · change 2 * qsegAt q (1 / 4) i = q 0 i + q 2 i
      rw [straight_at q hq]; linear_combination (-1 / 2) * hq i
    · change 2 * (q 2 i - q 0 i) = _
      linear_combination hq i
  · refine ⟨fun i => ?_, fun i => ?_⟩
    · change 2 * qsegAt q (3 / 4) i = q 2 i + q 1 i
      rw [straight_at q hq]; linear_combination (-1 / 2) * hq i
    · change 2 * (q 1 i - q 2 i) = _
      linear_combination - hq i

/-- The cross product of the two directions. -/
def turn (q1 q2 : Poly 3 2 K) : K := (q1 1 0 - q1 0 0) * (q2 1 1 - q2 0 1) - (q1 1 1 - q1 0 1) * (q2 1 0 - q2 0 0)

theorem turn_half (q1 q2 a b : Poly 3 2 K) (h1 : Straight q1) (h2 : Straight q2) (ha : a ∈ [qsegLeft q1, qsegRight q1])
    (hb : b ∈ [qsegLeft q2, qsegRight q2]) : turn q1 q2 = 4 * turn a b := by
  have e1 := (straight_half q1 a h1 ha).2
  have e2 := (straight_half q2 b h2 hb).2
  unfold turn
  rw [← e1 0, ← e1 1, ← e2 0, ← e2 1]; ring

theorem step_parallel (q1 q2 : Poly 3 2 K) (h1 : Straight q1) (h2 : Straight q2) (h : turn q1 q2 = 0) (r s : K) :
    newtonStep q1 q2 r s = none := by
  unfold newtonStep
  dsimp only
  rw [if_pos]
  unfold turn at h
  simp only [Mx.det2x2, Pi.neg_apply, straight_jac q1 h1, straight_jac q2 h2]
  linear_combination -h

theorem crossings_parallel (tol eps2 : K) : ∀ (n : Nat) (q1 q2 : Poly 3 2 K), Straight q1 → Straight q2 → turn q1 q2 = 0 →
    crossings tol eps2 n q1 q2 = []
  | 0, q1, q2, h1, h2, h => by
    unfold crossings leaf newtonLoop
    rw [step_parallel q1 q2 h1 h2 h]
    simp
  | n + 1, q1, q2, h1, h2, h => by
    rw [List.eq_nil_iff_forall_not_mem]
    intro x hx
    obtain ⟨a, ha, b, hb, hx⟩ := mem_crossings tol eps2 n q1 q2 x hx
    have ht := turn_half q1 q2 a b h1 h2 ha hb
    rw [crossings_parallel tol eps2 n a b (straight_half q1 a h1 ha).1 (straight_half q2 b h2 hb).1 (by linarith)] at hx
    simp at hx

/-- The parameters of the common point. -/
theorem exists_common (q1 q2 : Poly 3 2 K) (h1 : Straight q1) (h2 : Straight q2) (h : turn q1 q2 ≠ 0) :
    ∃ r s, qsegAt q1 r = qsegAt q2 s := by
  refine ⟨((q2 0 0 - q1 0 0) * (q2 1 1 - q2 0 1) - (q2 0 1 - q1 0 1) * (q2 1 0 - q2 0 0)) / turn q1 q2,
    ((q2 0 0 - q1 0 0) * (q1 1 1 - q1 0 1) - (q2 0 1 - q1 0 1) * (q1 1 0 - q1 0 0)) / turn q1 q2, ?_⟩
  funext i
  rw [straight_at q1 h1, straight_at q2 h2, div_mul_eq_mul_div, div_mul_eq_mul_div, ← sub_eq_zero]
  have e : ∀ x y z w d : K, d ≠ 0 → x * d + y - (z * d + w) = 0 → x + y / d - (z + w / d) = 0 := by
    intro x y z w d hd he
    have : x + y / d - (z + w / d) = (x * d + y - (z * d + w)) / d := by field_simp
    rw [this, he, zero_div]
  apply e _ _ _ _ _ h
  unfold turn
  fin_cases i
  · simp only [Fin.zero_eta]; ring
  · simp only [Fin.mk_one]; ring

theorem common_unique (q1 q2 : Poly 3 2 K) (h1 : Straight q1) (h2 : Straight q2) (h : turn q1 q2 ≠ 0) (r s r' s' : K)
    (e : qsegAt q1 r = qsegAt q2 s) (e' : qsegAt q1 r' = qsegAt q2 s') : r = r' ∧ s = s' := by
  have e0 := congrFun e 0
  have e1 := congrFun e 1
  have f0 := congrFun e' 0
  have f1 := congrFun e' 1
  simp only [straight_at q1 h1, straight_at q2 h2] at e0 e1 f0 f1
  unfold turn at h
  constructor
  · refine sub_eq_zero.1 ((mul_eq_zero.1 ?_).resolve_left h)
    linear_combination (q2 1 1 - q2 0 1) * (e0 - f0) - (q2 1 0 - q2 0 0) * (e1 - f1)
  · refine sub_eq_zero.1 ((mul_eq_zero.1 ?_).resolve_left h)
    linear_combination (q1 1 1 - q1 0 1) * (e0 - f0) - (q1 1 0 - q1 0 0) * (e1 - f1)

/-- On straight segments a Newton step is exact. -/
theorem step_straight (q1 q2 : Poly 3 2 K) (h1 : Straight q1) (h2 : Straight q2) (h : turn q1 q2 ≠ 0) (r s r0 s0 : K)
    (e : qsegAt q1 r = qsegAt q2 s) : newtonStep q1 q2 r0 s0 = some (r, s) := by
  have e0 := congrFun e 0
  have e1 := congrFun e 1
  simp only [straight_at q1 h1, straight_at q2 h2] at e0 e1
  unfold newtonStep
  dsimp only
  have hd : Mx.det2x2 (qsegJac q1 r0 0) ((-qsegJac q2 s0) 0) (qsegJac q1 r0 1) ((-qsegJac q2 s0) 1) = -turn q1 q2 := by
    simp only [Mx.det2x2, Pi.neg_apply, straight_jac q1 h1, straight_jac q2 h2, turn]; ring
  rw [hd, if_neg (neg_ne_zero.2 h)]
  simp only [Pi.sub_apply, Pi.neg_apply, straight_at q1 h1, straight_at q2 h2, straight_jac q1 h1, straight_jac q2 h2]
  congr 2
  · rw [div_mul_eq_mul_div, div_mul_eq_mul_div, ← add_div, sub_eq_iff_eq_add, ← sub_eq_iff_eq_add', eq_div_iff (neg_ne_zero.2 h)]
    unfold turn
    linear_combination (q2 1 1 - q2 0 1) * e0 - (q2 1 0 - q2 0 0) * e1
  · rw [div_mul_eq_mul_div, div_mul_eq_mul_div, ← add_div, sub_eq_iff_eq_add, ← sub_eq_iff_eq_add', eq_div_iff (neg_ne_zero.2 h)]
    unfold turn
    linear_combination (q1 1 1 - q1 0 1) * e0 - (q1 1 0 - q1 0 0) * e1

theorem loop_straight (q1 q2 : Poly 3 2 K) (h1 : Straight q1) (h2 : Straight q2) (h : turn q1 q2 ≠ 0) (r s r0 s0 err : K)
    (e : qsegAt q1 r = qsegAt q2 s) (n : Nat) : newtonLoop q1 q2 (n + 2) r0 s0 err = some (r, s, 0) := by
  have hz : sqNorm (qsegAt q1 r - qsegAt q2 s) = 0 := by
    rw [e, sub_self]; simp [sqNorm]
  have one : ∀ (m : Nat) (r0 s0 : K), newtonLoop q1 q2 (m + 1) r0 s0 0 = some (r, s, 0) := by
    intro m r0 s0
    unfold newtonLoop
    rw [step_straight q1 q2 h1 h2 h r s r0 s0 e]
    dsimp only
    rw [hz, if_neg (fun hh => lt_irrefl _ hh.1)]
  unfold newtonLoop
  rw [step_straight q1 q2 h1 h2 h r s r0 s0 e]
  dsimp only
  rw [hz]
  split
  · exact one n r s
  · rfl

theorem leaf_straight (tol : K) (q1 q2 : Poly 3 2 K) (h1 : Straight q1) (h2 : Straight q2) (h : turn q1 q2 ≠ 0) (r s : K)
    (e : qsegAt q1 r = qsegAt q2 s) :
    leaf tol q1 q2 = if 0 < tol ∧ -tol ≤ r ∧ r ≤ 1 + tol ∧ -tol ≤ s ∧ s ≤ 1 + tol then some (qsegAt q1 r) else none := by
  unfold leaf
  rw [loop_straight q1 q2 h1 h2 h r s 0 0 _ e 8]

theorem crossings_point (tol eps2 : K) : ∀ (n : Nat) (q1 q2 : Poly 3 2 K) (r s : K), Straight q1 → Straight q2 → turn q1 q2 ≠ 0 →
    qsegAt q1 r = qsegAt q2 s → ∀ x ∈ crossings tol eps2 n q1 q2, x = qsegAt q1 r ∧
      -(tol / 2 ^ n) ≤ r ∧ r ≤ 1 + tol / 2 ^ n ∧ -(tol / 2 ^ n) ≤ s ∧ s ≤ 1 + tol / 2 ^ n
  | 0, q1, q2, r, s, h1, h2, h, e, x, hx => by
    unfold crossings at hx
    rw [leaf_straight tol q1 q2 h1 h2 h r s e] at hx
    split at hx
    · split at hx
      · rename_i hc
        simp only [Option.toList_some, List.mem_singleton] at hx
        simpa using ⟨hx, hc.2⟩
      · simp at hx
    · simp at hx
  | n + 1, q1, q2, r, s, h1, h2, h, e, x, hx => by
    obtain ⟨y0, y1, k1, k2, -⟩ := crossings_sound tol eps2 (n + 1) q1 q2 x hx
    have ht : 0 ≤ tol / 2 ^ n := by
      have h0 : 0 ≤ sqDist (qsegAt q1 y0) (qsegAt q2 y1) := Finset.sum_nonneg fun i _ => mul_self_nonneg _
      exact div_nonneg (le_of_lt (lt_of_le_of_lt h0 k2)) (by positivity)
    obtain ⟨a, ha, b, hb, hx⟩ := mem_crossings tol eps2 n q1 q2 x hx
    have hta := turn_half q1 q2 a b h1 h2 ha hb
    obtain ⟨c, hc, ea⟩ := half_at q1 a ha
    obtain ⟨d, hd, eb⟩ := half_at q2 b hb
    have eab : qsegAt a (2 * r - c) = qsegAt b (2 * s - d) := by
      rw [ea, eb]
      have e1 : (c + (2 * r - c)) / 2 = r := by ring
      have e2 : (d + (2 * s - d)) / 2 = s := by ring
      rw [e1, e2, e]
    obtain ⟨g1, g2, g3, g4, g5⟩ := crossings_point tol eps2 n a b _ _ (straight_half q1 a h1 ha).1 (straight_half q2 b h2 hb).1
      (fun h0 => h (by rw [hta, h0, mul_zero])) eab x hx
    have e1 : (c + (2 * r - c)) / 2 = r := by ring
    have e2 : (d + (2 * s - d)) / 2 = s := by ring
    obtain ⟨k1, k2⟩ := range_half c _ _ hc ht g2 g3
    obtain ⟨k3, k4⟩ := range_half d _ _ hd ht g4 g5
    rw [e1] at k1 k2
    rw [e2] at k3 k4
    rw [pow_succ, ← div_div]
    refine ⟨?_, k1, k2, k3, k4⟩
    rw [g1, ea, e1]

/-- Every piece exists. -/
theorem exists_piece : ∀ (n i : Nat) (q : Poly 3 2 K), i < 2 ^ n → ∃ Q, Piece n i q Q ∧ (Straight q → Straight Q)
  | 0, i, q, h => by
    have : i = 0 := by simpa using h
    subst this
    exact ⟨q, fun t => by simp, id⟩
  | n + 1, i, q, h => by
    have hp : (2 : K) ^ n ≠ 0 := by positivity
    rcases Nat.lt_or_ge i (2 ^ n) with hi | hi
    · obtain ⟨Q, h1, h2⟩ := exists_piece n i (qsegLeft q) hi
      refine ⟨Q, fun t => ?_, fun hs => h2 (straight_half q _ hs List.mem_cons_self).1⟩
      rw [h1, (C31_bisection q _).1, pow_succ, div_div]
    · obtain ⟨Q, h1, h2⟩ := exists_piece n (i - 2 ^ n) (qsegRight q) (by rw [pow_succ] at h; omega)
      refine ⟨Q, fun t => ?_, fun hs => h2 (straight_half q _ hs (List.mem_cons_of_mem _ (List.mem_singleton_self _))).1⟩
      rw [h1, (C31_bisection q _).2, pow_succ]
      congr 1
      push_cast [Nat.cast_sub hi]
      field_simp
      ring

theorem crossings_found (tol eps2 : K) (ht : 0 < tol) (n : Nat) (q1 q2 : Poly 3 2 K) (r s : K) (h1 : Straight q1)
    (h2 : Straight q2) (h : turn q1 q2 ≠ 0) (e : qsegAt q1 r = qsegAt q2 s) (hr : 0 ≤ r ∧ r ≤ 1) (hs : 0 ≤ s ∧ s ≤ 1) :
    crossings tol eps2 n q1 q2 ≠ [] := by
  obtain ⟨i, j, k1, k2, k3, k4, k5, k6, k7⟩ := crossings_keeps tol eps2 n q1 q2 r s hr hs e
  obtain ⟨Q1, p1, s1⟩ := exists_piece n i q1 k1
  obtain ⟨Q2, p2, s2⟩ := exists_piece n j q2 k2
  have hp : (2 : K) ^ n ≠ 0 := by positivity
  refine k7 Q1 Q2 p1 p2 ?_
  have ends : ∀ (q Q : Poly 3 2 K) (i : Nat), Straight q → Piece n i q Q → ∀ x, 2 ^ n * (Q 1 x - Q 0 x) = q 1 x - q 0 x := by
    intro q Q i hq hP x
    have e0 := congrFun (hP 0) x
    have e1 := congrFun (hP 1) x
    rw [(C31_interpolate Q).1, straight_at q hq] at e0
    rw [(C31_interpolate Q).2.1, straight_at q hq] at e1
    rw [e0, e1]; field_simp; ring
  have htn : turn q1 q2 = 2 ^ n * 2 ^ n * turn Q1 Q2 := by
    unfold turn
    rw [← ends q1 Q1 i h1 p1 0, ← ends q1 Q1 i h1 p1 1, ← ends q2 Q2 j h2 p2 0, ← ends q2 Q2 j h2 p2 1]; ring
  have eQ : qsegAt Q1 (2 ^ n * r - i) = qsegAt Q2 (2 ^ n * s - j) := by
    rw [p1, p2]
    have e1 : ((i : K) + (2 ^ n * r - i)) / 2 ^ n = r := by field_simp; ring
    have e2 : ((j : K) + (2 ^ n * s - j)) / 2 ^ n = s := by field_simp; ring
    rw [e1, e2, e]
  rw [leaf_straight tol Q1 Q2 (s1 h1) (s2 h2) (fun h0 => h (by rw [htn, h0, mul_zero])) _ _ eQ, if_pos]
  · simp
  · refine ⟨ht, ?_, ?_, ?_, ?_⟩ <;> linarith

end Verif.QCross
