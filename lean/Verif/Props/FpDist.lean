import Verif.Lemmas.FpDist
import Mathlib.Data.Rat.Floor
import Mathlib.Tactic.Linarith

/-! C127: distances, approximate equality and the closest point of a segment in floating-point arithmetic, in any dimension. -/

set_option linter.unusedSectionVars false

namespace Verif.FpDistP

open Verif.Fp

variable {K : Type} [Field K] [LinearOrder K] [IsStrictOrderedRing K] [FloorRing K] {p : ℕ} (R : Rounding K p)

/-- The exact square of the distance. -/
def dist2 (a b : List K) : K := (List.zipWith (fun x y => (x - y) * (x - y)) a b).sum

theorem sumSq_sub (a b : List K) : sumSq (List.zipWith (fun x y => x - y) a b) = dist2 a b := by
  unfold sumSq dist2
  rw [List.map_zipWith]

theorem dist2_nonneg (a b : List K) : 0 ≤ dist2 a b := by
  rw [← sumSq_sub]; exact sumSq_nonneg _

/-- The square of the distance in `n` dimensions has a relative error of `n + 2` roundings, whatever the points. -/
theorem C127_error (hp : 1 ≤ p) (fused : Bool) {n : ℕ} {a b : List K} (ha : a.length = n) (hb : b.length = n) :
    dist2 a b * (1 - 1 / 2 ^ p) ^ (n + 2) ≤ squaredDistanceTo R fused a b ∧ squaredDistanceTo R fused a b ≤ dist2 a b * (1 + 1 / 2 ^ p) ^ (n + 2) := by
  have := sqNorm_off R hp fused (List.zipWith (fun x y => x - y) a b)
  rw [sumSq_sub, ← subV_eq, List.length_zipWith, ha, hb, min_self] at this
  exact this

theorem C127_nonneg (hp : 1 ≤ p) (fused : Bool) {a b : List K} (h : a.length = b.length) : 0 ≤ squaredDistanceTo R fused a b :=
  Off.nonneg (unit_nonneg p) (unit_le p) (dist2_nonneg a b) (C127_error R hp fused h rfl)

theorem dist2_zero : ∀ {a b : List K}, a.length = b.length → (dist2 a b = 0 ↔ a = b)
  | [], [], _ => by simp [dist2]
  | x :: a, y :: b, h => by
    have e : dist2 (x :: a) (y :: b) = (x - y) * (x - y) + dist2 a b := by simp [dist2]
    rw [e, add_eq_zero_iff_of_nonneg (mul_self_nonneg _) (dist2_nonneg a b), mul_self_eq_zero, sub_eq_zero, dist2_zero (by simpa using h), List.cons.injEq]

/-- The distance is zero exactly for equal points. -/
theorem C127_zero (hp : 1 ≤ p) (fused : Bool) {a b : List K} (h : a.length = b.length) : squaredDistanceTo R fused a b = 0 ↔ a = b := by
  obtain ⟨e1, e2⟩ := C127_error R hp fused h rfl
  have u1 : (1 : K) / 2 ^ p < 1 := by rw [div_lt_one (by positivity)]; exact one_lt_pow₀ (by norm_num) (by omega)
  have q : (0 : K) < (1 - 1 / 2 ^ p) ^ (b.length + 2) := pow_pos (by linarith) _
  rw [← dist2_zero h]
  constructor
  · intro c
    rw [c] at e1
    refine le_antisymm ?_ (dist2_nonneg a b)
    by_contra d
    push Not at d
    have := mul_pos d q
    linarith
  · intro c
    rw [c, zero_mul] at e1 e2
    exact le_antisymm e2 e1

/-- Points that are clearly closer than the tolerance are approximately equal, and those clearly farther apart are not. -/
theorem C127_isApprox (hp : 1 ≤ p) (fused : Bool) {n : ℕ} {a b : List K} (ha : a.length = n) (hb : b.length = n) {eps2 : K} :
    (dist2 a b * (1 + 1 / 2 ^ p) ^ (n + 2) < eps2 → isApprox R fused eps2 a b = true) ∧
    (eps2 ≤ dist2 a b * (1 - 1 / 2 ^ p) ^ (n + 2) → isApprox R fused eps2 a b = false) := by
  obtain ⟨e1, e2⟩ := C127_error R hp fused ha hb
  unfold isApprox
  rw [decide_eq_true_iff, decide_eq_false_iff_not, not_lt]
  exact ⟨fun h => e2.trans_lt h, fun h => h.trans e1⟩

/-- Each point is approximately equal to itself for every positive tolerance. -/
theorem C127_isApprox_self (hp : 1 ≤ p) (fused : Bool) (a : List K) {eps2 : K} (h : 0 < eps2) : isApprox R fused eps2 a a = true := by
  unfold isApprox
  rw [(C127_zero R hp fused rfl).2 rfl, decide_eq_true_iff]
  exact h

theorem loop_neg (fused : Bool) : ∀ (v w : List K) (acc : K), dotLoop R fused acc (v.map Neg.neg) (w.map Neg.neg) = dotLoop R fused acc v w
  | [], _, _ => by simp [dotLoop]
  | _ :: _, [], _ => by simp [dotLoop]
  | x :: v, y :: w, acc => by
    simp only [List.map_cons, dotLoop]
    have : mulAdd R fused acc (-x) (-y) = mulAdd R fused acc x y := by unfold mulAdd; rw [neg_mul_neg]
    rw [this, loop_neg fused v w]

/-- If the rounding does not depend on the sign (as that of IEEE 754), the distance is the same in both directions. -/
theorem C127_symmetric (hR : ∀ x, R.rnd (-x) = -R.rnd x) (fused : Bool) (a b : List K) : squaredDistanceTo R fused a b = squaredDistanceTo R fused b a := by
  have e : subV R a b = (subV R b a).map Neg.neg := by
    unfold subV
    rw [List.zipWith_comm, List.map_zipWith]
    congr 1
    funext x y
    rw [← hR, neg_sub]
  unfold squaredDistanceTo squaredNorm
  rw [e]
  cases subV R b a with
  | nil => rfl
  | cons x v =>
    simp only [List.map_cons, dot]
    rw [neg_mul_neg, loop_neg]

theorem roundEven_neg (t : K) : roundEven (-t) = -roundEven t := by
  by_cases hf : t = ⌊t⌋
  · rw [hf, ← Int.cast_neg]
    unfold roundEven
    rw [Int.floor_intCast, Int.floor_intCast, sub_self, sub_self, if_pos (by norm_num), if_pos (by norm_num)]
  · have l := Int.floor_le t
    have u := Int.lt_floor_add_one t
    have hl : (⌊t⌋ : K) < t := lt_of_le_of_ne l (Ne.symm hf)
    have e : ⌊-t⌋ = -⌊t⌋ - 1 := by
      rw [Int.floor_eq_iff]
      push_cast
      constructor <;> linarith
    unfold roundEven
    rw [e]
    push_cast
    split_ifs <;> first | omega | (exfalso; linarith)

/-- The rounding of IEEE 754 is such. -/
theorem C127_ieee_odd (hp : 1 ≤ p) (x : K) : (ieee K p hp).rnd (-x) = -(ieee K p hp).rnd x := by
  show rne p (-x) = -rne p x
  unfold rne
  rw [abs_neg]
  by_cases h : x = 0
  · simp [h]
  · rw [if_neg h, if_neg (neg_ne_zero.2 h), neg_div, roundEven_neg]
    push_cast
    ring

/-! ## Segments -/

theorem clamp_range (r : K) : 0 ≤ clamp01 r ∧ clamp01 r ≤ 1 := by
  unfold clamp01
  split_ifs with h1 h2
  · exact ⟨le_rfl, zero_le_one⟩
  · exact ⟨zero_le_one, le_rfl⟩
  · exact ⟨not_lt.1 h1, not_lt.1 h2⟩

theorem clamp0 : clamp01 (0 : K) = 0 := by
  unfold clamp01
  rw [if_neg (lt_irrefl _), if_neg (not_lt.2 zero_le_one)]

theorem clamp1 : clamp01 (1 : K) = 1 := by
  unfold clamp01
  rw [if_neg (not_lt.2 zero_le_one), if_neg (lt_irrefl _)]

/-- The closest point is defined exactly for segments whose ends differ. -/
theorem C127_closest_defined (hp : 1 ≤ p) (fused : Bool) {l0 l1 : List K} (q : List K) (h : l0.length = l1.length) : pointClosestTo R fused l0 l1 q = none ↔ l0 = l1 := by
  have z := C127_zero R hp fused h.symm
  unfold squaredDistanceTo at z
  unfold pointClosestTo
  split
  · next c => exact ⟨fun _ => (z.1 c).symm, fun _ => rfl⟩
  · next c => exact ⟨fun d => (by cases d), fun d => absurd (z.2 d.symm) c⟩

/-- The parameter of the closest point is that of a point of the segment. -/
theorem C127_closest_range (fused : Bool) {l0 l1 q : List K} {r : K} (h : pointClosestTo R fused l0 l1 q = some r) : 0 ≤ r ∧ r ≤ 1 := by
  unfold pointClosestTo at h
  split at h
  · cases h
  · rw [← Option.some.inj h]
    exact clamp_range _

theorem sub_self' (l : List K) : subV R l l = List.replicate l.length 0 := by
  unfold subV
  rw [List.zipWith_self]
  simp [R.zero, List.map_const']

theorem loop_zero (fused : Bool) : ∀ (n : ℕ) (w : List K), dotLoop R fused 0 (List.replicate n 0) w = 0
  | 0, _ => by simp [dotLoop]
  | n + 1, [] => by simp [dotLoop, List.replicate_succ]
  | n + 1, y :: w => by
    rw [List.replicate_succ, dotLoop]
    have : mulAdd R fused (0 : K) 0 y = 0 := by unfold mulAdd; split <;> simp [R.zero]
    rw [this, loop_zero fused n w]

theorem dot_zero (fused : Bool) (n : ℕ) (w : List K) : dot R fused (List.replicate n 0) w = 0 := by
  cases n with
  | zero => simp [dot]
  | succ n =>
    cases w with
    | nil => simp [dot, List.replicate_succ]
    | cons y w => rw [List.replicate_succ, dot, zero_mul, R.zero, loop_zero]

/-- The ends of a segment are closest to themselves. -/
theorem C127_closest_ends (hp : 1 ≤ p) (fused : Bool) {l0 l1 : List K} (h : l0.length = l1.length) (hne : l0 ≠ l1) :
    pointClosestTo R fused l0 l1 l0 = some 0 ∧ pointClosestTo R fused l0 l1 l1 = some 1 := by
  have z : ¬ squaredNorm R fused (subV R l1 l0) = 0 := fun c => hne ((C127_zero R hp fused h.symm).1 c).symm
  have one : IsFp p (1 : K) := by simpa using isFp_nat (K := K) hp (n := 1) (Nat.one_le_two_pow)
  unfold pointClosestTo
  rw [if_neg z, if_neg z]
  constructor
  · rw [sub_self', dot_zero, zero_div, R.zero, clamp0, clamp0]
  · have : dot R fused (subV R l1 l0) (subV R l1 l0) / squaredNorm R fused (subV R l1 l0) = 1 := div_self z
    rw [this, R.id one, clamp1, clamp1]

theorem zip_id (f : K → K → K) : ∀ (l0 l1 : List K), l0.length = l1.length → (∀ a ∈ l0, ∀ b, f a b = a) → List.zipWith f l0 l1 = l0
  | [], [], _, _ => rfl
  | a :: l0, b :: l1, h, hf => by
    rw [List.zipWith_cons_cons, hf a (by simp), zip_id f l0 l1 (by simpa using h) fun a ha b => hf a (by simp [ha]) b]

theorem zip_id' (f : K → K → K) : ∀ (l0 l1 : List K), l0.length = l1.length → (∀ ab ∈ l0.zip l1, f ab.1 ab.2 = ab.2) → List.zipWith f l0 l1 = l1
  | [], [], _, _ => rfl
  | a :: l0, b :: l1, h, hf => by
    rw [List.zipWith_cons_cons, hf (a, b) (by simp), zip_id' f l0 l1 (by simpa using h) fun ab ha => hf ab (by simp [ha])]

/-- The distance to a segment is not negative; it is zero at the first point, and at the second if the differences of the coordinates are numbers
of the format. -/
theorem C127_segment (hp : 1 ≤ p) (fused : Bool) {l0 l1 q : List K} (h : l0.length = l1.length) (hq : l0.length = q.length) (hne : l0 ≠ l1) :
    (∃ d, segSquaredDistanceTo R fused l0 l1 q = some d ∧ 0 ≤ d) ∧ ((∀ a ∈ l0, IsFp p a) → segSquaredDistanceTo R fused l0 l1 l0 = some 0) ∧
    ((∀ b ∈ l1, IsFp p b) → (∀ ab ∈ l0.zip l1, IsFp p (ab.2 - ab.1)) → segSquaredDistanceTo R fused l0 l1 l1 = some 0) := by
  obtain ⟨c0, c1⟩ := C127_closest_ends R hp fused h hne
  refine ⟨?_, fun hf => ?_, fun hf hd => ?_⟩
  · cases c : pointClosestTo R fused l0 l1 q with
    | none => exact absurd ((C127_closest_defined R hp fused q h).1 c) hne
    | some r =>
      refine ⟨_, by unfold segSquaredDistanceTo; rw [c]; rfl, C127_nonneg R hp fused ?_⟩
      rw [List.length_zipWith, ← h, min_self, hq]
  · unfold segSquaredDistanceTo
    rw [c0]
    simp only [Option.bind_some]
    rw [zip_id _ l0 l1 h fun a ha b => lerp_zero R fused (hf a ha), (C127_zero R hp fused rfl).2 rfl]
  · unfold segSquaredDistanceTo
    rw [c1]
    simp only [Option.bind_some]
    rw [zip_id' _ l0 l1 h, (C127_zero R hp fused rfl).2 rfl]
    intro ab hab
    rw [lerp_one, R.id (hd ab hab), add_sub_cancel, R.id (hf ab.2 (List.of_mem_zip hab).2)]

/-- The second point of a segment may have a distance to it. -/
theorem C127_end_fails : ∃ l0 l1 : List ℚ, l0.length = 2 ∧ l1.length = 2 ∧ (∀ x ∈ l0 ++ l1, IsFp 53 x) ∧ ∀ fused, segSquaredDistanceTo (ieee ℚ 53 (by norm_num)) fused l0 l1 l1 = some 1 := by
  refine ⟨[3 / 2, 0], [2 ^ 52 + 5, 0], rfl, rfl, ?_, fun fused => ?_⟩
  · intro x hx
    simp only [List.cons_append, List.nil_append, List.mem_cons, List.not_mem_nil, or_false] at hx
    rcases hx with rfl | rfl | rfl | rfl
    · exact ⟨3, -1, by norm_num, by norm_num⟩
    · exact isFp_zero
    · exact ⟨2 ^ 52 + 5, 0, by norm_num, by norm_num⟩
    · exact isFp_zero
  · cases fused <;> decide +kernel

/-- Two inexact points with an inexact distance; a point beside a segment. -/
example : squaredDistanceTo (ieee ℚ 53 (by norm_num)) false [rne 53 (1 / 10), rne 53 (2 / 10)] [rne 53 (7 / 10), 1] ≠ dist2 [rne 53 (1 / 10), rne 53 (2 / 10)] [rne 53 (7 / 10), 1] ∧
    pointClosestTo (ieee ℚ 53 (by norm_num)) false [0, 0] [3, 0] [1, 7] = some (rne 53 (1 / 3)) ∧ pointClosestTo (ieee ℚ 53 (by norm_num)) false [0, 0] [3, 0] [5, 7] = some 1 := by
  decide +kernel

end Verif.FpDistP
