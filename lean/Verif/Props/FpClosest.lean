import Verif.Props.FpDist
import Verif.Lemmas.FpQuad
import Mathlib.Algebra.Order.Ring.Pow
import Mathlib.Algebra.Order.Group.MinMax

/-! C127: the accuracy of dot products and of the closest point of a segment, in any dimension. -/

set_option linter.unusedSectionVars false

namespace Verif.FpDistP

open Verif.Fp

variable {K : Type} [Field K] [LinearOrder K] [IsStrictOrderedRing K] [FloorRing K] {p : ℕ} (R : Rounding K p)

/-- The exact sum of the products of pairs. -/
def sumProd (l : List (K × K)) : K := (l.map fun x => x.1 * x.2).sum

/-- The sum of their absolute values. -/
def sumAbs (l : List (K × K)) : K := (l.map fun x => |x.1 * x.2|).sum

theorem sumAbs_nonneg (l : List (K × K)) : 0 ≤ sumAbs l := by
  refine List.sum_nonneg fun x hx => ?_
  obtain ⟨y, -, rfl⟩ := List.mem_map.1 hx
  exact abs_nonneg _

theorem sum_le_abs : ∀ l : List (K × K), |sumProd l| ≤ sumAbs l
  | [] => by simp [sumProd, sumAbs]
  | x :: l => by
    have := sum_le_abs l
    simp only [sumProd, sumAbs, List.map_cons, List.sum_cons] at *
    exact (abs_add_le _ _).trans (by linarith)

theorem mulAdd_prodIf (f : Bool) (acc a b : K) : mulAdd R f acc a b = R.rnd (acc + prodIf R f (a * b)) := by
  unfold mulAdd prodIf
  cases f <;> simp

theorem loop_err (hp : 1 ≤ p) (f : Bool) : ∀ (l : List (K × K)) (k : ℕ) (acc acc' A : K), 3 ≤ k → |acc' - acc| ≤ ((1 + 1 / 2 ^ p) ^ k - 1) * A → |acc| ≤ A →
    |dotLoop R f acc' (l.map fun x => R.rnd x.1) (l.map fun x => R.rnd x.2) - (acc + sumProd l)| ≤ ((1 + 1 / 2 ^ p) ^ (k + l.length) - 1) * (A + sumAbs l)
  | [], k, acc, acc', A, _, h, _ => by simpa [dotLoop, sumProd, sumAbs] using h
  | x :: l, k, acc, acc', A, hk, h, hA => by
    have u0 := unit_nonneg (K := K) p
    have t := ((((Rel.refl (1 / 2 ^ p) x.1).rnd R hp).mul u0 ((Rel.refl _ x.2).rnd R hp)).prod R hp f)
    have s := Rel.step R hp (k := k) (l := 3) hk h hA t
    rw [← mulAdd_prodIf] at s
    have := loop_err hp f l (k + 1) (acc + x.1 * x.2) _ (A + |x.1 * x.2|) (by omega) s ((abs_add_le _ _).trans (by linarith))
    simp only [List.map_cons, dotLoop, sumProd, sumAbs, List.sum_cons, List.length_cons] at *
    rw [← add_assoc acc, ← add_assoc A, show k + (l.length + 1) = k + 1 + l.length by ring]
    exact this

/-- **C127**: the dot product of differences in `n` dimensions has an error of `n + 2` roundings of the sum of the absolute values of the products. -/
theorem C127_dot (hp : 1 ≤ p) (f : Bool) (l : List (K × K)) :
    |dot R f (l.map fun x => R.rnd x.1) (l.map fun x => R.rnd x.2) - sumProd l| ≤ ((1 + 1 / 2 ^ p) ^ (l.length + 2) - 1) * sumAbs l := by
  have u0 := unit_nonneg (K := K) p
  cases l with
  | nil => simp [dot, sumProd, sumAbs]
  | cons x l =>
    have t := ((((Rel.refl (1 / 2 ^ p) x.1).rnd R hp).mul u0 ((Rel.refl _ x.2).rnd R hp)).rnd R hp)
    have := loop_err R hp f l 3 (x.1 * x.2) _ |x.1 * x.2| le_rfl t le_rfl
    simp only [List.map_cons, dot, sumProd, sumAbs, List.sum_cons, List.length_cons] at *
    rw [show l.length + 1 + 2 = 3 + l.length by ring]
    exact this

example (f : Bool) : |dot (ieee ℚ 53 (by norm_num)) f ([(1, 2), (3, 4)].map fun x => (ieee ℚ 53 (by norm_num)).rnd x.1) ([(1, 2), (3, 4)].map fun x => (ieee ℚ 53 (by norm_num)).rnd x.2) - sumProd [((1 : ℚ), (2 : ℚ)), (3, 4)]| ≤ ((1 + 1 / 2 ^ 53) ^ 4 - 1) * sumAbs [(1, 2), (3, 4)] :=
  C127_dot (ieee ℚ 53 (by norm_num)) (by norm_num) f [(1, 2), (3, 4)]

theorem clamp_eq (r : K) : clamp01 r = max 0 (min 1 r) := by
  unfold clamp01
  split_ifs with h1 h2
  · rw [min_eq_right (by linarith), max_eq_left h1.le]
  · rw [min_eq_left h2.le, max_eq_right zero_le_one]
  · rw [min_eq_right (not_lt.1 h2), max_eq_right (not_lt.1 h1)]

theorem clamp_clamp (r : K) : clamp01 (clamp01 r) = clamp01 r := by
  obtain ⟨a, b⟩ := clamp_range r
  generalize clamp01 r = c at *
  rw [clamp_eq, min_eq_right b, max_eq_right a]

theorem clamp_lip (r s : K) : |clamp01 r - clamp01 s| ≤ |r - s| := by
  rw [clamp_eq, clamp_eq]
  have h1 := abs_max_sub_max_le_max (0 : K) (min 1 r) 0 (min 1 s)
  have h2 := abs_min_sub_min_le_max (1 : K) r 1 s
  rw [sub_self, abs_zero, max_eq_right (abs_nonneg (min 1 r - min 1 s))] at h1
  rw [sub_self, abs_zero, max_eq_right (abs_nonneg (r - s))] at h2
  exact h1.trans h2

theorem grow_le {u : K} (u0 : 0 ≤ u) {m : ℕ} (h : m * u ≤ 1 / 16) : (1 + u) ^ m - 1 ≤ 16 / 15 * (m * u) ∧ 1 - m * u ≤ (1 - u) ^ m := by
  rcases Nat.eq_zero_or_pos m with rfl | hm
  · simp
  have m1 : (1 : K) ≤ m := by exact_mod_cast hm
  have hu : u ≤ 1 / 16 := by nlinarith
  have b : 1 - m * u ≤ (1 - u) ^ m := by
    have := one_add_mul_le_pow (show (-2 : K) ≤ -u by linarith) m
    rw [← sub_eq_add_neg] at this
    linarith
  refine ⟨?_, b⟩
  have c : (1 - u) ^ m * (1 + u) ^ m ≤ 1 := by
    rw [← mul_pow]
    exact pow_le_one₀ (by nlinarith) (by nlinarith)
  have d : (0 : K) < (1 + u) ^ m := pow_pos (by linarith) _
  have e : (1 - m * u) * (1 + u) ^ m ≤ 1 := (mul_le_mul_of_nonneg_right b d.le).trans c
  have g : 0 ≤ m * u := by positivity
  generalize (m : K) * u = t at *
  generalize (1 + u) ^ m = z at *
  nlinarith

/-- A computed quotient with errors in both operands. -/
theorem quot_err {u t D D' N N' S r : K} (u0 : 0 ≤ u) (ut : 2 * u ≤ t) (t1 : t ≤ 1 / 16) (N0 : 0 < N) (hD : |D| ≤ S) (h : |D' - D| ≤ 16 / 15 * t * S)
    (h1 : N * (1 - t) ≤ N') (h2 : N' ≤ N * (1 + 16 / 15 * t)) (hr : |r - D' / N'| ≤ u * |D' / N'|) : |r - D / N| * N ≤ 3 * t * S := by
  have S0 : 0 ≤ S := (abs_nonneg _).trans hD
  have t0 : 0 ≤ t := by linarith
  have N1 : N * (15 / 16) ≤ N' := (mul_le_mul_of_nonneg_left (by linarith) N0.le).trans h1
  have N2 : 0 < N' := lt_of_lt_of_le (by positivity) N1
  obtain ⟨q, hq⟩ : ∃ q, q = D' / N' := ⟨_, rfl⟩
  rw [← hq] at hr
  have eq : q * N' = D' := by rw [hq]; field_simp
  have aD : |D'| ≤ S * (16 / 15) := by
    have := abs_sub_abs_le_abs_sub D' D
    nlinarith
  have aq : |q| * N' ≤ S * (16 / 15) := by rwa [← abs_of_pos N2, ← abs_mul, eq]
  have dN : |N - N'| ≤ 16 / 15 * t * N := by
    rw [abs_le]
    constructor <;> nlinarith
  have aqN : |q| * N ≤ S * (16 / 15) * (16 / 15) := by
    have := mul_le_mul_of_nonneg_left N1 (abs_nonneg q)
    nlinarith
  have e1 : |q * N - D'| ≤ 16 / 15 * t * (S * (16 / 15) * (16 / 15)) := by
    rw [← eq, ← mul_sub, abs_mul]
    have := mul_le_mul_of_nonneg_left dN (abs_nonneg q)
    have k := mul_le_mul_of_nonneg_left aqN (show 0 ≤ 16 / 15 * t by positivity)
    linarith
  have e2 : |q * N - D| ≤ 16 / 15 * t * (S * (16 / 15) * (16 / 15)) + 16 / 15 * t * S := (abs_sub_le _ D' _).trans (add_le_add e1 h)
  have e3 : |r * N - q * N| ≤ u * (S * (16 / 15) * (16 / 15)) := by
    rw [← sub_mul, abs_mul, abs_of_pos N0]
    have := mul_le_mul_of_nonneg_right hr N0.le
    have k := mul_le_mul_of_nonneg_left aqN u0
    linarith
  have e4 : |r - D / N| * N = |r * N - D| := by
    rw [← abs_of_pos N0, ← abs_mul, abs_of_pos N0, sub_mul, div_mul_cancel₀ _ N0.ne']
  rw [e4]
  refine (abs_sub_le _ (q * N) _).trans ((add_le_add e3 e2).trans ?_)
  have z : 0 ≤ t * S := mul_nonneg t0 S0
  have y : u * S ≤ t * S / 2 := by nlinarith
  nlinarith

/-- The differences of two points to a third. -/
def diffs (l0 l1 q : List K) : List (K × K) := (List.zipWith (fun x y => x - y) q l0).zip (List.zipWith (fun x y => x - y) l1 l0)

/-- The parameter before it is cut off at the ends. -/
theorem closest_raw (f : Bool) {n : ℕ} {l0 l1 q : List K} (h0 : l0.length = n) (h1 : l1.length = n) (hq : q.length = n) (hne : l0 ≠ l1) (hp : 16 * (n + 2) ≤ 2 ^ p) :
    ∃ r, pointClosestTo R f l0 l1 q = some (clamp01 r) ∧
      |r - sumProd (diffs l0 l1 q) / dist2 l1 l0| * dist2 l1 l0 ≤ 3 * ((n + 2 : ℕ) * (1 / 2 ^ p)) * sumAbs (diffs l0 l1 q) := by
  have hp1 : 1 ≤ p := by
    by_contra c
    have : p = 0 := by omega
    rw [this, pow_zero] at hp
    omega
  have u0 := unit_nonneg (K := K) p
  have ht : ((n + 2 : ℕ) : K) * (1 / 2 ^ p) ≤ 1 / 16 := by
    have : ((16 * (n + 2) : ℕ) : K) ≤ ((2 ^ p : ℕ) : K) := by exact_mod_cast hp
    push_cast at this ⊢
    rw [mul_one_div, div_le_div_iff₀ (by positivity) (by norm_num)]
    linarith
  obtain ⟨gr, bn⟩ := grow_le u0 ht
  have len : (diffs l0 l1 q).length = n := by simp [diffs, h0, h1, hq]
  have D := C127_dot R hp1 f (diffs l0 l1 q)
  rw [len] at D
  have z1 : (diffs l0 l1 q).map (fun x => R.rnd x.1) = subV R q l0 := by
    rw [subV_eq]
    unfold diffs
    rw [show (fun x : K × K => R.rnd x.1) = R.rnd ∘ Prod.fst from rfl, ← List.map_map, List.map_fst_zip (by simp [h0, h1, hq])]
  have z2 : (diffs l0 l1 q).map (fun x => R.rnd x.2) = subV R l1 l0 := by
    rw [subV_eq]
    unfold diffs
    rw [show (fun x : K × K => R.rnd x.2) = R.rnd ∘ Prod.snd from rfl, ← List.map_map, List.map_snd_zip (by simp [h0, h1, hq])]
  rw [z1, z2] at D
  have S0 := sumAbs_nonneg (diffs l0 l1 q)
  have D2 := D.trans (mul_le_mul_of_nonneg_right gr S0)
  obtain ⟨n1, n2⟩ := C127_error R hp1 f h1 h0
  have N0 : 0 < dist2 l1 l0 := lt_of_le_of_ne (dist2_nonneg _ _) fun c => hne ((dist2_zero (h1.trans h0.symm)).1 c.symm).symm
  have nz : ¬squaredNorm R f (subV R l1 l0) = 0 := fun c => hne ((C127_zero R hp1 f (h1.trans h0.symm)).1 c).symm
  have q1 := quot_err (r := R.rnd (dot R f (subV R q l0) (subV R l1 l0) / squaredNorm R f (subV R l1 l0))) u0 ?_ ht N0 (sum_le_abs (diffs l0 l1 q)) D2
    ((mul_le_mul_of_nonneg_left bn N0.le).trans n1) (n2.trans (mul_le_mul_of_nonneg_left (by linarith) N0.le)) (rel_u R hp1 _)
  · exact ⟨_, by unfold pointClosestTo; rw [if_neg nz, clamp_clamp], q1⟩
  · refine mul_le_mul_of_nonneg_right ?_ u0
    exact_mod_cast Nat.le_add_left 2 n

/-- **C127**: the parameter of the closest point is that of exact arithmetic, the projection on the line cut off at the ends of the segment, up to `3 (n + 2)` rounding errors. -/
theorem C127_closest_error (f : Bool) {n : ℕ} {l0 l1 q : List K} (h0 : l0.length = n) (h1 : l1.length = n) (hq : q.length = n) (hne : l0 ≠ l1) (hp : 16 * (n + 2) ≤ 2 ^ p) :
    ∃ r, pointClosestTo R f l0 l1 q = some r ∧
      |r - max 0 (min 1 (sumProd (diffs l0 l1 q) / dist2 l1 l0))| * dist2 l1 l0 ≤ 3 * ((n + 2 : ℕ) * (1 / 2 ^ p)) * sumAbs (diffs l0 l1 q) := by
  obtain ⟨r, h, e⟩ := closest_raw R f h0 h1 hq hne hp
  refine ⟨_, h, ?_⟩
  rw [← clamp_eq]
  exact (mul_le_mul_of_nonneg_right (clamp_lip _ _) (dist2_nonneg _ _)).trans e

/-- The squared distance to the point with parameter `t`. -/
theorem dist2_at : ∀ {l0 l1 q : List K}, l1.length = l0.length → q.length = l0.length → ∀ t : K,
    dist2 q (List.zipWith (fun a b => a + t * (b - a)) l0 l1) = dist2 q l0 - 2 * t * sumProd (diffs l0 l1 q) + t ^ 2 * dist2 l1 l0 := by
  intro l0
  induction l0 with
  | nil => intro l1 q a b t; simp [dist2, diffs, sumProd]
  | cons x l0 ih =>
    intro l1 q a b t
    cases l1 with
    | nil => simp at a
    | cons y l1 =>
      cases q with
      | nil => simp at b
      | cons z q =>
        have := ih (l1 := l1) (q := q) (by simpa using a) (by simpa using b) t
        simp only [dist2, diffs, sumProd, List.zipWith_cons_cons, List.zip_cons_cons, List.map_cons, List.sum_cons] at *
        rw [this]
        ring

theorem cauchy_step {a b S P Q : K} (h : S ^ 2 ≤ P * Q) (P0 : 0 ≤ P) (Q0 : 0 ≤ Q) : (|a * b| + S) ^ 2 ≤ (a * a + P) * (b * b + Q) := by
  have u : 2 * |a * b| * S ≤ a ^ 2 * Q + b ^ 2 * P := by
    refine abs_le_of_sq_le_sq' ?_ (by positivity) |>.2
    have k := mul_le_mul_of_nonneg_left h (show 0 ≤ 4 * (a * b) ^ 2 by positivity)
    have e : (2 * |a * b| * S) ^ 2 = 4 * (a * b) ^ 2 * S ^ 2 := by rw [mul_pow, mul_pow, sq_abs]; ring
    rw [e]
    nlinarith [sq_nonneg (a ^ 2 * Q - b ^ 2 * P)]
  have e := sq_abs (a * b)
  nlinarith

/-- The inequality of Cauchy and Schwarz. -/
theorem sumAbs_sq : ∀ {l0 l1 q : List K}, l1.length = l0.length → q.length = l0.length → sumAbs (diffs l0 l1 q) ^ 2 ≤ dist2 q l0 * dist2 l1 l0 := by
  intro l0
  induction l0 with
  | nil => intro l1 q a b; simp [dist2, diffs, sumAbs]
  | cons x l0 ih =>
    intro l1 q a b
    cases l1 with
    | nil => simp at a
    | cons y l1 =>
      cases q with
      | nil => simp at b
      | cons z q =>
        have h := ih (l1 := l1) (q := q) (by simpa using a) (by simpa using b)
        have P0 := dist2_nonneg q l0
        have Q0 := dist2_nonneg l1 l0
        simp only [dist2, diffs, sumAbs, List.zipWith_cons_cons, List.zip_cons_cons, List.map_cons, List.sum_cons] at *
        exact cauchy_step h P0 Q0

/-- **C127**: in exact arithmetic no point of the segment is closer than the one with this parameter. -/
theorem C127_closest_least {l0 l1 q : List K} (h1 : l1.length = l0.length) (hq : q.length = l0.length) (hne : l0 ≠ l1) {t : K} (t0 : 0 ≤ t) (t1 : t ≤ 1) :
    dist2 q (List.zipWith (fun a b => a + max 0 (min 1 (sumProd (diffs l0 l1 q) / dist2 l1 l0)) * (b - a)) l0 l1) ≤ dist2 q (List.zipWith (fun a b => a + t * (b - a)) l0 l1) := by
  have N0 : 0 < dist2 l1 l0 := lt_of_le_of_ne (dist2_nonneg _ _) fun c => hne ((dist2_zero h1).1 c.symm).symm
  rw [dist2_at h1 hq, dist2_at h1 hq]
  generalize sumProd (diffs l0 l1 q) = D at *
  generalize dist2 l1 l0 = N at *
  obtain ⟨m, hm⟩ : ∃ m, m = D / N := ⟨_, rfl⟩
  have hD : D = m * N := by rw [hm]; field_simp
  rw [← hm, hD]
  rcases lt_or_ge m 0 with c | c
  · rw [min_eq_right (by linarith), max_eq_left c.le]
    have : 0 ≤ N * (t * (t - 2 * m)) := mul_nonneg N0.le (mul_nonneg t0 (by linarith))
    nlinarith
  · rcases lt_or_ge 1 m with d | d
    · rw [min_eq_left d.le, max_eq_right zero_le_one]
      have : 0 ≤ N * ((1 - t) * (2 * m - 1 - t)) := mul_nonneg N0.le (mul_nonneg (by linarith) (by linarith))
      nlinarith
    · rw [min_eq_right d, max_eq_right c]
      have : 0 ≤ N * (t - m) ^ 2 := mul_nonneg N0.le (sq_nonneg _)
      nlinarith

/-- **C127**: the chosen point is as close as any point of the segment, up to the square of `3 (n + 2)` rounding errors times the squared distance to its first end. -/
theorem C127_closest_near (f : Bool) {n : ℕ} {l0 l1 q : List K} (h0 : l0.length = n) (h1 : l1.length = n) (hq : q.length = n) (hne : l0 ≠ l1) (hp : 16 * (n + 2) ≤ 2 ^ p) :
    ∃ r, pointClosestTo R f l0 l1 q = some r ∧ ∀ t, 0 ≤ t → t ≤ 1 →
      dist2 q (List.zipWith (fun a b => a + r * (b - a)) l0 l1) ≤ dist2 q (List.zipWith (fun a b => a + t * (b - a)) l0 l1) + (3 * ((n + 2 : ℕ) * (1 / 2 ^ p))) ^ 2 * dist2 q l0 := by
  obtain ⟨r, h, e⟩ := closest_raw R f h0 h1 hq hne hp
  refine ⟨_, h, fun t t0 t1 => ?_⟩
  have g1 : l1.length = l0.length := h1.trans h0.symm
  have gq : q.length = l0.length := hq.trans h0.symm
  refine le_trans ?_ (add_le_add_left (C127_closest_least g1 gq hne t0 t1) _)
  have N0 : 0 < dist2 l1 l0 := lt_of_le_of_ne (dist2_nonneg _ _) fun c => hne ((dist2_zero g1).1 c.symm).symm
  have cs := sumAbs_sq g1 gq
  have S0 := sumAbs_nonneg (diffs l0 l1 q)
  have T0 : 0 ≤ 3 * (((n + 2 : ℕ) : K) * (1 / 2 ^ p)) := by positivity
  rw [dist2_at g1 gq, dist2_at g1 gq, clamp_eq]
  generalize 3 * (((n + 2 : ℕ) : K) * (1 / 2 ^ p)) = T at *
  generalize sumAbs (diffs l0 l1 q) = S at *
  generalize sumProd (diffs l0 l1 q) = D at *
  generalize dist2 l1 l0 = N at *
  generalize dist2 q l0 = P at *
  obtain ⟨m, hm⟩ : ∃ m, m = D / N := ⟨_, rfl⟩
  have hD : D = m * N := by rw [hm]; field_simp
  rw [← hm] at e ⊢
  have E : (r - m) ^ 2 * N ≤ T ^ 2 * P := by
    have a : (|r - m| * N) ^ 2 ≤ (T * S) ^ 2 := pow_le_pow_left₀ (by positivity) e 2
    rw [mul_pow, sq_abs, mul_pow] at a
    have b := mul_le_mul_of_nonneg_left cs (sq_nonneg T)
    have c : (r - m) ^ 2 * N * N ≤ T ^ 2 * P * N := by nlinarith
    exact le_of_mul_le_mul_right c N0
  have key : (max 0 (min 1 r) - m) ^ 2 ≤ (max 0 (min 1 m) - m) ^ 2 + (r - m) ^ 2 := by
    rcases lt_or_ge r 0 with a | a <;> rcases lt_or_ge m 0 with b | b
    · rw [min_eq_right (by linarith), max_eq_left a.le, min_eq_right (by linarith), max_eq_left b.le]
      nlinarith [sq_nonneg (r - m)]
    · rw [min_eq_right (by linarith), max_eq_left a.le]
      nlinarith [sq_nonneg (max 0 (min 1 m) - m)]
    · rw [min_eq_right (by linarith : m ≤ 1), max_eq_left b.le]
      have x : 0 ≤ max 0 (min 1 r) := le_max_left _ _
      have y : max 0 (min 1 r) ≤ r := max_le a (min_le_right _ _)
      nlinarith [sq_nonneg m]
    · rcases lt_or_ge 1 r with c | c
      · rw [min_eq_left c.le, max_eq_right zero_le_one]
        rcases lt_or_ge 1 m with d | d
        · rw [min_eq_left d.le, max_eq_right zero_le_one]
          nlinarith [sq_nonneg (r - m)]
        · nlinarith [sq_nonneg (max 0 (min 1 m) - m)]
      · rw [min_eq_right c, max_eq_right a]
        nlinarith [sq_nonneg (max 0 (min 1 m) - m)]
  have k2 := mul_le_mul_of_nonneg_right key N0.le
  rw [hD]
  nlinarith

/-- No point of the segment from (0, 0) to (3, 1) is closer to (1, 7) than its end. -/
example {t : ℚ} (t0 : 0 ≤ t) (t1 : t ≤ 1) : 40 ≤ dist2 [1, 7] [t * 3, t] := by
  have := C127_closest_least (K := ℚ) (l0 := [0, 0]) (l1 := [3, 1]) (q := [1, 7]) rfl rfl (by simp) t0 t1
  norm_num [dist2, diffs, sumProd] at this ⊢
  linarith

/-- The point chosen on this segment in double precision. -/
example (f : Bool) : ∃ r, pointClosestTo (ieee ℚ 53 (by norm_num)) f [0, 0] [3, 1] [1, 7] = some r ∧ dist2 [1, 7] [r * 3, r] ≤ 40 + (12 / 2 ^ 53) ^ 2 * 50 := by
  obtain ⟨r, h1, h2⟩ := C127_closest_near (ieee ℚ 53 (by norm_num)) f (n := 2) (l0 := [0, 0]) (l1 := [3, 1]) (q := [1, 7]) rfl rfl rfl (by simp) (by norm_num)
  refine ⟨r, h1, ?_⟩
  have := h2 1 zero_le_one le_rfl
  norm_num [dist2] at this ⊢
  linarith

/-- A segment and a point in the plane, in double precision. -/
example (f : Bool) : ∃ r, pointClosestTo (ieee ℚ 53 (by norm_num)) f [0, 0] [3, 1] [1, 7] = some r ∧ |r - 1| * 10 ≤ 3 * (4 * (1 / 2 ^ 53)) * 10 := by
  obtain ⟨r, h1, h2⟩ := C127_closest_error (ieee ℚ 53 (by norm_num)) f (n := 2) (l0 := [0, 0]) (l1 := [3, 1]) (q := [1, 7]) rfl rfl rfl (by simp) (by norm_num)
  refine ⟨r, h1, ?_⟩
  simpa [dist2, diffs, sumProd, sumAbs] using (by
    norm_num [dist2, diffs, sumProd, sumAbs] at h2 ⊢
    linarith : |r - 1| * 10 ≤ 3 * (4 * (1 / 2 ^ 53)) * 10)

end Verif.FpDistP
