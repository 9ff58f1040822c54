import Mathlib.Analysis.SpecialFunctions.Integrals.Basic
import Mathlib.RingTheory.Polynomial.ShiftedLegendre
import Mathlib.Topology.Algebra.Polynomial
import Verif.Model.GaussTable
import Verif.Props.Cmfd

/-! The polar quadrature of the CMFD analysis (C98). -/

namespace Verif.Cmfd

open Polynomial

/-- The sum that stands for the integral over [-1, 1]. -/
noncomputable def quad (t : List (ℝ × ℝ)) (f : ℝ → ℝ) : ℝ := (t.map fun x => x.2 * f x.1).sum

/-- The size of a polynomial. -/
noncomputable def size (p : ℝ[X]) : ℝ := ∑ k ∈ p.support, |p.coeff k|

/-- Points in rising order, inside the interval, none at zero, with positive weights; mirrored at zero. -/
theorem C98_points : mu.length = 32 ∧ w.length = 32 ∧ mu.Pairwise (· < ·) ∧ (∀ x ∈ mu, -1 < x ∧ x < 1 ∧ x ≠ 0) ∧ (∀ x ∈ w, 0 < x) ∧
    (mu.reverse = mu.map fun x => -x) ∧ w.reverse = w := by
  decide +kernel

/-! ## Polynomials -/

theorem moments : ∀ k : Nat, k < 64 → -(2 / 10 ^ 16) ≤ ((mu.zip w).map fun x => x.2 * x.1 ^ k).sum - (if k % 2 = 0 then 2 / ((k : ℚ) + 1) else 0) ∧
    ((mu.zip w).map fun x => x.2 * x.1 ^ k).sum - (if k % 2 = 0 then 2 / ((k : ℚ) + 1) else 0) ≤ 2 / 10 ^ 16 := by
  decide +kernel

theorem quad_pow (k : Nat) : quad table (fun x => x ^ k) = ((((mu.zip w).map fun x => x.2 * x.1 ^ k).sum : ℚ) : ℝ) := by
  unfold quad table
  rw [List.map_map, ← Rat.coe_castHom, map_list_sum, List.map_map]
  congr 1
  refine List.map_congr_left fun x _ => ?_
  simp

theorem int_pow (k : Nat) : ∫ x in (-1 : ℝ)..1, x ^ k = (((if k % 2 = 0 then 2 / ((k : ℚ) + 1) else 0) : ℚ) : ℝ) := by
  rw [integral_pow]
  rcases Nat.even_or_odd k with h | h
  · rw [if_pos (Nat.even_iff.1 h), (Even.add_one h).neg_one_pow]
    push_cast
    norm_num
  · rw [if_neg (by rw [Nat.odd_iff.1 h]; norm_num), (Odd.add_one h).neg_one_pow]
    norm_num

theorem moment (k : Nat) (hk : k < 64) : |quad table (fun x => x ^ k) - ∫ x in (-1 : ℝ)..1, x ^ k| ≤ 2 / 10 ^ 16 := by
  obtain ⟨h1, h2⟩ := moments k hk
  rw [quad_pow, int_pow, abs_le, ← Rat.cast_sub]
  generalize ((mu.zip w).map fun x => x.2 * x.1 ^ k).sum - (if k % 2 = 0 then 2 / ((k : ℚ) + 1) else 0) = v at h1 h2
  have h1 : ((-(2 / 10 ^ 16) : ℚ) : ℝ) ≤ (v : ℝ) := Rat.cast_le.2 h1
  have h2 : (v : ℝ) ≤ ((2 / 10 ^ 16 : ℚ) : ℝ) := Rat.cast_le.2 h2
  push_cast at h1 h2
  exact ⟨h1, h2⟩

theorem quad_poly (t : List (ℝ × ℝ)) (p : ℝ[X]) : quad t (fun x => p.eval x) = ∑ k ∈ p.support, p.coeff k * quad t fun x => x ^ k := by
  induction t with
  | nil => simp [quad]
  | cons x t ih =>
    have hc : ∀ f, quad (x :: t) f = x.2 * f x.1 + quad t f := fun f => by simp [quad]
    rw [hc, ih]
    simp only [hc]
    rw [Polynomial.eval_eq_sum, Polynomial.sum, Finset.mul_sum, ← Finset.sum_add_distrib]
    refine Finset.sum_congr rfl fun k _ => ?_
    ring

theorem int_poly (p : ℝ[X]) : ∫ x in (-1 : ℝ)..1, p.eval x = ∑ k ∈ p.support, p.coeff k * ∫ x in (-1 : ℝ)..1, x ^ k := by
  simp only [Polynomial.eval_eq_sum, Polynomial.sum]
  rw [intervalIntegral.integral_finsetSum]
  · refine Finset.sum_congr rfl fun k _ => ?_
    rw [intervalIntegral.integral_const_mul]
  · intro k _
    exact (Continuous.intervalIntegrable (by fun_prop) _ _)

theorem poly_error (t : List (ℝ × ℝ)) (p : ℝ[X]) (δ : ℝ) (h : ∀ k ∈ p.support, |quad t (fun x => x ^ k) - ∫ x in (-1 : ℝ)..1, x ^ k| ≤ δ) :
    |quad t (fun x => p.eval x) - ∫ x in (-1 : ℝ)..1, p.eval x| ≤ δ * size p := by
  rw [quad_poly, int_poly, ← Finset.sum_sub_distrib, size, Finset.mul_sum]
  refine (Finset.abs_sum_le_sum_abs _ _).trans (Finset.sum_le_sum fun k hk => ?_)
  rw [← mul_sub, abs_mul, mul_comm]
  exact mul_le_mul_of_nonneg_right (h k hk) (abs_nonneg _)

theorem lt_of_support {p : ℝ[X]} (hp : p.natDegree ≤ 63) {k : Nat} (hk : k ∈ p.support) : k < 64 := by
  have := Polynomial.le_natDegree_of_mem_supp k hk
  omega

/-- The table integrates every polynomial of degree at most 63. -/
theorem C98_exact (p : ℝ[X]) (hp : p.natDegree ≤ 63) : |quad table (fun x => p.eval x) - ∫ x in (-1 : ℝ)..1, p.eval x| ≤ 2 / 10 ^ 16 * size p :=
  poly_error table p _ fun k hk => moment k (lt_of_support hp hk)

/-- A table with rounded points and weights. -/
def Near (ε : ℝ) (t : List (ℝ × ℝ)) : Prop := List.Forall₂ (fun x y => |x.1 - y.1| ≤ ε ∧ |x.2 - y.2| ≤ ε ∧ |x.1| ≤ 1) t table

theorem pow_near (a b : ℝ) (ha : |a| ≤ 1) (hb : |b| ≤ 1) (k : Nat) : |a ^ k - b ^ k| ≤ k * |a - b| := by
  induction k with
  | zero => simp
  | succ k ih =>
    have e : a ^ (k + 1) - b ^ (k + 1) = a ^ k * (a - b) + (a ^ k - b ^ k) * b := by ring
    rw [e]
    refine (abs_add_le _ _).trans ?_
    rw [abs_mul, abs_mul, abs_pow]
    have h1 : |a| ^ k ≤ 1 := pow_le_one₀ (abs_nonneg _) ha
    have h2 : |a ^ k - b ^ k| * |b| ≤ |a ^ k - b ^ k| := mul_le_of_le_one_right (abs_nonneg _) hb
    have h3 : |a| ^ k * |a - b| ≤ |a - b| := mul_le_of_le_one_left (abs_nonneg _) h1
    push_cast
    linarith

theorem table_points : ∀ y ∈ table, |y.1| ≤ 1 ∧ 0 < y.2 := by
  intro y hy
  obtain ⟨x, hx, rfl⟩ := List.mem_map.1 hy
  obtain ⟨_, _, _, h1, h2, _⟩ := C98_points
  obtain ⟨a, b⟩ := List.of_mem_zip (show (x.1, x.2) ∈ mu.zip w from hx)
  obtain ⟨c, d, _⟩ := h1 _ a
  refine ⟨abs_le.2 ⟨?_, ?_⟩, ?_⟩
  · show (-1 : ℝ) ≤ (x.1 : ℝ)
    exact_mod_cast c.le
  · show (x.1 : ℝ) ≤ 1
    exact_mod_cast d.le
  · show (0 : ℝ) < (x.2 : ℝ)
    exact_mod_cast h2 _ b

theorem near_pow (ε : ℝ) (k : Nat) (t s : List (ℝ × ℝ)) (h : List.Forall₂ (fun x y => |x.1 - y.1| ≤ ε ∧ |x.2 - y.2| ≤ ε ∧ |x.1| ≤ 1) t s)
    (hs : ∀ y ∈ s, |y.1| ≤ 1 ∧ 0 < y.2) : |quad t (fun x => x ^ k) - quad s (fun x => x ^ k)| ≤ (s.length + k * (s.map Prod.snd).sum) * ε := by
  induction h with
  | nil => simp [quad]
  | @cons x y t s hxy _ ih =>
    obtain ⟨h1, h2, h3⟩ := hxy
    obtain ⟨hy1, hy2⟩ := hs y (by simp)
    have ih := ih fun z hz => hs z (by simp [hz])
    have hε : 0 ≤ ε := (abs_nonneg _).trans h1
    have e : quad (x :: t) (fun x => x ^ k) - quad (y :: s) (fun x => x ^ k) =
        ((x.2 - y.2) * x.1 ^ k + y.2 * (x.1 ^ k - y.1 ^ k)) + (quad t (fun x => x ^ k) - quad s fun x => x ^ k) := by
      simp only [quad, List.map_cons, List.sum_cons]; ring
    rw [e]
    refine (abs_add_le _ _).trans ?_
    have h4 : |(x.2 - y.2) * x.1 ^ k + y.2 * (x.1 ^ k - y.1 ^ k)| ≤ ε + y.2 * (k * ε) := by
      refine (abs_add_le _ _).trans (add_le_add ?_ ?_)
      · rw [abs_mul, abs_pow]
        exact (mul_le_of_le_one_right (abs_nonneg _) (pow_le_one₀ (abs_nonneg _) h3)).trans h2
      · rw [abs_mul, abs_of_pos hy2]
        refine mul_le_mul_of_nonneg_left ((pow_near _ _ h3 hy1 k).trans ?_) hy2.le
        exact mul_le_mul_of_nonneg_left h1 (Nat.cast_nonneg _)
    simp only [List.length_cons, List.map_cons, List.sum_cons]
    push_cast
    nlinarith

theorem table_sum : (table.map Prod.snd).sum ≤ 2 + 2 / 10 ^ 16 := by
  have h := abs_le.1 (moment 0 (by norm_num))
  have e : quad table (fun x => x ^ 0) = (table.map Prod.snd).sum := by
    unfold quad
    congr 1
    refine List.map_congr_left fun x _ => ?_
    simp
  rw [e] at h
  simp only [pow_zero, intervalIntegral.integral_const, smul_eq_mul] at h
  linarith [h.2]

theorem table_length : table.length = 32 := by
  unfold table
  rw [List.length_map, List.length_zip, C98_points.1, C98_points.2.1]
  rfl

/-- So does the rounded table, up to the rounding: `ε` is at most `2^-54` for `double` and `2^-25` for `float`. -/
theorem C98_rounded (ε : ℝ) (t : List (ℝ × ℝ)) (ht : Near ε t) (p : ℝ[X]) (hp : p.natDegree ≤ 63) :
    |quad t (fun x => p.eval x) - ∫ x in (-1 : ℝ)..1, p.eval x| ≤ (2 / 10 ^ 16 + 159 * ε) * size p := by
  refine poly_error t p _ fun k hk => ?_
  have hk := lt_of_support hp hk
  have h1 := near_pow ε k t table ht table_points
  have h2 := moment k hk
  have h3 := table_sum
  have hε : 0 ≤ ε := by
    obtain ⟨x, y, h⟩ : ∃ x y : ℝ × ℝ, |x.1 - y.1| ≤ ε := by
      have hl := table_length
      unfold Near at ht
      generalize table = s at ht hl
      cases ht with
      | nil => simp at hl
      | cons h _ => exact ⟨_, _, h.1⟩
    exact (abs_nonneg _).trans h
  rw [table_length] at h1
  have h5 : (k : ℝ) ≤ 63 := by exact_mod_cast (by omega : k ≤ 63)
  have h4 : ((32 : Nat) + k * (table.map Prod.snd).sum) * ε ≤ 159 * ε := by
    refine mul_le_mul_of_nonneg_right ?_ hε
    have : (k : ℝ) * (table.map Prod.snd).sum ≤ 63 * (2 + 2 / 10 ^ 16) :=
      mul_le_mul h5 h3 (List.sum_nonneg (by
        intro x hx
        obtain ⟨y, hy, rfl⟩ := List.mem_map.1 hx
        exact (table_points y hy).2.le)) (by norm_num)
    push_cast
    norm_num at this ⊢
    linarith
  calc _ = |(quad t (fun x => x ^ k) - quad table fun x => x ^ k) + (quad table (fun x => x ^ k) - ∫ x in (-1 : ℝ)..1, x ^ k)| := by ring_nf
    _ ≤ _ := (abs_add_le _ _).trans (by linarith)

/-- Every other integrand, with the distance to such a polynomial. -/
theorem C98_any (f : ℝ → ℝ) (hf : ContinuousOn f (Set.Icc (-1) 1)) (p : ℝ[X]) (hp : p.natDegree ≤ 63) (δ : ℝ) (hd : ∀ x ∈ Set.Icc (-1 : ℝ) 1, |f x - p.eval x| ≤ δ) :
    |quad table f - ∫ x in (-1 : ℝ)..1, f x| ≤ 5 * δ + 2 / 10 ^ 16 * size p := by
  have h0 : 0 ≤ δ := (abs_nonneg _).trans (hd 0 (by simp))
  have h1 := C98_exact p hp
  have h2 : |quad table f - quad table (fun x => p.eval x)| ≤ 3 * δ := by
    have key : ∀ t : List (ℝ × ℝ), (∀ y ∈ t, |y.1| ≤ 1 ∧ 0 < y.2) → |quad t f - quad t (fun x => p.eval x)| ≤ (t.map Prod.snd).sum * δ := by
      intro t
      induction t with
      | nil => simp [quad]
      | cons x t ih =>
        intro ht
        obtain ⟨a, b⟩ := ht x (by simp)
        have ih := ih fun y hy => ht y (by simp [hy])
        have e : quad (x :: t) f - quad (x :: t) (fun x => p.eval x) = x.2 * (f x.1 - p.eval x.1) + (quad t f - quad t fun x => p.eval x) := by
          simp only [quad, List.map_cons, List.sum_cons]; ring
        rw [e, List.map_cons, List.sum_cons]
        refine (abs_add_le _ _).trans ?_
        rw [abs_mul, abs_of_pos b, add_mul]
        exact add_le_add (mul_le_mul_of_nonneg_left (hd _ (Set.mem_Icc.2 (abs_le.1 a))) b.le) ih
    refine (key table table_points).trans (mul_le_mul_of_nonneg_right (table_sum.trans (by norm_num)) h0)
  have h3 : |(∫ x in (-1 : ℝ)..1, p.eval x) - ∫ x in (-1 : ℝ)..1, f x| ≤ 2 * δ := by
    have hfi : IntervalIntegrable f MeasureTheory.volume (-1) 1 := (hf.mono (by rw [Set.uIcc_of_le (by norm_num)])).intervalIntegrable
    have hpi : IntervalIntegrable (fun x => p.eval x) MeasureTheory.volume (-1) 1 := p.continuous.intervalIntegrable _ _
    rw [← intervalIntegral.integral_sub hpi hfi]
    have := intervalIntegral.norm_integral_le_of_norm_le_const (a := (-1 : ℝ)) (b := 1) (C := δ) (f := fun x => p.eval x - f x) (by
      intro x hx
      rw [Set.uIoc_of_le (by norm_num)] at hx
      rw [Real.norm_eq_abs, abs_sub_comm]
      exact hd x ⟨hx.1.le, hx.2⟩)
    rw [Real.norm_eq_abs] at this
    refine this.trans (le_of_eq ?_)
    norm_num
    ring
  have e : quad table f - ∫ x in (-1 : ℝ)..1, f x = (quad table f - quad table (fun x => p.eval x)) +
      ((quad table (fun x => p.eval x) - ∫ x in (-1 : ℝ)..1, p.eval x) + ((∫ x in (-1 : ℝ)..1, p.eval x) - ∫ x in (-1 : ℝ)..1, f x)) := by ring
  rw [e]
  refine (abs_add_le _ _).trans ((add_le_add_right (abs_add_le _ _) _).trans ?_)
  linarith

/-! ## The points are the roots -/

/-- The polynomial of Legendre on [0, 1] at a rational point. -/
def legendre (y : ℚ) : ℚ := ∑ k ∈ Finset.range 33, ((-1) ^ k * (Nat.choose 32 k : ℚ) * (Nat.choose (32 + k) 32 : ℚ)) * y ^ k

theorem signs : ∀ m ∈ mu, legendre ((1 + (m - 2 / 10 ^ 16)) / 2) * legendre ((1 + (m + 2 / 10 ^ 16)) / 2) < 0 := by
  decide +kernel

theorem eval_legendre (y : ℚ) : aeval (y : ℝ) (shiftedLegendre 32) = ((legendre y : ℚ) : ℝ) := by
  unfold legendre shiftedLegendre
  rw [map_sum, Rat.cast_sum]
  refine Finset.sum_congr rfl fun k _ => ?_
  rw [map_mul, aeval_C, map_pow, aeval_X]
  push_cast
  simp

theorem root_near (m : ℚ) (hm : m ∈ mu) : ∃ x : ℝ, |x - m| < 2 / 10 ^ 16 ∧ aeval ((1 + x) / 2) (shiftedLegendre 32) = 0 := by
  have hs := signs m hm
  have hcont : Continuous fun x : ℝ => aeval ((1 + x) / 2) (shiftedLegendre 32) := by
    have := (shiftedLegendre 32).continuous_aeval (A := ℝ)
    exact this.comp (by fun_prop)
  have ea : ∀ z : ℚ, aeval ((1 + (z : ℝ)) / 2) (shiftedLegendre 32) = ((legendre ((1 + z) / 2) : ℚ) : ℝ) := fun z => by
    rw [← eval_legendre]; push_cast; rfl
  have hle : ((m - 2 / 10 ^ 16 : ℚ) : ℝ) ≤ ((m + 2 / 10 ^ 16 : ℚ) : ℝ) := Rat.cast_le.2 (by linarith [show (0 : ℚ) < 2 / 10 ^ 16 by norm_num])
  have hz : (0 : ℝ) ∈ (fun x : ℝ => aeval ((1 + x) / 2) (shiftedLegendre 32)) '' Set.Ioo ((m - 2 / 10 ^ 16 : ℚ) : ℝ) ((m + 2 / 10 ^ 16 : ℚ) : ℝ) := by
    rcases mul_neg_iff.1 hs with ⟨h1, h2⟩ | ⟨h1, h2⟩
    · refine intermediate_value_Ioo' hle hcont.continuousOn ?_
      simp only [ea]
      exact ⟨by exact_mod_cast h2, by exact_mod_cast h1⟩
    · refine intermediate_value_Ioo hle hcont.continuousOn ?_
      simp only [ea]
      exact ⟨by exact_mod_cast h1, by exact_mod_cast h2⟩
  obtain ⟨x, ⟨hx1, hx2⟩, hx⟩ := hz
  refine ⟨x, abs_lt.2 ?_, hx⟩
  push_cast at hx1 hx2
  constructor <;> linarith

theorem apart : mu.Pairwise fun a b => 4 / 10 ^ 16 < b - a := by
  decide +kernel

/-- The points are the roots of the Legendre polynomial of degree 32, up to the last digit: each is near a root, and each real root
is near one. -/
theorem C98_roots : (∀ m ∈ mu, ∃ x : ℝ, |x - m| < 2 / 10 ^ 16 ∧ aeval ((1 + x) / 2) (shiftedLegendre 32) = 0) ∧
    ∀ x : ℝ, aeval ((1 + x) / 2) (shiftedLegendre 32) = 0 → ∃ m ∈ mu, |x - m| < 2 / 10 ^ 16 := by
  refine ⟨root_near, ?_⟩
  choose! r hr1 hr2 using root_near
  have hsort : (mu.map r).Pairwise (· < ·) := by
    rw [List.pairwise_map]
    refine apart.imp_of_mem ?_
    intro a b ha hb hab
    have h1 := abs_lt.1 (hr1 a ha)
    have h2 := abs_lt.1 (hr1 b hb)
    have h3 : ((4 / 10 ^ 16 : ℚ) : ℝ) < ((b - a : ℚ) : ℝ) := Rat.cast_lt.2 hab
    push_cast at h3
    linarith [h1.2, h2.1]
  intro x hx
  by_contra hno
  push Not at hno
  let P : ℝ[X] := (shiftedLegendre 32).map (Int.castRingHom ℝ)
  have hP : P ≠ 0 := by
    intro h
    have : P.natDegree = 32 := by
      rw [Polynomial.natDegree_map_eq_of_injective (RingHom.injective_int _), natDegree_shiftedLegendre]
    rw [h] at this
    simp at this
  have heval : ∀ y : ℝ, P.eval y = aeval y (shiftedLegendre 32) := fun y => by
    rw [Polynomial.eval_map, aeval_def]; rfl
  have hx' : x ∉ mu.map r := by
    intro h
    obtain ⟨m, hm, rfl⟩ := List.mem_map.1 h
    exact absurd (hr1 m hm) (not_lt.2 (hno m hm))
  have hnd : ((x :: mu.map r).map fun z => (1 + z) / 2).Nodup := by
    refine List.Nodup.map (fun a b hab => ?_) (List.nodup_cons.2 ⟨hx', hsort.imp fun h => ne_of_lt h⟩)
    have : (1 + a) / 2 = (1 + b) / 2 := hab
    linarith
  have hsub : ((x :: mu.map r).map fun z => (1 + z) / 2).toFinset ⊆ P.roots.toFinset := by
    intro y hy
    rw [List.mem_toFinset, List.mem_map] at hy
    obtain ⟨z, hz, rfl⟩ := hy
    rw [Multiset.mem_toFinset, Polynomial.mem_roots hP, Polynomial.IsRoot.def, heval]
    rcases List.mem_cons.1 hz with rfl | hz
    · exact hx
    · obtain ⟨m, hm, rfl⟩ := List.mem_map.1 hz
      exact hr2 m hm
  have h1 := Finset.card_le_card hsub
  rw [List.toFinset_card_of_nodup hnd, List.length_map, List.length_cons, List.length_map, C98_points.1] at h1
  have h2 := (Multiset.toFinset_card_le P.roots).trans (Polynomial.card_roots' P)
  rw [Polynomial.natDegree_map_eq_of_injective (RingHom.injective_int _), natDegree_shiftedLegendre] at h2
  omega

/-- With this table the analysis of C80 has no angle along the cells. -/
theorem C98_angles : ∀ x ∈ table, x.1 ≠ 0 := by
  intro y hy
  obtain ⟨x, hx, rfl⟩ := List.mem_map.1 hy
  obtain ⟨a, _⟩ := List.of_mem_zip (show (x.1, x.2) ∈ mu.zip w from hx)
  show (x.1 : ℝ) ≠ 0
  exact_mod_cast (C98_points.2.2.2.1 _ a).2.2

/-- A polynomial of degree 63 and the exact table meet the hypotheses. -/
example : ((X : ℝ[X]) ^ 63 + X ^ 2).natDegree ≤ 63 ∧ Near 0 table := by
  refine ⟨by compute_degree!, ?_⟩
  unfold Near
  rw [List.forall₂_same]
  intro x hx
  simp [(table_points x hx).1]

end Verif.Cmfd
