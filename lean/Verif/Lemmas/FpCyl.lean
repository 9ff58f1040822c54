import Verif.Model.FpCyl
import Verif.Lemmas.FpNorm
import Verif.Lemmas.FpArea
import Verif.Lemmas.FpGrid
import Verif.Lemmas.FpTurn
import Verif.Props.PinTolerance
import Mathlib.Analysis.Convex.SpecificFunctions.Deriv
import Mathlib.Analysis.Real.Pi.Bounds

/-! Helper lemmas for cylindrical pin meshes in floating-point arithmetic. -/

set_option linter.unusedSectionVars false

namespace Verif.FpCyl

open Verif.Fp Verif.Pin Verif.PinArea

/-! ### Errors -/

section
variable {u : ℝ} (u0 : 0 ≤ u) (u1 : u ≤ 1)
include u0 u1

theorem off_trans {k l : ℕ} {x y z : ℝ} (_ : 0 ≤ x) (h : Off u k x y) (g : Off u l y z) : Off u (k + l) x z := by
  constructor
  · refine le_trans ?_ g.1
    rw [pow_add, ← mul_assoc]
    exact mul_le_mul_of_nonneg_right h.1 (pow_nonneg (by linarith) _)
  · refine g.2.trans ?_
    rw [pow_add, ← mul_assoc]
    exact mul_le_mul_of_nonneg_right h.2 (pow_nonneg (by linarith) _)

omit u1 in
/-- Many errors, linearly. -/
theorem pow_linear (k : ℕ) (h : k * u ≤ 1 / 2) : (1 + u) ^ k ≤ 1 + 2 * k * u := by
  induction k with
  | zero => simp
  | succ k ih =>
    push_cast at h ⊢
    have h' : k * u ≤ 1 / 2 := by nlinarith
    have := ih h'
    rw [pow_succ]
    calc (1 + u) ^ k * (1 + u) ≤ (1 + 2 * k * u) * (1 + u) := mul_le_mul_of_nonneg_right this (by linarith)
      _ = 1 + 2 * (k : ℝ) * u + u + 2 * (k * u) * u := by ring
      _ ≤ 1 + 2 * (k : ℝ) * u + u + u := by nlinarith
      _ = _ := by ring

theorem off_linear {k : ℕ} {x y : ℝ} (x0 : 0 ≤ x) (hk : k * u ≤ 1 / 2) (h : Off u k x y) : |y - x| ≤ 2 * k * u * x := by
  have h1 : (1 + u) ^ k ≤ 1 + 2 * k * u := pow_linear u0 k hk
  have h2 : 1 - 2 * k * u ≤ (1 - u) ^ k := by
    have := one_add_mul_le_pow (a := -u) (by linarith) k
    rw [← sub_eq_add_neg] at this
    have h0 : 0 ≤ k * u := by positivity
    linarith
  rw [abs_le]
  constructor
  · have := mul_le_mul_of_nonneg_left h2 x0
    have := h.1
    nlinarith
  · have := mul_le_mul_of_nonneg_left h1 x0
    have := h.2
    nlinarith

end

/-- A quotient, when there are not too many errors: one more than the sum. -/
theorem off_div {u : ℝ} (u0 : 0 ≤ u) (u1 : u ≤ 1 / 2) {k l : ℕ} (hl : l * u ≤ 1 / 2) {x y x' y' : ℝ} (x0 : 0 ≤ x) (y0 : 0 < y) (h : Off u k x x') (g : Off u l y y') :
    Off u (k + l + 1) (x / y) (x' / y') := by
  have a0 : 0 < 1 - u := by linarith
  have b0 : 0 < 1 + u := by linarith
  have y0' : 0 < y' := lt_of_lt_of_le (mul_pos y0 (pow_pos a0 l)) g.1
  have x0' : 0 ≤ x' := h.nonneg u0 (by linarith) x0
  have lt1 : ((1 - u) * (1 + u)) ^ l ≤ 1 := pow_le_one₀ (by positivity) (by nlinarith)
  have ge1 : 1 ≤ ((1 - u) * (1 + u)) ^ l * (1 + u) := by
    have b : 1 + (l : ℝ) * (-(u * u)) ≤ (1 + -(u * u)) ^ l := one_add_mul_le_pow (by nlinarith) l
    have e : (1 - u) * (1 + u) = 1 + -(u * u) := by ring
    rw [e]
    have h1 : (1 + (l : ℝ) * (-(u * u))) * (1 + u) ≤ (1 + -(u * u)) ^ l * (1 + u) := mul_le_mul_of_nonneg_right b b0.le
    have h2 : (l : ℝ) * (u * u) ≤ 1 / 2 * u := by
      rw [← mul_assoc]
      exact mul_le_mul_of_nonneg_right hl u0
    have h3 : (l : ℝ) * (u * u) * (1 + u) ≤ 1 / 2 * u * (1 + u) := mul_le_mul_of_nonneg_right h2 b0.le
    nlinarith
  constructor
  · rw [le_div_iff₀ y0', div_mul_eq_mul_div, div_mul_eq_mul_div, div_le_iff₀ y0]
    have t1 : x * (1 - u) ^ (k + l + 1) * y' ≤ x * (1 - u) ^ (k + l) * (y * (1 + u) ^ l) := by
      refine mul_le_mul ?_ g.2 y0'.le (by positivity)
      refine mul_le_mul_of_nonneg_left ?_ x0
      exact pow_le_pow_of_le_one a0.le (by linarith) (by omega)
    have t2 : x * (1 - u) ^ (k + l) * (y * (1 + u) ^ l) = x * (1 - u) ^ k * y * ((1 - u) * (1 + u)) ^ l := by
      rw [pow_add, mul_pow]; ring
    have t3 : x * (1 - u) ^ k * y * ((1 - u) * (1 + u)) ^ l ≤ x * (1 - u) ^ k * y * 1 := mul_le_mul_of_nonneg_left lt1 (by positivity)
    have t4 : x * (1 - u) ^ k * y ≤ x' * y := mul_le_mul_of_nonneg_right h.1 y0.le
    linarith
  · rw [div_le_iff₀ y0', div_mul_eq_mul_div, div_mul_eq_mul_div, le_div_iff₀ y0]
    have t1 : x * (1 + u) ^ (k + l + 1) * (y * (1 - u) ^ l) ≤ x * (1 + u) ^ (k + l + 1) * y' := mul_le_mul_of_nonneg_left g.1 (by positivity)
    have t2 : x * (1 + u) ^ (k + l + 1) * (y * (1 - u) ^ l) = x * (1 + u) ^ k * y * (((1 - u) * (1 + u)) ^ l * (1 + u)) := by
      rw [pow_succ, pow_add, mul_pow]; ring
    have t3 : x * (1 + u) ^ k * y * 1 ≤ x * (1 + u) ^ k * y * (((1 - u) * (1 + u)) ^ l * (1 + u)) := mul_le_mul_of_nonneg_left ge1 (by positivity)
    have t4 : x' * y ≤ x * (1 + u) ^ k * y := mul_le_mul_of_nonneg_right h.2 y0.le
    linarith

/-! ### Circles of growing area -/

/-- The radii of circles whose areas grow by the given amounts, exactly. -/
noncomputable def xLoop : ℝ → List ℝ → List ℝ
  | _, [] => []
  | q, g :: gs => √(g + q * q) :: xLoop (√(g + q * q)) gs

variable {p : ℕ}

/-- The same with roundings. -/
noncomputable def fLoop (R : Rounding ℝ p) (f : Bool) : ℝ → List ℝ → List ℝ
  | _, [] => []
  | q, g :: gs => R.rnd √(R.rnd (g + prodFp R f (q * q))) :: fLoop R f (R.rnd √(R.rnd (g + prodFp R f (q * q)))) gs

theorem xLoop_length (gs : List ℝ) : ∀ q, (xLoop q gs).length = gs.length := by
  induction gs with
  | nil => intro q; rfl
  | cons g gs ih => intro q; simp [xLoop, ih]

theorem fLoop_length (R : Rounding ℝ p) (f : Bool) (gs : List ℝ) : ∀ q, (fLoop R f q gs).length = gs.length := by
  induction gs with
  | nil => intro q; rfl
  | cons g gs ih => intro q; simp [fLoop, ih]

theorem prodFp_off (R : Rounding ℝ p) (hp : 1 ≤ p) (f : Bool) {k : ℕ} {x y : ℝ} (x0 : 0 ≤ x) (h : Off (1 / 2 ^ p) k x y) : Off (1 / 2 ^ p) (k + 1) x (prodFp R f y) := by
  unfold prodFp
  split
  · exact h.weaken (unit_nonneg p) (unit_le p) x0 (by omega)
  · exact h.rnd R hp x0

theorem fLoop_step (R : Rounding ℝ p) (hp : 1 ≤ p) (f : Bool) {k c : ℕ} (hc : c ≤ k + 1) {P G g q : ℝ} (P0 : 0 ≤ P) (G0 : 0 ≤ G)
    (h : Off (1 / 2 ^ p) k P (q ^ 2)) (hg : Off (1 / 2 ^ p) c G g) :
    0 ≤ R.rnd √(R.rnd (g + prodFp R f (q * q))) ∧ Off (1 / 2 ^ p) (k + 4) (P + G) (R.rnd √(R.rnd (g + prodFp R f (q * q))) ^ 2) := by
  have u0 := unit_nonneg (K := ℝ) p
  have u1 := unit_le (K := ℝ) p
  rw [sq] at h
  have h1 := prodFp_off R hp f P0 h
  have h2 := (Off.add u0 u1 (hg.weaken u0 u1 G0 hc) h1).rnd R hp (by positivity)
  have s0 : 0 ≤ R.rnd (g + prodFp R f (q * q)) := h2.nonneg u0 u1 (by positivity)
  have h3 : Off (1 / 2 ^ p) 1 √(R.rnd (g + prodFp R f (q * q))) (R.rnd √(R.rnd (g + prodFp R f (q * q)))) := (Off.refl _ _).rnd R hp (Real.sqrt_nonneg _)
  refine ⟨h3.nonneg u0 u1 (Real.sqrt_nonneg _), ?_⟩
  have h4 := h3.mul u0 u1 (Real.sqrt_nonneg _) (Real.sqrt_nonneg _) h3
  rw [Real.mul_self_sqrt s0, ← sq (R.rnd √_)] at h4
  have := off_trans u0 u1 (by positivity) h2 h4
  rwa [add_comm P G]

/-- The rings of one region. -/
theorem fLoop_region (R : Rounding ℝ p) (hp : 1 ≤ p) (f : Bool) {c : ℕ} {G g : ℝ} (G0 : 0 ≤ G) (hg : Off (1 / 2 ^ p) c G g) (gs : List ℝ) (n : ℕ) :
    ∀ (k : ℕ) (P q : ℝ), c ≤ k + 1 → 0 ≤ P → 0 ≤ q → Off (1 / 2 ^ p) k P (q ^ 2) →
    ∃ (L : List ℝ) (q' : ℝ), fLoop R f q (List.replicate n g ++ gs) = L ++ fLoop R f q' gs ∧ L.length = n ∧
      (∀ (t : ℕ) (y : ℝ), L[t]? = some y → 0 ≤ y ∧ Off (1 / 2 ^ p) (k + 4 * (t + 1)) (P + (t + 1) * G) (y ^ 2)) ∧
      0 ≤ q' ∧ Off (1 / 2 ^ p) (k + 4 * n) (P + n * G) (q' ^ 2) := by
  induction n with
  | zero =>
    intro k P q _ _ hq h
    exact ⟨[], q, by simp, rfl, by simp, hq, by simpa using h⟩
  | succ n ih =>
    intro k P q hc P0 hq h
    obtain ⟨e0, h1⟩ := fLoop_step R hp f hc P0 G0 h hg
    obtain ⟨L, q', hL, hl, hy, hq', h'⟩ := ih (k + 4) (P + G) _ (by omega) (by positivity) e0 h1
    refine ⟨R.rnd √(R.rnd (g + prodFp R f (q * q))) :: L, q', ?_, by simp [hl], ?_, hq', ?_⟩
    · rw [List.replicate_succ, List.cons_append, fLoop, hL]; rfl
    · intro t y ht
      cases t with
      | zero =>
        simp only [List.getElem?_cons_zero, Option.some.injEq] at ht
        subst ht
        refine ⟨e0, ?_⟩
        have e : P + ((0 : ℕ) + 1) * G = P + G := by push_cast; ring
        rw [e]
        exact h1
      | succ t =>
        rw [List.getElem?_cons_succ] at ht
        obtain ⟨y0, hy'⟩ := hy t y ht
        refine ⟨y0, ?_⟩
        have e : P + ((t + 1 : ℕ) + 1) * G = P + G + (t + 1) * G := by push_cast; ring
        rw [e, show k + 4 * (t + 1 + 1) = k + 4 + 4 * (t + 1) by ring]
        exact hy'
    · have e : P + ((n + 1 : ℕ) : ℝ) * G = P + G + n * G := by push_cast; ring
      rw [e, show k + 4 * (n + 1) = k + 4 + 4 * n by ring]
      exact h'

theorem xLoop_region {G : ℝ} (G0 : 0 ≤ G) (gs : List ℝ) (n : ℕ) :
    ∀ (q : ℝ), 0 ≤ q → ∃ (L : List ℝ) (q' : ℝ), xLoop q (List.replicate n G ++ gs) = L ++ xLoop q' gs ∧ L.length = n ∧
      (∀ (t : ℕ) (y : ℝ), L[t]? = some y → 0 ≤ y ∧ y ^ 2 = q ^ 2 + (t + 1) * G) ∧ 0 ≤ q' ∧ q' ^ 2 = q ^ 2 + n * G := by
  induction n with
  | zero =>
    intro q hq
    exact ⟨[], q, by simp, rfl, by simp, hq, by simp⟩
  | succ n ih =>
    intro q hq
    have h1 : √(G + q * q) ^ 2 = q ^ 2 + G := by rw [Real.sq_sqrt (by positivity)]; ring
    obtain ⟨L, q', hL, hl, hy, hq', h'⟩ := ih √(G + q * q) (Real.sqrt_nonneg _)
    refine ⟨√(G + q * q) :: L, q', ?_, by simp [hl], ?_, hq', ?_⟩
    · rw [List.replicate_succ, List.cons_append, xLoop, hL]; rfl
    · intro t y ht
      cases t with
      | zero =>
        simp only [List.getElem?_cons_zero, Option.some.injEq] at ht
        subst ht
        exact ⟨Real.sqrt_nonneg _, by rw [h1]; push_cast; ring⟩
      | succ t =>
        rw [List.getElem?_cons_succ] at ht
        obtain ⟨y0, hy'⟩ := hy t y ht
        exact ⟨y0, by rw [hy', h1]; push_cast; ring⟩
    · rw [h', h1]; push_cast; ring

/-- Dividing a region whose area has a relative error in its circles. -/
theorem share_off {u C q r d τ : ℝ} (u0 : 0 ≤ u) (u1 : u ≤ 1 / 4) (C0 : 0 ≤ C) (q0 : 0 ≤ q) (hqr : q ≤ r) (t0 : 0 ≤ τ) (t1 : τ ≤ 1)
    (h1 : r ^ 2 * (1 - u) - q ^ 2 * (1 + u) ≤ d) (h2 : d ≤ r ^ 2 * (1 + u) - q ^ 2 * (1 - u)) :
    Off u 3 (C * q ^ 2 + τ * (C * (r ^ 2 - q ^ 2))) (C * q ^ 2 + τ * (C * d)) := by
  have hq2 : q ^ 2 ≤ r ^ 2 := pow_le_pow_left₀ q0 hqr 2
  have key : τ * (u * (r ^ 2 + q ^ 2)) ≤ 2 * u * (q ^ 2 + τ * (r ^ 2 - q ^ 2)) := by
    have e : 2 * u * (q ^ 2 + τ * (r ^ 2 - q ^ 2)) - τ * (u * (r ^ 2 + q ^ 2)) = u * (2 * (1 - τ) * q ^ 2 + τ * (r ^ 2 - q ^ 2)) := by ring
    have : 0 ≤ u * (2 * (1 - τ) * q ^ 2 + τ * (r ^ 2 - q ^ 2)) :=
      mul_nonneg u0 (add_nonneg (mul_nonneg (by linarith) (sq_nonneg q)) (mul_nonneg t0 (by linarith)))
    linarith
  have S0 : 0 ≤ q ^ 2 + τ * (r ^ 2 - q ^ 2) := add_nonneg (sq_nonneg q) (mul_nonneg t0 (by linarith))
  have a1 := mul_le_mul_of_nonneg_left h1 t0
  have a2 := mul_le_mul_of_nonneg_left h2 t0
  have lo : (q ^ 2 + τ * (r ^ 2 - q ^ 2)) * (1 - 2 * u) ≤ q ^ 2 + τ * d := by nlinarith
  have hi : q ^ 2 + τ * d ≤ (q ^ 2 + τ * (r ^ 2 - q ^ 2)) * (1 + 2 * u) := by nlinarith
  have p1 : (1 - u) ^ 3 ≤ 1 - 2 * u := by nlinarith [sq_nonneg u, mul_nonneg u0 (sq_nonneg u)]
  have p2 : 1 + 2 * u ≤ (1 + u) ^ 3 := by nlinarith [sq_nonneg u, mul_nonneg u0 (sq_nonneg u)]
  have e1 : C * q ^ 2 + τ * (C * (r ^ 2 - q ^ 2)) = C * (q ^ 2 + τ * (r ^ 2 - q ^ 2)) := by ring
  have e2 : C * q ^ 2 + τ * (C * d) = C * (q ^ 2 + τ * d) := by ring
  rw [e1, e2]
  constructor
  · rw [mul_assoc]
    exact mul_le_mul_of_nonneg_left ((mul_le_mul_of_nonneg_left p1 S0).trans lo) C0
  · rw [mul_assoc]
    exact mul_le_mul_of_nonneg_left (hi.trans (mul_le_mul_of_nonneg_left p2 S0)) C0

/-- The exact amounts: a region with `n` rings between radii `q` and `r`. -/
noncomputable def xInc (C : ℝ) : Option ℝ → List (ℝ × ℕ) → List ℝ
  | _, [] => []
  | q, (r, n) :: t => List.replicate n (C * (r ^ 2 - q.getD 0 ^ 2) / n) ++ xInc C (some r) t

/-- Rounded amounts. -/
def fInc (h : Option ℝ → ℝ → ℕ → ℝ) : Option ℝ → List (ℝ × ℕ) → List ℝ
  | _, [] => []
  | q, (r, n) :: t => List.replicate n (h q r n) ++ fInc h (some r) t

/-- The rounded amount of each region is near the exact one for circles that have been squared with an error. -/
def IncOk (p : ℕ) (C : ℝ) (c : ℕ) (h : Option ℝ → ℝ → ℕ → ℝ) : Prop :=
  ∀ (q : Option ℝ) (r : ℝ) (n : ℕ), (∀ x, q = some x → IsFp p x ∧ 0 < x) → IsFp p r → q.getD 0 < r → 0 < n → n ≤ 2 ^ p →
    ∃ d, 0 ≤ d ∧ r ^ 2 * (1 - 1 / 2 ^ p) - q.getD 0 ^ 2 * (1 + 1 / 2 ^ p) ≤ d ∧ d ≤ r ^ 2 * (1 + 1 / 2 ^ p) - q.getD 0 ^ 2 * (1 - 1 / 2 ^ p) ∧
      Off (1 / 2 ^ p) c (C * d / n) (h q r n)

theorem unit_quarter (hp : 2 ≤ p) : (1 : ℝ) / 2 ^ p ≤ 1 / 4 := by
  refine one_div_le_one_div_of_le (by norm_num) ?_
  calc (4 : ℝ) = 2 ^ 2 := by norm_num
    _ ≤ 2 ^ p := pow_le_pow_right₀ (by norm_num) hp

/-- The radii of all rings: seven errors per ring in the square. -/
theorem loops (R : Rounding ℝ p) (hp : 2 ≤ p) (f : Bool) {C : ℝ} (C0 : 0 ≤ C) {c : ℕ} {h : Option ℝ → ℝ → ℕ → ℝ} (hh : IncOk p C c h) (regs : List (ℝ × ℕ)) :
    ∀ (q : Option ℝ) (x y : ℝ) (k : ℕ), (∀ v, q = some v → IsFp p v ∧ 0 < v) → (q.getD 0 :: regs.map (·.1)).Pairwise (· < ·) → (∀ r ∈ regs, IsFp p r.1 ∧ 0 < r.2 ∧ r.2 ≤ 2 ^ p) →
      c ≤ k + 1 → 0 ≤ x → 0 ≤ y → x ^ 2 = C * q.getD 0 ^ 2 → Off (1 / 2 ^ p) k (x ^ 2) (y ^ 2) →
      ∀ (j : ℕ) (X Y : ℝ), (xLoop x (xInc C q regs))[j]? = some X → (fLoop R f y (fInc h q regs))[j]? = some Y →
        0 ≤ X ∧ 0 ≤ Y ∧ Off (1 / 2 ^ p) (k + 7 * (j + 1)) (X ^ 2) (Y ^ 2) := by
  have u0 := unit_nonneg (K := ℝ) p
  have u1 := unit_quarter hp
  induction regs with
  | nil =>
    intro q x y k _ _ _ _ _ _ _ _ j X Y hX _
    simp [xInc, xLoop] at hX
  | cons reg regs ih =>
    obtain ⟨r, n⟩ := reg
    intro q x y k hq hinc hr hc x0 y0 hx hxy j X Y hX hY
    obtain ⟨hr1, hn, hn'⟩ := hr (r, n) (by simp)
    have hn0 : (0 : ℝ) < n := by exact_mod_cast hn
    rw [List.map_cons, List.pairwise_cons] at hinc
    have hqr : q.getD 0 < r := hinc.1 r (by simp)
    have q0 : 0 ≤ q.getD 0 := by
      cases q with
      | none => exact le_rfl
      | some v => exact (hq v rfl).2.le
    have hq2 : q.getD 0 ^ 2 ≤ r ^ 2 := pow_le_pow_left₀ q0 hqr.le 2
    obtain ⟨d, d0, d1, d2, hg⟩ := hh q r n hq hr1 hqr hn hn'
    have G0 : 0 ≤ C * (r ^ 2 - q.getD 0 ^ 2) / n := div_nonneg (mul_nonneg C0 (by linarith)) hn0.le
    obtain ⟨L, x', hL, hl, hLy, x0', hx'⟩ := xLoop_region G0 (xInc C (some r) regs) n x x0
    obtain ⟨M, y', hM, hm, hMy, y0', hy'⟩ := fLoop_region R (by omega) f (div_nonneg (mul_nonneg C0 d0) hn0.le) hg (fInc h (some r) regs) n k (x ^ 2) y hc (sq_nonneg x) y0 hxy
    rw [xInc, hL] at hX
    rw [fInc, hM] at hY
    have share : ∀ t : ℕ, t ≤ n → Off (1 / 2 ^ p) 3 (x ^ 2 + t * (C * (r ^ 2 - q.getD 0 ^ 2) / n)) (x ^ 2 + t * (C * d / n)) := by
      intro t ht
      have := share_off (τ := t / n) u0 u1 C0 q0 hqr.le (by positivity) (by rw [div_le_one hn0]; exact_mod_cast ht) d1 d2
      rw [hx]
      convert this using 2 <;> ring
    have S0 : ∀ t : ℕ, 0 ≤ x ^ 2 + t * (C * (r ^ 2 - q.getD 0 ^ 2) / n) := fun t => by positivity
    have both : ∀ (t k' : ℕ) (z : ℝ), t ≤ n → 0 < t → Off (1 / 2 ^ p) (k + 4 * t) (x ^ 2 + t * (C * d / n)) (z ^ 2) →
        Off (1 / 2 ^ p) (k + 7 * t) (x ^ 2 + t * (C * (r ^ 2 - q.getD 0 ^ 2) / n)) (z ^ 2) := by
      intro t k' z ht ht0 hz
      have := off_trans u0 (by linarith) (S0 t) (share t ht) hz
      exact this.weaken u0 (by linarith) (S0 t) (by omega)
    by_cases hj : j < n
    · rw [List.getElem?_append_left (by omega)] at hX hY
      obtain ⟨hX0, hX2⟩ := hLy j X hX
      obtain ⟨hY0, hY2⟩ := hMy j Y hY
      refine ⟨hX0, hY0, ?_⟩
      rw [hX2]
      have := both (j + 1) 0 Y (by omega) (by omega) (by push_cast; exact hY2)
      push_cast at this
      exact this
    · rw [List.getElem?_append_right (by omega), hl] at hX
      rw [List.getElem?_append_right (by omega), hm] at hY
      have hx2 : x' ^ 2 = C * r ^ 2 := by
        rw [hx', hx]; field_simp; ring
      have hoff := both n 0 y' le_rfl hn hy'
      rw [← hx'] at hoff
      have hr0 : 0 < r := q0.trans_lt hqr
      obtain ⟨a, b, c'⟩ := ih (some r) x' y' (k + 7 * n) (by rintro v ⟨⟩; exact ⟨hr1, hr0⟩) hinc.2 (fun s hs => hr s (by simp [hs])) (by omega) x0' y0' hx2 hoff (j - n) X Y hX hY
      refine ⟨a, b, ?_⟩
      rwa [show k + 7 * (j + 1) = k + 7 * n + 7 * (j - n + 1) by omega]

end Verif.FpCyl
