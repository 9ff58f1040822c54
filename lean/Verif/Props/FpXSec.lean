import Verif.Lemmas.FpXSec
import Verif.Props.FpStats
import Mathlib.Data.Rat.Floor

/-!
# C137 cross sections in floating point
-/

set_option linter.unusedSectionVars false

namespace Verif.Fp

open Verif.Phys

variable {K : Type} [Field K] [LinearOrder K] [IsStrictOrderedRing K] [FloorRing K] {p : ℕ} (R : Rounding K p)

/-- The exact mean of one value over the faces of a cell, weighted by their areas. -/
def areaMean (faces : List (K × ℕ)) (mats : List (XSec K)) (rx : Rx) (i : ℕ) : K :=
  (faces.map fun f => f.1 * matVal mats rx i f).sum / (faces.map (·.1)).sum

/-- A homogenised cross section: every value is the mean over the faces up to `3 (faces + materials + 1)` relative errors of `2 ^ -p`. -/
theorem C137_mean (hp : 1 ≤ p) (fused : Bool) {n : ℕ} {faces : List (K × ℕ)} {mats : List (XSec K)} (hm : ∀ m ∈ mats, m.WF n)
    (h0 : ∀ m ∈ mats, ∀ rx, ∀ i < Rx.size n rx, 0 ≤ m.val rx i) (hne : mats ≠ []) (hf : ∀ f ∈ faces, 0 ≤ f.1 ∧ f.2 < mats.length)
    (htot : 0 < (faces.map (·.1)).sum) :
    ∃ r, homogenize R fused faces mats = some r ∧ r.WF n ∧ r.macro_ = true ∧ ∀ rx, ∀ i < Rx.size n rx, 0 ≤ r.val rx i ∧
      areaMean faces mats rx i * (1 - 1 / 2 ^ p) ^ (3 * (faces.length + mats.length + 1)) ≤ r.val rx i ∧
      r.val rx i ≤ areaMean faces mats rx i * (1 + 1 / 2 ^ p) ^ (3 * (faces.length + mats.length + 1)) := by
  obtain ⟨e, r, h1, h2, h3, h4, -⟩ := homogenize_off R hp fused (fun m h => ⟨hm m h, h0 m h⟩) hne hf htot
  obtain ⟨e', e1, -, -, -, e5⟩ := C55_mean n faces mats hm hne (fun f h => (hf f h).2) htot.ne'
  rw [h1, Option.some.injEq] at e1
  subst e1
  refine ⟨r, h2, h3.wf', h4, fun rx i hi => ⟨(h3.off rx i hi).nonneg (unit_nonneg p) (unit_le p) (h3.pos rx i hi), ?_⟩⟩
  have := h3.off rx i hi
  rw [e5 rx i hi] at this
  rw [show 3 * (faces.length + mats.length + 1) = 3 * faces.length + 3 * mats.length + 3 by ring]
  exact this

/-- The same as one relative error, for a cell whose number of faces is small against `2 ^ (p / 2)` (a few million faces in double precision). -/
theorem C137_error (hp : 1 ≤ p) (fused : Bool) {n : ℕ} {faces : List (K × ℕ)} {mats : List (XSec K)} (hm : ∀ m ∈ mats, m.WF n)
    (h0 : ∀ m ∈ mats, ∀ rx, ∀ i < Rx.size n rx, 0 ≤ m.val rx i) (hne : mats ≠ []) (hf : ∀ f ∈ faces, 0 ≤ f.1 ∧ f.2 < mats.length)
    (htot : 0 < (faces.map (·.1)).sum) (hs : (3 * (faces.length + mats.length) + 4) ^ 2 ≤ 2 ^ p) :
    ∃ r, homogenize R fused faces mats = some r ∧ ∀ rx, ∀ i < Rx.size n rx,
      |r.val rx i - areaMean faces mats rx i| ≤ (3 * (faces.length + mats.length) + 4 : ℕ) / 2 ^ p * areaMean faces mats rx i := by
  obtain ⟨e, r, h1, h2, h3, -, -⟩ := homogenize_off R hp fused (fun m h => ⟨hm m h, h0 m h⟩) hne hf htot
  obtain ⟨e', e1, -, -, -, e5⟩ := C55_mean n faces mats hm hne (fun f h => (hf f h).2) htot.ne'
  rw [h1, Option.some.injEq] at e1
  subst e1
  refine ⟨r, h2, fun rx i hi => ?_⟩
  have e : e.val rx i = areaMean faces mats rx i := e5 rx i hi
  rw [← e]
  refine ((h3.off rx i hi).abs_le (unit_nonneg p) (unit_le p) (h3.pos rx i hi)).trans (mul_le_mul_of_nonneg_right ?_ (h3.pos rx i hi))
  have hs' : ((3 * (faces.length + mats.length) + 4 : ℕ) : K) ^ 2 ≤ 2 ^ p := by exact_mod_cast hs
  have u0 := unit_nonneg (K := K) p
  have q0 : (0 : K) < 2 ^ p := by positivity
  have := pow_bound u0 (3 * faces.length + 3 * mats.length + 3) (by
    rw [mul_one_div, div_le_one q0]
    refine le_trans ?_ hs'
    push_cast
    have a : (0 : K) ≤ faces.length := Nat.cast_nonneg _
    have b : (0 : K) ≤ mats.length := Nat.cast_nonneg _
    nlinarith)
  push_cast at this ⊢
  have e : (3 * ((faces.length : K) + mats.length) + 4) / 2 ^ p = (3 * faces.length + 3 * mats.length + 3 + 1) * (1 / 2 ^ p) := by ring
  rw [e]
  linarith

/-- The result is fissile if and only if the material of a face with an area has a fission cross section: no rounding hides or invents fission. -/
theorem C137_fissile (hp : 1 ≤ p) (fused : Bool) {n : ℕ} {faces : List (K × ℕ)} {mats : List (XSec K)} (hm : ∀ m ∈ mats, m.WF n)
    (h0 : ∀ m ∈ mats, ∀ rx, ∀ i < Rx.size n rx, 0 ≤ m.val rx i) (hne : mats ≠ []) (hf : ∀ f ∈ faces, 0 ≤ f.1 ∧ f.2 < mats.length)
    (htot : 0 < (faces.map (·.1)).sum) :
    ∃ r, homogenize R fused faces mats = some r ∧ (r.fissile = true ↔ ∃ f ∈ faces, 0 < f.1 ∧ ∃ g < n, 0 < matVal mats .f g f) := by
  obtain ⟨e, r, h1, h2, h3, -, h5⟩ := homogenize_off R hp fused (fun m h => ⟨hm m h, h0 m h⟩) hne hf htot
  obtain ⟨e', e1, -, -, -, e5⟩ := C55_mean n faces mats hm hne (fun f h => (hf f h).2) htot.ne'
  rw [h1, Option.some.injEq] at e1
  subst e1
  refine ⟨r, h2, h5.trans ?_⟩
  have hl : r.f.length = n := h3.wf'.2 .f
  have mv : ∀ f ∈ faces, ∀ g < n, 0 ≤ matVal mats .f g f := by
    intro f hff g hg
    unfold matVal
    rw [List.getElem?_eq_getElem (hf f hff).2]
    exact h0 _ (List.getElem_mem _) .f g hg
  have pos : ∀ g < n, (0 < r.val .f g ↔ ∃ f ∈ faces, 0 < f.1 ∧ 0 < matVal mats .f g f) := by
    intro g hg
    have hi : g < Rx.size n .f := hg
    rw [(h3.off .f g hi).pos_iff (unit_nonneg p) (unit_half hp) (h3.pos .f g hi), e5 .f g hi, div_pos_iff_of_pos_right htot]
    constructor
    · intro h
      by_contra c
      push Not at c
      have : (faces.map fun f => f.1 * matVal mats .f g f).sum ≤ 0 := by
        refine (List.sum_le_card_nsmul _ 0 fun x hx => ?_).trans (by simp)
        obtain ⟨f, hff, rfl⟩ := List.mem_map.1 hx
        rcases (hf f hff).1.lt_or_eq with c1 | c1
        · exact mul_nonpos_of_nonneg_of_nonpos c1.le (c f hff c1)
        · rw [← c1, zero_mul]
      linarith
    · rintro ⟨f, hff, c1, c2⟩
      refine lt_of_lt_of_le (mul_pos c1 c2) (List.single_le_sum (fun x hx => ?_) _ (List.mem_map.2 ⟨f, hff, rfl⟩))
      obtain ⟨f', hff', rfl⟩ := List.mem_map.1 hx
      exact mul_nonneg (hf f' hff').1 (mv f' hff' g hg)
  constructor
  · rintro ⟨v, hv, v0⟩
    obtain ⟨g, hg, rfl⟩ := List.mem_iff_getElem.1 hv
    have hg' : g < n := by omega
    have e : r.val .f g = r.f[g] := by
      unfold XSec.val
      show (r.f[g]?).getD 0 = _
      rw [List.getElem?_eq_getElem hg]
      rfl
    obtain ⟨f, hff, c1, c2⟩ := (pos g hg').1 (by rw [e]; exact v0)
    exact ⟨f, hff, c1, g, hg', c2⟩
  · rintro ⟨f, hff, c1, g, hg, c2⟩
    have := (pos g hg).2 ⟨f, hff, c1, c2⟩
    have hg' : g < r.f.length := by omega
    refine ⟨r.f[g], List.getElem_mem hg', ?_⟩
    have e : r.val .f g = r.f[g] := by
      unfold XSec.val
      show (r.f[g]?).getD 0 = _
      rw [List.getElem?_eq_getElem hg']
      rfl
    rwa [← e]

theorem off_sum {u : K} {k : ℕ} (l : List ℕ) (x y : ℕ → K) (h : ∀ i ∈ l, Off u k (x i) (y i)) : Off u k (l.map x).sum (l.map y).sum := by
  induction l with
  | nil => exact Off.zero_zero u k
  | cons a l ih =>
    have h1 := h a (by simp)
    have h2 := ih fun i hi => h i (by simp [hi])
    simp only [List.map_cons, List.sum_cons]
    exact ⟨by rw [add_mul]; exact add_le_add h1.1 h2.1, by rw [add_mul]; exact add_le_add h1.2 h2.2⟩

theorem ss_index {n g i : ℕ} (hg : g < n) (hi : i < n) : g * n + i < Rx.size n .ss := by
  show g * n + i < n * n
  calc g * n + i < g * n + n := by omega
    _ = (g + 1) * n := by ring
    _ ≤ n * n := Nat.mul_le_mul_right n hg

theorem off_pair {u : K} {k : ℕ} {x y z : K} (h : Off u k x y) (g : Off u k x z) : |y - z| ≤ ((1 + u) ^ k - (1 - u) ^ k) * x := by
  rw [abs_le]
  constructor
  · have := h.1
    have := g.2
    linarith
  · have := h.2
    have := g.1
    linarith

/-- The scattering balance of the materials carries over up to the same errors. -/
theorem C137_balance (hp : 1 ≤ p) (fused : Bool) {n : ℕ} {faces : List (K × ℕ)} {mats : List (XSec K)} (hm : ∀ m ∈ mats, m.WF n)
    (h0 : ∀ m ∈ mats, ∀ rx, ∀ i < Rx.size n rx, 0 ≤ m.val rx i) (hne : mats ≠ []) (hf : ∀ f ∈ faces, 0 ≤ f.1 ∧ f.2 < mats.length)
    (htot : 0 < (faces.map (·.1)).sum) (hb : ∀ m ∈ mats, Balanced n m) :
    ∃ r, homogenize R fused faces mats = some r ∧ ∀ g < n, |r.val .s g - ((List.range n).map fun i => r.val .ss (g * n + i)).sum| ≤
      ((1 + 1 / 2 ^ p) ^ (3 * (faces.length + mats.length + 1)) - (1 - 1 / 2 ^ p) ^ (3 * (faces.length + mats.length + 1))) * areaMean faces mats .s g := by
  obtain ⟨e, r, h1, h2, h3, h4, -⟩ := homogenize_off R hp fused (fun m h => ⟨hm m h, h0 m h⟩) hne hf htot
  obtain ⟨e', e1, e2, -, -, e5⟩ := C55_mean n faces mats hm hne (fun f h => (hf f h).2) htot.ne'
  obtain ⟨e'', f1, f2⟩ := C55_balance n faces mats hm hne (fun f h => (hf f h).2) htot.ne' hb
  rw [h1, Option.some.injEq] at e1 f1
  subst e1
  subst f1
  refine ⟨r, h2, fun g hg => ?_⟩
  have b := (balanced_iff e2).1 f2 g hg
  have a := h3.off .s g hg
  have s := off_sum (u := 1 / 2 ^ p) (k := 3 * faces.length + 3 * mats.length + 3) (List.range n) (fun i => e.val .ss (g * n + i)) (fun i => r.val .ss (g * n + i))
    fun i hi => h3.off .ss _ (ss_index hg (List.mem_range.1 hi))
  rw [← b] at s
  have := off_pair a s
  rw [e5 .s g hg] at this
  rw [show 3 * (faces.length + mats.length + 1) = 3 * faces.length + 3 * mats.length + 3 by ring]
  exact this

/-- One group and no fission: a cross section for the counterexample. -/
def unitXS : XSec ℚ := ⟨true, false, 1, [1], [0], [0], [1], [0], [0]⟩

/-- A cell of one face does not get the cross section of its material: with area 49 an absorption of 1 becomes `1 - 2 ^ -53`, below every material in the
cell. -/
theorem C137_uniform_fails : ∀ fused, ∃ r, homogenize (ieee ℚ 53 (by norm_num)) fused [(49, 0)] [unitXS] = some r ∧ r.a = [1 - 1 / 2 ^ 53] := by
  have key : ∀ fused, (homogenize (ieee ℚ 53 (by norm_num)) fused [(49, 0)] [unitXS]).any (fun r => decide (r.a = [1 - 1 / 2 ^ 53])) = true := by
    intro fused
    cases fused <;> decide +kernel
  intro fused
  obtain ⟨r, h1, h2⟩ := (Option.any_eq_true _ _).1 (key fused)
  exact ⟨r, h1, of_decide_eq_true h2⟩

/-! ### Macroscopic cross sections -/

theorem populate_off (hp : 1 ≤ p) (fused : Bool) {n : ℕ} : ∀ (nucs : List (XSec K × K)) {k : ℕ} {r : XSec K} {v : Rx → ℕ → K},
    (∀ y ∈ nucs, y.1.WF n ∧ Nonneg n y.1 ∧ 0 ≤ y.2) → 1 ≤ k → r.WF n → (∀ rx, ∀ i < Rx.size n rx, 0 ≤ v rx i ∧ Off (1 / 2 ^ p) k (v rx i) (r.val rx i)) →
    ∃ r', nucs.foldlM (populateStep R fused) r = some r' ∧ r'.WF n ∧ r'.macro_ = r.macro_ ∧ (r'.fissile = true ↔ r.fissile = true ∨ ∃ y ∈ nucs, y.1.fissile = true) ∧
      ∀ rx, ∀ i < Rx.size n rx, 0 ≤ v rx i + (nucs.map fun y => y.1.val rx i * y.2).sum ∧
        Off (1 / 2 ^ p) (k + nucs.length) (v rx i + (nucs.map fun y => y.1.val rx i * y.2).sum) (r'.val rx i)
  | [], k, r, v, _, _, hr, h => ⟨r, rfl, hr, rfl, by simp, fun rx i hi => by simpa using h rx i hi⟩
  | y :: nucs, k, r, v, hn, hk, hr, h => by
    have u0 := unit_nonneg (K := K) p
    have u1 := unit_le (K := K) p
    obtain ⟨y1, y2, y3⟩ := hn y (by simp)
    obtain ⟨r1, a1, a2, a3, a4, a5⟩ := combine_val (fun r v => mulAdd R fused r v y.2) n r.macro_ (y.1.fissile || r.fissile) r y.1 hr y1
    obtain ⟨r2, b1, b2, b3, b4, b5⟩ := populate_off hp fused nucs (k := k + 1) (r := r1) (v := fun rx i => v rx i + y.1.val rx i * y.2)
      (fun z hz => hn z (by simp [hz])) (by omega) a4 (by
        intro rx i hi
        have w0 := mul_nonneg (y2 rx i hi) y3
        refine ⟨add_nonneg (h rx i hi).1 w0, ?_⟩
        rw [a5 rx i hi]
        have := Off.mulAdd' R hp fused (k := k - 1) (h rx i hi).1 w0 (by rw [show k - 1 + 1 = k by omega]; exact (h rx i hi).2)
          ((Off.refl (1 / 2 ^ p) (y.1.val rx i * y.2)).weaken u0 u1 w0 (by omega))
        rwa [show k - 1 + 2 = k + 1 by omega] at this)
    refine ⟨r2, ?_, b2, by rw [b3, a2], ?_, ?_⟩
    · rw [List.foldlM_cons]
      unfold populateStep
      rw [hr.1, a1]
      exact b1
    · rw [b4, a3]
      simp only [Bool.or_eq_true, List.mem_cons, exists_eq_or_imp]
      tauto
    · intro rx i hi
      have := b5 rx i hi
      simp only [List.map_cons, List.sum_cons, List.length_cons] at *
      rw [show k + (nucs.length + 1) = k + 1 + nucs.length by ring, ← add_assoc (v rx i)]
      exact this

/-- A macroscopic cross section: every value is the sum over the nuclides of cross section times number density up to `nuclides + 1` relative errors; it is
fissile if a nuclide is. -/
theorem C137_macro (hp : 1 ≤ p) (fused : Bool) (n : ℕ) {nucs : List (XSec K × K)} (hw : ∀ y ∈ nucs, y.1.WF n)
    (h0 : ∀ y ∈ nucs, 0 ≤ y.2 ∧ ∀ rx, ∀ i < Rx.size n rx, 0 ≤ y.1.val rx i) :
    ∃ r, populate R fused n nucs = some r ∧ r.WF n ∧ r.macro_ = true ∧ (r.fissile = true ↔ ∃ y ∈ nucs, y.1.fissile = true) ∧
      ∀ rx, ∀ i < Rx.size n rx, 0 ≤ r.val rx i ∧
        (nucs.map fun y => y.1.val rx i * y.2).sum * (1 - 1 / 2 ^ p) ^ (nucs.length + 1) ≤ r.val rx i ∧
        r.val rx i ≤ (nucs.map fun y => y.1.val rx i * y.2).sum * (1 + 1 / 2 ^ p) ^ (nucs.length + 1) := by
  have hz : ({ (XSec.zero n : XSec K) with macro_ := true } : XSec K).WF n := ⟨rfl, fun rx => by have := (zero_WF (K := K) n).2 rx; cases rx <;> exact this⟩
  obtain ⟨r, r1, r2, r3, r4, r5⟩ := populate_off R hp fused nucs (k := 1) (r := { (XSec.zero n : XSec K) with macro_ := true }) (v := fun _ _ => 0)
    (fun y hy => ⟨hw y hy, (h0 y hy).2, (h0 y hy).1⟩) le_rfl hz (by
      intro rx i hi
      have := zero_val (K := K) n rx i
      refine ⟨le_rfl, ?_⟩
      have e : XSec.val { (XSec.zero n : XSec K) with macro_ := true } rx i = 0 := by cases rx <;> exact this
      rw [e]
      exact Off.zero_zero _ _)
  refine ⟨r, r1, r2, r3, ?_, ?_⟩
  · rw [r4]
    simp [XSec.zero]
  · intro rx i hi
    obtain ⟨h1, h2⟩ := r5 rx i hi
    rw [zero_add] at h1 h2
    rw [show 1 + nucs.length = nucs.length + 1 by ring] at h2
    exact ⟨h2.nonneg (unit_nonneg p) (unit_le p) h1, h2⟩

theorem balanced_sum {n : ℕ} : ∀ {nucs : List (XSec K × K)}, (∀ y ∈ nucs, y.1.WF n ∧ Balanced n y.1) → ∀ g < n,
    (nucs.map fun y => y.1.val .s g * y.2).sum = ((List.range n).map fun i => (nucs.map fun y => y.1.val .ss (g * n + i) * y.2).sum).sum
  | [], _, g, _ => by simp
  | y :: nucs, h, g, hg => by
    have h1 := (balanced_iff (h y (by simp)).1).1 (h y (by simp)).2 g hg
    have h2 := balanced_sum (nucs := nucs) (fun z hz => h z (by simp [hz])) g hg
    simp only [List.map_cons, List.sum_cons]
    rw [List.sum_map_add, ← h2, List.sum_map_mul_right, ← h1]

/-- The scattering balance of the nuclides carries over up to the same errors. -/
theorem C137_macro_balance (hp : 1 ≤ p) (fused : Bool) (n : ℕ) {nucs : List (XSec K × K)} (hw : ∀ y ∈ nucs, y.1.WF n ∧ Balanced n y.1)
    (h0 : ∀ y ∈ nucs, 0 ≤ y.2 ∧ ∀ rx, ∀ i < Rx.size n rx, 0 ≤ y.1.val rx i) :
    ∃ r, populate R fused n nucs = some r ∧ ∀ g < n, |r.val .s g - ((List.range n).map fun i => r.val .ss (g * n + i)).sum| ≤
      ((1 + 1 / 2 ^ p) ^ (nucs.length + 1) - (1 - 1 / 2 ^ p) ^ (nucs.length + 1)) * (nucs.map fun y => y.1.val .s g * y.2).sum := by
  obtain ⟨r, r1, -, -, -, r5⟩ := C137_macro R hp fused n (fun y hy => (hw y hy).1) h0
  refine ⟨r, r1, fun g hg => off_pair (r5 .s g hg).2 ?_⟩
  rw [balanced_sum hw g hg]
  exact off_sum (List.range n) (fun i => (nucs.map fun y => y.1.val .ss (g * n + i) * y.2).sum) (fun i => r.val .ss (g * n + i))
    fun i hi => (r5 .ss _ (ss_index hg (List.mem_range.1 hi))).2

/-! ### Collapsing -/

theorem mean_rel (hp : 1 ≤ p) {l : List K} (h0 : ∀ x ∈ l, 0 ≤ x) (hl : l ≠ []) (hi : l.length < 2 ^ 31) :
    ∃ m, mean R l = some m ∧ Off (1 / 2 ^ p) 154 (l.sum / l.length) m := by
  have u0 := unit_nonneg (K := K) p
  have u1 := unit_le (K := K) p
  have n0 : (0 : K) < l.length := by exact_mod_cast List.length_pos_iff.2 hl
  have o := OffL.refl (1 / 2 ^ p : K) h0
  obtain ⟨s, h1, h2⟩ := pairwise_off R hp 24 o hl (by omega)
  refine ⟨R.rnd (s / R.rnd l.length), ?_, ?_⟩
  · unfold mean
    rw [h1]
    rfl
  · have s0 := o.sum_nonneg
    have := Off.rnd R hp (div_nonneg s0 n0.le) (Off.div u0 (unit_half hp) s0 n0 (h2.weaken u0 u1 s0 (l := 151) (by omega)) (Off.rnd R hp n0.le (Off.refl _ _)))
    exact this

/-- Collapsing: the means of the groups and the number of groups times the mean of the scattering matrix, up to 156 relative errors. -/
theorem C137_collapse (hp : 1 ≤ p) {n : ℕ} (hn : 0 < n) (hi : n * n < 2 ^ 31) {x : XSec K} (hx : x.WF n)
    (h0 : ∀ rx, ∀ v ∈ x.get rx, 0 ≤ v) :
    ∃ r, collapse R x = some r ∧ r.WF 1 ∧ r.macro_ = x.macro_ ∧ r.fissile = x.fissile ∧ ∀ rx, 0 ≤ r.val rx 0 ∧
      (x.get rx).sum / n * (1 - 1 / 2 ^ p) ^ 156 ≤ r.val rx 0 ∧ r.val rx 0 ≤ (x.get rx).sum / n * (1 + 1 / 2 ^ p) ^ 156 := by
  have u0 := unit_nonneg (K := K) p
  have u1 := unit_le (K := K) p
  have n0 : (0 : K) < n := by exact_mod_cast hn
  have hsz : ∀ rx, 0 < Rx.size n rx ∧ Rx.size n rx < 2 ^ 31 := by
    intro rx
    have := Nat.le_mul_self n
    cases rx <;> exact ⟨by first | exact hn | exact Nat.mul_pos hn hn, by show _ < 2 ^ 31; simp only [Rx.size]; omega⟩
  have hm : ∀ rx, ∃ m, mean R (x.get rx) = some m ∧ Off (1 / 2 ^ p) 154 ((x.get rx).sum / (Rx.size n rx : ℕ)) m := by
    intro rx
    have hl := hx.2 rx
    have := mean_rel R hp (h0 rx) (by rw [← List.length_pos_iff, hl]; exact (hsz rx).1) (by rw [hl]; exact (hsz rx).2)
    rwa [hl] at this
  have pos : ∀ rx, 0 ≤ (x.get rx).sum := fun rx => List.sum_nonneg (h0 rx)
  obtain ⟨a, a1, a2⟩ := hm .a
  obtain ⟨f, f1, f2⟩ := hm .f
  obtain ⟨nuf, nuf1, nuf2⟩ := hm .nuf
  obtain ⟨tr, tr1, tr2⟩ := hm .tr
  obtain ⟨s, s1, s2⟩ := hm .s
  obtain ⟨ss, ss1, ss2⟩ := hm .ss
  have ss3 : Off (1 / 2 ^ p) 156 ((x.get .ss).sum / n) (R.rnd (R.rnd (x.ng : K) * ss)) := by
    have q0 : 0 ≤ (x.get .ss).sum / (Rx.size n .ss : ℕ) := div_nonneg (pos .ss) (Nat.cast_nonneg _)
    have := Off.rnd R hp (mul_nonneg n0.le q0) ((Off.rnd R hp n0.le (Off.refl _ (n : K))).mul u0 u1 n0.le q0 ss2)
    have e : (n : K) * ((x.get .ss).sum / (Rx.size n .ss : ℕ)) = (x.get .ss).sum / n := by
      show (n : K) * ((x.get .ss).sum / ((n * n : ℕ) : K)) = _
      push_cast
      field_simp
    rw [e] at this
    rw [hx.1]
    exact this
  refine ⟨⟨x.macro_, x.fissile, 1, [a], [f], [nuf], [tr], [s], [R.rnd (R.rnd (x.ng : K) * ss)]⟩, ?_, ⟨rfl, fun r => by cases r <;> rfl⟩, rfl, rfl, fun rx => ?_⟩
  · unfold collapse
    simp only [XSec.get] at a1 f1 nuf1 tr1 s1 ss1
    rw [a1, f1, nuf1, tr1, s1, ss1]
    rfl
  · have : Off (1 / 2 ^ p) 156 ((x.get rx).sum / n) (XSec.val ⟨x.macro_, x.fissile, 1, [a], [f], [nuf], [tr], [s], [R.rnd (R.rnd (x.ng : K) * ss)]⟩ rx 0) := by
      have q0 : 0 ≤ (x.get rx).sum / (n : K) := div_nonneg (pos rx) n0.le
      cases rx
      · exact a2.weaken u0 u1 q0 (by omega)
      · exact f2.weaken u0 u1 q0 (by omega)
      · exact nuf2.weaken u0 u1 q0 (by omega)
      · exact tr2.weaken u0 u1 q0 (by omega)
      · exact s2.weaken u0 u1 q0 (by omega)
      · exact ss3
    exact ⟨this.nonneg u0 u1 (div_nonneg (pos rx) n0.le), this⟩

/-- The two scattering values of a balanced cross section differ by at most `314 / 2 ^ p` of the mean of the scattering cross sections. -/
theorem C137_collapse_balance (hp : 24 ≤ p) {n : ℕ} (hn : 0 < n) (hi : n * n < 2 ^ 31) {x : XSec K} (hx : x.WF n)
    (h0 : ∀ rx, ∀ v ∈ x.get rx, 0 ≤ v) (hb : Balanced n x) :
    ∃ r, collapse R x = some r ∧ |r.val .s 0 - r.val .ss 0| ≤ 314 / 2 ^ p * (x.s.sum / n) := by
  have u0 := unit_nonneg (K := K) p
  have u1 := unit_le (K := K) p
  obtain ⟨r, r1, -, -, -, r5⟩ := C137_collapse R (by omega) hn hi hx h0
  obtain ⟨e, e1, e2, -, -, e5, e6⟩ := C54_average n hn x hx
  obtain ⟨e', f1, f2, f3, f4⟩ := C54_balance n hn x hx hb
  rw [e1, Option.some.injEq] at f1
  subst f1
  have hs : e.s = [x.s.sum / n] := e5 .s (by simp)
  have n0 : (n : K) ≠ 0 := by exact_mod_cast hn.ne'
  have eq : x.ss.sum / (n : K) = x.s.sum / n := by
    rw [hs, e6, List.cons.injEq] at f4
    rw [f4.1]
    push_cast
    field_simp
  refine ⟨r, r1, ?_⟩
  have a := (r5 .s).2
  have b := (r5 .ss).2
  simp only [XSec.get] at a b
  rw [eq] at b
  have q0 : 0 ≤ x.s.sum / (n : K) := div_nonneg (List.sum_nonneg (h0 .s)) (Nat.cast_nonneg n)
  refine (off_pair (u := 1 / 2 ^ p) a b).trans (mul_le_mul_of_nonneg_right ?_ q0)
  have us := Verif.FpStatsP.u_small (K := K) hp
  have := pow_bound u0 156 (by push_cast; linarith)
  have := pow_symm u0 u1 156
  push_cast at *
  rw [show (314 : K) / 2 ^ p = 314 * (1 / 2 ^ p) by ring]
  linarith

/-- In double precision the assertion at the end of `collapseTo1GroupAvg` (a difference of less than `1e-6`, cross_section.cpp 135-138) holds for all
balanced cross sections with a mean up to `10 ^ 7`. -/
theorem C137_collapse_assert (R : Rounding ℚ 53) {n : ℕ} (hn : 0 < n) (hi : n * n < 2 ^ 31) {x : XSec ℚ} (hx : x.WF n)
    (h0 : ∀ rx, ∀ v ∈ x.get rx, 0 ≤ v) (hb : Balanced n x) (hs : x.s.sum / n ≤ 10 ^ 7) :
    ∃ r, collapse R x = some r ∧ |r.val .s 0 - r.val .ss 0| < 1 / 10 ^ 6 := by
  obtain ⟨r, r1, r2⟩ := C137_collapse_balance R (by norm_num) hn hi hx h0 hb
  refine ⟨r, r1, r2.trans_lt ?_⟩
  have := mul_le_mul_of_nonneg_left hs (by positivity : (0 : ℚ) ≤ 314 / 2 ^ 53)
  refine this.trans_lt ?_
  norm_num

/-- Three groups that scatter within themselves. -/
def selfXS : XSec ℚ := ⟨false, false, 3, [0, 0, 0], [0, 0, 0], [0, 0, 0], [19, 21, 25], [19, 21, 25], [19, 0, 0, 0, 21, 0, 0, 0, 25]⟩

/-- In single precision it fails: three groups with scattering cross sections 19, 21 and 25. -/
theorem C137_collapse_assert_fails : selfXS.WF 3 ∧ Balanced 3 selfXS ∧ (∀ rx, ∀ v ∈ selfXS.get rx, 0 ≤ v ∧ IsFp 24 v) ∧
    ∃ r, collapse (ieee ℚ 24 (by norm_num)) selfXS = some r ∧ 1 / 10 ^ 6 < |r.val .s 0 - r.val .ss 0| := by
  refine ⟨⟨rfl, fun rx => by cases rx <;> rfl⟩, ?_, ?_, ?_⟩
  · intro g hg
    have : g = 0 ∨ g = 1 ∨ g = 2 := by omega
    rcases this with rfl | rfl | rfl <;> decide +kernel
  · have z : IsFp 24 (0 : ℚ) := isFp_zero
    have a : IsFp 24 (19 : ℚ) := ⟨19, 0, by norm_num, by norm_num⟩
    have b : IsFp 24 (21 : ℚ) := ⟨21, 0, by norm_num, by norm_num⟩
    have c : IsFp 24 (25 : ℚ) := ⟨25, 0, by norm_num, by norm_num⟩
    intro rx v hv
    have : v = 0 ∨ v = 19 ∨ v = 21 ∨ v = 25 := by
      cases rx <;> simp [XSec.get, selfXS] at hv <;> tauto
    rcases this with rfl | rfl | rfl | rfl
    · exact ⟨le_rfl, z⟩
    · exact ⟨by norm_num, a⟩
    · exact ⟨by norm_num, b⟩
    · exact ⟨by norm_num, c⟩
  · have key : (collapse (ieee ℚ 24 (by norm_num)) selfXS).any (fun r => decide (1 / 10 ^ 6 < |r.val .s 0 - r.val .ss 0|)) = true := by decide +kernel
    obtain ⟨r, h1, h2⟩ := (Option.any_eq_true _ _).1 key
    exact ⟨r, h1, of_decide_eq_true h2⟩

/-! ### Examples -/

/-- Two materials, three faces, one of them without area. -/
example : ∃ r, homogenize (ieee ℚ 53 (by norm_num)) true [(49, 0), (3, 1), (0, 0)] [unitXS, { unitXS with f := [1 / 3] }] = some r ∧
    r.fissile = true ∧ r.macro_ = true := by
  have w : ∀ m ∈ [unitXS, { unitXS with f := [1 / 3] }], m.WF 1 := by
    intro m hm
    simp only [List.mem_cons, List.not_mem_nil, or_false] at hm
    rcases hm with rfl | rfl <;> exact ⟨rfl, fun rx => by cases rx <;> rfl⟩
  have n0 : ∀ m ∈ [unitXS, { unitXS with f := [1 / 3] }], ∀ rx, ∀ i < Rx.size 1 rx, 0 ≤ m.val rx i := by
    intro m hm rx i hi
    have : i = 0 := by cases rx <;> simp only [Rx.size] at hi <;> omega
    subst this
    simp only [List.mem_cons, List.not_mem_nil, or_false] at hm
    rcases hm with rfl | rfl <;> cases rx <;> decide +kernel
  obtain ⟨r, h1, h2⟩ := C137_fissile (ieee ℚ 53 (by norm_num)) (by norm_num) true (n := 1) (faces := [(49, 0), (3, 1), (0, 0)])
    w n0 (by simp) (by simp) (by norm_num)
  obtain ⟨r', g1, -, g3, -⟩ := C137_mean (ieee ℚ 53 (by norm_num)) (by norm_num) true (n := 1) (faces := [(49, 0), (3, 1), (0, 0)])
    w n0 (by simp) (by simp) (by norm_num)
  rw [h1, Option.some.injEq] at g1
  subst g1
  refine ⟨r, h1, h2.2 ⟨(3, 1), by simp, by norm_num, 0, by norm_num, ?_⟩, g3⟩
  decide +kernel

/-- The single-precision witness meets the hypotheses of the double-precision theorem. -/
example : ∃ r, collapse (ieee ℚ 53 (by norm_num)) selfXS = some r ∧ |r.val .s 0 - r.val .ss 0| < 1 / 10 ^ 6 := by
  obtain ⟨h1, h2, h3, -⟩ := C137_collapse_assert_fails
  exact C137_collapse_assert _ (n := 3) (by norm_num) (by norm_num) h1 (fun rx v hv => (h3 rx v hv).1) h2 (by decide +kernel)

/-- Two nuclides. -/
example : ∃ r, populate (ieee ℚ 53 (by norm_num)) false 3 [(selfXS, 1 / 3), (selfXS, 1 / 7)] = some r ∧ r.macro_ = true ∧ r.fissile = false := by
  obtain ⟨h1, h2, h3, -⟩ := C137_collapse_assert_fails
  obtain ⟨r, r1, -, r3, r4, -⟩ := C137_macro (ieee ℚ 53 (by norm_num)) (by norm_num) false 3 (nucs := [(selfXS, 1 / 3), (selfXS, 1 / 7)]) (by
    intro y hy
    simp only [List.mem_cons, List.not_mem_nil, or_false] at hy
    rcases hy with rfl | rfl <;> exact h1) (by
    intro y hy
    simp only [List.mem_cons, List.not_mem_nil, or_false] at hy
    have v0 : ∀ rx, ∀ i < Rx.size 3 rx, 0 ≤ selfXS.val rx i := by
      intro rx i hi
      have hl := h1.2 rx
      unfold XSec.val
      rw [List.getElem?_eq_getElem (by omega)]
      exact (h3 rx _ (List.getElem_mem _)).1
    rcases hy with rfl | rfl <;> exact ⟨by norm_num, v0⟩)
  refine ⟨r, r1, r3, ?_⟩
  cases hf : r.fissile with
  | false => rfl
  | true =>
    obtain ⟨y, hy, c⟩ := r4.1 hf
    simp only [List.mem_cons, List.not_mem_nil, or_false] at hy
    rcases hy with rfl | rfl <;> exact absurd c (by decide)

end Verif.Fp
