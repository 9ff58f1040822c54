import Verif.Model.FpXSec
import Verif.Lemmas.FpArea
import Verif.Lemmas.FpStats
import Verif.Props.XSecMix

/-! Helper lemmas for cross sections in floating-point arithmetic. -/

set_option linter.unusedSectionVars false

namespace Verif.Fp

open Verif.Phys

variable {K : Type} [Field K] [LinearOrder K] [IsStrictOrderedRing K] [FloorRing K] {p : ℕ} (R : Rounding K p)

theorem unit_half (hp : 1 ≤ p) : (1 : K) / 2 ^ p ≤ 1 / 2 := by
  refine one_div_le_one_div_of_le (by norm_num) ?_
  calc (2 : K) = 2 ^ 1 := by norm_num
    _ ≤ 2 ^ p := pow_le_pow_right₀ (by norm_num) hp

theorem Off.pos_iff {u : K} (_ : 0 ≤ u) (u1 : u ≤ 1 / 2) {k : ℕ} {x y : K} (x0 : 0 ≤ x) (h : Off u k x y) : 0 < y ↔ 0 < x := by
  constructor
  · intro hy
    rcases x0.lt_or_eq with hx | rfl
    · exact hx
    · have := h.2
      rw [zero_mul] at this
      linarith
  · intro hx
    exact lt_of_lt_of_le (mul_pos hx (pow_pos (by linarith) k)) h.1

theorem Off.zero_iff {u : K} (u0 : 0 ≤ u) (u1 : u ≤ 1 / 2) {k : ℕ} {x y : K} (x0 : 0 ≤ x) (h : Off u k x y) : y = 0 ↔ x = 0 := by
  have y0 := h.nonneg u0 (by linarith) x0
  have := h.pos_iff u0 u1 x0
  constructor
  · intro hy
    rcases x0.lt_or_eq with hx | hx
    · exact absurd (this.2 hx) (by rw [hy]; exact lt_irrefl _)
    · exact hx.symm
  · intro hx
    rcases y0.lt_or_eq with hy | hy
    · exact absurd (this.1 hy) (by rw [hx]; exact lt_irrefl _)
    · exact hy.symm

theorem Off.zero_zero (u : K) (k : ℕ) : Off u k 0 0 := by simp [Off]

/-- `1 - (1 - u)ᵏ ≤ (1 + u)ᵏ - 1`. -/
theorem pow_symm {u : K} (u0 : 0 ≤ u) (u1 : u ≤ 1) (k : ℕ) : 2 ≤ (1 + u) ^ k + (1 - u) ^ k := by
  induction k with
  | zero => norm_num
  | succ k ih =>
    have : (1 - u) ^ k ≤ (1 + u) ^ k := pow_le_pow_left₀ (by linarith) (by linarith) k
    rw [pow_succ, pow_succ]
    nlinarith

theorem Off.abs_le {u : K} (u0 : 0 ≤ u) (u1 : u ≤ 1) {k : ℕ} {x y : K} (x0 : 0 ≤ x) (h : Off u k x y) : |y - x| ≤ ((1 + u) ^ k - 1) * x := by
  have := mul_le_mul_of_nonneg_right (pow_symm u0 u1 k) x0
  rw [_root_.abs_le]
  constructor
  · have := h.1
    linarith
  · have := h.2
    linarith

/-- Two lists of equal length, the second is the first after `k` relative errors; nothing is negative. -/
def OffL (u : K) (k : ℕ) (xs ys : List K) : Prop := List.Forall₂ (fun x y => 0 ≤ x ∧ Off u k x y) xs ys

theorem OffL.refl (u : K) {xs : List K} (h : ∀ x ∈ xs, 0 ≤ x) : OffL u 0 xs xs := by
  unfold OffL
  rw [List.forall₂_same]
  exact fun x hx => ⟨h x hx, Off.refl u x⟩

theorem OffL.sum_nonneg {u : K} {k : ℕ} {xs ys : List K} (h : OffL u k xs ys) : 0 ≤ xs.sum := by
  induction h with
  | nil => simp
  | cons h _ ih => rw [List.sum_cons]; exact add_nonneg h.1 ih

theorem fold_off (hp : 1 ≤ p) {k : ℕ} {xs ys : List K} (h : OffL (1 / 2 ^ p) k xs ys) : ∀ {l : ℕ} {x y : K}, k ≤ l → 0 ≤ x → Off (1 / 2 ^ p) l x y →
    Off (1 / 2 ^ p) (l + xs.length) (x + xs.sum) (ys.foldl (fun s y => R.rnd (s + y)) y) := by
  have u0 := unit_nonneg (K := K) p
  have u1 := unit_le (K := K) p
  induction h with
  | nil => intro l x y _ _ h; simpa using h
  | cons h _ ih =>
    rename_i a b xs ys _
    intro l x y hl x0 hxy
    have := ih (by omega : k ≤ l + 1) (add_nonneg x0 h.1) (Off.rnd R hp (add_nonneg x0 h.1) (hxy.add u0 u1 (h.2.weaken u0 u1 h.1 hl)))
    rw [List.sum_cons, List.length_cons, List.foldl_cons, ← add_assoc x, show l + (xs.length + 1) = l + 1 + xs.length by ring]
    exact this

theorem naive_off (hp : 1 ≤ p) {k : ℕ} {xs ys : List K} (h : OffL (1 / 2 ^ p) k xs ys) (h0 : xs ≠ []) :
    ∃ s, naiveSum R ys = some s ∧ Off (1 / 2 ^ p) (k + (xs.length - 1)) xs.sum s := by
  cases h with
  | nil => exact absurd rfl h0
  | cons h t =>
    refine ⟨_, rfl, ?_⟩
    have := fold_off R hp t le_rfl h.1 h.2
    simpa using this

theorem OffL.take {u : K} {k : ℕ} {xs ys : List K} (h : OffL u k xs ys) (n : ℕ) : OffL u k (xs.take n) (ys.take n) := List.forall₂_take n h

theorem OffL.drop {u : K} {k : ℕ} {xs ys : List K} (h : OffL u k xs ys) (n : ℕ) : OffL u k (xs.drop n) (ys.drop n) := List.forall₂_drop n h

/-- The sum of `um2::sum`: one error for each halving and 127 for the rest. -/
theorem pairwise_off (hp : 1 ≤ p) (m : ℕ) : ∀ {k : ℕ} {xs ys : List K}, OffL (1 / 2 ^ p) k xs ys → xs ≠ [] → xs.length ≤ 128 * 2 ^ m →
    ∃ s, pairwiseSum R ys = some s ∧ Off (1 / 2 ^ p) (k + min (xs.length - 1) (127 + m)) xs.sum s := by
  have u0 := unit_nonneg (K := K) p
  have u1 := unit_le (K := K) p
  induction m with
  | zero =>
    intro k xs ys h h0 hm
    have e := List.Forall₂.length_eq h
    have n0 := List.length_pos_iff.2 h0
    obtain ⟨s, h1, h2⟩ := naive_off R hp h h0
    refine ⟨s, ?_, ?_⟩
    · rw [pairwiseSum, if_pos (by omega), if_pos (by omega), h1]
    · rw [min_eq_left (by omega)]
      exact h2
  | succ m ih =>
    intro k xs ys h h0 hm
    have e := List.Forall₂.length_eq h
    have n0 := List.length_pos_iff.2 h0
    rw [pow_succ] at hm
    by_cases hc : ys.length ≤ 128
    · obtain ⟨s, h1, h2⟩ := naive_off R hp h h0
      refine ⟨s, ?_, ?_⟩
      · rw [pairwiseSum, if_pos (by omega), if_pos (by omega), h1]
      · rw [min_eq_left (by omega)]
        exact h2
    · obtain ⟨s, h1, h2⟩ := ih (h.take (ys.length / 2)) (by rw [← List.length_pos_iff, List.length_take]; omega) (by rw [List.length_take]; omega)
      obtain ⟨t, g1, g2⟩ := ih (h.drop (ys.length / 2)) (by rw [← List.length_pos_iff, List.length_drop]; omega) (by rw [List.length_drop]; omega)
      refine ⟨R.rnd (s + t), ?_, ?_⟩
      · rw [pairwiseSum, if_pos (by omega), if_neg hc, h1, g1]
        rfl
      · have a0 := (h.take (ys.length / 2)).sum_nonneg
        have b0 := (h.drop (ys.length / 2)).sum_nonneg
        have es : xs.sum = (xs.take (ys.length / 2)).sum + (xs.drop (ys.length / 2)).sum := by
          rw [← List.sum_append, List.take_append_drop]
        rw [es]
        rw [List.length_take] at h2
        rw [List.length_drop] at g2
        have := Off.rnd R hp (add_nonneg a0 b0) ((h2.weaken u0 u1 a0 (l := k + min (xs.length - 1 - 1) (127 + m)) (by omega)).add u0 u1
          (g2.weaken u0 u1 b0 (by omega)))
        exact this.weaken u0 u1 (add_nonneg a0 b0) (by omega)

/-- A sum of any length. -/
theorem pairwise_len (hp : 1 ≤ p) {k : ℕ} {xs ys : List K} (h : OffL (1 / 2 ^ p) k xs ys) (h0 : xs ≠ []) :
    ∃ s, pairwiseSum R ys = some s ∧ Off (1 / 2 ^ p) (k + xs.length) xs.sum s := by
  obtain ⟨s, h1, h2⟩ := pairwise_off R hp xs.length h h0 (by have := Nat.lt_two_pow_self (n := xs.length); omega)
  exact ⟨s, h1, h2.weaken (unit_nonneg p) (unit_le p) h.sum_nonneg (by omega)⟩

/-! ### Areas -/

theorem OffL.step {k : ℕ} (hp : 1 ≤ p) {as bs : List K} (h : OffL (1 / 2 ^ p) k as bs) {f : K × ℕ} (ha : 0 ≤ f.1) (hf : f.2 < as.length) :
    ∃ as' bs', Phys.areaStep as f = some as' ∧ areaStep R bs f = some bs' ∧ OffL (1 / 2 ^ p) (k + 1) as' bs' ∧ as'.length = as.length := by
  have u0 := unit_nonneg (K := K) p
  have u1 := unit_le (K := K) p
  have e := List.Forall₂.length_eq h
  have hf' : f.2 < bs.length := by omega
  refine ⟨as.set f.2 (as[f.2] + f.1), bs.set f.2 (R.rnd (bs[f.2] + f.1)), ?_, ?_, ?_, ?_⟩
  · unfold Phys.areaStep
    rw [List.getElem?_eq_getElem hf]
    rfl
  · unfold areaStep
    rw [List.getElem?_eq_getElem hf']
    rfl
  · unfold OffL at *
    rw [List.forall₂_iff_get] at h ⊢
    refine ⟨by simp [e], fun i h1 h2 => ?_⟩
    simp only [List.length_set] at h1 h2
    have hi := h.2 i h1 h2
    have hj := h.2 f.2 hf hf'
    simp only [List.get_eq_getElem, List.getElem_set] at *
    split_ifs with c
    · exact ⟨add_nonneg hj.1 ha, Off.rnd R hp (add_nonneg hj.1 ha) (hj.2.add u0 u1 ((Off.refl _ _).weaken u0 u1 ha (by omega)))⟩
    · exact ⟨hi.1, hi.2.weaken u0 u1 hi.1 (by omega)⟩
  · simp

theorem areas_off (hp : 1 ≤ p) (faces : List (K × ℕ)) : ∀ {k : ℕ} {as bs : List K}, OffL (1 / 2 ^ p) k as bs → (∀ f ∈ faces, 0 ≤ f.1 ∧ f.2 < as.length) →
    ∃ as' bs', faces.foldlM Phys.areaStep as = some as' ∧ faces.foldlM (areaStep R) bs = some bs' ∧
      OffL (1 / 2 ^ p) (k + faces.length) as' bs' ∧ as'.length = as.length := by
  induction faces with
  | nil => intro k as bs h _; exact ⟨as, bs, rfl, rfl, h, rfl⟩
  | cons f faces ih =>
    intro k as bs h hf
    obtain ⟨as1, bs1, h1, h2, h3, h4⟩ := h.step R hp (hf f (by simp)).1 (hf f (by simp)).2
    obtain ⟨as2, bs2, g1, g2, g3, g4⟩ := ih h3 fun x hx => by rw [h4]; exact hf x (by simp [hx])
    refine ⟨as2, bs2, ?_, ?_, ?_, by omega⟩
    · rw [List.foldlM_cons, h1]
      exact g1
    · rw [List.foldlM_cons, h2]
      exact g2
    · rw [List.length_cons, show k + (faces.length + 1) = k + 1 + faces.length by ring]
      exact g3

/-! ### Cross sections -/

/-- Nothing is negative. -/
def Nonneg (n : ℕ) (x : XSec K) : Prop := ∀ rx, ∀ i < Rx.size n rx, 0 ≤ x.val rx i

/-- `y` is `x` after `k` relative errors of every value. -/
structure OffX (n k : ℕ) (u : K) (x y : XSec K) : Prop where
  wf : x.WF n
  wf' : y.WF n
  pos : Nonneg n x
  off : ∀ rx, ∀ i < Rx.size n rx, Off u k (x.val rx i) (y.val rx i)

theorem OffX.mix {n k : ℕ} (hp : 1 ≤ p) (fused : Bool) {F : ℕ} (hk : F + 1 ≤ k) {e r m : XSec K} (h : OffX n k (1 / 2 ^ p) e r) (hm : m.WF n) (m0 : Nonneg n m)
    {a b : K} (a0 : 0 ≤ a) (hab : Off (1 / 2 ^ p) F a b) :
    ∃ e' r', Phys.mixStep e (a, m) = some e' ∧ mixStep R fused r (b, m) = some r' ∧ OffX n (k + 1) (1 / 2 ^ p) e' r' := by
  have u0 := unit_nonneg (K := K) p
  have u1 := unit_le (K := K) p
  have z := hab.zero_iff u0 (unit_half hp) a0
  by_cases hz : a = 0
  · refine ⟨e, r, ?_, ?_, h.wf, h.wf', h.pos, fun rx i hi => (h.off rx i hi).weaken u0 u1 (h.pos rx i hi) (by omega)⟩
    · unfold Phys.mixStep
      rw [if_pos hz]
    · unfold mixStep
      rw [if_pos (z.2 hz)]
  · obtain ⟨e', e1, -, -, e4, e5⟩ := combine_val (fun r v => r + a * v) n e.macro_ e.fissile e m h.wf hm
    obtain ⟨r', r1, -, -, r4, r5⟩ := combine_val (fun r v => mulAdd R fused r b v) n r.macro_ r.fissile r m h.wf' hm
    refine ⟨e', r', ?_, ?_, e4, r4, ?_, ?_⟩
    · unfold Phys.mixStep
      rw [if_neg hz, h.wf.1]
      exact e1
    · unfold mixStep
      rw [if_neg (fun c => hz (z.1 c)), h.wf'.1]
      exact r1
    · intro rx i hi
      rw [e5 rx i hi]
      exact add_nonneg (h.pos rx i hi) (mul_nonneg a0 (m0 rx i hi))
    · intro rx i hi
      rw [e5 rx i hi, r5 rx i hi]
      have g := hab.mul u0 u1 a0 (m0 rx i hi) (Off.refl _ (m.val rx i))
      have := Off.mulAdd' R hp fused (k := k - 1) (h.pos rx i hi) (mul_nonneg a0 (m0 rx i hi))
        (by rw [show k - 1 + 1 = k by omega]; exact h.off rx i hi) (g.weaken u0 u1 (mul_nonneg a0 (m0 rx i hi)) (by omega))
      rwa [show k - 1 + 2 = k + 1 by omega] at this

theorem mix_off (hp : 1 ≤ p) (fused : Bool) {n F : ℕ} {as bs : List K} (h : OffL (1 / 2 ^ p) F as bs) : ∀ {k : ℕ} {mats : List (XSec K)} {e r : XSec K},
    F + 1 ≤ k → as.length = mats.length → (∀ m ∈ mats, m.WF n ∧ Nonneg n m) → OffX n k (1 / 2 ^ p) e r →
    ∃ e' r', (as.zip mats).foldlM Phys.mixStep e = some e' ∧ (bs.zip mats).foldlM (mixStep R fused) r = some r' ∧
      OffX n (k + mats.length) (1 / 2 ^ p) e' r' := by
  induction h with
  | nil =>
    intro k mats e r _ hl _ hx
    obtain rfl : mats = [] := List.eq_nil_of_length_eq_zero (by simpa using hl.symm)
    exact ⟨e, r, rfl, rfl, hx⟩
  | cons h t ih =>
    intro k mats e r hk hl hm hx
    cases mats with
    | nil => simp at hl
    | cons m mats =>
      obtain ⟨e1, r1, h1, h2, h3⟩ := hx.mix R hp fused hk (hm m (by simp)).1 (hm m (by simp)).2 h.1 h.2
      obtain ⟨e2, r2, g1, g2, g3⟩ := ih (k := k + 1) (by omega) (by simpa using hl) (fun x hx => hm x (by simp [hx])) h3
      refine ⟨e2, r2, ?_, ?_, ?_⟩
      · rw [List.zip_cons_cons, List.foldlM_cons, h1]
        exact g1
      · rw [List.zip_cons_cons, List.foldlM_cons, h2]
        exact g2
      · rw [List.length_cons, show k + (mats.length + 1) = k + 1 + mats.length by ring]
        exact g3

/-- The rounded homogenisation beside the exact one. -/
theorem homogenize_off (hp : 1 ≤ p) (fused : Bool) {n : ℕ} {faces : List (K × ℕ)} {mats : List (XSec K)} (hm : ∀ m ∈ mats, m.WF n ∧ Nonneg n m)
    (hne : mats ≠ []) (hf : ∀ f ∈ faces, 0 ≤ f.1 ∧ f.2 < mats.length) (htot : 0 < (faces.map (·.1)).sum) :
    ∃ e r, Phys.homogenize faces mats = some e ∧ homogenize R fused faces mats = some r ∧
      OffX n (3 * faces.length + 3 * mats.length + 3) (1 / 2 ^ p) e r ∧ r.macro_ = true ∧ (r.fissile = true ↔ ∃ v ∈ r.f, 0 < v) := by
  have u0 := unit_nonneg (K := K) p
  have u1 := unit_le (K := K) p
  obtain ⟨m0, ms, rfl⟩ := List.exists_cons_of_ne_nil hne
  have hm0 := (hm m0 (by simp)).1
  obtain ⟨as, bs, a1, a2, a3, a4⟩ := areas_off R hp faces (OffL.refl (1 / 2 ^ p) (xs := List.replicate (m0 :: ms).length 0)
    (by intro x hx; rw [List.eq_of_mem_replicate hx])) (by simpa using hf)
  rw [zero_add] at a3
  rw [List.length_replicate] at a4
  have z : OffX n (faces.length + 1) (1 / 2 ^ p) (XSec.zero n) (XSec.zero n : XSec K) :=
    ⟨zero_WF n, zero_WF n, fun rx i _ => by rw [zero_val], fun rx i _ => by rw [zero_val]; exact Off.zero_zero _ _⟩
  obtain ⟨e, r, b1, b2, b3⟩ := mix_off R hp fused a3 le_rfl a4 hm z
  have hasne : as ≠ [] := by
    rintro rfl
    simp at a4
  obtain ⟨t, t1, t2⟩ := pairwise_len R hp a3 hasne
  -- the total of the exact areas
  obtain ⟨e', e1, e2, -, -, e5⟩ := C55_mean n faces (m0 :: ms) (fun m h => (hm m h).1) hne (fun f h => (hf f h).2) htot.ne'
  have hsum : as.sum = (faces.map (·.1)).sum := by
    obtain ⟨as', k1, -, k3⟩ := areas_spec faces (List.replicate (m0 :: ms).length 0) (List.replicate (m0 :: ms).length 1) (by simp)
      (by simpa using fun f h => (hf f h).2)
    rw [a1, Option.some.injEq] at k1
    subst k1
    have hdot1 : ∀ l : List K, Phys.dot l (List.replicate l.length 1) = l.sum := by
      intro l
      induction l with
      | nil => rfl
      | cons a l ih => rw [List.length_cons, List.replicate_succ, dot_cons, ih, List.sum_cons, mul_one]
    have hdot0 : ∀ (k : Nat) (vs : List K), Phys.dot (List.replicate k 0) vs = 0 := by
      intro k vs
      induction k generalizing vs with
      | zero => simp [Phys.dot]
      | succ k ih =>
        cases vs with
        | nil => simp [Phys.dot]
        | cons v vs => rw [List.replicate_succ, dot_cons, ih, zero_mul, zero_add]
    rw [← a4, hdot1, hdot0, zero_add] at k3
    rw [k3]
    congr 1
    apply List.map_congr_left
    intro f hff
    have := (hf f hff).2
    rw [List.getElem?_replicate, if_pos (by omega)]
    simp
  have s0 : 0 < as.sum := by rw [hsum]; exact htot
  have t0 : 0 < t := (t2.pos_iff u0 (unit_half hp) s0.le).2 s0
  obtain ⟨r', r1, r2, r3, r4, r5⟩ := combine_val (fun v _ => R.rnd (v * R.rnd (1 / t))) n true false r r b3.wf' b3.wf'
  obtain ⟨x', x1, x2, x3, x4, x5⟩ := combine_val (fun v _ => v * (1 / as.sum)) n true false e e b3.wf b3.wf
  have inv : Off (1 / 2 ^ p) (2 * (faces.length + as.length) + 1) (1 / as.sum) (R.rnd (1 / t)) := by
    have := Off.rnd R hp (by positivity) (Off.div u0 (unit_half hp) zero_le_one s0 (Off.refl _ 1) t2)
    rwa [zero_add] at this
  refine ⟨{ x' with fissile := x'.f.any fun v => decide (0 < v) }, { r' with fissile := r'.f.any fun v => decide (0 < v) }, ?_, ?_, ⟨?_, ?_, ?_, ?_⟩, r2, ?_⟩
  · unfold Phys.homogenize
    rw [a1]
    simp only [List.getElem?_cons_zero, Option.bind_eq_bind, Option.bind_some]
    rw [hm0.1, b1, Stats.C18_sum, if_neg hasne]
    simp only [Option.bind_some]
    rw [if_neg s0.ne', b3.wf.1, x1]
    rfl
  · unfold homogenize
    rw [a2]
    simp only [List.getElem?_cons_zero, Option.bind_eq_bind, Option.bind_some]
    rw [hm0.1, b2, t1]
    simp only [Option.bind_some]
    rw [if_neg t0.ne', b3.wf'.1, r1]
    rfl
  · exact ⟨x4.1, fun rx => by have := x4.2 rx; cases rx <;> exact this⟩
  · exact ⟨r4.1, fun rx => by have := r4.2 rx; cases rx <;> exact this⟩
  · intro rx i hi
    have : 0 ≤ x'.val rx i := by
      rw [x5 rx i hi]
      exact mul_nonneg (b3.pos rx i hi) (by positivity)
    cases rx <;> exact this
  · intro rx i hi
    have : Off (1 / 2 ^ p) (3 * faces.length + 3 * (m0 :: ms).length + 3) (x'.val rx i) (r'.val rx i) := by
      rw [x5 rx i hi, r5 rx i hi]
      have v0 : 0 ≤ e.val rx i * (1 / as.sum) := mul_nonneg (b3.pos rx i hi) (by positivity)
      refine (Off.rnd R hp v0 ((b3.off rx i hi).mul u0 u1 (b3.pos rx i hi) (by positivity) inv)).weaken u0 u1 v0 ?_
      rw [a4]
      omega
    cases rx <;> exact this
  · simp

end Verif.Fp
