import Verif.Model.FpBox
import Verif.Lemmas.FpArea
import Verif.Props.Box

/-! Boxes in floating-point arithmetic. -/

set_option linter.unusedSectionVars false

namespace Verif.Fp

open Verif.Box (AABB Ext fin pinf ninf slab le lt emin emax coe_le slab_some Valid Inside rayAt)

variable {K : Type} [Field K] [LinearOrder K] [IsStrictOrderedRing K] [FloorRing K] {p D : ℕ} (R : Rounding K p)

/-- The finite number `x` among the extended ones. -/
abbrev up (x : K) : WithBot (WithTop K) := ((x : WithTop K) : WithBot (WithTop K))

/-- Does the parameter grow with the coordinate? -/
def Grows (d : K) (neg : Bool) : Prop := 0 < d ∨ (d = 0 ∧ neg = false)

theorem planeTime_fin {o d : K} (hd : d ≠ 0) (neg : Bool) (x : K) :
    planeTime R o d neg x = some (up (R.rnd (R.rnd (x - o) * R.rnd (1 / d)))) := by
  unfold planeTime recipR
  rw [if_neg hd]
  rfl

theorem planeTime_zero (hp : 1 ≤ p) {o x : K} (neg : Bool) (hx : x ≠ o) :
    planeTime R o 0 neg x = if (x < o) ↔ (neg = true) then some ⊤ else some ⊥ := by
  have h0 : R.rnd (x - o) ≠ 0 := fun h => hx (sub_eq_zero.1 ((R.zero_iff hp).1 h))
  have h1 : R.rnd (x - o) < 0 ↔ x < o := by rw [R.neg_iff hp, sub_neg]
  unfold planeTime recipR
  rw [if_pos rfl]
  cases neg
  · show (if R.rnd (x - o) = 0 then none else if R.rnd (x - o) < 0 then ninf else pinf) = _
    rw [if_neg h0]
    by_cases c : x < o
    · rw [if_pos (h1.2 c), if_neg (by simp [c])]; rfl
    · rw [if_neg (fun h => c (h1.1 h)), if_pos (by simp [c])]; rfl
  · show (if R.rnd (x - o) = 0 then none else if R.rnd (x - o) < 0 then pinf else ninf) = _
    rw [if_neg h0]
    by_cases c : x < o
    · rw [if_pos (h1.2 c), if_pos (by simp [c])]; rfl
    · rw [if_neg (fun h => c (h1.1 h)), if_neg (by simp [c])]; rfl

/-- If the parameter is a number, the ray is not in the plane. -/
theorem planeTime_clear {o d : K} {neg : Bool} {x : K} {v} (h : planeTime R o d neg x = some v) (hd : d = 0) : x ≠ o := by
  rintro rfl
  subst hd
  unfold planeTime recipR at h
  rw [if_pos rfl, sub_self, R.zero] at h
  cases neg
  · have : emulR R 0 (pinf : Ext K) = none := if_pos rfl
    rw [if_neg (by simp), this] at h; cases h
  · have : emulR R 0 (ninf : Ext K) = none := if_pos rfl
    rw [if_pos rfl, this] at h; cases h

/-- The parameter is a number unless the ray lies in the plane. -/
theorem planeTime_some (hp : 1 ≤ p) {o d : K} (neg : Bool) {x : K} (h : d = 0 → x ≠ o) : ∃ v, planeTime R o d neg x = some v := by
  by_cases hd : d = 0
  · subst hd
    rw [planeTime_zero R hp neg (h rfl)]
    split
    · exact ⟨_, rfl⟩
    · exact ⟨_, rfl⟩
  · exact ⟨_, planeTime_fin R hd neg x⟩

/-- The parameter is monotone in the coordinate. -/
theorem planeTime_mono (hp : 1 ≤ p) {o d : K} {neg : Bool} (g : Grows d neg) {x y : K} {v w : WithBot (WithTop K)} (hxy : x ≤ y)
    (hx : d = 0 → x ≠ o) (hy : d = 0 → y ≠ o) (ev : planeTime R o d neg x = some v) (ew : planeTime R o d neg y = some w) : v ≤ w := by
  rcases g with g | ⟨rfl, rfl⟩
  · rw [planeTime_fin R g.ne'] at ev ew
    cases ev; cases ew
    rw [coe_le]
    exact R.mono (mul_le_mul_of_nonneg_right (R.mono (by linarith)) (R.pos hp (by positivity)).le)
  · rw [planeTime_zero R hp false (hx rfl)] at ev
    rw [planeTime_zero R hp false (hy rfl)] at ew
    simp only [Bool.false_eq_true, iff_false] at ev ew
    split at ev
    · rename_i c
      rw [if_pos (fun h => c (lt_of_le_of_lt hxy h))] at ew
      cases ev; cases ew; exact le_refl _
    · cases ev; exact bot_le

theorem planeTime_anti (hp : 1 ≤ p) {o d : K} {neg : Bool} (g : ¬ Grows d neg) {x y : K} {v w : WithBot (WithTop K)} (hxy : x ≤ y)
    (hx : d = 0 → x ≠ o) (hy : d = 0 → y ≠ o) (ev : planeTime R o d neg x = some v) (ew : planeTime R o d neg y = some w) : w ≤ v := by
  by_cases hd : d = 0
  · subst hd
    have hn : neg = true := by
      by_contra c
      exact g (.inr ⟨rfl, by simpa using c⟩)
    subst hn
    rw [planeTime_zero R hp true (hx rfl)] at ev
    rw [planeTime_zero R hp true (hy rfl)] at ew
    simp only [iff_true] at ev ew
    split at ew
    · rename_i c
      rw [if_pos (lt_of_le_of_lt hxy c)] at ev
      cases ev; cases ew; exact le_refl _
    · cases ew; exact bot_le
  · have hd' : d < 0 := lt_of_le_of_ne (not_lt.1 fun h => g (.inl h)) hd
    rw [planeTime_fin R hd] at ev ew
    cases ev; cases ew
    rw [coe_le]
    exact R.mono (mul_le_mul_of_nonpos_right (R.mono (by linarith)) (R.neg hp (by rw [one_div]; exact inv_lt_zero.2 hd')).le)

/-- The ray does not lie in the plane of a face. -/
def Clear (a : AABB D K) (o d : Fin D → K) : Prop := ∀ i, d i = 0 → a.min i ≠ o i ∧ a.max i ≠ o i

/-- The ray is between the planes `x` and `y` at the time `t`, by the computed parameters. -/
def InSlab (o d : K) (neg : Bool) (x y t : K) : Prop :=
  ∃ v w, planeTime R o d neg x = some v ∧ planeTime R o d neg y = some w ∧ Min.min v w ≤ up t ∧ up t ≤ Max.max v w

/-- The loop of `intersect`. -/
theorem loop_slabs (hp : 1 ≤ p) (a : AABB D K) (o d : Fin D → K) (neg : Fin D → Bool) (hc : Clear a o d) (js : List (Fin D)) :
    ∀ (l u : WithBot (WithTop K)) (P : K → Prop), (∀ t, P t ↔ l ≤ up t ∧ up t ≤ u) →
      ∃ l' u', js.foldl (fun s i =>
          slab (planeTime R (o i) (d i) (neg i) (a.min i)) (planeTime R (o i) (d i) (neg i) (a.max i)) s) (some l, some u) = (some l', some u') ∧
        l ≤ l' ∧ u' ≤ u ∧ ∀ t, (P t ∧ ∀ i ∈ js, InSlab R (o i) (d i) (neg i) (a.min i) (a.max i) t) ↔ l' ≤ up t ∧ up t ≤ u' := by
  induction js with
  | nil =>
    intro l u P h
    exact ⟨l, u, rfl, le_refl _, le_refl _, fun t => by simp [h t]⟩
  | cons i js ih =>
    intro l u P h
    obtain ⟨v, ev⟩ := planeTime_some R hp (neg i) (fun h => (hc i h).1)
    obtain ⟨w, ew⟩ := planeTime_some R hp (neg i) (fun h => (hc i h).2)
    have e : ∀ t, InSlab R (o i) (d i) (neg i) (a.min i) (a.max i) t ↔ Min.min v w ≤ up t ∧ up t ≤ Max.max v w := by
      intro t
      constructor
      · rintro ⟨v', w', e1, e2, e3⟩
        rw [ev] at e1; rw [ew] at e2
        cases e1; cases e2; exact e3
      · intro e3; exact ⟨v, w, ev, ew, e3⟩
    obtain ⟨l', u', f1, f2, f3, f4⟩ := ih (Max.max l (Min.min v w)) (Min.min u (Max.max v w))
      (fun t => P t ∧ InSlab R (o i) (d i) (neg i) (a.min i) (a.max i) t) (by
        intro t
        rw [h t, e t, max_le_iff, le_min_iff]
        tauto)
    refine ⟨l', u', ?_, le_trans (le_max_left _ _) f2, le_trans f3 (min_le_left _ _), fun t => ?_⟩
    · rw [List.foldl_cons, ev, ew, slab_some]; exact f1
    · rw [← f4 t]
      simp only [List.mem_cons, forall_eq_or_imp]
      tauto

/-- What `intersect` returns: the times in `[0, inf]` at which the ray is between the planes by the computed parameters, or a miss if there are none. -/
theorem intersect_slabs (hp : 1 ≤ p) (a : AABB D K) (o d : Fin D → K) (neg : Fin D → Bool) (inf : K) (hc : Clear a o d) :
    (∃ r0 r1 : K, boxIntersect R a o d neg inf = (fin r0, fin r1) ∧ 0 ≤ r0 ∧ r0 ≤ r1 ∧ r1 ≤ inf ∧
      ∀ t, r0 ≤ t ∧ t ≤ r1 ↔ 0 ≤ t ∧ t ≤ inf ∧ ∀ i, InSlab R (o i) (d i) (neg i) (a.min i) (a.max i) t) ∨
    (boxIntersect R a o d neg inf = (fin (-1), fin (-1)) ∧
      ∀ t, 0 ≤ t → t ≤ inf → ¬ ∀ i, InSlab R (o i) (d i) (neg i) (a.min i) (a.max i) t) := by
  obtain ⟨l, u, h1, h2, h3, h4⟩ := loop_slabs R hp a o d neg hc (List.finRange D) (up 0) (up inf)
    (fun t => 0 ≤ t ∧ t ≤ inf) (fun t => by rw [coe_le, coe_le])
  simp only [List.mem_finRange, forall_const] at h4
  have hb : boxIntersect R a o d neg inf = if l ≤ u then (some l, some u) else (fin (-1), fin (-1)) := by
    unfold boxIntersect
    dsimp only
    have : (fin (0 : K), fin inf) = ((some (up 0), some (up inf)) : Ext K × Ext K) := rfl
    rw [this, h1]
    unfold le
    simp only [decide_eq_true_eq]
  rw [hb]
  split
  · rename_i hlu
    left
    have hl : ∃ x : K, l = up x := by
      rcases Verif.Box.ext_cases l with rfl | h | rfl
      · exact absurd h2 (Verif.Box.not_le_bot 0)
      · exact h
      · exact absurd (hlu.trans h3) (Verif.Box.not_top_le inf)
    have hu : ∃ x : K, u = up x := by
      rcases Verif.Box.ext_cases u with rfl | h | rfl
      · exact absurd (h2.trans hlu) (Verif.Box.not_le_bot 0)
      · exact h
      · exact absurd h3 (Verif.Box.not_top_le inf)
    obtain ⟨r0, rfl⟩ := hl
    obtain ⟨r1, rfl⟩ := hu
    refine ⟨r0, r1, rfl, (coe_le _ _).1 h2, (coe_le _ _).1 hlu, (coe_le _ _).1 h3, fun t => ?_⟩
    rw [← and_assoc, h4 t, coe_le, coe_le]
  · rename_i hlu
    right
    refine ⟨rfl, fun t t0 t1 h => hlu ?_⟩
    have := (h4 t).1 ⟨⟨t0, t1⟩, h⟩
    exact this.1.trans this.2

/-- The slab in order: the first plane met and the last one. -/
theorem InSlab.iff (hp : 1 ≤ p) {o d : K} {neg : Bool} {x y : K} (hxy : x ≤ y) (t : K) : InSlab R o d neg x y t ↔
    ∃ v w, planeTime R o d neg x = some v ∧ planeTime R o d neg y = some w ∧
      ((Grows d neg ∧ v ≤ up t ∧ up t ≤ w) ∨ (¬ Grows d neg ∧ w ≤ up t ∧ up t ≤ v)) := by
  constructor
  · rintro ⟨v, w, ev, ew, h1, h2⟩
    refine ⟨v, w, ev, ew, ?_⟩
    by_cases g : Grows d neg
    · have := planeTime_mono R hp g hxy (planeTime_clear R ev) (planeTime_clear R ew) ev ew
      rw [min_eq_left this] at h1; rw [max_eq_right this] at h2
      exact .inl ⟨g, h1, h2⟩
    · have := planeTime_anti R hp g hxy (planeTime_clear R ev) (planeTime_clear R ew) ev ew
      rw [min_eq_right this] at h1; rw [max_eq_left this] at h2
      exact .inr ⟨g, h1, h2⟩
  · rintro ⟨v, w, ev, ew, ⟨g, h1, h2⟩ | ⟨g, h1, h2⟩⟩
    · exact ⟨v, w, ev, ew, (min_le_left _ _).trans h1, h2.trans (le_max_right _ _)⟩
    · exact ⟨v, w, ev, ew, (min_le_right _ _).trans h1, h2.trans (le_max_left _ _)⟩

/-- A wider slab. -/
theorem InSlab.mono (hp : 1 ≤ p) {o d : K} {neg : Bool} {x y x' y' t : K} (hx : x' ≤ x) (hxy : x ≤ y) (hy : y ≤ y')
    (cx : d = 0 → x' ≠ o) (cy : d = 0 → y' ≠ o) (h : InSlab R o d neg x y t) : InSlab R o d neg x' y' t := by
  rw [InSlab.iff R hp hxy] at h
  rw [InSlab.iff R hp (hx.trans (hxy.trans hy))]
  obtain ⟨v, w, ev, ew, h⟩ := h
  obtain ⟨v', ev'⟩ := planeTime_some R hp neg cx
  obtain ⟨w', ew'⟩ := planeTime_some R hp neg cy
  have kx := planeTime_clear R ev
  have ky := planeTime_clear R ew
  refine ⟨v', w', ev', ew', ?_⟩
  rcases h with ⟨g, h1, h2⟩ | ⟨g, h1, h2⟩
  · exact .inl ⟨g, (planeTime_mono R hp g hx cx kx ev' ev).trans h1, h2.trans (planeTime_mono R hp g hy ky cy ew ew')⟩
  · exact .inr ⟨g, (planeTime_anti R hp g hy ky cy ew ew').trans h1, h2.trans (planeTime_anti R hp g hx cx kx ev' ev)⟩

/-- A slab cut in two: no time is lost. -/
theorem InSlab.split (hp : 1 ≤ p) {o d : K} {neg : Bool} {x b y t : K} (hx : x ≤ b) (hy : b ≤ y) (cb : d = 0 → b ≠ o)
    (h : InSlab R o d neg x y t) : InSlab R o d neg x b t ∨ InSlab R o d neg b y t := by
  rw [InSlab.iff R hp (hx.trans hy)] at h
  rw [InSlab.iff R hp hx, InSlab.iff R hp hy]
  obtain ⟨v, w, ev, ew, h⟩ := h
  obtain ⟨z, ez⟩ := planeTime_some R hp neg cb
  rcases h with ⟨g, h1, h2⟩ | ⟨g, h1, h2⟩
  · rcases le_total (up t) z with c | c
    · exact .inl ⟨v, z, ev, ez, .inl ⟨g, h1, c⟩⟩
    · exact .inr ⟨z, w, ez, ew, .inl ⟨g, c, h2⟩⟩
  · rcases le_total (up t) z with c | c
    · exact .inr ⟨z, w, ez, ew, .inr ⟨g, h1, c⟩⟩
    · exact .inl ⟨v, z, ev, ez, .inr ⟨g, c, h2⟩⟩

/-- A slab cut into several. -/
theorem InSlab.cells (hp : 1 ≤ p) {o d : K} {neg : Bool} {t : K} (x : ℕ → K) : ∀ n : ℕ, (∀ j < n + 1, x j ≤ x (j + 1)) →
    (∀ j ≤ n + 1, d = 0 → x j ≠ o) → InSlab R o d neg (x 0) (x (n + 1)) t → ∃ j < n + 1, InSlab R o d neg (x j) (x (j + 1)) t
  | 0, _, _, h => ⟨0, by omega, h⟩
  | n + 1, hs, hc, h => by
    have h0 : ∀ m ≤ n + 1, x 0 ≤ x m := by
      intro m
      induction m with
      | zero => intro _; exact le_refl _
      | succ m ih => intro hm; exact (ih (by omega)).trans (hs m (by omega))
    rcases InSlab.split R hp (h0 (n + 1) (le_refl _)) (hs (n + 1) (by omega)) (hc (n + 1) (by omega)) h with h | h
    · obtain ⟨j, hj, h⟩ := InSlab.cells hp x n (fun j hj => hs j (by omega)) (fun j hj => hc j (by omega)) h
      exact ⟨j, by omega, h⟩
    · exact ⟨n + 1, by omega, h⟩

/-- Without a component in this direction the computation is exact. -/
theorem InSlab.zero (hp : 1 ≤ p) {o : K} {neg : Bool} {x y : K} (hxy : x ≤ y) (t : K) : InSlab R o 0 neg x y t ↔ x < o ∧ o < y := by
  rw [InSlab.iff R hp hxy]
  constructor
  · rintro ⟨v, w, ev, ew, h⟩
    have kx := planeTime_clear R ev rfl
    have ky := planeTime_clear R ew rfl
    rw [planeTime_zero R hp neg kx] at ev
    rw [planeTime_zero R hp neg ky] at ew
    have tt : ¬ (⊤ : WithBot (WithTop K)) ≤ up t := fun h => Verif.Box.not_top_le t h
    have tb : ¬ up t ≤ (⊥ : WithBot (WithTop K)) := Verif.Box.not_le_bot t
    rcases h with ⟨g, h1, h2⟩ | ⟨g, h1, h2⟩
    · have hn : neg = false := by
        rcases g with g | g
        · exact absurd g (lt_irrefl _)
        · exact g.2
      subst hn
      simp only [Bool.false_eq_true, iff_false] at ev ew
      split at ev
      · cases ev; exact absurd h1 tt
      · rename_i c
        split at ew
        · rename_i c'
          exact ⟨not_not.1 c, lt_of_le_of_ne (not_lt.1 c') ky.symm⟩
        · cases ew; exact absurd h2 tb
    · have hn : neg = true := by
        by_contra c
        exact g (.inr ⟨rfl, by simpa using c⟩)
      subst hn
      simp only [iff_true] at ev ew
      split at ew
      · cases ew; exact absurd h1 tt
      · rename_i c
        split at ev
        · rename_i c'
          exact ⟨c', lt_of_le_of_ne (not_lt.1 c) ky.symm⟩
        · cases ev; exact absurd h2 tb
  · rintro ⟨h1, h2⟩
    rw [planeTime_zero R hp neg h1.ne, planeTime_zero R hp neg h2.ne']
    cases neg
    · rw [if_neg (by simp [h1]), if_pos (by simp [h2.le])]
      exact ⟨_, _, rfl, rfl, .inl ⟨.inr ⟨rfl, rfl⟩, bot_le, le_top⟩⟩
    · rw [if_pos (by simp [h1]), if_neg (by simp [h2.le])]
      refine ⟨_, _, rfl, rfl, .inr ⟨?_, bot_le, le_top⟩⟩
      rintro (h | h)
      · exact lt_irrefl _ h
      · exact absurd h.2 (by simp)

/-- The computed parameter has the sign of the exact one and three relative errors. -/
theorem time_off (hp : 1 ≤ p) (a d : K) (h : 0 ≤ a / d) : Off (1 / 2 ^ p) 3 (a / d) (R.rnd (R.rnd a * R.rnd (1 / d))) := by
  have u0 := unit_nonneg (K := K) p
  have u1 := unit_le (K := K) p
  have hh : ∀ z : K, Off (1 / 2 ^ p) 1 |z| |R.rnd z| := by
    intro z
    have r := rel_u R hp z
    have a := abs_sub_abs_le_abs_sub (R.rnd z) z
    have b := abs_sub_abs_le_abs_sub z (R.rnd z)
    rw [abs_sub_comm z] at b
    unfold Off
    rw [pow_one, pow_one]
    constructor <;> nlinarith
  have e := (hh a).mul u0 u1 (abs_nonneg a) (abs_nonneg (1 / d)) (hh (1 / d))
  rw [← abs_mul, ← abs_mul, mul_one_div, abs_of_nonneg h] at e
  have hs : 0 ≤ R.rnd a * R.rnd (1 / d) := by
    rcases lt_trichotomy a 0 with ha | rfl | ha
    · rcases lt_trichotomy d 0 with hd | rfl | hd
      · exact mul_nonneg_of_nonpos_of_nonpos (R.neg hp ha).le (R.neg hp (by rw [one_div]; exact inv_lt_zero.2 hd)).le
      · rw [div_zero, R.zero, mul_zero]
      · exact absurd h (not_le.2 (div_neg_of_neg_of_pos ha hd))
    · rw [R.zero, zero_mul]
    · rcases lt_trichotomy d 0 with hd | rfl | hd
      · exact absurd h (not_le.2 (div_neg_of_pos_of_neg ha hd))
      · rw [div_zero, R.zero, mul_zero]
      · exact mul_nonneg (R.pos hp ha).le (R.pos hp (by positivity)).le
  rw [abs_of_nonneg hs] at e
  exact e.rnd R hp h

theorem time_neg (hp : 1 ≤ p) (a d : K) (h : a / d < 0) : R.rnd (R.rnd a * R.rnd (1 / d)) < 0 := by
  rcases div_neg_iff.1 h with ⟨ha, hd⟩ | ⟨ha, hd⟩
  · exact R.neg hp (mul_neg_of_pos_of_neg (R.pos hp ha) (R.neg hp (by rw [one_div]; exact inv_lt_zero.2 hd)))
  · exact R.neg hp (mul_neg_of_neg_of_pos (R.neg hp ha) (R.pos hp (by positivity)))

theorem time_le (hp : 1 ≤ p) {a d t : K} (t0 : 0 ≤ t) (h : a / d ≤ t) : R.rnd (R.rnd a * R.rnd (1 / d)) ≤ t * (1 + 1 / 2 ^ p) ^ 3 := by
  have u0 := unit_nonneg (K := K) p
  have q : (0 : K) ≤ (1 + 1 / 2 ^ p) ^ 3 := by positivity
  rcases le_or_gt 0 (a / d) with c | c
  · exact (time_off R hp a d c).2.trans (mul_le_mul_of_nonneg_right h q)
  · exact (time_neg R hp a d c).le.trans (mul_nonneg t0 q)

theorem time_ge (hp : 1 ≤ p) {a d t : K} (t0 : 0 ≤ t) (h : t ≤ a / d) : t * (1 - 1 / 2 ^ p) ^ 3 ≤ R.rnd (R.rnd a * R.rnd (1 / d)) := by
  have u1 := unit_le (K := K) p
  exact (mul_le_mul_of_nonneg_right h (pow_nonneg (sub_nonneg.2 u1) 3)).trans (time_off R hp a d (t0.trans h)).1

theorem time_le' (hp : 1 ≤ p) {a d t : K} (t0 : 0 ≤ t) (h : R.rnd (R.rnd a * R.rnd (1 / d)) ≤ t) : a / d * (1 - 1 / 2 ^ p) ^ 3 ≤ t := by
  have u1 := unit_le (K := K) p
  rcases le_or_gt 0 (a / d) with c | c
  · exact (time_off R hp a d c).1.trans h
  · exact (mul_nonpos_of_nonpos_of_nonneg c.le (pow_nonneg (sub_nonneg.2 u1) 3)).trans t0

theorem time_ge' (hp : 1 ≤ p) {a d t : K} (t0 : 0 ≤ t) (h : t ≤ R.rnd (R.rnd a * R.rnd (1 / d))) : t ≤ a / d * (1 + 1 / 2 ^ p) ^ 3 := by
  rcases le_or_gt 0 (a / d) with c | c
  · exact h.trans (time_off R hp a d c).2
  · exact absurd (t0.trans h) (not_le.2 (time_neg R hp a d c))

theorem grows_iff {d : K} (hd : d ≠ 0) (neg : Bool) : Grows d neg ↔ 0 < d := by
  unfold Grows
  constructor
  · rintro (h | h)
    · exact h
    · exact absurd h.1 hd
  · exact .inl

/-- With a component in this direction, in terms of the two parameters. -/
theorem InSlab.fin (hp : 1 ≤ p) {o d : K} {neg : Bool} {x y : K} (hxy : x ≤ y) (hd : d ≠ 0) (t : K) : InSlab R o d neg x y t ↔
    (0 < d ∧ R.rnd (R.rnd (x - o) * R.rnd (1 / d)) ≤ t ∧ t ≤ R.rnd (R.rnd (y - o) * R.rnd (1 / d))) ∨
    (d < 0 ∧ R.rnd (R.rnd (y - o) * R.rnd (1 / d)) ≤ t ∧ t ≤ R.rnd (R.rnd (x - o) * R.rnd (1 / d))) := by
  rw [InSlab.iff R hp hxy, grows_iff hd, planeTime_fin R hd, planeTime_fin R hd]
  have e : ¬ 0 < d ↔ d < 0 := ⟨fun h => lt_of_le_of_ne (not_lt.1 h) hd, fun h => not_lt.2 h.le⟩
  constructor
  · rintro ⟨v, w, ev, ew, h⟩
    cases ev; cases ew
    simpa only [coe_le, e] using h
  · intro h
    exact ⟨_, _, rfl, rfl, by simpa only [coe_le, e] using h⟩

/-- The ray is in the slab by the computed parameters if it is there from `t0` to `t1` and `t` is well between. -/
theorem InSlab.of_exact (hp : 1 ≤ p) {o d : K} {neg : Bool} {x y : K} (hxy : x ≤ y) (cx : d = 0 → x ≠ o) (cy : d = 0 → y ≠ o) {t0 t1 t : K} (h0 : 0 ≤ t0) (h1 : 0 ≤ t1)
    (i0 : x ≤ o + t0 * d ∧ o + t0 * d ≤ y) (i1 : x ≤ o + t1 * d ∧ o + t1 * d ≤ y) (l0 : t0 * (1 + 1 / 2 ^ p) ^ 3 ≤ t) (l1 : t ≤ t1 * (1 - 1 / 2 ^ p) ^ 3) :
    InSlab R o d neg x y t := by
  rcases eq_or_ne d 0 with rfl | hd
  · rw [InSlab.zero R hp hxy]
    simp only [mul_zero, add_zero] at i0
    exact ⟨lt_of_le_of_ne i0.1 (cx rfl), lt_of_le_of_ne i0.2 (cy rfl).symm⟩
  · rw [InSlab.fin R hp hxy hd]
    rcases lt_or_gt_of_ne hd with c | c
    · refine .inr ⟨c, (time_le R hp h0 ?_).trans l0, l1.trans (time_ge R hp h1 ?_)⟩
      · rw [div_le_iff_of_neg c]; linarith [i0.2]
      · rw [le_div_iff_of_neg c]; linarith [i1.1]
    · refine .inl ⟨c, (time_le R hp h0 ?_).trans l0, l1.trans (time_ge R hp h1 ?_)⟩
      · rw [div_le_iff₀ c]; linarith [i0.1]
      · rw [le_div_iff₀ c]; linarith [i1.2]

/-- The two tolerances. -/
theorem pow3_le (u : K) (u0 : 0 ≤ u) (u1 : u ≤ 1) : 0 ≤ 1 - (1 - u) ^ 3 ∧ 1 - (1 - u) ^ 3 ≤ (1 + u) ^ 3 - 1 := by
  have a : (1 - u) ^ 3 ≤ 1 := pow_le_one₀ (by linarith) (by linarith)
  refine ⟨by linarith, ?_⟩
  have : (1 + u) ^ 3 + (1 - u) ^ 3 = 2 + 6 * u ^ 2 := by ring
  nlinarith [sq_nonneg u]

/-- Where the ray is at a time in the slab by the computed parameters. -/
theorem InSlab.near (hp : 1 ≤ p) {o d : K} {neg : Bool} {x y : K} (hxy : x ≤ y) {t : K} (t0 : 0 ≤ t) (h : InSlab R o d neg x y t) :
    x - ((1 + 1 / 2 ^ p) ^ 3 - 1) * |x - o| ≤ o + t * d ∧ o + t * d ≤ y + ((1 + 1 / 2 ^ p) ^ 3 - 1) * |y - o| := by
  have u0 := unit_nonneg (K := K) p
  have u1 := unit_le (K := K) p
  obtain ⟨q0, q1⟩ := pow3_le ((1 : K) / 2 ^ p) u0 u1
  have ax := abs_nonneg (x - o)
  have ay := abs_nonneg (y - o)
  have bx := mul_nonneg (q0.trans q1) ax
  have by' := mul_nonneg (q0.trans q1) ay
  rcases eq_or_ne d 0 with rfl | hd
  · rw [InSlab.zero R hp hxy] at h
    rw [mul_zero, add_zero]
    exact ⟨by linarith [h.1], by linarith [h.2]⟩
  · have lo : ∀ z : K, (z - o) * (1 - 1 / 2 ^ p) ^ 3 = z - o - (z - o) * (1 - (1 - 1 / 2 ^ p) ^ 3) := fun z => by ring
    have hi : ∀ z : K, (z - o) * (1 + 1 / 2 ^ p) ^ 3 = z - o + (z - o) * ((1 + 1 / 2 ^ p) ^ 3 - 1) := fun z => by ring
    have m1 : ∀ z : K, |(z - o) * (1 - (1 - 1 / 2 ^ p) ^ 3)| ≤ ((1 + 1 / 2 ^ p) ^ 3 - 1) * |z - o| := by
      intro z
      rw [abs_mul, abs_of_nonneg q0, mul_comm]
      exact mul_le_mul_of_nonneg_right q1 (abs_nonneg _)
    have m2 : ∀ z : K, |(z - o) * ((1 + 1 / 2 ^ p) ^ 3 - 1)| ≤ ((1 + 1 / 2 ^ p) ^ 3 - 1) * |z - o| := by
      intro z
      rw [abs_mul, abs_of_nonneg (q0.trans q1), mul_comm]
    rw [InSlab.fin R hp hxy hd] at h
    rcases h with ⟨c, h1, h2⟩ | ⟨c, h1, h2⟩
    · have e1 := time_le' R hp t0 h1
      have e2 := time_ge' R hp t0 h2
      rw [div_mul_eq_mul_div, div_le_iff₀ c, lo] at e1
      rw [div_mul_eq_mul_div, le_div_iff₀ c, hi] at e2
      constructor
      · linarith [(abs_le.1 (m1 x)).2]
      · linarith [(abs_le.1 (m2 y)).2]
    · have e1 := time_le' R hp t0 h1
      have e2 := time_ge' R hp t0 h2
      rw [div_mul_eq_mul_div, div_le_iff_of_neg c, lo] at e1
      rw [div_mul_eq_mul_div, le_div_iff_of_neg c, hi] at e2
      constructor
      · linarith [(abs_le.1 (m2 x)).1]
      · linarith [(abs_le.1 (m1 y)).1]

end Verif.Fp
