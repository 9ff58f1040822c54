import Verif.Model.FpQClosest
import Verif.Props.FpQuad
import Verif.Props.FpDist

/-! C145: the distance of a point from a quadratic segment in floating-point arithmetic. -/

set_option linter.unusedSectionVars false

namespace Verif.FpQClosestP

open Verif.Fp Verif.FpQuadP Verif.FpDistP

variable {K : Type} [Field K] [LinearOrder K] [IsStrictOrderedRing K] [FloorRing K] {p : ℕ} (R : Rounding K p)

/-- The exact square of the distance of two points. -/
def gap (a b : P2 K) : K := (b.1 - a.1) ^ 2 + (b.2 - a.2) ^ 2

theorem sqDist_off (hp : 1 ≤ p) (f : Bool) (a b : P2 K) :
    gap a b * (1 - 1 / 2 ^ p) ^ 4 ≤ sqDistP2 R f a b ∧ sqDistP2 R f a b ≤ gap a b * (1 + 1 / 2 ^ p) ^ 4 := by
  have := C127_error R hp f (n := 2) (a := [a.1, a.2]) (b := [b.1, b.2]) rfl rfl
  have e : FpDistP.dist2 [a.1, a.2] [b.1, b.2] = gap a b := by unfold FpDistP.dist2 gap; simp; ring
  rw [e] at this
  exact this

theorem sqDist_symm (hR : ∀ x, R.rnd (-x) = -R.rnd x) (f : Bool) (a b : P2 K) : sqDistP2 R f a b = sqDistP2 R f b a := C127_symmetric R hR f _ _

theorem qAt_ends (hp : 1 ≤ p) (f : QClosestFused) {q0 q1 q2 : P2 K} (h0 : IsFp2 p q0) (h1 : IsFp2 p q1) (h2 : IsFp2 p q2) :
    qAt R f q0 q1 q2 0 = q0 ∧ qAt R f q0 q1 q2 1 = q1 := by
  have x := C143_nodes R hp f.x.1 f.x.2.1 f.x.2.2 h0.1 h1.1 h2.1
  have y := C143_nodes R hp f.y.1 f.y.2.1 f.y.2.2 h0.2 h1.2 h2.2
  unfold qAt
  exact ⟨Prod.ext x.1 y.1, Prod.ext x.2.1 y.2.1⟩

/-- The state of the loop. -/
structure Best (f : QClosestFused) (q0 q1 q2 pt : P2 K) (b : K × K) : Prop where
  lo : 0 ≤ b.1
  hi : b.1 ≤ 1
  val : b.2 = sqDistP2 R f.vec pt (qAt R f q0 q1 q2 b.1)

theorem ends_best (hp : 1 ≤ p) (f : QClosestFused) {q0 q1 q2 : P2 K} (pt : P2 K) (h0 : IsFp2 p q0) (h1 : IsFp2 p q1) (h2 : IsFp2 p q2) :
    Best R f q0 q1 q2 pt (qClosestEnds R f q0 q1 pt) ∧ (qClosestEnds R f q0 q1 pt).2 ≤ sqDistP2 R f.vec pt q0 ∧ (qClosestEnds R f q0 q1 pt).2 ≤ sqDistP2 R f.vec pt q1 := by
  obtain ⟨e0, e1⟩ := qAt_ends R hp f h0 h1 h2
  unfold qClosestEnds
  split
  · next h => exact ⟨⟨zero_le_one, le_rfl, by rw [e1]⟩, h.le, le_rfl⟩
  · next h => exact ⟨⟨le_rfl, zero_le_one, by rw [e0]⟩, le_rfl, not_lt.1 h⟩

theorem step_best (f : QClosestFused) (q0 q1 q2 pt : P2 K) {b : K × K} (hb : Best R f q0 q1 q2 pt b) (rr : K) :
    Best R f q0 q1 q2 pt (qClosestStep R f q0 q1 q2 pt b rr) ∧ (qClosestStep R f q0 q1 q2 pt b rr).2 ≤ b.2 ∧
      (0 ≤ rr → rr ≤ 1 → (qClosestStep R f q0 q1 q2 pt b rr).2 ≤ sqDistP2 R f.vec pt (qAt R f q0 q1 q2 rr)) := by
  unfold qClosestStep
  split
  · next h =>
    dsimp only
    split
    · next g => exact ⟨⟨h.1, h.2, rfl⟩, g.le, fun _ _ => le_rfl⟩
    · next g => exact ⟨hb, le_rfl, fun _ _ => not_lt.1 g⟩
  · next h => exact ⟨hb, le_rfl, fun a b => absurd ⟨a, b⟩ h⟩

theorem loop_best (f : QClosestFused) (q0 q1 q2 pt : P2 K) : ∀ (roots : List K) {b : K × K}, Best R f q0 q1 q2 pt b →
    Best R f q0 q1 q2 pt (roots.foldl (qClosestStep R f q0 q1 q2 pt) b) ∧ (roots.foldl (qClosestStep R f q0 q1 q2 pt) b).2 ≤ b.2 ∧
      ∀ rr ∈ roots, 0 ≤ rr → rr ≤ 1 → (roots.foldl (qClosestStep R f q0 q1 q2 pt) b).2 ≤ sqDistP2 R f.vec pt (qAt R f q0 q1 q2 rr)
  | [], b, hb => ⟨hb, le_rfl, fun _ h => absurd h (by simp)⟩
  | r :: rs, b, hb => by
    obtain ⟨s1, s2, s3⟩ := step_best R f q0 q1 q2 pt hb r
    obtain ⟨l1, l2, l3⟩ := loop_best f q0 q1 q2 pt rs s1
    refine ⟨l1, l2.trans s2, fun rr h a c => ?_⟩
    rcases List.mem_cons.1 h with rfl | h
    · exact l2.trans (s3 a c)
    · exact l3 rr h a c

theorem loop_fp (hp : 1 ≤ p) (f : QClosestFused) (q0 q1 q2 pt : P2 K) : ∀ (roots : List K) {b : K × K}, IsFp p b.1 → (∀ t ∈ roots, IsFp p t) →
    IsFp p (roots.foldl (qClosestStep R f q0 q1 q2 pt) b).1
  | [], _, hb, _ => hb
  | r :: rs, b, hb, h => by
    refine loop_fp hp f q0 q1 q2 pt rs ?_ fun t ht => h t (by simp [ht])
    unfold qClosestStep
    split
    · dsimp only
      split
      · exact h r (by simp)
      · exact hb
    · exact hb

theorem clamp_fp (hp : 1 ≤ p) {x : K} (h : IsFp p x) : IsFp p (clamp01 x) := by
  unfold clamp01
  split
  · exact isFp_zero
  · split
    · exact fp_one hp
    · exact h

/-- The parameter is a number of the format if those of the solver are. -/
theorem closest_fp (hp : 1 ≤ p) (solve : K → K → K → K → K × K × K) (f : QClosestFused) (eps2 : K) (q0 q1 q2 pt : P2 K)
    (hsol : ∀ a b c e, IsFp p (solve a b c e).1 ∧ IsFp p (solve a b c e).2.1 ∧ IsFp p (solve a b c e).2.2) {r : K} (h : qClosest R solve f eps2 q0 q1 q2 pt = some r) : IsFp p r := by
  unfold qClosest at h
  split at h
  · unfold pointClosestTo at h
    split at h
    · cases h
    · rw [← Option.some.inj h]
      exact clamp_fp hp (clamp_fp hp (R.mem _))
  · dsimp only at h
    rw [← Option.some.inj h]
    refine loop_fp R hp f q0 q1 q2 pt _ ?_ ?_
    · unfold qClosestEnds
      split
      · exact fp_one hp
      · exact isFp_zero
    · intro t ht
      simp only [List.mem_cons, List.not_mem_nil, or_false] at ht
      obtain ⟨a, b, c⟩ := hsol (qCubic R f q0 q1 q2 pt).1 (qCubic R f q0 q1 q2 pt).2.1 (qCubic R f q0 q1 q2 pt).2.2.1 (qCubic R f q0 q1 q2 pt).2.2.2
      rcases ht with rfl | rfl | rfl
      · exact a
      · exact b
      · exact c

section
variable (hp : 1 ≤ p) (solve : K → K → K → K → K × K × K) (f : QClosestFused) (eps2 : K) {q0 q1 q2 : P2 K} (pt : P2 K) (h0 : IsFp2 p q0) (h1 : IsFp2 p q1) (h2 : IsFp2 p q2)
include hp h0 h1 h2

/-- **C145**: the parameter of the closest point is always on the segment, whatever the solver of the cubic equation returns. -/
theorem C145_range {r : K} (h : qClosest R solve f eps2 q0 q1 q2 pt = some r) : 0 ≤ r ∧ r ≤ 1 := by
  unfold qClosest at h
  split at h
  · exact C127_closest_range R f.vec h
  · dsimp only at h
    generalize [(solve _ _ _ _).1, _, _] = l at h
    rw [← Option.some.inj h]
    have := (loop_best R f q0 q1 q2 pt l (ends_best R hp f pt h0 h1 h2).1).1
    exact ⟨this.lo, this.hi⟩

/-- **C145**: for a segment that is not straight, the distance is never greater than the computed distances to the ends and to the points that the solver of the cubic equation
suggests. -/
theorem C145_least (hR : ∀ x, R.rnd (-x) = -R.rnd x) (hs : qIsStraight R f.vec eps2 q0 q1 q2 = false) :
    ∃ d, qSqDist R solve f eps2 q0 q1 q2 pt = some d ∧ d ≤ sqDistP2 R f.vec q0 pt ∧ d ≤ sqDistP2 R f.vec q1 pt ∧
      ∀ a b c e, qCubic R f q0 q1 q2 pt = (a, b, c, e) → ∀ t ∈ [(solve a b c e).1, (solve a b c e).2.1, (solve a b c e).2.2], 0 ≤ t → t ≤ 1 → d ≤ sqDistP2 R f.vec (qAt R f q0 q1 q2 t) pt := by
  obtain ⟨e1, e2, e3⟩ := ends_best R hp f pt h0 h1 h2
  unfold qSqDist qClosest
  rw [hs, if_neg (by decide)]
  dsimp only
  generalize qCubic R f q0 q1 q2 pt = E
  generalize hl : [(solve E.1 E.2.1 E.2.2.1 E.2.2.2).1, (solve E.1 E.2.1 E.2.2.1 E.2.2.2).2.1, (solve E.1 E.2.1 E.2.2.1 E.2.2.2).2.2] = l
  obtain ⟨l1, l2, l3⟩ := loop_best R f q0 q1 q2 pt l e1
  have v : sqDistP2 R f.vec (qAt R f q0 q1 q2 (l.foldl (qClosestStep R f q0 q1 q2 pt) (qClosestEnds R f q0 q1 pt)).1) pt =
      (l.foldl (qClosestStep R f q0 q1 q2 pt) (qClosestEnds R f q0 q1 pt)).2 := by rw [sqDist_symm R hR, ← l1.val]
  refine ⟨_, congrArg some v, ?_, ?_, ?_⟩
  · rw [sqDist_symm R hR _ q0]; exact l2.trans e2
  · rw [sqDist_symm R hR _ q1]; exact l2.trans e3
  · rintro a b c e rfl t ht t0 t1
    rw [sqDist_symm R hR _ (qAt R f q0 q1 q2 t)]
    exact l3 t (by rw [← hl]; exact ht) t0 t1

/-- **C145**: the ends of a segment that is not straight have distance zero from it. -/
theorem C145_ends (hR : ∀ x, R.rnd (-x) = -R.rnd x) (hs : qIsStraight R f.vec eps2 q0 q1 q2 = false) :
    qSqDist R solve f eps2 q0 q1 q2 q0 = some 0 ∧ qSqDist R solve f eps2 q0 q1 q2 q1 = some 0 := by
  have u1 := unit_lt (K := K) hp
  have z : ∀ q : P2 K, sqDistP2 R f.vec q q ≤ 0 := fun q => by
    have := (sqDist_off R hp f.vec q q).2
    rwa [show gap q q = 0 by unfold gap; ring, zero_mul] at this
  have pos : ∀ {pt : P2 K} {d : K}, qSqDist R solve f eps2 q0 q1 q2 pt = some d → 0 ≤ d := fun {pt d} h => by
    unfold qSqDist at h
    rw [Option.map_eq_some_iff] at h
    obtain ⟨r, -, rfl⟩ := h
    refine le_trans ?_ (sqDist_off R hp f.vec _ _).1
    exact mul_nonneg (by unfold gap; positivity) (pow_nonneg (by linarith) _)
  obtain ⟨d, e, a, -⟩ := C145_least R hp solve f eps2 q0 h0 h1 h2 hR hs
  obtain ⟨d', e', -, a', -⟩ := C145_least R hp solve f eps2 q1 h0 h1 h2 hR hs
  have hd := le_antisymm (a.trans (z _)) (pos e)
  have hd' := le_antisymm (a'.trans (z _)) (pos e')
  subst hd hd'
  exact ⟨e, e'⟩

end

/-- **C145**: the distance is that of a point which is on the segment, up to eight roundings of the largest coordinate: it is never less than the exact distance by more than that. -/
theorem C145_sound (hp : 6 ≤ p) (solve : K → K → K → K → K × K × K) (f : QClosestFused) (eps2 : K) {q0 q1 q2 : P2 K} (pt : P2 K) (h0 : IsFp2 p q0) (h1 : IsFp2 p q1) (h2 : IsFp2 p q2)
    {d : K} (h : qSqDist R solve f eps2 q0 q1 q2 pt = some d) (hsol : ∀ a b c e, IsFp p (solve a b c e).1 ∧ IsFp p (solve a b c e).2.1 ∧ IsFp p (solve a b c e).2.2) {M : K} (m : ∀ q ∈ [q0, q1, q2], |q.1| ≤ M ∧ |q.2| ≤ M) :
    ∃ (s : K) (x : P2 K), 0 ≤ s ∧ s ≤ 1 ∧ |x.1 - curve q0.1 q1.1 q2.1 s| ≤ 8 / 2 ^ p * M ∧ |x.2 - curve q0.2 q1.2 q2.2 s| ≤ 8 / 2 ^ p * M ∧
      gap x pt * (1 - 1 / 2 ^ p) ^ 4 ≤ d ∧ d ≤ gap x pt * (1 + 1 / 2 ^ p) ^ 4 := by
  unfold qSqDist at h
  rw [Option.map_eq_some_iff] at h
  obtain ⟨r, hc, rfl⟩ := h
  obtain ⟨r0, r1⟩ := C145_range R (by omega) solve f eps2 pt h0 h1 h2 hc
  have hr := closest_fp R (by omega) solve f eps2 q0 q1 q2 pt hsol hc
  have m0 := m q0 (by simp)
  have m1 := m q1 (by simp)
  have m2 := m q2 (by simp)
  exact ⟨r, qAt R f q0 q1 q2 r, r0, r1, C143_interpolate_unit R hp _ _ _ hr r0 r1 m0.1 m1.1 m2.1, C143_interpolate_unit R hp _ _ _ hr r0 r1 m0.2 m1.2 m2.2,
    sqDist_off R (by omega) f.vec _ _⟩

/-- **C145**: for a segment that is not straight, the distance is at most that of each point which the solver suggests, up to the same errors. -/
theorem C145_near (hp : 6 ≤ p) (solve : K → K → K → K → K × K × K) (f : QClosestFused) (eps2 : K) {q0 q1 q2 : P2 K} (pt : P2 K) (h0 : IsFp2 p q0) (h1 : IsFp2 p q1) (h2 : IsFp2 p q2)
    (hR : ∀ x, R.rnd (-x) = -R.rnd x) (hs : qIsStraight R f.vec eps2 q0 q1 q2 = false) {a b c e : K} (hE : qCubic R f q0 q1 q2 pt = (a, b, c, e)) {t : K}
    (ht : t ∈ [(solve a b c e).1, (solve a b c e).2.1, (solve a b c e).2.2]) (tf : IsFp p t) (t0 : 0 ≤ t) (t1 : t ≤ 1) {M : K} (m : ∀ q ∈ [q0, q1, q2], |q.1| ≤ M ∧ |q.2| ≤ M) :
    ∃ d x, qSqDist R solve f eps2 q0 q1 q2 pt = some d ∧ |x.1 - curve q0.1 q1.1 q2.1 t| ≤ 8 / 2 ^ p * M ∧ |x.2 - curve q0.2 q1.2 q2.2 t| ≤ 8 / 2 ^ p * M ∧
      d ≤ gap x pt * (1 + 1 / 2 ^ p) ^ 4 := by
  obtain ⟨d, hd, -, -, l⟩ := C145_least R (by omega) solve f eps2 pt h0 h1 h2 hR hs
  have m0 := m q0 (by simp)
  have m1 := m q1 (by simp)
  have m2 := m q2 (by simp)
  exact ⟨d, qAt R f q0 q1 q2 t, hd, C143_interpolate_unit R hp _ _ _ tf t0 t1 m0.1 m1.1 m2.1, C143_interpolate_unit R hp _ _ _ tf t0 t1 m0.2 m1.2 m2.2,
    (l a b c e hE t ht t0 t1).trans (sqDist_off R (by omega) f.vec _ _).2⟩

/-! ### The equation -/

/-- One coordinate of the derivative of the curve. -/
def slope (v0 v1 v2 t : K) : K := (4 * t - 3) * v0 + (4 * t - 1) * v1 + (4 - 8 * t) * v2

/-- Half the derivative of the square of the distance. -/
def rate (q0 q1 q2 pt : P2 K) (t : K) : K := (curve q0.1 q1.1 q2.1 t - pt.1) * slope q0.1 q1.1 q2.1 t + (curve q0.2 q1.2 q2.2 t - pt.2) * slope q0.2 q1.2 q2.2 t

theorem unit_256 (hp : 8 ≤ p) : (1 : K) / 2 ^ p ≤ 1 / 256 := by
  refine one_div_le_one_div_of_le (by norm_num) ?_
  calc (256 : K) = 2 ^ 8 := by norm_num
    _ ≤ 2 ^ p := pow_le_pow_right₀ (by norm_num) hp

/-- A computed dot product of vectors that are known with errors. -/
theorem dot_near (hp : 8 ≤ p) (f : Bool) {x y x' y' d e d' e' M N α β : K} (hx : |x| ≤ M) (hy : |y| ≤ M) (hd : |d| ≤ N) (he : |e| ≤ N) (ex : |x - x'| ≤ α) (ey : |y - y'| ≤ α)
    (ed : |d - d'| ≤ β) (ee : |e - e'| ≤ β) :
    |dot R f [x, y] [d, e] - (x' * d' + y' * e')| ≤ 41 / 10 * (1 / 2 ^ p) * (M * N) + 2 * (α * N) + 2 * ((M + α) * β) ∧ |dot R f [x, y] [d, e]| ≤ 21 / 10 * (M * N) := by
  have u0 := unit_nonneg (K := K) p
  have u1 := unit_256 (K := K) hp
  have hp1 : 1 ≤ p := by omega
  have M0 : 0 ≤ M := (abs_nonneg _).trans hx
  have N0 : 0 ≤ N := (abs_nonneg _).trans hd
  have a0 : 0 ≤ α := (abs_nonneg _).trans ex
  have b0 : 0 ≤ β := (abs_nonneg _).trans ed
  have hdot : dot R f [x, y] [d, e] = R.rnd (R.rnd (x * d) + prodIf R f (y * e)) := by
    show mulAdd R f (R.rnd (x * d)) y e = _
    unfold mulAdd prodIf
    cases f <;> simp
  rw [hdot]
  have s : _ ≤ ((1 + 1 / 2 ^ p : K) ^ 2 - 1) * _ := Rel.step R hp1 (k := 1) (l := 1) le_rfl ((Rel.refl _ (x * d)).rnd R hp1) le_rfl ((Rel.refl _ (y * e)).prod R hp1 f)
  generalize R.rnd (R.rnd (x * d) + prodIf R f (y * e)) = r at *
  generalize (1 : K) / 2 ^ p = w at *
  have k : (1 + w) ^ 2 - 1 ≤ 41 / 20 * w := by nlinarith
  have m : |x * d| + |y * e| ≤ 2 * (M * N) := by
    rw [abs_mul, abs_mul]
    have := mul_le_mul hx hd (abs_nonneg _) M0
    have := mul_le_mul hy he (abs_nonneg _) M0
    linarith
  have s2 := s.trans ((mul_le_mul_of_nonneg_right k (by positivity)).trans (mul_le_mul_of_nonneg_left m (by linarith)))
  have one : ∀ {x x' d d' : K}, |x| ≤ M → |d| ≤ N → |x - x'| ≤ α → |d - d'| ≤ β → |x * d - x' * d'| ≤ α * N + (M + α) * β := fun {x x' d d'} hx hd ex ed => by
    have e1 : x * d - x' * d' = (x - x') * d + x' * (d - d') := by ring
    have x1 : |x'| ≤ M + α := by
      have := abs_sub_abs_le_abs_sub x' x
      rw [abs_sub_comm] at this
      linarith
    rw [e1]
    refine (abs_add_le _ _).trans ?_
    rw [abs_mul, abs_mul]
    exact add_le_add (mul_le_mul ex hd (abs_nonneg _) a0) (mul_le_mul x1 ed (abs_nonneg _) (by linarith))
  have t1 := one hx hd ex ed
  have t2 := one hy he ey ee
  have MN := mul_nonneg M0 N0
  constructor
  · have e1 : r - (x' * d' + y' * e') = (r - (x * d + y * e)) + ((x * d - x' * d') + (y * e - y' * e')) := by ring
    rw [e1]
    have g1 := abs_add_le (r - (x * d + y * e)) ((x * d - x' * d') + (y * e - y' * e'))
    have g2 := abs_add_le (x * d - x' * d') (y * e - y' * e')
    linarith
  · have g1 := abs_sub_abs_le_abs_sub r (x * d + y * e)
    have g2 := abs_add_le (x * d) (y * e)
    have : w * (M * N) ≤ 1 / 256 * (M * N) := mul_le_mul_of_nonneg_right u1 MN
    linarith

/-- The errors of the coefficients, put together. -/
theorem assemble {AA AB BB AW BW xAA xAB xBB xAW xBW b c t w S W : K} (t0 : 0 ≤ t) (t1 : t ≤ 1) (kAA : |AA - xAA| ≤ 98 * (w * S ^ 2)) (kAB : |AB - xAB| ≤ 151 * (w * S ^ 2))
    (kBB : |BB - xBB| ≤ 228 * (w * S ^ 2)) (kAW : |AW - xAW| ≤ 30 * (w * (S * W))) (kBW : |BW - xBW| ≤ 46 * (w * (S * W))) (kb : |b - 3 * AB| ≤ 76 * (w * S ^ 2))
    (kc : |c - (BB + 2 * AW)| ≤ 34 * (w * S ^ 2) + 13 * (w * (S * W))) :
    |2 * AA * t ^ 3 + b * t ^ 2 + c * t + BW - (2 * xAA * t ^ 3 + 3 * xAB * t ^ 2 + (xBB + 2 * xAW) * t + xBW)| ≤ w * (1000 * S ^ 2 + 120 * (S * W)) := by
  have e1 : 2 * AA * t ^ 3 + b * t ^ 2 + c * t + BW - (2 * xAA * t ^ 3 + 3 * xAB * t ^ 2 + (xBB + 2 * xAW) * t + xBW) =
      t ^ 3 * (2 * (AA - xAA)) + (t ^ 2 * ((b - 3 * AB) + 3 * (AB - xAB)) + (t * ((c - (BB + 2 * AW)) + ((BB - xBB) + 2 * (AW - xAW))) + (BW - xBW))) := by ring
  rw [e1]
  have sm : ∀ {x y : K}, 0 ≤ x → x ≤ 1 → |x * y| ≤ |y| := fun {x y} x0 x1 => by
    rw [abs_mul, abs_of_nonneg x0]
    exact mul_le_of_le_one_left (abs_nonneg _) x1
  have g1 := abs_add_le (t ^ 3 * (2 * (AA - xAA))) (t ^ 2 * ((b - 3 * AB) + 3 * (AB - xAB)) + (t * ((c - (BB + 2 * AW)) + ((BB - xBB) + 2 * (AW - xAW))) + (BW - xBW)))
  have g2 := abs_add_le (t ^ 2 * ((b - 3 * AB) + 3 * (AB - xAB))) (t * ((c - (BB + 2 * AW)) + ((BB - xBB) + 2 * (AW - xAW))) + (BW - xBW))
  have g3 := abs_add_le (t * ((c - (BB + 2 * AW)) + ((BB - xBB) + 2 * (AW - xAW)))) (BW - xBW)
  have m1 := sm (y := 2 * (AA - xAA)) (pow_nonneg t0 3) (pow_le_one₀ t0 t1)
  have m2 := sm (y := (b - 3 * AB) + 3 * (AB - xAB)) (pow_nonneg t0 2) (pow_le_one₀ t0 t1)
  have m3 := sm (y := (c - (BB + 2 * AW)) + ((BB - xBB) + 2 * (AW - xAW))) t0 t1
  have n1 : |2 * (AA - xAA)| = 2 * |AA - xAA| := by rw [abs_mul, abs_of_pos (by norm_num : (0 : K) < 2)]
  have n2 : |3 * (AB - xAB)| = 3 * |AB - xAB| := by rw [abs_mul, abs_of_pos (by norm_num : (0 : K) < 3)]
  have n3 : |2 * (AW - xAW)| = 2 * |AW - xAW| := by rw [abs_mul, abs_of_pos (by norm_num : (0 : K) < 2)]
  have l2 := abs_add_le (b - 3 * AB) (3 * (AB - xAB))
  have l3 := abs_add_le (c - (BB + 2 * AW)) ((BB - xBB) + 2 * (AW - xAW))
  have l4 := abs_add_le (BB - xBB) (2 * (AW - xAW))
  have P0 := (abs_nonneg _).trans kAA
  have Q0 := (abs_nonneg _).trans kAW
  linarith

/-- **C145**: the cubic equation that is solved is that of the stationary points of the distance: on the segment the two differ by a thousand roundings of the sizes, at most. -/
theorem C145_equation (hp : 8 ≤ p) (f : QClosestFused) {q0 q1 q2 pt : P2 K} {S W : K} (sx : |q2.1 - q0.1| + |q2.1 - q1.1| ≤ S) (sy : |q2.2 - q0.2| + |q2.2 - q1.2| ≤ S) (wx : |q0.1 - pt.1| ≤ W)
    (wy : |q0.2 - pt.2| ≤ W) {t : K} (t0 : 0 ≤ t) (t1 : t ≤ 1) {a b c e : K} (hE : qCubic R f q0 q1 q2 pt = (a, b, c, e)) :
    |a * t ^ 3 + b * t ^ 2 + c * t + e - rate q0 q1 q2 pt t| ≤ 1 / 2 ^ p * (1000 * S ^ 2 + 120 * (S * W)) := by
  have u0 := unit_nonneg (K := K) p
  have u1 := unit_256 (K := K) hp
  have hp1 : 1 ≤ p := by omega
  have co : ∀ (g : Bool) {v0 v1 v2 : K}, |v2 - v0| + |v2 - v1| ≤ S → |(qCoeffs R g v0 v1 v2).1| ≤ 4 * S ∧ |(qCoeffs R g v0 v1 v2).2| ≤ 3 * S ∧
      |(qCoeffs R g v0 v1 v2).1 - (3 * (v2 - v0) + (v2 - v1))| ≤ 10 * (1 / 2 ^ p) * S ∧ |(qCoeffs R g v0 v1 v2).2 - -2 * ((v2 - v0) + (v2 - v1))| ≤ 5 * (1 / 2 ^ p) * S := fun g {v0 v1 v2} h => by
    obtain ⟨a, b⟩ := coeff_size R (by omega) g v0 v1 v2
    obtain ⟨c, e⟩ := qCoeffs_error R (by omega) g v0 v1 v2
    exact ⟨a.trans (by linarith), b.trans (by linarith), c.trans (mul_le_mul_of_nonneg_left h (by linarith)), e.trans (mul_le_mul_of_nonneg_left h (by linarith))⟩
  obtain ⟨bx, ax, ebx, eax⟩ := co f.bx sx
  obtain ⟨by', ay, eby, eay⟩ := co f.by' sy
  have rx := (rel_u R hp1 (q0.1 - pt.1)).trans (mul_le_mul_of_nonneg_left wx u0)
  have ry := (rel_u R hp1 (q0.2 - pt.2)).trans (mul_le_mul_of_nonneg_left wy u0)
  have W0 : 0 ≤ W := (abs_nonneg _).trans wx
  have wW : 1 / 2 ^ p * W ≤ 1 / 256 * W := mul_le_mul_of_nonneg_right u1 W0
  have hx : |R.rnd (q0.1 - pt.1)| ≤ 101 / 100 * W := by have := abs_sub_abs_le_abs_sub (R.rnd (q0.1 - pt.1)) (q0.1 - pt.1); linarith
  have hy : |R.rnd (q0.2 - pt.2)| ≤ 101 / 100 * W := by have := abs_sub_abs_le_abs_sub (R.rnd (q0.2 - pt.2)) (q0.2 - pt.2); linarith
  have S0 : 0 ≤ S := by linarith [abs_nonneg (qCoeffs R f.bx q0.1 q1.1 q2.1).2]
  have dAA := dot_near R hp f.vec ax ay ax ay eax eay eax eay
  have dAB := dot_near R hp f.vec ax ay bx by' eax eay ebx eby
  have dBB := dot_near R hp f.vec bx by' bx by' ebx eby ebx eby
  have dAW := dot_near R hp f.vec ax ay hx hy eax eay rx ry
  have dBW := dot_near R hp f.vec bx by' hx hy ebx eby rx ry
  have fAA : IsFp p (dot R f.vec [(qCoeffs R f.bx q0.1 q1.1 q2.1).2, (qCoeffs R f.by' q0.2 q1.2 q2.2).2] [(qCoeffs R f.bx q0.1 q1.1 q2.1).2, (qCoeffs R f.by' q0.2 q1.2 q2.2).2]) := by
    show IsFp p (mulAdd R f.vec _ _ _)
    unfold mulAdd
    split <;> exact R.mem _
  have fAW : IsFp p (dot R f.vec [(qCoeffs R f.bx q0.1 q1.1 q2.1).2, (qCoeffs R f.by' q0.2 q1.2 q2.2).2] [R.rnd (q0.1 - pt.1), R.rnd (q0.2 - pt.2)]) := by
    show IsFp p (mulAdd R f.vec _ _ _)
    unfold mulAdd
    split <;> exact R.mem _
  unfold qCubic squaredNorm subV at hE
  dsimp only [List.zipWith] at hE
  rw [Prod.mk.injEq, Prod.mk.injEq, Prod.mk.injEq] at hE
  obtain ⟨rfl, rfl, rfl, rfl⟩ := hE
  have e2 : prodIf R f.c (2 * dot R f.vec [(qCoeffs R f.bx q0.1 q1.1 q2.1).2, (qCoeffs R f.by' q0.2 q1.2 q2.2).2] [R.rnd (q0.1 - pt.1), R.rnd (q0.2 - pt.2)]) =
      2 * dot R f.vec [(qCoeffs R f.bx q0.1 q1.1 q2.1).2, (qCoeffs R f.by' q0.2 q1.2 q2.2).2] [R.rnd (q0.1 - pt.1), R.rnd (q0.2 - pt.2)] := by
    unfold prodIf
    rw [R.id fAW.double]
    simp
  rw [e2, R.id fAA.double]
  have hrate : rate q0 q1 q2 pt t = 2 * ((-2 * ((q2.1 - q0.1) + (q2.1 - q1.1))) * (-2 * ((q2.1 - q0.1) + (q2.1 - q1.1))) + (-2 * ((q2.2 - q0.2) + (q2.2 - q1.2))) * (-2 * ((q2.2 - q0.2) + (q2.2 - q1.2)))) * t ^ 3 +
      3 * ((-2 * ((q2.1 - q0.1) + (q2.1 - q1.1))) * (3 * (q2.1 - q0.1) + (q2.1 - q1.1)) + (-2 * ((q2.2 - q0.2) + (q2.2 - q1.2))) * (3 * (q2.2 - q0.2) + (q2.2 - q1.2))) * t ^ 2 +
      (((3 * (q2.1 - q0.1) + (q2.1 - q1.1)) * (3 * (q2.1 - q0.1) + (q2.1 - q1.1)) + (3 * (q2.2 - q0.2) + (q2.2 - q1.2)) * (3 * (q2.2 - q0.2) + (q2.2 - q1.2))) +
        2 * ((-2 * ((q2.1 - q0.1) + (q2.1 - q1.1))) * (q0.1 - pt.1) + (-2 * ((q2.2 - q0.2) + (q2.2 - q1.2))) * (q0.2 - pt.2))) * t +
      ((3 * (q2.1 - q0.1) + (q2.1 - q1.1)) * (q0.1 - pt.1) + (3 * (q2.2 - q0.2) + (q2.2 - q1.2)) * (q0.2 - pt.2)) := by
    unfold rate curve slope; ring
  rw [hrate]
  have r3 := rel_u R hp1 (3 * dot R f.vec [(qCoeffs R f.bx q0.1 q1.1 q2.1).2, (qCoeffs R f.by' q0.2 q1.2 q2.2).2] [(qCoeffs R f.bx q0.1 q1.1 q2.1).1, (qCoeffs R f.by' q0.2 q1.2 q2.2).1])
  have r4 := rel_u R hp1 (dot R f.vec [(qCoeffs R f.bx q0.1 q1.1 q2.1).1, (qCoeffs R f.by' q0.2 q1.2 q2.2).1] [(qCoeffs R f.bx q0.1 q1.1 q2.1).1, (qCoeffs R f.by' q0.2 q1.2 q2.2).1] +
    2 * dot R f.vec [(qCoeffs R f.bx q0.1 q1.1 q2.1).2, (qCoeffs R f.by' q0.2 q1.2 q2.2).2] [R.rnd (q0.1 - pt.1), R.rnd (q0.2 - pt.2)])
  generalize dot R f.vec [(qCoeffs R f.bx q0.1 q1.1 q2.1).2, (qCoeffs R f.by' q0.2 q1.2 q2.2).2] [(qCoeffs R f.bx q0.1 q1.1 q2.1).2, (qCoeffs R f.by' q0.2 q1.2 q2.2).2] = AA at *
  generalize dot R f.vec [(qCoeffs R f.bx q0.1 q1.1 q2.1).2, (qCoeffs R f.by' q0.2 q1.2 q2.2).2] [(qCoeffs R f.bx q0.1 q1.1 q2.1).1, (qCoeffs R f.by' q0.2 q1.2 q2.2).1] = AB at *
  generalize dot R f.vec [(qCoeffs R f.bx q0.1 q1.1 q2.1).1, (qCoeffs R f.by' q0.2 q1.2 q2.2).1] [(qCoeffs R f.bx q0.1 q1.1 q2.1).1, (qCoeffs R f.by' q0.2 q1.2 q2.2).1] = BB at *
  generalize dot R f.vec [(qCoeffs R f.bx q0.1 q1.1 q2.1).2, (qCoeffs R f.by' q0.2 q1.2 q2.2).2] [R.rnd (q0.1 - pt.1), R.rnd (q0.2 - pt.2)] = AW at *
  generalize dot R f.vec [(qCoeffs R f.bx q0.1 q1.1 q2.1).1, (qCoeffs R f.by' q0.2 q1.2 q2.2).1] [R.rnd (q0.1 - pt.1), R.rnd (q0.2 - pt.2)] = BW at *
  generalize R.rnd (3 * AB) = b at *
  generalize R.rnd (BB + 2 * AW) = c at *
  generalize (-2 * ((q2.1 - q0.1) + (q2.1 - q1.1))) * (-2 * ((q2.1 - q0.1) + (q2.1 - q1.1))) + (-2 * ((q2.2 - q0.2) + (q2.2 - q1.2))) * (-2 * ((q2.2 - q0.2) + (q2.2 - q1.2))) = xAA at *
  generalize (-2 * ((q2.1 - q0.1) + (q2.1 - q1.1))) * (3 * (q2.1 - q0.1) + (q2.1 - q1.1)) + (-2 * ((q2.2 - q0.2) + (q2.2 - q1.2))) * (3 * (q2.2 - q0.2) + (q2.2 - q1.2)) = xAB at *
  generalize (3 * (q2.1 - q0.1) + (q2.1 - q1.1)) * (3 * (q2.1 - q0.1) + (q2.1 - q1.1)) + (3 * (q2.2 - q0.2) + (q2.2 - q1.2)) * (3 * (q2.2 - q0.2) + (q2.2 - q1.2)) = xBB at *
  generalize (-2 * ((q2.1 - q0.1) + (q2.1 - q1.1))) * (q0.1 - pt.1) + (-2 * ((q2.2 - q0.2) + (q2.2 - q1.2))) * (q0.2 - pt.2) = xAW at *
  generalize (3 * (q2.1 - q0.1) + (q2.1 - q1.1)) * (q0.1 - pt.1) + (3 * (q2.2 - q0.2) + (q2.2 - q1.2)) * (q0.2 - pt.2) = xBW at *
  clear hrate e2 fAA fAW ax ay bx by' eax eay ebx eby rx ry hx hy co sx sy wx wy
  generalize (1 : K) / 2 ^ p = w at *
  have P0 : 0 ≤ w * S ^ 2 := mul_nonneg u0 (sq_nonneg _)
  have Q0 : 0 ≤ w * (S * W) := mul_nonneg u0 (mul_nonneg S0 W0)
  have P1 : w * (w * S ^ 2) ≤ 1 / 256 * (w * S ^ 2) := mul_le_mul_of_nonneg_right u1 P0
  have Q1 : w * (w * (S * W)) ≤ 1 / 256 * (w * (S * W)) := mul_le_mul_of_nonneg_right u1 Q0
  have kAA : |AA - xAA| ≤ 98 * (w * S ^ 2) := dAA.1.trans (by linarith)
  have kAB : |AB - xAB| ≤ 151 * (w * S ^ 2) := dAB.1.trans (by linarith)
  have kBB : |BB - xBB| ≤ 228 * (w * S ^ 2) := dBB.1.trans (by linarith)
  have kAW : |AW - xAW| ≤ 30 * (w * (S * W)) := dAW.1.trans (by linarith)
  have kBW : |BW - xBW| ≤ 46 * (w * (S * W)) := dBW.1.trans (by linarith)
  have kb : |b - 3 * AB| ≤ 76 * (w * S ^ 2) := by
    refine r3.trans ?_
    rw [abs_mul, abs_of_pos (by norm_num : (0 : K) < 3)]
    have := mul_le_mul_of_nonneg_left dAB.2 u0
    linarith
  have kc : |c - (BB + 2 * AW)| ≤ 34 * (w * S ^ 2) + 13 * (w * (S * W)) := by
    refine r4.trans ?_
    have t := abs_add_le BB (2 * AW)
    rw [abs_mul, abs_of_pos (by norm_num : (0 : K) < 2)] at t
    have := mul_le_mul_of_nonneg_left t u0
    have := mul_le_mul_of_nonneg_left dBB.2 u0
    have := mul_le_mul_of_nonneg_left dAW.2 u0
    linarith
  exact assemble t0 t1 kAA kAB kBB kAW kBW kb kc

/-- An arch in double precision, and a point above its top, however the products are contracted. -/
theorem arch (f : QClosestFused) : qIsStraight (ieee ℚ 53 (by norm_num)) f.vec (1 / 10 ^ 14) (0, 0) (2, 0) (1, 1) = false ∧ IsFp2 53 ((0, 0) : P2 ℚ) ∧ IsFp2 53 ((2, 0) : P2 ℚ) ∧ IsFp2 53 ((1, 1) : P2 ℚ) ∧
    qCubic (ieee ℚ 53 (by norm_num)) f (0, 0) (2, 0) (1, 1) (1, 2) = (32, -48, 36, -10) ∧ (∀ t : ℚ, rate (0, 0) (2, 0) (1, 1) (1, 2) t = 32 * t ^ 3 - 48 * t ^ 2 + 36 * t - 10) ∧
    qAt (ieee ℚ 53 (by norm_num)) f (0, 0) (2, 0) (1, 1) (1 / 2) = (1, 1) ∧ sqDistP2 (ieee ℚ 53 (by norm_num)) f.vec (1, 1) (1, 2) = 1 := by
  obtain ⟨⟨x1, x2, x3⟩, ⟨y1, y2, y3⟩, bx, by', c, v⟩ := f
  have o := fp_one (K := ℚ) (p := 53) (by norm_num)
  have z := isFp_zero (K := ℚ) (p := 53)
  refine ⟨?_, ⟨z, z⟩, ⟨?_, z⟩, ⟨o, o⟩, ?_, ?_, ?_, ?_⟩
  · exact (by decide +kernel : ∀ v, qIsStraight (ieee ℚ 53 (by norm_num)) v (1 / 10 ^ 14) (0, 0) (2, 0) (1, 1) = false) v
  · simpa using o.double
  · exact (by decide +kernel : ∀ bx by' c v, qCubic (ieee ℚ 53 (by norm_num)) ⟨(true, true, true), (true, true, true), bx, by', c, v⟩ (0, 0) (2, 0) (1, 1) (1, 2) = (32, -48, 36, -10)) bx by' c v
  · intro t
    unfold rate curve slope
    ring
  · exact Prod.ext ((by decide +kernel : ∀ a b c, qInterp (ieee ℚ 53 (by norm_num)) a b c 0 2 1 (1 / 2) = 1) x1 x2 x3) ((by decide +kernel : ∀ a b c, qInterp (ieee ℚ 53 (by norm_num)) a b c 0 0 1 (1 / 2) = 1) y1 y2 y3)
  · exact (by decide +kernel : ∀ v, sqDistP2 (ieee ℚ 53 (by norm_num)) v (1, 1) (1, 2) = 1) v

/-- The ends of the arch have distance zero from it for any solver, and a solver that finds the root of the equation gives a square of the distance that is at most one. -/
example (f : QClosestFused) (solve : ℚ → ℚ → ℚ → ℚ → ℚ × ℚ × ℚ) (h : (solve 32 (-48) 36 (-10)).1 = 1 / 2) :
    qSqDist (ieee ℚ 53 (by norm_num)) solve f (1 / 10 ^ 14) (0, 0) (2, 0) (1, 1) (2, 0) = some 0 ∧
      ∃ d, qSqDist (ieee ℚ 53 (by norm_num)) solve f (1 / 10 ^ 14) (0, 0) (2, 0) (1, 1) (1, 2) = some d ∧ d ≤ 1 := by
  obtain ⟨a1, a2, a3, a4, a5, -, a7, a8⟩ := arch f
  refine ⟨(C145_ends (ieee ℚ 53 (by norm_num)) (by norm_num) solve f (1 / 10 ^ 14) a2 a3 a4 (C127_ieee_odd (by norm_num)) a1).2, ?_⟩
  obtain ⟨d, hd, -, -, l⟩ := C145_least (ieee ℚ 53 (by norm_num)) (by norm_num) solve f (1 / 10 ^ 14) (1, 2) a2 a3 a4 (C127_ieee_odd (by norm_num)) a1
  have := l _ _ _ _ a5 (1 / 2) (by simp [h]) (by norm_num) (by norm_num)
  rw [a7, a8] at this
  exact ⟨d, hd, this⟩

end Verif.FpQClosestP
