import Verif.Lemmas.FpRays
import Verif.Props.FpBox
import Mathlib.Analysis.SpecialFunctions.Trigonometric.Arctan
import Mathlib.Analysis.Real.Pi.Bounds
import Mathlib.Analysis.SpecialFunctions.Trigonometric.Bounds
import Mathlib.Data.Rat.Floor

/-!
# C136: modular rays in floating-point arithmetic

Specification: `place` is the exact position of the start of ray `i` on the edges of the box.
-/

set_option linter.unusedSectionVars false

namespace Verif.FpRaysP

open Verif.Fp
open Verif.Box (AABB fin Inside)

variable {K : Type} [Field K] [LinearOrder K] [IsStrictOrderedRing K] [FloorRing K] {p : ℕ} (R : Rounding K p)

/-- Where ray `i` starts: the first `nx` on the lower edge, half a spacing from the corners, away from the corner the others start at; the others on
the side that the rays leave from. -/
def place (obtuse : Bool) (x0 y0 x1 y1 : K) (nx ny i : ℕ) : K × K :=
  if i < nx then (if obtuse then x0 + (x1 - x0) / nx * (i + 1 / 2) else x1 - (x1 - x0) / nx * (i + 1 / 2), y0)
  else (if obtuse then x1 else x0, y0 + (y1 - y0) / ny * ((i - nx : ℕ) + 1 / 2))

/-- What is taken for granted of `cos(atan(t))` and `sin(atan(t))`: they are positive, not more than one, and their quotient is `t` up to `ε`. -/
def Trig (ε : K) (trig : K → K × K) : Prop :=
  ∀ t, 0 < t → 0 < (trig t).1 ∧ (trig t).1 ≤ 1 ∧ 0 < (trig t).2 ∧ (trig t).2 ≤ 1 ∧ |(trig t).2 - (trig t).1 * t| ≤ ε * (1 + t)

/-- The box. -/
def box (x0 y0 x1 y1 : K) : AABB 2 K := ⟨![x0, y0], ![x1, y1]⟩

theorem off_abs {k : ℕ} {x a y z : K} (h : Off (1 / 2 ^ p) k x a) (ha : |y| = a) (r : |z - y| ≤ 1 / 2 ^ p * |y|) :
    Off (1 / 2 ^ p) (k + 1) x |z| := by
  have u1 := unit_le (K := K) p
  have u0 := unit_nonneg (K := K) p
  obtain ⟨h1, h2⟩ := h
  have t1 := abs_sub_abs_le_abs_sub z y
  have t2 := abs_sub_abs_le_abs_sub y z
  rw [abs_sub_comm] at t2
  rw [ha] at r t1 t2
  generalize (1 : K) / 2 ^ p = u at *
  constructor
  · rw [pow_succ, ← mul_assoc]
    have := mul_le_mul_of_nonneg_right h1 (sub_nonneg.2 u1)
    linarith
  · rw [pow_succ, ← mul_assoc]
    have := mul_le_mul_of_nonneg_right h2 (by linarith : 0 ≤ 1 + u)
    linarith

section
variable {trig : K → K × K} {sinA cosA s x0 y0 x1 y1 : K} {obtuse : Bool} {r : RayParams K}

theorem chk_top {z n : ℤ} (h : chk z = some n) : n ≤ 2147483647 := by
  unfold chk at h
  split at h
  · cases h; omega
  · cases h

theorem params_spec (e : rayParams R trig sinA cosA s obtuse x0 y0 x1 y1 = some r) : ∃ nx ny : ℕ, 0 < nx ∧ 0 < ny ∧ (nx : ℤ) ≤ 2147483647 ∧ (ny : ℤ) ≤ 2147483647 ∧
    0 < s ∧ (nx : ℤ) = rayCount R (R.rnd (x1 - x0)) sinA s ∧ (ny : ℤ) = rayCount R (R.rnd (y1 - y0)) cosA s ∧
    r = ⟨x0, y0, x1, y1, nx, ny, spacing R x0 x1 nx, spacing R y0 y1 ny,
      if obtuse then -(trig (R.rnd (spacing R y0 y1 ny / spacing R x0 x1 nx))).1 else (trig (R.rnd (spacing R y0 y1 ny / spacing R x0 x1 nx))).1,
      (trig (R.rnd (spacing R y0 y1 ny / spacing R x0 x1 nx))).2⟩ := by
  unfold rayParams at e
  split at e
  · cases e
  rename_i hs
  dsimp only at e
  rw [Option.bind_eq_some_iff] at e
  obtain ⟨a, ha, e⟩ := e
  rw [Option.bind_eq_some_iff] at e
  obtain ⟨b, hb, e⟩ := e
  split at e
  · cases e
  split at e
  · cases e
  rename_i h1 h2
  obtain ⟨n, rfl⟩ := Int.eq_ofNat_of_zero_le (by omega : 0 ≤ a)
  obtain ⟨m, rfl⟩ := Int.eq_ofNat_of_zero_le (by omega : 0 ≤ b)
  refine ⟨n, m, by omega, by omega, chk_top ha, chk_top hb, by simpa using hs, (chk_eq ha).symm, (chk_eq hb).symm, ?_⟩
  · simp only [Option.some.injEq] at e
    rw [← e]
    simp [spacing]


/-- The constructor ends well for every box and every spacing that does not lead to more than `2 ^ 30` rays; also for the right angle, as the
cosine of the floating-point number is not zero. -/
theorem C136_defined (hp : 1 ≤ p) (hs : 0 < s) (fs : IsFp p s) (hx : x0 < x1) (hy : y0 < y1) (s0 : 0 < sinA) (s1 : sinA ≤ 1) (c0 : cosA ≠ 0) (c1 : |cosA| ≤ 1)
    (hw : x1 - x0 ≤ 2 ^ 30 * s) (hh : y1 - y0 ≤ 2 ^ 30 * s) : (rayParams R trig sinA cosA s obtuse x0 y0 x1 y1).isSome := by
  have count : ∀ {lo hi f : K}, lo < hi → f ≠ 0 → |f| ≤ 1 → hi - lo ≤ 2 ^ 30 * s →
      0 < rayCount R (R.rnd (hi - lo)) f s ∧ rayCount R (R.rnd (hi - lo)) f s ≤ 2 ^ 30 := by
    intro lo hi f h f0 f1 hl
    have l0 := R.pos hp (sub_pos.2 h)
    have f30 : IsFp p (2 ^ 30 * s) := by simpa [mul_comm] using fs.scale (30 : ℤ)
    have l1 := R.le_of_le hl f30
    unfold rayCount
    constructor
    · rw [Int.ceil_pos, abs_pos, Ne, R.zero_iff hp, div_eq_zero_iff, R.zero_iff hp, mul_eq_zero]
      simp [l0.ne', f0, hs.ne']
    · have m : |R.rnd (hi - lo) * f| ≤ 2 ^ 30 * s := by
        rw [abs_mul, abs_of_pos l0]
        calc R.rnd (hi - lo) * |f| ≤ R.rnd (hi - lo) * 1 := mul_le_mul_of_nonneg_left f1 l0.le
          _ ≤ _ := by rwa [mul_one]
      have m2 := R.abs_le_of m f30
      have m3 : |R.rnd (R.rnd (hi - lo) * f) / s| ≤ 2 ^ 30 := by
        rw [abs_div, abs_of_pos hs]
        exact (div_le_iff₀ hs).2 m2
      have m4 := R.abs_le_of m3 (by simpa using isFp_pow (K := K) hp (30 : ℤ))
      rw [Int.ceil_le]
      exact_mod_cast m4
  obtain ⟨a1, a2⟩ := count hx s0.ne' (by rwa [abs_of_pos s0]) hw
  obtain ⟨b1, b2⟩ := count hy c0 c1 hh
  unfold rayParams
  rw [if_neg (not_not.2 hs)]
  dsimp only
  rw [chk_some (by omega) (by omega), chk_some (by omega) (by omega)]
  simp only [Option.bind_some]
  rw [if_neg (by omega), if_neg (by omega)]
  rfl

/-- The numbers of rays are those of the exact calculation up to three relative errors before the rounding to an integer: the spacing is not more than
was asked for. -/
theorem C136_count (hp : 3 ≤ p) (hx : x0 < x1) (hy : y0 < y1) (e : rayParams R trig sinA cosA s obtuse x0 y0 x1 y1 = some r) :
    ((x1 - x0) * |sinA| / s * (1 - 4 / 2 ^ p) ≤ r.nx ∧ (r.nx : K) - 1 < (x1 - x0) * |sinA| / s * (1 + 4 / 2 ^ p)) ∧
    ((y1 - y0) * |cosA| / s * (1 - 4 / 2 ^ p) ≤ r.ny ∧ (r.ny : K) - 1 < (y1 - y0) * |cosA| / s * (1 + 4 / 2 ^ p)) := by
  have hp1 : 1 ≤ p := by omega
  obtain ⟨nx, ny, -, -, -, -, hs, e1, e2, rfl⟩ := params_spec R e
  have u0 := unit_nonneg (K := K) p
  have u1 := unit_le (K := K) p
  have count : ∀ {lo hi f : K} {n : ℕ}, lo < hi → (n : ℤ) = rayCount R (R.rnd (hi - lo)) f s →
      (hi - lo) * |f| / s * (1 - 4 / 2 ^ p) ≤ n ∧ (n : K) - 1 < (hi - lo) * |f| / s * (1 + 4 / 2 ^ p) := by
    intro lo hi f n h en
    have w0 := (sub_pos.2 h).le
    have q0 : 0 ≤ (hi - lo) * |f| := mul_nonneg w0 (abs_nonneg f)
    have a := (((Off.refl (1 / 2 ^ p) (hi - lo)).rnd R hp1 w0).mul u0 u1 w0 (abs_nonneg f) (Off.refl _ |f|)).weaken u0 u1 q0 (le_refl 1)
    have l0 : 0 ≤ R.rnd (hi - lo) := R.ge_of_ge w0 isFp_zero
    have b : Off (1 / 2 ^ p) 2 ((hi - lo) * |f|) |R.rnd (R.rnd (hi - lo) * f)| := by
      exact off_abs a (by rw [abs_mul, abs_of_nonneg l0]) (rel_u R hp1 (R.rnd (hi - lo) * f))
    have c : Off (1 / 2 ^ p) 2 ((hi - lo) * |f| / s) (|R.rnd (R.rnd (hi - lo) * f) / s|) := by
      rw [abs_div, abs_of_pos hs]
      exact ⟨by rw [div_mul_eq_mul_div]; exact div_le_div_of_nonneg_right b.1 hs.le, by rw [div_mul_eq_mul_div]; exact div_le_div_of_nonneg_right b.2 hs.le⟩
    have d := off_abs c rfl (rel_u R hp1 (R.rnd (R.rnd (hi - lo) * f) / s))
    obtain ⟨d1, d2⟩ := abs_le.1 (off_three (div_nonneg q0 hs.le) hp d)
    have up := Int.le_ceil |R.rnd (R.rnd (R.rnd (hi - lo) * f) / s)|
    have lo' := Int.ceil_lt_add_one |R.rnd (R.rnd (R.rnd (hi - lo) * f) / s)|
    unfold rayCount at en
    rw [← en] at up lo'
    push_cast at up lo'
    constructor <;> nlinarith
  have a := count hx e1
  have b := count hy e2
  simpa using And.intro a b

/-- The largest error of the start of a ray along an edge. -/
def tol (p : ℕ) (lo hi : K) : K := (max |lo| |hi| + 4 * (hi - lo)) / 2 ^ p

/-- There are `nx + ny` rays. Each starts on the edge it belongs to, never outside the box, and within `tol` of the exact place. -/
theorem C136_origins {ε : K} (hp : 3 ≤ p) (fused : Bool) (hx : x0 < x1) (hy : y0 < y1) (f1 : IsFp p x0) (f2 : IsFp p y0) (f3 : IsFp p x1) (f4 : IsFp p y1)
    (ht : Trig ε trig) (e : rayParams R trig sinA cosA s obtuse x0 y0 x1 y1 = some r) {nx ny : ℕ} (hnx : r.nx = nx) (hny : r.ny = ny)
    (h8 : 8 * (nx + ny) ≤ 2 ^ p) (hI : nx + ny ≤ 2147483647) (i : ℕ) :
    (r.origin R fused i = none ↔ nx + ny ≤ i) ∧
    (i < nx + ny → ∃ o, r.origin R fused i = some o ∧ Inside ![o.1, o.2] (box x0 y0 x1 y1) ∧
      (i < nx → o.2 = y0) ∧ (nx ≤ i → o.1 = if obtuse then x1 else x0) ∧
      |o.1 - (place obtuse x0 y0 x1 y1 nx ny i).1| ≤ tol p x0 x1 ∧ |o.2 - (place obtuse x0 y0 x1 y1 nx ny i).2| ≤ tol p y0 y1) := by
  have hp1 : 1 ≤ p := by omega
  obtain ⟨nx', ny', px, py, -, -, -, -, -, rfl⟩ := params_spec R e
  obtain rfl : nx' = nx := Int.natCast_inj.1 hnx
  obtain rfl : ny' = ny := Int.natCast_inj.1 hny
  have dxp : 0 < spacing R x0 x1 nx' := R.pos hp1 (div_pos (R.pos hp1 (sub_pos.2 hx)) (by exact_mod_cast px))
  have dyp : 0 < spacing R y0 y1 ny' := R.pos hp1 (div_pos (R.pos hp1 (sub_pos.2 hy)) (by exact_mod_cast py))
  have tp := (ht _ (R.pos hp1 (div_pos dyp dxp))).1
  generalize hc : trig (R.rnd (spacing R y0 y1 ny' / spacing R x0 x1 nx')) = c at *
  have tolx : 0 ≤ tol p x0 x1 := div_nonneg (add_nonneg (le_max_of_le_left (abs_nonneg _)) (by linarith)) (by positivity)
  have toly : 0 ≤ tol p y0 y1 := div_nonneg (add_nonneg (le_max_of_le_left (abs_nonneg _)) (by linarith)) (by positivity)
  have ck : chk ((nx' : ℤ) + ny') = some ((nx' : ℤ) + ny') := chk_some (by omega) (by omega)
  have sgn : decide ((if obtuse = true then -c.1 else c.1) < 0) = obtuse := by
    cases obtuse
    · simpa using tp.le
    · simpa using tp
  constructor
  · unfold RayParams.origin
    simp only [ck, Option.bind_some]
    split
    · rename_i h
      simp only [true_iff]
      omega
    · rename_i h
      constructor
      · intro q
        exfalso
        revert q
        split <;> simp
      · intro q
        omega
  · intro hi
    have hi2 : 2 * i + 1 ≤ 2 ^ p := by omega
    unfold RayParams.origin place
    simp only [ck, Option.bind_some]
    rw [if_neg (by omega), sgn, Int.cast_natCast, half_exact R hp1 hi2, Int.cast_natCast]
    by_cases hn : i < nx'
    · have d1 : decide ((i : ℤ) < (nx' : ℤ)) = true := by simpa using hn
      rw [d1]
      simp only [if_pos hn]
      cases obtuse
      · obtain ⟨a, b, c⟩ := down_spec R hp fused hx.le f1 f3 hn (by omega)
        refine ⟨_, rfl, ?_, fun _ => rfl, fun q => absurd hn (not_lt.2 q), by simpa [tol, size] using c, by simpa using toly⟩
        intro j
        fin_cases j
        · exact ⟨a, b⟩
        · exact ⟨le_refl _, hy.le⟩
      · obtain ⟨a, b, c⟩ := up_spec R hp fused hx.le f1 f3 hn (by omega)
        refine ⟨_, rfl, ?_, fun _ => rfl, fun q => absurd hn (not_lt.2 q), by simpa [tol, size] using c, by simpa using toly⟩
        intro j
        fin_cases j
        · exact ⟨a, b⟩
        · exact ⟨le_refl _, hy.le⟩
    · have d1 : decide ((i : ℤ) < (nx' : ℤ)) = false := by simpa using hn
      rw [d1]
      simp only [if_neg hn]
      rw [half_sub R hp1 (not_lt.1 hn) hi2]
      obtain ⟨a, b, c⟩ := up_spec R hp fused hy.le f2 f4 (n := ny') (k := i - nx') (by omega) (by omega)
      cases obtuse
      · refine ⟨_, rfl, ?_, fun q => absurd q hn, fun _ => rfl, by simpa using tolx, by simpa [tol, size] using c⟩
        intro j
        fin_cases j
        · exact ⟨le_refl _, hx.le⟩
        · exact ⟨a, b⟩
      · refine ⟨_, rfl, ?_, fun q => absurd q hn, fun _ => rfl, by simpa using tolx, by simpa [tol, size] using c⟩
        intro j
        fin_cases j
        · exact ⟨hx.le, le_refl _⟩
        · exact ⟨a, b⟩

theorem direction {ε : K} (hp : 1 ≤ p) (hx : x0 < x1) (hy : y0 < y1) (ht : Trig ε trig) (e : rayParams R trig sinA cosA s obtuse x0 y0 x1 y1 = some r) :
    0 < r.dx ∧ 0 < r.dy ∧ ∃ c, r.ux = (if obtuse then -c else c) ∧ 0 < c ∧ c ≤ 1 ∧ 0 < r.uy ∧ r.uy ≤ 1 ∧ |r.uy - c * R.rnd (r.dy / r.dx)| ≤ ε * (1 + R.rnd (r.dy / r.dx)) := by
  obtain ⟨nx', ny', px, py, -, -, -, -, -, rfl⟩ := params_spec R e
  have dxp : 0 < spacing R x0 x1 nx' := R.pos hp (div_pos (R.pos hp (sub_pos.2 hx)) (by exact_mod_cast px))
  have dyp : 0 < spacing R y0 y1 ny' := R.pos hp (div_pos (R.pos hp (sub_pos.2 hy)) (by exact_mod_cast py))
  have tp := ht _ (R.pos hp (div_pos dyp dxp))
  exact ⟨dxp, dyp, _, rfl, tp⟩

theorem near_pair {u v u' v' d t : K} (h1 : |u - u'| ≤ t) (h2 : |v - v'| ≤ t) (h3 : v' - u' = d) : |(v - u) - d| ≤ 2 * t := by
  rw [abs_le] at *
  constructor <;> linarith

theorem combine {a b c A B C : K} (h1 : |a| ≤ A) (h2 : |b| ≤ B) (h3 : |c| ≤ C) : |a - b + c| ≤ A + B + C := by
  rw [abs_le] at *
  constructor <;> linarith

/-- Neighbouring rays of one edge are one spacing apart up to twice the error; they are different whenever that is less than the spacing. -/
theorem C136_spacing {ε : K} (hp : 3 ≤ p) (fused : Bool) (hx : x0 < x1) (hy : y0 < y1) (f1 : IsFp p x0) (f2 : IsFp p y0) (f3 : IsFp p x1) (f4 : IsFp p y1)
    (ht : Trig ε trig) (e : rayParams R trig sinA cosA s obtuse x0 y0 x1 y1 = some r) {nx ny : ℕ} (hnx : r.nx = nx) (hny : r.ny = ny)
    (h8 : 8 * (nx + ny) ≤ 2 ^ p) (hI : nx + ny ≤ 2147483647) {i : ℕ} {o o' : K × K} (ho : r.origin R fused i = some o) (ho' : r.origin R fused (i + 1 : ℕ) = some o') :
    (i + 1 < nx → |(o'.1 - o.1) - (if obtuse then (x1 - x0) / nx else -((x1 - x0) / nx))| ≤ 2 * tol p x0 x1) ∧
    (nx ≤ i → |(o'.2 - o.2) - (y1 - y0) / ny| ≤ 2 * tol p y0 y1) := by
  have hi : i + 1 < nx + ny := by
    by_contra q
    have := (C136_origins R hp fused hx hy f1 f2 f3 f4 ht e hnx hny h8 hI (i + 1)).1.2 (not_lt.1 q)
    rw [this] at ho'
    cases ho'
  obtain ⟨a, a1, -, -, -, a2, a3⟩ := (C136_origins R hp fused hx hy f1 f2 f3 f4 ht e hnx hny h8 hI i).2 (by omega)
  obtain ⟨b, b1, -, -, -, b2, b3⟩ := (C136_origins R hp fused hx hy f1 f2 f3 f4 ht e hnx hny h8 hI (i + 1)).2 hi
  rw [ho, Option.some.injEq] at a1
  rw [ho', Option.some.injEq] at b1
  subst a1 b1
  constructor
  · intro h
    refine near_pair a2 b2 ?_
    unfold place
    rw [if_pos h, if_pos (by omega : i < nx)]
    cases obtuse <;> simp <;> ring
  · intro h
    refine near_pair a3 b3 ?_
    unfold place
    rw [if_neg (by omega : ¬ i + 1 < nx), if_neg (by omega : ¬ i < nx)]
    obtain ⟨k, rfl⟩ := Nat.exists_eq_add_of_le h
    rw [show nx + k + 1 - nx = k + 1 by omega, Nat.add_sub_cancel_left]
    push_cast
    ring

/-- The box is hit by each of its rays, from the start on. -/
theorem C136_hits {ε : K} (hp : 3 ≤ p) (fused : Bool) (hx : x0 < x1) (hy : y0 < y1) (f1 : IsFp p x0) (f2 : IsFp p y0) (f3 : IsFp p x1) (f4 : IsFp p y1)
    (ht : Trig ε trig) (e : rayParams R trig sinA cosA s obtuse x0 y0 x1 y1 = some r) {nx ny : ℕ} (hnx : r.nx = nx) (hny : r.ny = ny)
    (h8 : 8 * (nx + ny) ≤ 2 ^ p) (hI : nx + ny ≤ 2147483647) {i : ℕ} (hi : i < nx + ny) (neg : Fin 2 → Bool) {inf : K} (h0 : 0 ≤ inf) :
    ∃ o r1, r.origin R fused i = some o ∧ boxIntersect R (box x0 y0 x1 y1) ![o.1, o.2] ![r.ux, r.uy] neg inf = (fin 0, fin r1) ∧ 0 ≤ r1 := by
  obtain ⟨o, a1, a2, -⟩ := (C136_origins R hp fused hx hy f1 f2 f3 f4 ht e hnx hny h8 hI i).2 hi
  obtain ⟨-, -, c, c1, c2, -, c3, -⟩ := direction R (by omega) hx hy ht e
  obtain ⟨r1, b1, b2⟩ := FpBoxP.C135_inside R (by omega) (box x0 y0 x1 y1) ![o.1, o.2] ![r.ux, r.uy] neg inf h0
    (by
      intro j
      fin_cases j
      · exact hx.le
      · exact hy.le)
    (by
      intro j
      fin_cases j
      · intro q
        exfalso
        change r.ux = 0 at q
        rw [c1] at q
        cases obtuse
        · exact c2.ne' q
        · exact c2.ne' (neg_eq_zero.1 q)
      · intro q
        exact absurd q c3.ne')
    a2
  exact ⟨o, r1, a1, b1, b2⟩

/-- The exact places are cyclic: from ray `i` to ray `i + nx` (cyclically), which starts where the ray `i` leaves the box if the box is repeated, it is `m`
spacings in each direction. -/
theorem place_cyclic (obtuse : Bool) (x0 y0 x1 y1 : K) {nx ny i : ℕ} (px : 0 < nx) (py : 0 < ny) (hi : i < nx + ny) :
    ∃ m : K, 0 < m ∧ m ≤ nx ∧ m ≤ ny ∧
      (place obtuse x0 y0 x1 y1 nx ny ((i + nx) % (nx + ny))).1 + (if i < ny then (if obtuse then x0 - x1 else x1 - x0) else 0) -
        (place obtuse x0 y0 x1 y1 nx ny i).1 = (if obtuse then -1 else 1) * (m * ((x1 - x0) / nx)) ∧
      (place obtuse x0 y0 x1 y1 nx ny ((i + nx) % (nx + ny))).2 + (if i < ny then 0 else y1 - y0) -
        (place obtuse x0 y0 x1 y1 nx ny i).2 = m * ((y1 - y0) / ny) := by
  have nX : (0 : K) < nx := by exact_mod_cast px
  have nY : (0 : K) < ny := by exact_mod_cast py
  by_cases h1 : i < ny
  · rw [Nat.mod_eq_of_lt (by omega)]
    by_cases h2 : i < nx
    · refine ⟨i + 1 / 2, by positivity, ?_, ?_, ?_⟩
      · have : (i : K) + 1 ≤ nx := by exact_mod_cast h2
        linarith
      · have : (i : K) + 1 ≤ ny := by exact_mod_cast h1
        linarith
      · unfold place
        rw [if_neg (by omega), if_pos h2, if_pos h1, if_pos h1, Nat.add_sub_cancel]
        cases obtuse <;> simp <;> constructor <;> ring
    · refine ⟨nx, nX, le_refl _, by exact_mod_cast (by omega : nx ≤ ny), ?_⟩
      unfold place
      rw [if_neg (by omega), if_neg h2, if_pos h1, if_pos h1, Nat.add_sub_cancel]
      obtain ⟨k, rfl⟩ := Nat.exists_eq_add_of_le (not_lt.1 h2)
      rw [Nat.add_sub_cancel_left]
      cases obtuse <;> simp <;> constructor <;> field_simp <;> ring
  · obtain ⟨k, rfl⟩ := Nat.exists_eq_add_of_le (not_lt.1 h1)
    rw [show (ny + k + nx) % (nx + ny) = k by
      rw [show ny + k + nx = k + (nx + ny) by ring, Nat.add_mod_right]
      exact Nat.mod_eq_of_lt (by omega)]
    by_cases h2 : ny + k < nx
    · refine ⟨ny, nY, by exact_mod_cast (by omega : ny ≤ nx), le_refl _, ?_⟩
      unfold place
      rw [if_pos (by omega), if_pos h2, if_neg h1, if_neg h1]
      cases obtuse <;> simp <;> constructor <;> field_simp <;> ring
    · have k1 : (k : K) + 1 ≤ nx := by exact_mod_cast (by omega : k + 1 ≤ nx)
      obtain ⟨j, hj⟩ := Nat.exists_eq_add_of_le (not_lt.1 h2)
      have j1 : (j : K) + 1 ≤ ny := by exact_mod_cast (by omega : j + 1 ≤ ny)
      have jk : (ny : K) + k = nx + j := by exact_mod_cast hj
      refine ⟨nx - (k + 1 / 2), by linarith, by linarith [(Nat.cast_nonneg k : (0 : K) ≤ k)], ?_, ?_⟩
      · have := (Nat.cast_nonneg j : (0 : K) ≤ j)
        linarith
      · unfold place
        rw [if_pos (by omega), if_neg h2, if_neg h1, if_neg h1, hj, Nat.add_sub_cancel_left]
        have kk : (k : K) = nx + j - ny := by linarith
        cases obtuse <;> simp <;> constructor <;> field_simp <;> rw [kk] <;> ring

theorem off_seven {x y : K} (x0 : 0 ≤ x) (hp : 5 ≤ p) (h : Off (1 / 2 ^ p) 7 x y) : |y - x| ≤ 8 / 2 ^ p * x := by
  have u0 := unit_nonneg (K := K) p
  have u8 : (1 : K) / 2 ^ p ≤ 1 / 32 := by
    rw [div_le_div_iff_of_pos_left (by norm_num) (by positivity) (by norm_num)]
    calc (32 : K) = 2 ^ 5 := by norm_num
      _ ≤ 2 ^ p := pow_le_pow_right₀ (by norm_num) hp
  rw [show (8 : K) / 2 ^ p = 8 * (1 / 2 ^ p) by ring]
  obtain ⟨h1, h2⟩ := h
  generalize (1 : K) / 2 ^ p = u at *
  have s2 : (1 + u) ^ 2 ≤ 1 + 33 / 16 * u := by nlinarith
  have s4 : (1 + u) ^ 4 ≤ 1 + 43 / 10 * u := by
    have : (1 + u) ^ 4 = (1 + u) ^ 2 * (1 + u) ^ 2 := by ring
    rw [this]
    have := mul_le_mul s2 s2 (by positivity) (by positivity)
    nlinarith
  have s3 : (1 + u) ^ 3 ≤ 1 + 32 / 10 * u := by
    have : (1 + u) ^ 3 = (1 + u) ^ 2 * (1 + u) := by ring
    rw [this]
    have := mul_le_mul_of_nonneg_right s2 (by linarith : 0 ≤ 1 + u)
    nlinarith
  have a : (1 + u) ^ 7 ≤ 1 + 8 * u := by
    have : (1 + u) ^ 7 = (1 + u) ^ 4 * (1 + u) ^ 3 := by ring
    rw [this]
    have := mul_le_mul s4 s3 (by positivity) (by positivity)
    nlinarith
  have b : 1 - 8 * u ≤ (1 - u) ^ 7 := by
    have := one_add_mul_le_pow (a := -u) (by linarith) 7
    push_cast at this
    rw [← sub_eq_add_neg] at this
    linarith
  have a' := mul_le_mul_of_nonneg_left a x0
  have b' := mul_le_mul_of_nonneg_left b x0
  rw [abs_le]
  constructor <;> nlinarith

/-- The rays are cyclic up to rounding: if boxes are repeated, ray `i + nx` (cyclically) starts on the line of ray `i`, up to a distance of a few units in the
last place of the coordinates and what the trigonometric functions are off. -/
theorem C136_cyclic {ε : K} (hp : 5 ≤ p) (h0 : 0 ≤ ε) (fused : Bool) (hx : x0 < x1) (hy : y0 < y1) (f1 : IsFp p x0) (f2 : IsFp p y0) (f3 : IsFp p x1) (f4 : IsFp p y1)
    (ht : Trig ε trig) (e : rayParams R trig sinA cosA s obtuse x0 y0 x1 y1 = some r) {nx ny : ℕ} (hnx : r.nx = nx) (hny : r.ny = ny)
    (h8 : 8 * (nx + ny) ≤ 2 ^ p) (hI : nx + ny ≤ 2147483647) {i : ℕ} (hi : i < nx + ny) :
    ∃ o o', r.origin R fused i = some o ∧ r.origin R fused ((i + nx) % (nx + ny) : ℕ) = some o' ∧
      (let Δx := o'.1 + (if i < ny then (if obtuse then x0 - x1 else x1 - x0) else 0) - o.1
       let Δy := o'.2 + (if i < ny then 0 else y1 - y0) - o.2
       |r.ux * Δy - r.uy * Δx| ≤ 2 * ε * ((x1 - x0) + (y1 - y0)) + 2 * (tol p x0 x1 + tol p y0 y1) + 8 / 2 ^ p * (y1 - y0)) := by
  have u0 := unit_nonneg (K := K) p
  have u1 := unit_le (K := K) p
  have hp1 : 1 ≤ p := by omega
  obtain ⟨o, a1, -, -, -, a2, a3⟩ := (C136_origins R (by omega) fused hx hy f1 f2 f3 f4 ht e hnx hny h8 hI i).2 hi
  obtain ⟨o', b1, -, -, -, b2, b3⟩ := (C136_origins R (by omega) fused hx hy f1 f2 f3 f4 ht e hnx hny h8 hI ((i + nx) % (nx + ny))).2 (Nat.mod_lt _ (by omega))
  refine ⟨o, o', a1, b1, ?_⟩
  obtain ⟨d1, d2, c, c1, c2, c3, v1, v2, ct⟩ := direction R hp1 hx hy ht e
  obtain ⟨nx', ny', px, py, -, -, -, -, -, re⟩ := params_spec R e
  obtain rfl : nx' = nx := Int.natCast_inj.1 (by rw [← hnx, re])
  obtain rfl : ny' = ny := Int.natCast_inj.1 (by rw [← hny, re])
  obtain ⟨m, m0, m1, m2, m3, m4⟩ := place_cyclic obtuse x0 y0 x1 y1 px py hi
  have nX : (0 : K) < nx' := by exact_mod_cast px
  have nY : (0 : K) < ny' := by exact_mod_cast py
  have wx := sub_pos.2 hx
  have wy := sub_pos.2 hy
  have X0 : 0 < (x1 - x0) / nx' := div_pos wx nX
  have Y0 : 0 < (y1 - y0) / ny' := div_pos wy nY
  -- the slope
  have so : Off (1 / 2 ^ p) 7 ((y1 - y0) / ny' / ((x1 - x0) / nx')) (R.rnd (r.dy / r.dx)) := by
    have hd : r.dx = spacing R x0 x1 nx' ∧ r.dy = spacing R y0 y1 ny' := by rw [re]; exact ⟨rfl, rfl⟩
    rw [hd.1, hd.2]
    have u2 : (1 : K) / 2 ^ p ≤ 1 / 2 := by
      rw [div_le_div_iff_of_pos_left (by norm_num) (by positivity) (by norm_num)]
      calc (2 : K) = 2 ^ 1 := by norm_num
        _ ≤ 2 ^ p := pow_le_pow_right₀ (by norm_num) hp1
    exact (Off.div u0 u2 Y0.le X0 (spacing_off R hp1 hy.le py) (spacing_off R hp1 hx.le px)).rnd R hp1 (div_pos Y0 X0).le
  have s7 := off_seven (div_pos Y0 X0).le hp so
  generalize hT : (y1 - y0) / (ny' : K) / ((x1 - x0) / nx') = T at *
  generalize R.rnd (r.dy / r.dx) = t at *
  have T0 : 0 < T := hT ▸ div_pos Y0 X0
  have hXT : (x1 - x0) / nx' * T = (y1 - y0) / ny' := by rw [← hT]; field_simp
  have w8 : (8 : K) / 2 ^ p ≤ 1 := by
    rw [div_le_one (by positivity)]
    calc (8 : K) = 2 ^ 3 := by norm_num
      _ ≤ 2 ^ p := pow_le_pow_right₀ (by norm_num) (by omega)
  have slope : |r.uy - c * T| ≤ 2 * ε * (1 + T) + 8 / 2 ^ p * T := by
    have t1 : |c * (t - T)| ≤ 8 / 2 ^ p * T := by
      rw [abs_mul, abs_of_pos c2]
      calc c * |t - T| ≤ 1 * |t - T| := mul_le_mul_of_nonneg_right c3 (abs_nonneg _)
        _ ≤ _ := by rw [one_mul]; exact s7
    have t2 : t ≤ 2 * T := by
      have := (abs_le.1 s7).2
      nlinarith
    have t3 : ε * (1 + t) ≤ 2 * ε * (1 + T) := by nlinarith
    have := abs_add_le (r.uy - c * t) (c * (t - T))
    rw [show r.uy - c * t + c * (t - T) = r.uy - c * T by ring] at this
    linarith
  -- the exact places
  have cr : |c * (m * ((y1 - y0) / ny')) - r.uy * (m * ((x1 - x0) / nx'))| ≤ 2 * ε * ((x1 - x0) + (y1 - y0)) + 8 / 2 ^ p * (y1 - y0) := by
    rw [← hXT, show c * (m * ((x1 - x0) / nx' * T)) - r.uy * (m * ((x1 - x0) / nx')) = -(m * ((x1 - x0) / nx') * (r.uy - c * T)) by ring, abs_neg, abs_mul,
      abs_of_pos (mul_pos m0 X0)]
    have l1 : m * ((x1 - x0) / nx') ≤ x1 - x0 := by
      calc m * ((x1 - x0) / nx') ≤ nx' * ((x1 - x0) / nx') := mul_le_mul_of_nonneg_right m1 X0.le
        _ = _ := mul_div_cancel₀ _ nX.ne'
    have l2 : m * ((x1 - x0) / nx') * T ≤ y1 - y0 := by
      rw [mul_assoc, hXT]
      calc m * ((y1 - y0) / ny') ≤ ny' * ((y1 - y0) / ny') := mul_le_mul_of_nonneg_right m2 Y0.le
        _ = _ := mul_div_cancel₀ _ nY.ne'
    have l3 := mul_le_mul_of_nonneg_left slope (mul_pos m0 X0).le
    have w0 : (0 : K) ≤ 8 / 2 ^ p := by positivity
    have l4 := mul_le_mul_of_nonneg_left l2 w0
    have l5 := mul_le_mul_of_nonneg_left (add_le_add l1 l2) h0
    calc _ ≤ _ := l3
      _ = 2 * (ε * (m * ((x1 - x0) / nx') + m * ((x1 - x0) / nx') * T)) + 8 / 2 ^ p * (m * ((x1 - x0) / nx') * T) := by ring
      _ ≤ _ := by linarith
  dsimp only
  generalize (place obtuse x0 y0 x1 y1 nx' ny' i) = P at *
  generalize (place obtuse x0 y0 x1 y1 nx' ny' ((i + nx') % (nx' + ny'))) = Q at *
  generalize (if i < ny' then (if obtuse = true then x0 - x1 else x1 - x0) else 0) = sx at *
  generalize (if i < ny' then 0 else y1 - y0) = sy at *
  have ex : |(o'.1 + sx - o.1) - (if obtuse then -1 else 1) * (m * ((x1 - x0) / nx'))| ≤ 2 * tol p x0 x1 :=
    near_pair (u' := P.1) (v' := Q.1 + sx) a2 (by rwa [add_sub_add_right_eq_sub]) m3
  have ey : |(o'.2 + sy - o.2) - m * ((y1 - y0) / ny')| ≤ 2 * tol p y0 y1 :=
    near_pair (u' := P.2) (v' := Q.2 + sy) a3 (by rwa [add_sub_add_right_eq_sub]) m4
  generalize o'.1 + sx - o.1 = dX at *
  generalize o'.2 + sy - o.2 = dY at *
  have ux1 : |r.ux| ≤ 1 := by
    rw [c1]
    cases obtuse
    · simpa [abs_of_pos c2] using c3
    · simpa [abs_of_pos c2] using c3
  have p1 : |r.ux * (dY - m * ((y1 - y0) / ny'))| ≤ 2 * tol p y0 y1 := by
    rw [abs_mul]
    calc _ ≤ 1 * |dY - m * ((y1 - y0) / ny')| := mul_le_mul_of_nonneg_right ux1 (abs_nonneg _)
      _ ≤ _ := by rwa [one_mul]
  have p2 : |r.uy * (dX - (if obtuse then -1 else 1) * (m * ((x1 - x0) / nx')))| ≤ 2 * tol p x0 x1 := by
    rw [abs_mul, abs_of_pos v1]
    calc _ ≤ 1 * |dX - (if obtuse then -1 else 1) * (m * ((x1 - x0) / nx'))| := mul_le_mul_of_nonneg_right v2 (abs_nonneg _)
      _ ≤ _ := by rwa [one_mul]
  have p3 : |r.ux * (m * ((y1 - y0) / ny')) - r.uy * ((if obtuse then -1 else 1) * (m * ((x1 - x0) / nx')))| ≤
      2 * ε * ((x1 - x0) + (y1 - y0)) + 8 / 2 ^ p * (y1 - y0) := by
    rw [c1]
    cases obtuse
    · simpa using cr
    · rw [← abs_neg]
      refine le_trans (le_of_eq (congrArg _ ?_)) cr
      simp
      ring
  have := combine p1 p2 p3
  refine le_trans (le_of_eq (congrArg _ ?_)) (this.trans (le_of_eq ?_))
  · ring
  · ring

end

/-- Correctly rounded functions are as `Trig` has it, if `pi / 2` is not rounded up. -/
theorem C136_trig {p : ℕ} (R : Rounding ℝ p) (hp : 1 ≤ p) (hπ : R.rnd (Real.pi / 2) < Real.pi / 2) :
    Trig (3 / 2 ^ p) fun t => (R.rnd (Real.cos (R.rnd (Real.arctan t))), R.rnd (Real.sin (R.rnd (Real.arctan t)))) := by
  intro t t0
  dsimp only
  have a0 : 0 < Real.arctan t := Real.arctan_pos.2 t0
  have a1 := (Real.arctan_lt_pi_div_two t).le
  have b0 := R.pos hp a0
  have b1 := (R.mono a1).trans_lt hπ
  have ab : |R.rnd (Real.arctan t) - Real.arctan t| ≤ 2 / 2 ^ p := by
    have := rel_u R hp (Real.arctan t)
    rw [abs_of_pos a0] at this
    refine this.trans ?_
    have pi4 := Real.pi_le_four
    calc 1 / 2 ^ p * Real.arctan t ≤ 1 / 2 ^ p * 2 := mul_le_mul_of_nonneg_left (by linarith) (by positivity)
      _ = _ := by ring
  have f1 : IsFp p (1 : ℝ) := by simpa using isFp_pow (K := ℝ) hp 0
  have sc : Real.sin (Real.arctan t) = Real.cos (Real.arctan t) * t := by
    have := Real.tan_arctan t
    rw [Real.tan_eq_sin_div_cos, div_eq_iff (Real.cos_arctan_pos t).ne'] at this
    linarith
  generalize R.rnd (Real.arctan t) = b at *
  generalize Real.arctan t = a at *
  have c0 : 0 < Real.cos b := Real.cos_pos_of_mem_Ioo ⟨by linarith, b1⟩
  have s0 : 0 < Real.sin b := Real.sin_pos_of_pos_of_lt_pi b0 (by linarith [Real.pi_pos])
  have cl := (Real.abs_cos_sub_cos_le b a).trans ab
  have sl := (Real.abs_sin_sub_sin_le b a).trans ab
  have cr := rel_u R hp (Real.cos b)
  have sr := rel_u R hp (Real.sin b)
  rw [abs_of_pos c0] at cr
  rw [abs_of_pos s0] at sr
  have c1 := Real.cos_le_one b
  have s1 := Real.sin_le_one b
  have u0 : (0 : ℝ) ≤ 1 / 2 ^ p := by positivity
  have cr' : |R.rnd (Real.cos b) - Real.cos b| ≤ 1 / 2 ^ p := cr.trans (by nlinarith)
  have sr' : |R.rnd (Real.sin b) - Real.sin b| ≤ 1 / 2 ^ p := sr.trans (by nlinarith)
  refine ⟨R.pos hp c0, R.le_of_le c1 f1, R.pos hp s0, R.le_of_le s1 f1, ?_⟩
  have e1 : |R.rnd (Real.cos b) - Real.cos a| ≤ 3 / 2 ^ p := by
    have := abs_add_le (R.rnd (Real.cos b) - Real.cos b) (Real.cos b - Real.cos a)
    rw [sub_add_sub_cancel] at this
    refine this.trans ((add_le_add cr' cl).trans (le_of_eq (by ring)))
  have e2 : |R.rnd (Real.sin b) - Real.sin a| ≤ 3 / 2 ^ p := by
    have := abs_add_le (R.rnd (Real.sin b) - Real.sin b) (Real.sin b - Real.sin a)
    rw [sub_add_sub_cancel] at this
    refine this.trans ((add_le_add sr' sl).trans (le_of_eq (by ring)))
  rw [show R.rnd (Real.sin b) - R.rnd (Real.cos b) * t = (R.rnd (Real.sin b) - Real.sin a) - (R.rnd (Real.cos b) - Real.cos a) * t by rw [sc]; ring]
  refine (abs_sub _ _).trans ?_
  rw [abs_mul, abs_of_pos t0]
  have := mul_le_mul_of_nonneg_right e1 t0.le
  linarith

/-- In double precision `pi / 2` is rounded down. -/
theorem C136_trig_double (R : Rounding ℝ 53) : R.rnd (Real.pi / 2) < Real.pi / 2 := by
  have l := Real.pi_gt_d20
  have u := Real.pi_lt_d20
  have fc : IsFp 53 (7074237752028440 / 4503599627370496 : ℝ) := ⟨7074237752028440, -52, by norm_num, by norm_num⟩
  have n := R.nearest (Real.pi / 2) _ fc
  rw [abs_of_pos (a := Real.pi / 2 - 7074237752028440 / 4503599627370496) (by norm_num at l ⊢; linarith)] at n
  have n1 := (abs_le.1 n).1
  have lt : R.rnd (Real.pi / 2) < 7074237752028441 / 4503599627370496 := by norm_num at u ⊢; linarith
  have := (R.mem (Real.pi / 2)).gap (e := 0) lt ⟨7074237752028441, by norm_num⟩ (by norm_num)
  norm_num at this l
  linarith

/-- A pair of rational functions for the examples. -/
def pair (p : ℕ) (t : ℚ) : ℚ × ℚ := (rne p (1 / (1 + t)), rne p (t / (1 + t)))

theorem pair_trig (p : ℕ) (hp : 1 ≤ p) : Trig (2 / 2 ^ p) (pair p) := by
  intro t t0
  have d : 0 < 1 + t := by linarith
  have f1 : IsFp p (1 : ℚ) := by simpa using isFp_pow (K := ℚ) hp 0
  have c0 : 0 < 1 / (1 + t) := by positivity
  have s0 : 0 < t / (1 + t) := by positivity
  have s1 : t / (1 + t) ≤ 1 := by rw [div_le_one d]; linarith
  have e1 := rel_u (ieee ℚ p hp) hp (1 / (1 + t))
  have e2 := rel_u (ieee ℚ p hp) hp (t / (1 + t))
  rw [abs_of_pos c0] at e1
  rw [abs_of_pos s0] at e2
  refine ⟨(ieee ℚ p hp).pos hp c0, (ieee ℚ p hp).le_of_le (by rw [div_le_one d]; linarith) f1, (ieee ℚ p hp).pos hp s0, (ieee ℚ p hp).le_of_le s1 f1, ?_⟩
  change |(ieee ℚ p hp).rnd (t / (1 + t)) - (ieee ℚ p hp).rnd (1 / (1 + t)) * t| ≤ _
  rw [show (ieee ℚ p hp).rnd (t / (1 + t)) - (ieee ℚ p hp).rnd (1 / (1 + t)) * t =
    ((ieee ℚ p hp).rnd (t / (1 + t)) - t / (1 + t)) - ((ieee ℚ p hp).rnd (1 / (1 + t)) - 1 / (1 + t)) * t by ring]
  refine (abs_sub _ _).trans ?_
  rw [abs_mul, abs_of_pos t0]
  have := mul_le_mul_of_nonneg_right e1 t0.le
  have h : 1 / 2 ^ p * (t / (1 + t)) ≤ 1 / 2 ^ p * 1 := mul_le_mul_of_nonneg_left s1 (by positivity)
  have h' : 1 / 2 ^ p * (1 / (1 + t)) * t = 1 / 2 ^ p * (t / (1 + t)) := by ring
  have k : (2 : ℚ) / 2 ^ p * 1 ≤ 2 / 2 ^ p * (1 + t) := mul_le_mul_of_nonneg_left (by linarith) (by positivity)
  have k' : (2 : ℚ) / 2 ^ p * 1 = 2 * (1 / 2 ^ p * 1) := by ring
  linarith

/-- **With too many rays for the precision a ray starts outside the box**: single precision, nine million rays. -/
theorem C136_outside_fails : ∀ fused, ∃ r o, rayParams (ieee ℚ 24 (by norm_num)) (pair 24) 1 (-6151831 / 140737488355328) (1718635 / 8796093022208) false 0 0 (3635219 / 2097152) 1 = some r ∧
    r.nx = 8871700 ∧ r.origin (ieee ℚ 24 (by norm_num)) fused 8871699 = some o ∧ o.1 < 0 := by
  intro fused
  have h : ∀ fused, ((rayParams (ieee ℚ 24 (by norm_num)) (pair 24) 1 (-6151831 / 140737488355328) (1718635 / 8796093022208) false 0 0 (3635219 / 2097152) 1).any fun r =>
      r.nx == 8871700 && (r.origin (ieee ℚ 24 (by norm_num)) fused 8871699).any fun o => o.1 < 0) = true := by
    intro fused
    cases fused <;> decide +kernel
  have h := h fused
  rw [Option.any_eq_true] at h
  obtain ⟨r, h1, h2⟩ := h
  rw [Bool.and_eq_true, Option.any_eq_true] at h2
  obtain ⟨h2, o, h3, h4⟩ := h2
  exact ⟨r, o, h1, by simpa using h2, h3, by simpa using h4⟩

/-- **Rays coincide if the spacing is below the precision of the coordinates**: eight rays in double precision on an edge with five numbers. -/
theorem C136_same_fails : ∀ fused, ∃ r o, rayParams (ieee ℚ 53 (by norm_num)) (pair 53) 1 (4967757600021511 / 81129638414606681695789005144064) (1 / 2 ^ 53) false 1 0 (1 + 1 / 2 ^ 50) 1 = some r ∧
    r.nx = 8 ∧ r.origin (ieee ℚ 53 (by norm_num)) fused 1 = some o ∧ r.origin (ieee ℚ 53 (by norm_num)) fused 2 = some o := by
  intro fused
  have h : ∀ fused, ((rayParams (ieee ℚ 53 (by norm_num)) (pair 53) 1 (4967757600021511 / 81129638414606681695789005144064) (1 / 2 ^ 53) false 1 0 (1 + 1 / 2 ^ 50) 1).any fun r =>
      r.nx == 8 && (r.origin (ieee ℚ 53 (by norm_num)) fused 1).any fun o => r.origin (ieee ℚ 53 (by norm_num)) fused 2 == some o) = true := by
    intro fused
    cases fused <;> decide +kernel
  have h := h fused
  rw [Option.any_eq_true] at h
  obtain ⟨r, h1, h2⟩ := h
  rw [Bool.and_eq_true, Option.any_eq_true] at h2
  obtain ⟨h2, o, h3, h4⟩ := h2
  exact ⟨r, o, h1, by simpa using h2, h3, by simpa using h4⟩

/-- The hypotheses are met: the cell of a fuel pin in double precision, sixty degrees, a spacing of 0.05; and the right angle. -/
example : Trig (2 / 2 ^ 53) (pair 53) ∧
    (∃ r, rayParams (ieee ℚ 53 (by norm_num)) (pair 53) (rne 53 (8660254037844386 / 10 ^ 16)) (rne 53 (1 / 2)) (rne 53 (5 / 100)) false 0 0 (rne 53 (126 / 100)) (rne 53 (126 / 100)) = some r ∧
      r.nx = (22 : ℕ) ∧ r.ny = (13 : ℕ)) ∧ 8 * (22 + 13) ≤ 2 ^ 53 ∧
    ∃ r, rayParams (ieee ℚ 53 (by norm_num)) (pair 53) 1 (4967757600021511 / 81129638414606681695789005144064) (rne 53 (5 / 100)) false 0 0 (rne 53 (126 / 100)) (rne 53 (126 / 100)) = some r ∧
      r.nx = (26 : ℕ) ∧ r.ny = (1 : ℕ) := by
  refine ⟨pair_trig 53 (by norm_num), ?_, by norm_num, ?_⟩
  · have h : ((rayParams (ieee ℚ 53 (by norm_num)) (pair 53) (rne 53 (8660254037844386 / 10 ^ 16)) (rne 53 (1 / 2)) (rne 53 (5 / 100)) false 0 0 (rne 53 (126 / 100))
        (rne 53 (126 / 100))).any fun r => r.nx == 22 && r.ny == 13) = true := by decide +kernel
    rw [Option.any_eq_true] at h
    obtain ⟨r, h1, h2⟩ := h
    rw [Bool.and_eq_true] at h2
    exact ⟨r, h1, by simpa using h2.1, by simpa using h2.2⟩
  · have h : ((rayParams (ieee ℚ 53 (by norm_num)) (pair 53) 1 (4967757600021511 / 81129638414606681695789005144064) (rne 53 (5 / 100)) false 0 0 (rne 53 (126 / 100)) (rne 53 (126 / 100))).any fun r =>
        r.nx == 26 && r.ny == 1) = true := by decide +kernel
    rw [Option.any_eq_true] at h
    obtain ⟨r, h1, h2⟩ := h
    rw [Bool.and_eq_true] at h2
    exact ⟨r, h1, by simpa using h2.1, by simpa using h2.2⟩

end Verif.FpRaysP
