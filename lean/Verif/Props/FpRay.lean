import Verif.Lemmas.FpRay
import Mathlib.Data.Rat.Floor

/-! C128: intersections of rays with segments and polygons in floating-point arithmetic. -/

set_option linter.unusedSectionVars false

namespace Verif.FpRayP

open Verif.Fp

variable {K : Type} [Field K] [LinearOrder K] [IsStrictOrderedRing K] [FloorRing K] {p : ℕ} (R : Rounding K p)

/-- The point at parameter `s` of the segment from `a` to `b`, in exact arithmetic, is the point at parameter `r` of the ray from `o` along `d`. -/
def Meet (a b o d : P2 K) (s r : K) : Prop := a.1 + s * (b.1 - a.1) = o.1 + r * d.1 ∧ a.2 + s * (b.2 - a.2) = o.2 + r * d.2

/-- The segment and the ray are parallel. -/
def Parallel (a b d : P2 K) : Prop := (b.1 - a.1) * d.2 = (b.2 - a.2) * d.1

/-- The first point that the computation sees: the differences of coordinates are rounded. -/
def seenA (a o : P2 K) : P2 K := (o.1 - R.rnd (o.1 - a.1), o.2 - R.rnd (o.2 - a.2))

/-- The second point that the computation sees. -/
def seenB (a b o : P2 K) : P2 K := ((seenA R a o).1 + R.rnd (b.1 - a.1), (seenA R a o).2 + R.rnd (b.2 - a.2))

/-- The segment seen is near the given one: one rounding of the distance to the origin of the ray, and one of the length, coordinate by coordinate. -/
theorem C128_seen (hp : 1 ≤ p) (a b o : P2 K) :
    |(seenA R a o).1 - a.1| ≤ 1 / 2 ^ p * |o.1 - a.1| ∧ |(seenA R a o).2 - a.2| ≤ 1 / 2 ^ p * |o.2 - a.2| ∧
    |(seenB R a b o).1 - b.1| ≤ 1 / 2 ^ p * |o.1 - a.1| + 1 / 2 ^ p * |b.1 - a.1| ∧
    |(seenB R a b o).2 - b.2| ≤ 1 / 2 ^ p * |o.2 - a.2| + 1 / 2 ^ p * |b.2 - a.2| := by
  have k : ∀ x y : K, |x - R.rnd (x - y) - y| ≤ 1 / 2 ^ p * |x - y| := fun x y => by
    have := rel_u R hp (x - y)
    rw [abs_sub_comm] at this
    rwa [show x - R.rnd (x - y) - y = x - y - R.rnd (x - y) by ring]
  have k2 : ∀ x y z : K, |x - R.rnd (x - y) + R.rnd (z - y) - z| ≤ 1 / 2 ^ p * |x - y| + 1 / 2 ^ p * |z - y| := fun x y z => by
    have h1 := k x y
    have h2 := rel_u R hp (z - y)
    rw [show x - R.rnd (x - y) + R.rnd (z - y) - z = (x - R.rnd (x - y) - y) + (R.rnd (z - y) - (z - y)) by ring]
    exact (abs_add_le _ _).trans (add_le_add h1 h2)
  exact ⟨k _ _, k _ _, k2 _ _ _, k2 _ _ _⟩

/-- The segment seen is the given one if the differences of coordinates are numbers of the format. -/
theorem C128_seen_exact {a b o : P2 K} (h1 : IsFp p (o.1 - a.1)) (h2 : IsFp p (o.2 - a.2)) (h3 : IsFp p (b.1 - a.1)) (h4 : IsFp p (b.2 - a.2)) :
    seenA R a o = a ∧ seenB R a b o = b := by
  have e : seenA R a o = a := by
    unfold seenA
    rw [R.id h1, R.id h2]
    ext <;> simp
  refine ⟨e, ?_⟩
  unfold seenB
  rw [e, R.id h3, R.id h4]
  ext <;> simp

theorem meet_iff {u v d : P2 K} {s r : K} (hz : exactCross v d ≠ 0) :
    (-u.1 + s * v.1 = r * d.1 ∧ -u.2 + s * v.2 = r * d.2) ↔ s = exactCross u d / exactCross v d ∧ r = exactCross u v / exactCross v d := by
  rw [eq_div_iff hz, eq_div_iff hz]
  unfold exactCross at *
  constructor
  · rintro ⟨h1, h2⟩
    exact ⟨by linear_combination d.2 * h1 - d.1 * h2, by linear_combination v.2 * h1 - v.1 * h2⟩
  · rintro ⟨h1, h2⟩
    constructor
    · refine mul_right_cancel₀ hz ?_
      linear_combination v.1 * h1 - d.1 * h2
    · refine mul_right_cancel₀ hz ?_
      linear_combination v.2 * h1 - d.2 * h2

theorem meet_seen {a b o d : P2 K} {s r : K} (hz : exactCross (sub R b a) d ≠ 0) :
    Meet (seenA R a o) (seenB R a b o) o d s r ↔
    s = exactCross (sub R o a) d / exactCross (sub R b a) d ∧ r = exactCross (sub R o a) (sub R b a) / exactCross (sub R b a) d := by
  rw [← meet_iff hz]
  unfold Meet seenB seenA sub
  simp only
  constructor
  · rintro ⟨h1, h2⟩
    exact ⟨by linear_combination h1, by linear_combination h2⟩
  · rintro ⟨h1, h2⟩
    exact ⟨by linear_combination h1, by linear_combination h2⟩

theorem parallel_seen {a b o d : P2 K} : Parallel (seenA R a o) (seenB R a b o) d ↔ exactCross (sub R b a) d = 0 := by
  unfold Parallel seenB exactCross sub
  simp only
  rw [add_sub_cancel_left, add_sub_cancel_left, sub_eq_zero]

/-- A parallel segment is never hit. -/
theorem C128_parallel (hp : 2 ≤ p) {a b o d : P2 K} (hd : IsFp p d.1 ∧ IsFp p d.2) (h : Parallel (seenA R a o) (seenB R a b o) d) : segIntersect R a b o d = none := by
  unfold segIntersect
  exact if_pos ((cross_zero R hp (sub_mem R b a) hd).2 ((parallel_seen R).1 h))

/-- What a hit means: the ray meets the line of the segment, from its first point to at most nine roundings past the second, and not behind the origin;
the value written is the parameter of the ray, with a relative error of nine roundings. -/
theorem C128_hit (hp : 5 ≤ p) {a b o d : P2 K} {t : K} (hd : IsFp p d.1 ∧ IsFp p d.2) (h : segIntersect R a b o d = some t) :
    ¬ Parallel (seenA R a o) (seenB R a b o) d ∧
    ∃ s r, Meet (seenA R a o) (seenB R a b o) o d s r ∧ 0 ≤ s ∧ s * (1 - 9 / 2 ^ p) ≤ 1 ∧ 0 ≤ r ∧ 0 ≤ t ∧ |t - r| ≤ 9 / 2 ^ p * r := by
  unfold segIntersect at h
  dsimp only at h
  have hz := cross_zero R (by omega) (sub_mem R b a) hd
  split at h
  · cases h
  rename_i z
  split at h
  · rename_i c
    have nz : exactCross (sub R b a) d ≠ 0 := fun c => z (hz.2 c)
    cases h
    rw [parallel_seen]
    refine ⟨nz, _, _, (meet_seen R nz).2 ⟨rfl, rfl⟩, ?_⟩
    have s0 := (ratio_nonneg R (by omega) (sub_mem R o a) hd (sub_mem R b a) hd).1 c.1
    have r0 := (ratio_nonneg R (by omega) (sub_mem R o a) (sub_mem R b a) (sub_mem R b a) hd).1 c.2.2
    have es := ratio_error R hp (sub_mem R o a) hd (sub_mem R b a) hd nz
    have er := ratio_error R hp (sub_mem R o a) (sub_mem R b a) (sub_mem R b a) hd nz
    rw [abs_of_nonneg s0] at es
    rw [abs_of_nonneg r0] at er
    refine ⟨s0, ?_, r0, c.2.2, er⟩
    have := (abs_le.1 es).1
    have := c.2.1
    rw [mul_sub, mul_one, mul_comm _ (9 / 2 ^ p : K)]
    linarith
  · cases h

/-- When there is a hit: whenever the ray meets the segment, its first point included, at least nine roundings before the second point.  In particular a ray through
a vertex hits the edge that starts there. -/
theorem C128_complete (hp : 5 ≤ p) {a b o d : P2 K} {s r : K} (hd : IsFp p d.1 ∧ IsFp p d.2) (hz : ¬ Parallel (seenA R a o) (seenB R a b o) d)
    (h : Meet (seenA R a o) (seenB R a b o) o d s r) (s0 : 0 ≤ s) (s1 : s * (1 + 9 / 2 ^ p) ≤ 1) (r0 : 0 ≤ r) :
    ∃ t, segIntersect R a b o d = some t ∧ |t - r| ≤ 9 / 2 ^ p * r := by
  rw [parallel_seen] at hz
  obtain ⟨rfl, rfl⟩ := (meet_seen R hz).1 h
  have z : ¬ cross R (sub R b a) d = 0 := fun c => hz ((cross_zero R (by omega) (sub_mem R b a) hd).1 c)
  have es := ratio_error R hp (sub_mem R o a) hd (sub_mem R b a) hd hz
  have er := ratio_error R hp (sub_mem R o a) (sub_mem R b a) (sub_mem R b a) hd hz
  have k0 := (ratio_nonneg R (by omega) (sub_mem R o a) hd (sub_mem R b a) hd).2 s0
  have k1 := (ratio_nonneg R (by omega) (sub_mem R o a) (sub_mem R b a) (sub_mem R b a) hd).2 r0
  rw [abs_of_nonneg s0] at es
  rw [abs_of_nonneg r0] at er
  have k2 : R.rnd (cross R (sub R o a) d / cross R (sub R b a) d) ≤ 1 := by
    have := (abs_le.1 es).2
    rw [mul_add, mul_one, mul_comm _ (9 / 2 ^ p : K)] at s1
    linarith
  refine ⟨_, ?_, er⟩
  unfold segIntersect
  dsimp only
  rw [if_neg z, if_pos ⟨k0, k2, k1⟩]

/-- When there is none: a ray whose line passes before the first point of the segment, or that meets the line of the segment behind its origin, is never a hit. -/
theorem C128_miss (hp : 5 ≤ p) {a b o d : P2 K} {s r : K} (hd : IsFp p d.1 ∧ IsFp p d.2) (hz : ¬ Parallel (seenA R a o) (seenB R a b o) d)
    (h : Meet (seenA R a o) (seenB R a b o) o d s r) (hm : s < 0 ∨ r < 0 ∨ 1 < s * (1 - 9 / 2 ^ p)) : segIntersect R a b o d = none := by
  cases c : segIntersect R a b o d with
  | none => rfl
  | some t =>
    obtain ⟨_, s', r', h', a1, a2, a3, _⟩ := C128_hit R hp hd c
    rw [parallel_seen] at hz
    obtain ⟨e1, e2⟩ := (meet_seen R hz).1 h
    obtain ⟨e3, e4⟩ := (meet_seen R hz).1 h'
    rw [← e1] at e3
    rw [← e2] at e4
    subst e3 e4
    rcases hm with hm | hm | hm
    · exact absurd a1 (not_le.2 hm)
    · exact absurd a3 (not_le.2 hm)
    · exact absurd a2 (not_le.2 hm)

/-- The hits of a polygon are those of its edges, in order, and no more than one for each: a buffer of `vs.length` values is enough. -/
theorem C128_polygon (vs : List (P2 K)) (o d : P2 K) :
    (polyIntersect R vs o d).length ≤ vs.length ∧
    ∀ t, t ∈ polyIntersect R vs o d ↔ ∃ i, ∃ h : i < vs.length, segIntersect R vs[i] (vs[(i + 1) % vs.length]'(Nat.mod_lt _ (by omega))) o d = some t := by
  unfold polyIntersect
  constructor
  · have k : ∀ es : List (P2 K × P2 K), (es.flatMap fun e => (segIntersect R e.1 e.2 o d).toList).length ≤ es.length := by
      intro es
      induction es with
      | nil => simp
      | cons e es ih =>
        rw [List.flatMap_cons, List.length_append, List.length_cons]
        have : (segIntersect R e.1 e.2 o d).toList.length ≤ 1 := by
          cases segIntersect R e.1 e.2 o d <;> simp
        omega
    refine (k _).trans ?_
    simp
  · intro t
    rw [List.mem_flatMap]
    constructor
    · rintro ⟨e, he, ht⟩
      obtain ⟨i, hi, rfl⟩ := List.getElem_of_mem he
      rw [List.length_zip, List.length_rotate, min_self] at hi
      refine ⟨i, hi, ?_⟩
      simpa [List.getElem_rotate] using ht
    · rintro ⟨i, hi, ht⟩
      refine ⟨(vs.zip (vs.rotate 1))[i]'(by simpa using hi), List.getElem_mem _, ?_⟩
      simpa [List.getElem_rotate] using ht

/-- A ray may enter a triangle without a hit: it passes through the interior, crosses two edges well inside the numbers that `double` represents exactly,
and only the exit is found, since the entry is within nine roundings of the end of an edge. -/
theorem C128_leak_fails : ∃ a b c o d : P2 ℚ,
    (∀ x ∈ [a, b, c, o, d], ∃ m n : ℤ, |m| < 2 ^ 32 ∧ |n| < 2 ^ 32 ∧ x = ((m : ℚ), (n : ℚ))) ∧
    (∃ s r, Meet a b o d s r ∧ 0 < s ∧ s < 1 ∧ 0 < r ∧ ¬ Parallel a b d) ∧
    (∃ s r, Meet b c o d s r ∧ 0 < s ∧ s < 1 ∧ 0 < r ∧ ¬ Parallel b c d) ∧
    segIntersect (ieee ℚ 53 (by norm_num)) a b o d = none ∧ (polyIntersect (ieee ℚ 53 (by norm_num)) [a, b, c] o d).length = 1 := by
  refine ⟨(398771, 14173430), (3099540, 6236172), (2753859, 14534355), (-76004125, 3253955), (3991091897, 150464610), ?_, ?_, ?_, ?_, ?_⟩
  · intro x hx
    simp only [List.mem_cons, List.not_mem_nil, or_false] at hx
    rcases hx with rfl | rfl | rfl | rfl | rfl
    · exact ⟨398771, 14173430, by norm_num, by norm_num, by norm_num⟩
    · exact ⟨3099540, 6236172, by norm_num, by norm_num, by norm_num⟩
    · exact ⟨2753859, 14534355, by norm_num, by norm_num, by norm_num⟩
    · exact ⟨-76004125, 3253955, by norm_num, by norm_num, by norm_num⟩
    · exact ⟨3991091897, 150464610, by norm_num, by norm_num, by norm_num⟩
  · refine ⟨32084696242483515 / 32084696242483516, 635920477075443 / 32084696242483516, ?_⟩
    unfold Meet Parallel
    norm_num
  · refine ⟨1 / 33170823687972561, 219149194631824 / 11056941229324187, ?_⟩
    unfold Meet Parallel
    norm_num
  · decide +kernel
  · decide +kernel

/-- A ray through a triangle with a third as a parameter; a vertex is hit by the edge that starts there. -/
example : polyIntersect (ieee ℚ 53 (by norm_num)) [(0, 0), (3, 0), (0, 3)] (1, -1) (0, 3) = [rne 53 (1 / 3), 1] ∧
    segIntersect (ieee ℚ 53 (by norm_num)) (0, 0) (3, 0) (0, -1) (0, 3) = some (rne 53 (1 / 3)) ∧ ¬ Parallel (seenA (ieee ℚ 53 (by norm_num)) (0, 0) (0, -1)) (seenB (ieee ℚ 53 (by norm_num)) (0, 0) (3, 0) (0, -1)) (0, 3) := by
  unfold Parallel
  decide +kernel

end Verif.FpRayP
