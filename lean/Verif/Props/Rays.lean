import Verif.Model.Rays
import Mathlib.Tactic.FieldSimp
import Mathlib.Tactic.LinearCombination
import Mathlib.Tactic.Linarith
import Mathlib.Tactic.Positivity
import Mathlib.Tactic.SplitIfs

/-!
# C34: modular rays tile the box
-/

namespace Verif.Rays

/-- What the constructor guarantees, in terms of the arguments. -/
theorem mk_spec {a s x0 y0 x1 y1 : ℝ} {p : Params} (hw : x0 < x1) (hh : y0 < y1)
    (e : mk a s x0 y0 x1 y1 = some p) :
    p.x0 = x0 ∧ p.y0 = y0 ∧ p.x1 = x1 ∧ p.y1 = y1 ∧ 0 < p.nx ∧ 0 < p.ny ∧
      p.nx = ⌈|(x1 - x0) * Real.sin a / s|⌉ ∧ p.ny = ⌈|(y1 - y0) * Real.cos a / s|⌉ ∧
      p.dx = (x1 - x0) / p.nx ∧ p.dy = (y1 - y0) / p.ny ∧
      0 < p.uy ∧ p.ux ^ 2 + p.uy ^ 2 = 1 ∧
      (a ≤ Real.pi / 2 → 0 < p.ux ∧ p.uy * p.dx = p.ux * p.dy) ∧
      (Real.pi / 2 < a → p.ux < 0 ∧ p.uy * p.dx = -p.ux * p.dy) := by
  unfold mk at e
  split_ifs at e with h1 h2 h3 h8
  all_goals
    dsimp only at e
    obtain ⟨nx, ex, e⟩ := Option.bind_eq_some_iff.1 e
    obtain ⟨ny, ey, e⟩ := Option.bind_eq_some_iff.1 e
    replace ex := chk_eq ex
    replace ey := chk_eq ey
    by_cases h6 : nx > 0
    swap
    · rw [if_pos h6] at e; exact absurd e (by simp)
    by_cases h7 : ny > 0
    swap
    · rw [if_neg (not_not.2 h6), if_pos h7] at e; exact absurd e (by simp)
    rw [if_neg (not_not.2 h6), if_neg (not_not.2 h7), Option.some.injEq] at e
    subst e
    have nxr : (0 : ℝ) < nx := by exact_mod_cast h6
    have nyr : (0 : ℝ) < ny := by exact_mod_cast h7
    have dxp : 0 < (x1 - x0) / nx := div_pos (by linarith) nxr
    have dyp : 0 < (y1 - y0) / ny := div_pos (by linarith) nyr
    have key : Real.sin (Real.arctan ((y1 - y0) / ny / ((x1 - x0) / nx))) * ((x1 - x0) / nx) =
        Real.cos (Real.arctan ((y1 - y0) / ny / ((x1 - x0) / nx))) * ((y1 - y0) / ny) := by
      have t := Real.tan_arctan ((y1 - y0) / ny / ((x1 - x0) / nx))
      rw [Real.tan_eq_sin_div_cos, div_eq_div_iff (Real.cos_arctan_pos _).ne' dxp.ne'] at t
      linarith
    have sp : 0 < Real.sin (Real.arctan ((y1 - y0) / ny / ((x1 - x0) / nx))) := by
      have := mul_pos (Real.cos_arctan_pos ((y1 - y0) / ny / ((x1 - x0) / nx))) dyp
      rw [← key] at this
      exact pos_of_mul_pos_left this dxp.le
    have cp := Real.cos_arctan_pos ((y1 - y0) / ny / ((x1 - x0) / nx))
    refine ⟨rfl, rfl, rfl, rfl, h6, h7, ex.symm, ey.symm, rfl, rfl, sp, ?_, ?_, ?_⟩
    · have := Real.sin_sq_add_cos_sq (Real.arctan ((y1 - y0) / ny / ((x1 - x0) / nx)))
      linear_combination this
    · intro ha
      first
        | exact absurd h8 (not_lt.2 ha)
        | exact And.intro cp key
    · intro ha
      first
        | exact absurd ha h8
        | exact ⟨by linarith, by linarith⟩

/-- The constructor is defined for every angle other than π/2, as long as the counts fit in `Int`. -/
theorem C34_defined {a s x0 y0 x1 y1 : ℝ} (hw : x0 < x1) (hh : y0 < y1) (ha : 0 < a)
    (ha' : a < Real.pi) (hne : a ≠ Real.pi / 2) (hs : 0 < s)
    (bx : (x1 - x0) / s ≤ 2147483647) (by' : (y1 - y0) / s ≤ 2147483647) :
    (mk a s x0 y0 x1 y1).isSome := by
  have sp : 0 < Real.sin a := Real.sin_pos_of_pos_of_lt_pi ha ha'
  have cn : Real.cos a ≠ 0 := by
    intro hc
    rcases lt_or_gt_of_ne hne with h | h
    · exact (Real.cos_pos_of_mem_Ioo ⟨by linarith, h⟩).ne' hc
    · exact (Real.cos_neg_of_pi_div_two_lt_of_lt h (by linarith [Real.pi_pos])).ne hc
  have range : ∀ {l c : ℝ}, 0 < l → |c| ≤ 1 → c ≠ 0 → l / s ≤ 2147483647 →
      0 < ⌈|l * c / s|⌉ ∧ ⌈|l * c / s|⌉ ≤ 2147483647 := by
    intro l c hl hc hc0 hb
    constructor
    · rw [Int.ceil_pos]; exact abs_pos.2 (div_ne_zero (mul_ne_zero hl.ne' hc0) hs.ne')
    · rw [Int.ceil_le]
      have : |l * c / s| = (l / s) * |c| := by
        rw [abs_div, abs_mul, abs_of_pos hl, abs_of_pos hs]; ring
      rw [this]
      push_cast
      calc (l / s) * |c| ≤ (l / s) * 1 := mul_le_mul_of_nonneg_left hc (div_pos hl hs).le
        _ ≤ _ := by linarith
  obtain ⟨px, qx⟩ := range (l := x1 - x0) (c := Real.sin a) (by linarith) (Real.abs_sin_le_one a) sp.ne' bx
  obtain ⟨py, qy⟩ := range (l := y1 - y0) (c := Real.cos a) (by linarith) (Real.abs_cos_le_one a) cn by'
  unfold mk
  rw [if_neg (not_not.2 ha), if_neg (not_not.2 ha'), if_neg (not_not.2 hs)]
  dsimp only
  rw [chk, if_pos ⟨by omega, qx⟩, chk, if_pos ⟨by omega, qy⟩]
  simp only [Option.bind_some]
  rw [if_neg (not_not.2 px), if_neg (not_not.2 py)]
  rfl

/-- With exact arithmetic the angle π/2 itself asks for zero rays on the side edges, which the
constructor does not support (`ASSERT`, modular_rays.hpp 94). -/
theorem C34_right_angle_undefined (s x0 y0 x1 y1 : ℝ) : mk (Real.pi / 2) s x0 y0 x1 y1 = none := by
  unfold mk
  have : ⌈|(y1 - y0) * Real.cos (Real.pi / 2) / s|⌉ = 0 := by rw [Real.cos_pi_div_two]; simp
  dsimp only
  rw [this, show chk 0 = some 0 from rfl]
  simp

/-- There are `nx + ny` rays; the first `nx` start on the bottom edge, `w / nx` apart from one another and half
a spacing from the corners; the others start on the side edge the rays leave from (left when they go
right, right when they go left), `h / ny` apart.  Origins are never corners. -/
theorem C34_origins {a s x0 y0 x1 y1 : ℝ} {p : Params} (hw : x0 < x1) (hh : y0 < y1)
    (e : mk a s x0 y0 x1 y1 = some p) (i : ℤ) :
    (p.origin i = none ↔ p.total ≤ i) ∧
    (0 ≤ i → i < p.nx → ∃ x, p.origin i = some (x, y0) ∧ x0 < x ∧ x < x1 ∧
      x = (if a ≤ Real.pi / 2 then x1 - (x1 - x0) * (2 * i + 1) / (2 * p.nx)
           else x0 + (x1 - x0) * (2 * i + 1) / (2 * p.nx))) ∧
    (p.nx ≤ i → i < p.total → ∃ y,
      p.origin i = some (if a ≤ Real.pi / 2 then x0 else x1, y) ∧ y0 < y ∧ y < y1 ∧
      y = y0 + (y1 - y0) * (2 * (i - p.nx) + 1) / (2 * p.ny)) := by
  obtain ⟨rfl, rfl, rfl, rfl, px, py, -, -, ex, ey, -, -, l1, l2⟩ := mk_spec hw hh e
  have nxr : (0 : ℝ) < p.nx := by exact_mod_cast px
  have nyr : (0 : ℝ) < p.ny := by exact_mod_cast py
  refine ⟨?_, ?_, ?_⟩
  · unfold Params.origin Params.total
    by_cases hi : i < p.nx + p.ny
    · rw [if_neg (not_not.2 hi)]
      dsimp only
      constructor
      · intro h; split at h <;> exact absurd h (by simp)
      · intro h; omega
    · rw [if_pos hi]; simp; omega
  · intro h0 h1
    have i0 : (0 : ℝ) ≤ i := by exact_mod_cast h0
    have i1 : (i : ℝ) + 1 ≤ p.nx := by exact_mod_cast h1
    have q0 : 0 < (p.x1 - p.x0) * (2 * i + 1) / (2 * p.nx) :=
      div_pos (mul_pos (by linarith) (by linarith)) (by linarith)
    have q1 : (p.x1 - p.x0) * (2 * i + 1) / (2 * p.nx) < p.x1 - p.x0 := by
      rw [div_lt_iff₀ (by linarith)]
      exact mul_lt_mul_of_pos_left (by linarith) (by linarith)
    unfold Params.origin
    rw [if_neg (not_not.2 (by omega : i < p.nx + p.ny))]
    dsimp only
    rw [decide_eq_true h1]
    by_cases ha : a ≤ Real.pi / 2
    · rw [decide_eq_false (not_lt.2 (l1 ha).1.le), if_pos ha]
      refine ⟨_, ?_, ?_, ?_, rfl⟩
      · simp only [Option.some.injEq, Prod.mk.injEq, and_true]
        rw [ex]; field_simp
      · linarith
      · linarith
    · rw [decide_eq_true (l2 (not_le.1 ha)).1, if_neg ha]
      refine ⟨_, ?_, ?_, ?_, rfl⟩
      · simp only [Option.some.injEq, Prod.mk.injEq, and_true]
        rw [ex]; field_simp
      · linarith
      · linarith
  · intro h0 h1
    unfold Params.total at h1
    have i0 : (0 : ℝ) ≤ i - p.nx := by have : (p.nx : ℝ) ≤ i := by exact_mod_cast h0
                                       linarith
    have i1 : (i : ℝ) + 1 ≤ p.nx + p.ny := by exact_mod_cast h1
    have q0 : 0 < (p.y1 - p.y0) * (2 * (i - p.nx) + 1) / (2 * p.ny) :=
      div_pos (mul_pos (by linarith) (by linarith)) (by linarith)
    have q1 : (p.y1 - p.y0) * (2 * (i - p.nx) + 1) / (2 * p.ny) < p.y1 - p.y0 := by
      rw [div_lt_iff₀ (by linarith)]
      exact mul_lt_mul_of_pos_left (by linarith) (by linarith)
    unfold Params.origin
    rw [if_neg (not_not.2 h1)]
    dsimp only
    rw [decide_eq_false (not_lt.2 h0)]
    by_cases ha : a ≤ Real.pi / 2
    · rw [decide_eq_false (not_lt.2 (l1 ha).1.le), if_pos ha]
      refine ⟨_, ?_, ?_, ?_, rfl⟩
      · simp only [Option.some.injEq, Prod.mk.injEq, true_and]
        rw [ey]; field_simp; ring
      · linarith
      · linarith
    · rw [decide_eq_true (l2 (not_le.1 ha)).1, if_neg ha]
      refine ⟨_, ?_, ?_, ?_, rfl⟩
      · simp only [Option.some.injEq, Prod.mk.injEq, true_and]
        rw [ey]; field_simp; ring
      · linarith
      · linarith

/-- Consecutive rays (also around the corner) are the same perpendicular distance apart:
`(w / nx) · uy`, for the unit direction `(ux, uy)` which points upwards and, for an angle below π/2,
to the right, above π/2 to the left. -/
theorem C34_spacing {a s x0 y0 x1 y1 : ℝ} {p : Params} (hw : x0 < x1) (hh : y0 < y1)
    (e : mk a s x0 y0 x1 y1 = some p) :
    p.ux ^ 2 + p.uy ^ 2 = 1 ∧ 0 < p.uy ∧ (a ≤ Real.pi / 2 → 0 < p.ux) ∧ (Real.pi / 2 < a → p.ux < 0) ∧
    ∀ i o o', 0 ≤ i → p.origin i = some o → p.origin (i + 1) = some o' →
      |p.ux * (o'.2 - o.2) - p.uy * (o'.1 - o.1)| = (x1 - x0) / p.nx * p.uy := by
  obtain ⟨rfl, rfl, rfl, rfl, px, py, -, -, ex, ey, up, un, l1, l2⟩ := mk_spec hw hh e
  have nxr : (0 : ℝ) < p.nx := by exact_mod_cast px
  have nyr : (0 : ℝ) < p.ny := by exact_mod_cast py
  refine ⟨un, up, fun h => (l1 h).1, fun h => (l2 h).1, ?_⟩
  intro i o o' h0 eo eo'
  have pos : 0 < (p.x1 - p.x0) / p.nx * p.uy := mul_pos (div_pos (by linarith) nxr) up
  rw [← ex] at pos ⊢
  have wx : p.x1 - p.x0 = p.dx * p.nx := by rw [ex]; field_simp
  unfold Params.origin at eo eo'
  split_ifs at eo eo' with hi hi'
  dsimp only at eo eo'
  by_cases ha : a ≤ Real.pi / 2
  · obtain ⟨q1, q2⟩ := l1 ha
    rw [decide_eq_false (not_lt.2 q1.le)] at eo eo'
    rcases lt_trichotomy (i + 1) p.nx with h | h | h
    · rw [decide_eq_true (by omega)] at eo
      rw [decide_eq_true h] at eo'
      cases eo; cases eo'
      dsimp only
      push_cast
      rw [show p.ux * (p.y0 - p.y0) - p.uy * (p.x1 - p.dx * ((i : ℝ) + 1 + 1 / 2) - (p.x1 - p.dx * (i + 1 / 2))) =
        p.dx * p.uy by ring, abs_of_pos pos]
    · rw [decide_eq_true (by omega)] at eo
      rw [decide_eq_false (by omega)] at eo'
      cases eo; cases eo'
      have hr : (p.nx : ℝ) = i + 1 := by exact_mod_cast h.symm
      dsimp only
      push_cast
      rw [show p.ux * (p.y0 + p.dy * ((i : ℝ) + 1 + 1 / 2 - p.nx) - p.y0) -
        p.uy * (p.x0 - (p.x1 - p.dx * (i + 1 / 2))) = p.dx * p.uy by
          rw [hr] at wx ⊢; linear_combination p.uy * wx - q2 / 2, abs_of_pos pos]
    · rw [decide_eq_false (by omega)] at eo
      rw [decide_eq_false (by omega)] at eo'
      cases eo; cases eo'
      dsimp only
      push_cast
      rw [show p.ux * (p.y0 + p.dy * ((i : ℝ) + 1 + 1 / 2 - p.nx) - (p.y0 + p.dy * ((i : ℝ) + 1 / 2 - p.nx))) -
        p.uy * (p.x0 - p.x0) = p.dx * p.uy by linear_combination -q2, abs_of_pos pos]
  · obtain ⟨q1, q2⟩ := l2 (not_le.1 ha)
    rw [decide_eq_true q1] at eo eo'
    rcases lt_trichotomy (i + 1) p.nx with h | h | h
    · rw [decide_eq_true (by omega)] at eo
      rw [decide_eq_true h] at eo'
      cases eo; cases eo'
      dsimp only
      push_cast
      rw [show p.ux * (p.y0 - p.y0) - p.uy * (p.x0 + p.dx * ((i : ℝ) + 1 + 1 / 2) - (p.x0 + p.dx * (i + 1 / 2))) =
        -(p.dx * p.uy) by ring, abs_neg, abs_of_pos pos]
    · rw [decide_eq_true (by omega)] at eo
      rw [decide_eq_false (by omega)] at eo'
      cases eo; cases eo'
      have hr : (p.nx : ℝ) = i + 1 := by exact_mod_cast h.symm
      dsimp only
      push_cast
      rw [show p.ux * (p.y0 + p.dy * ((i : ℝ) + 1 + 1 / 2 - p.nx) - p.y0) -
        p.uy * (p.x1 - (p.x0 + p.dx * (i + 1 / 2))) = -(p.dx * p.uy) by
          rw [hr] at wx ⊢; linear_combination -p.uy * wx + q2 / 2, abs_neg, abs_of_pos pos]
    · rw [decide_eq_false (by omega)] at eo
      rw [decide_eq_false (by omega)] at eo'
      cases eo; cases eo'
      dsimp only
      push_cast
      rw [show p.ux * (p.y0 + p.dy * ((i : ℝ) + 1 + 1 / 2 - p.nx) - (p.y0 + p.dy * ((i : ℝ) + 1 / 2 - p.nx))) -
        p.uy * (p.x1 - p.x1) = -(p.dx * p.uy) by linear_combination q2, abs_neg, abs_of_pos pos]

/-- The rays are cyclic.  Ray `i` runs strictly inside the box until it leaves it, through the far side
edge if `i < ny` and through the top edge otherwise, at the point where ray `(i + nx) mod (nx + ny)` of
the module behind that edge starts (the same module shifted by the width or the height). -/
theorem C34_cyclic {a s x0 y0 x1 y1 : ℝ} {p : Params} (hw : x0 < x1) (hh : y0 < y1)
    (e : mk a s x0 y0 x1 y1 = some p) (i : ℤ) (h0 : 0 ≤ i) (hi : i < p.total) :
    ∃ o o' t, p.origin i = some o ∧ p.origin ((i + p.nx) % p.total) = some o' ∧ 0 < t ∧
      (∀ r, 0 < r → r < t → x0 < o.1 + r * p.ux ∧ o.1 + r * p.ux < x1 ∧
        y0 < o.2 + r * p.uy ∧ o.2 + r * p.uy < y1) ∧
      o.1 + t * p.ux = o'.1 + (if i < p.ny then (if a ≤ Real.pi / 2 then x1 - x0 else x0 - x1) else 0) ∧
      o.2 + t * p.uy = o'.2 + (if i < p.ny then 0 else y1 - y0) := by
  obtain ⟨rfl, rfl, rfl, rfl, px, py, -, -, ex, ey, up, un, l1, l2⟩ := mk_spec hw hh e
  have nxr : (0 : ℝ) < p.nx := by exact_mod_cast px
  have nyr : (0 : ℝ) < p.ny := by exact_mod_cast py
  have wx : p.x1 - p.x0 = p.dx * p.nx := by rw [ex]; field_simp
  have hy : p.y1 - p.y0 = p.dy * p.ny := by rw [ey]; field_simp
  have dxp : 0 < p.dx := by rw [ex]; exact div_pos (by linarith) nxr
  have dyp : 0 < p.dy := by rw [ey]; exact div_pos (by linarith) nyr
  unfold Params.total at hi ⊢
  obtain ⟨U, hU, eU, hux⟩ : ∃ U, 0 < U ∧ p.uy * p.dx = U * p.dy ∧
      p.ux = if a ≤ Real.pi / 2 then U else -U := by
    by_cases ha : a ≤ Real.pi / 2
    · exact ⟨p.ux, (l1 ha).1, (l1 ha).2, by rw [if_pos ha]⟩
    · exact ⟨-p.ux, by linarith [(l2 (not_le.1 ha)).1], (l2 (not_le.1 ha)).2, by rw [if_neg ha]; ring⟩
  -- move by `c` spacings
  have step : ∀ r, r * U = (r * U / p.dx) * p.dx ∧ r * p.uy = (r * U / p.dx) * p.dy := by
    intro r
    refine ⟨by field_simp, ?_⟩
    field_simp
    linear_combination r * eU
  have mono : ∀ r m, 0 < r → r < m * p.dx / U → 0 < r * U / p.dx ∧ r * U / p.dx < m := by
    intro r m hr h
    refine ⟨by positivity, ?_⟩
    rw [lt_div_iff₀ hU] at h
    rwa [div_lt_iff₀ dxp]
  have fin : ∀ m, (m * p.dx / U) * U = m * p.dx ∧ (m * p.dx / U) * p.uy = m * p.dy := by
    intro m
    refine ⟨by field_simp, ?_⟩
    field_simp
    linear_combination m * eU
  have i0 : (0 : ℝ) ≤ i := by exact_mod_cast h0
  have org : ∀ j : ℤ, j < p.nx + p.ny → p.origin j = some (
      if j < p.nx then (if a ≤ Real.pi / 2 then p.x1 - p.dx * (j + 1 / 2) else p.x0 + p.dx * (j + 1 / 2), p.y0)
      else (if a ≤ Real.pi / 2 then p.x0 else p.x1, p.y0 + p.dy * (j + 1 / 2 - p.nx))) := by
    intro j hj
    unfold Params.origin
    rw [if_neg (not_not.2 hj)]
    dsimp only
    by_cases ha : a ≤ Real.pi / 2 <;> by_cases hjn : j < p.nx
    · rw [decide_eq_true hjn, decide_eq_false (not_lt.2 (l1 ha).1.le)]; simp [ha, hjn]
    · rw [decide_eq_false hjn, decide_eq_false (not_lt.2 (l1 ha).1.le)]; simp [ha, hjn]
    · rw [decide_eq_true hjn, decide_eq_true (l2 (not_le.1 ha)).1]; simp [ha, hjn]
    · rw [decide_eq_false hjn, decide_eq_true (l2 (not_le.1 ha)).1]; simp [ha, hjn]
  have modeq : (i + p.nx) % (p.nx + p.ny) = if i < p.ny then i + p.nx else i - p.ny := by
    split_ifs with h
    · exact Int.emod_eq_of_lt (by omega) (by omega)
    · rw [show i + p.nx = (i - p.ny) + (p.nx + p.ny) by ring, Int.add_emod_right]
      exact Int.emod_eq_of_lt (by omega) (by omega)
  rw [modeq]
  have iN : (i : ℝ) + 1 ≤ p.nx + p.ny := by exact_mod_cast hi
  by_cases hiy : i < p.ny <;> by_cases hix : i < p.nx
  · have r1 : (i : ℝ) + 1 ≤ p.ny := by exact_mod_cast hiy
    have r2 : (i : ℝ) + 1 ≤ p.nx := by exact_mod_cast hix
    rw [if_pos hiy, if_pos hiy, if_pos hiy, org i hi, org (i + p.nx) (by omega), if_pos hix,
      if_neg (by omega : ¬ i + p.nx < p.nx)]
    refine ⟨_, _, ((i : ℝ) + 1 / 2) * p.dx / U, rfl, rfl, by positivity, ?_, ?_, ?_⟩
    · intro r hr hrt
      obtain ⟨c0, c1⟩ := mono r _ hr hrt
      obtain ⟨e1, e2⟩ := step r
      generalize r * U / p.dx = c at *
      have a1 := mul_pos dxp c0
      have a2 := mul_pos dxp (sub_pos.2 c1)
      have a3 := mul_pos dyp c0
      have a4 := mul_pos dyp (sub_pos.2 c1)
      have a5 := mul_nonneg dxp.le (sub_nonneg.2 r2)
      have a6 := mul_nonneg dyp.le (sub_nonneg.2 r1)
      rw [hux]
      split_ifs <;> refine ⟨?_, ?_, ?_, ?_⟩ <;> dsimp only <;> linarith
    · obtain ⟨f1, f2⟩ := fin ((i : ℝ) + 1 / 2)
      rw [hux]
      split_ifs <;> linarith
    · obtain ⟨f1, f2⟩ := fin ((i : ℝ) + 1 / 2)
      push_cast
      linarith
  · have r1 : (i : ℝ) + 1 ≤ p.ny := by exact_mod_cast hiy
    have r2 : (p.nx : ℝ) ≤ i := by exact_mod_cast not_lt.1 hix
    rw [if_pos hiy, if_pos hiy, if_pos hiy, org i hi, org (i + p.nx) (by omega), if_neg hix,
      if_neg (by omega : ¬ i + p.nx < p.nx)]
    refine ⟨_, _, (p.nx : ℝ) * p.dx / U, rfl, rfl, by positivity, ?_, ?_, ?_⟩
    · intro r hr hrt
      obtain ⟨c0, c1⟩ := mono r _ hr hrt
      obtain ⟨e1, e2⟩ := step r
      generalize r * U / p.dx = c at *
      have a1 := mul_pos dxp c0
      have a2 := mul_pos dxp (sub_pos.2 c1)
      have a3 := mul_pos dyp c0
      have a4 := mul_pos dyp (sub_pos.2 c1)
      have a5 := mul_nonneg dyp.le (sub_nonneg.2 r2)
      have a6 := mul_nonneg dyp.le (sub_nonneg.2 r1)
      rw [hux]
      split_ifs <;> refine ⟨?_, ?_, ?_, ?_⟩ <;> dsimp only <;> linarith
    · obtain ⟨f1, f2⟩ := fin (p.nx : ℝ)
      rw [hux]
      split_ifs <;> linarith
    · obtain ⟨f1, f2⟩ := fin (p.nx : ℝ)
      push_cast
      linarith
  · have r1 : (p.ny : ℝ) ≤ i := by exact_mod_cast not_lt.1 hiy
    have r2 : (i : ℝ) + 1 ≤ p.nx := by exact_mod_cast hix
    rw [if_neg hiy, if_neg hiy, if_neg hiy, org i hi, org (i - p.ny) (by omega), if_pos hix,
      if_pos (by omega : i - p.ny < p.nx)]
    refine ⟨_, _, (p.ny : ℝ) * p.dx / U, rfl, rfl, by positivity, ?_, ?_, ?_⟩
    · intro r hr hrt
      obtain ⟨c0, c1⟩ := mono r _ hr hrt
      obtain ⟨e1, e2⟩ := step r
      generalize r * U / p.dx = c at *
      have a1 := mul_pos dxp c0
      have a2 := mul_pos dxp (sub_pos.2 c1)
      have a3 := mul_pos dyp c0
      have a4 := mul_pos dyp (sub_pos.2 c1)
      have a5 := mul_nonneg dxp.le (sub_nonneg.2 r2)
      have a6 := mul_nonneg dxp.le (sub_nonneg.2 r1)
      rw [hux]
      split_ifs <;> refine ⟨?_, ?_, ?_, ?_⟩ <;> dsimp only <;> linarith
    · obtain ⟨f1, f2⟩ := fin (p.ny : ℝ)
      rw [hux]
      push_cast
      split_ifs <;> linarith
    · obtain ⟨f1, f2⟩ := fin (p.ny : ℝ)
      linarith
  · have r1 : (p.ny : ℝ) ≤ i := by exact_mod_cast not_lt.1 hiy
    have r2 : (p.nx : ℝ) ≤ i := by exact_mod_cast not_lt.1 hix
    rw [if_neg hiy, if_neg hiy, if_neg hiy, org i hi, org (i - p.ny) (by omega), if_neg hix,
      if_pos (by omega : i - p.ny < p.nx)]
    have mp : 0 < (p.nx : ℝ) + p.ny - i - 1 / 2 := by linarith
    refine ⟨_, _, ((p.nx : ℝ) + p.ny - i - 1 / 2) * p.dx / U, rfl, rfl, by positivity, ?_, ?_, ?_⟩
    · intro r hr hrt
      obtain ⟨c0, c1⟩ := mono r _ hr hrt
      obtain ⟨e1, e2⟩ := step r
      generalize r * U / p.dx = c at *
      have a1 := mul_pos dxp c0
      have a2 := mul_pos dxp (sub_pos.2 c1)
      have a3 := mul_pos dyp c0
      have a4 := mul_pos dyp (sub_pos.2 c1)
      have a5 := mul_nonneg dyp.le (sub_nonneg.2 r2)
      have a6 := mul_nonneg dxp.le (sub_nonneg.2 r1)
      rw [hux]
      split_ifs <;> refine ⟨?_, ?_, ?_, ?_⟩ <;> dsimp only <;> linarith
    · obtain ⟨f1, f2⟩ := fin ((p.nx : ℝ) + p.ny - i - 1 / 2)
      rw [hux]
      push_cast
      split_ifs <;> linarith
    · obtain ⟨f1, f2⟩ := fin ((p.nx : ℝ) + p.ny - i - 1 / 2)
      linarith

/-- A 2 × 1 box with angle π/4 and spacing 1 meets the hypotheses. -/
example : ∃ p, mk (Real.pi / 4) 1 0 0 2 1 = some p := by
  have pp := Real.pi_pos
  exact Option.isSome_iff_exists.1 (C34_defined (by norm_num) (by norm_num) (by linarith) (by linarith)
    (by intro h; linarith) one_pos (by norm_num) (by norm_num))

end Verif.Rays
