import Verif.Model.Material
import Verif.Props.Nuclide
import Mathlib.Algebra.BigOperators.Group.List.Basic
import Mathlib.Algebra.BigOperators.Ring.List
import Mathlib.Tactic.Ring
import Mathlib.Tactic.Linarith
import Mathlib.Tactic.LinearCombination
import Mathlib.Tactic.FieldSimp
import Mathlib.Tactic.Positivity
import Mathlib.Tactic.NormNum

/-!
# C56 Material compositions conserve mass
-/

namespace Verif.Phys

open Verif.Str (Byte)

/-- `m'` is `m` with these nuclides (ZAID, number density) added. -/
def Added (m m' : Material) (l : List (ℤ × ℚ)) : Prop :=
  m'.density = m.density ∧ m'.zaid = m.zaid ++ l.map (·.1) ∧ m'.num = m.num ++ l.map (·.2)

theorem Added.refl (m : Material) : Added m m [] := ⟨rfl, by simp, by simp⟩

theorem Added.snoc {m m' : Material} {l : List (ℤ × ℚ)} (h : Added m m' l) (z : ℤ) (n : ℚ) :
    Added m (addNuclide m' z n) (l ++ [(z, n)]) := by
  obtain ⟨h1, h2, h3⟩ := h
  refine ⟨h1, ?_, ?_⟩
  · show m'.zaid ++ [z] = _
    rw [h2]
    simp
  · show m'.num ++ [n] = _
    rw [h3]
    simp

/-- The mass per volume of the nuclides, in units in which one mole has `nAvo` atoms. -/
def massSum (mass : ℤ → ℚ) (l : List (ℤ × ℚ)) : ℚ := (l.map fun p => p.2 * mass p.1).sum

theorem masses_pos : ∀ p ∈ atomicMass, 0 < p.2 := by decide +kernel

theorem massOf_pos {z : ℤ} {a : ℚ} (h : massOf z = some a) : 0 < a := by
  unfold massOf at h
  rw [Option.map_eq_some_iff] at h
  obtain ⟨p, h1, rfl⟩ := h
  exact masses_pos p (List.mem_of_find?_eq_some h1)

theorem nAvo_pos : 0 < nAvo := by unfold nAvo; norm_num

/-- The table of the atomic masses: every ZAID has one entry, and the mass is that of the mass number, except for the natural
elements and the bound atoms; excited states have a multiple of 100 added to the mass number. -/
theorem C56_table : (atomicMass.map (·.1)).Pairwise (· < ·) ∧ (∀ p ∈ atomicMass, massOf p.1 = some p.2) ∧
    ∀ p ∈ atomicMass, p.1 % 1000 = 0 ∨ p.1 ∈ [1006, 1040, 6001, 8001, 40001] ∨
      ∃ k ∈ List.range 7, |p.2 - ((p.1 % 1000 - 100 * k : ℤ) : ℚ)| ≤ 3 / 20 := by
  refine ⟨by decide +kernel, by decide +kernel, ?_⟩
  decide +kernel

/-! ### By weight -/

/-- Nuclides added by weight: each contributes its share of the mass; nothing is negative. -/
theorem C56_weight (mass : ℤ → ℚ) (m : Material) (l : List (ℤ × ℚ)) (hm : ∀ p ∈ l, massOf p.1 = some (mass p.1)) :
    ∃ added, Added m (l.foldl (fun m p => addNuclideWt m p.1 p.2) m) added ∧
      List.Forall₂ (fun p q => q.1 = p.1 ∧ q.2 * mass p.1 = p.2 * m.density * nAvo) l added ∧
      massSum mass added = (l.map (·.2)).sum * m.density * nAvo ∧
      (0 ≤ m.density → (∀ p ∈ l, 0 ≤ p.2) → ∀ q ∈ added, 0 ≤ q.2) := by
  have key : ∀ (l : List (ℤ × ℚ)) (m' : Material) (l0 : List (ℤ × ℚ)), (∀ p ∈ l, massOf p.1 = some (mass p.1)) → Added m m' l0 →
      ∃ added, Added m (l.foldl (fun m p => addNuclideWt m p.1 p.2) m') (l0 ++ added) ∧
        List.Forall₂ (fun p q => q.1 = p.1 ∧ q.2 * mass p.1 = p.2 * m.density * nAvo) l added ∧
        massSum mass added = (l.map (·.2)).sum * m.density * nAvo ∧
        (0 ≤ m.density → (∀ p ∈ l, 0 ≤ p.2) → ∀ q ∈ added, 0 ≤ q.2) := by
    intro l
    induction l with
    | nil => intro m' l0 _ h; exact ⟨[], by simpa using h, .nil, by simp [massSum], by simp⟩
    | cons p l ih =>
      intro m' l0 hm h
      have hp := hm p (by simp)
      have hpos := massOf_pos hp
      have hstep : addNuclideWt m' p.1 p.2 = addNuclide m' p.1 (p.2 * m.density * nAvo / mass p.1) := by
        unfold addNuclideWt
        rw [hp, ← h.1]
      have hn : p.2 * m.density * nAvo / mass p.1 * mass p.1 = p.2 * m.density * nAvo := div_mul_cancel₀ _ hpos.ne'
      obtain ⟨added, a1, a2, a3, a4⟩ := ih _ _ (fun q hq => hm q (by simp [hq])) (h.snoc p.1 (p.2 * m.density * nAvo / mass p.1))
      refine ⟨(p.1, p.2 * m.density * nAvo / mass p.1) :: added, ?_, .cons ⟨rfl, hn⟩ a2, ?_, ?_⟩
      · rw [List.foldl_cons, hstep]
        simpa using a1
      · unfold massSum at a3 ⊢
        rw [List.map_cons, List.sum_cons, a3, List.map_cons, List.sum_cons]
        dsimp only
        rw [hn]
        ring
      · intro hd hw q hq
        rcases List.mem_cons.1 hq with rfl | hq
        · have := hw p (by simp)
          have := nAvo_pos
          positivity
        · exact a4 hd (fun r hr => hw r (by simp [hr])) q hq
  obtain ⟨added, h⟩ := key l m [] hm (Added.refl m)
  exact ⟨added, by simpa using h⟩

/-- Weight fractions that sum to one give the density of the material. -/
theorem C56_weight_total (mass : ℤ → ℚ) (m : Material) (l : List (ℤ × ℚ)) (hm : ∀ p ∈ l, massOf p.1 = some (mass p.1))
    (hw : (l.map (·.2)).sum = 1) :
    ∃ added, Added m (l.foldl (fun m p => addNuclideWt m p.1 p.2) m) added ∧ massSum mass added = m.density * nAvo := by
  obtain ⟨added, h1, -, h3, -⟩ := C56_weight mass m l hm
  exact ⟨added, h1, by rw [h3, hw, one_mul]⟩

/-- A nuclide without a tabulated mass is left out, and its share of the mass with it. -/
theorem C56_weight_unknown_fails (m : Material) (z : ℤ) (w : ℚ) (h : massOf z = none) : addNuclideWt m z w = m := by
  unfold addNuclideWt
  rw [h]

/-! ### By atoms -/

theorem meanMass_eq (mass : ℤ → ℚ) (l : List (ℤ × ℚ)) (hm : ∀ p ∈ l, massOf p.1 = some (mass p.1)) (acc : ℚ) :
    meanMass l acc = acc + massSum mass l := by
  induction l generalizing acc with
  | nil => simp [meanMass, massSum]
  | cons p l ih =>
    obtain ⟨z, x⟩ := p
    have := hm (z, x) (by simp)
    dsimp only at this
    rw [meanMass, this]
    dsimp only
    rw [ih fun q hq => hm q (by simp [hq])]
    simp [massSum, add_assoc]

theorem add_fold (m : Material) (mean : ℚ) (l : List (ℤ × ℚ)) :
    Added m (l.foldl (fun m zp => addNuclide m zp.1 (zp.2 * m.density * nAvo / mean)) m)
      (l.map fun zp => (zp.1, zp.2 * m.density * nAvo / mean)) := by
  have key : ∀ (l l0 : List (ℤ × ℚ)) (m' : Material), Added m m' l0 →
      Added m (l.foldl (fun m zp => addNuclide m zp.1 (zp.2 * m.density * nAvo / mean)) m')
        (l0 ++ l.map fun zp => (zp.1, zp.2 * m.density * nAvo / mean)) := by
    intro l
    induction l with
    | nil => intro l0 m' h; simpa using h
    | cons p l ih =>
      intro l0 m' h
      have := ih _ _ (h.snoc p.1 (p.2 * m'.density * nAvo / mean))
      rw [List.foldl_cons]
      rw [h.1] at this ⊢
      simpa using this
  simpa using key l [] m (Added.refl m)

/-- Nuclides given by atom fractions: the number densities are in these proportions, and the mass is that of the
material (whether or not the fractions sum to one). -/
theorem C56_atoms (mass : ℤ → ℚ) (m : Material) (symbols : List (List Byte)) (zs : List ℤ) (percents : List ℚ)
    (hz : List.Forall₂ (fun s z => Nuclide.toZAID s = some z) symbols zs) (hm : ∀ z ∈ zs, massOf z = some (mass z))
    (hlen : percents.length = symbols.length) (hp : ∀ p ∈ percents, 0 ≤ p) (hsome : ∃ p ∈ percents, 0 < p) :
    ∃ m' added c, addNuclidesAtomPercent m symbols percents = some m' ∧ Added m m' added ∧
      added.map (·.1) = zs ∧ added.map (·.2) = percents.map (fun p => c * p) ∧
      massSum mass added = m.density * nAvo ∧ (0 ≤ m.density → 0 ≤ c) := by
  have hzl : zs.length = symbols.length := hz.length_eq.symm
  have hzs : symbols.mapM Nuclide.toZAID = some zs := by
    clear hm hlen hzl
    induction hz with
    | nil => rfl
    | cons h1 _ ih => rw [List.mapM_cons, h1, ih]; rfl
  have hml : ∀ p ∈ zs.zip percents, massOf p.1 = some (mass p.1) := fun p hpin => hm _ (List.of_mem_zip hpin).1
  have hpos : 0 < massSum mass (zs.zip percents) := by
    obtain ⟨p, hp1, hp2⟩ := hsome
    unfold massSum
    have hnn : ∀ x ∈ (zs.zip percents).map (fun q => q.2 * mass q.1), 0 ≤ x := by
      intro x hx
      obtain ⟨q, hq, rfl⟩ := List.mem_map.1 hx
      exact mul_nonneg (hp _ (List.of_mem_zip hq).2) (massOf_pos (hml q hq)).le
    obtain ⟨i, hi, hip⟩ := List.getElem_of_mem hp1
    have hin : (zs[i]'(by omega), p) ∈ zs.zip percents := by
      rw [← hip]
      have hlz : i < (zs.zip percents).length := by simp; omega
      have := List.getElem_mem hlz
      simpa using this
    have h1 : p * mass (zs[i]'(by omega)) ∈ (zs.zip percents).map (fun q => q.2 * mass q.1) :=
      List.mem_map.2 ⟨_, hin, rfl⟩
    have h2 : 0 < p * mass (zs[i]'(by omega)) := mul_pos hp2 (massOf_pos (hml _ hin))
    exact h2.trans_le (List.single_le_sum hnn _ h1)
  have hadd := add_fold m (massSum mass (zs.zip percents)) (zs.zip percents)
  refine ⟨_, _, m.density * nAvo / massSum mass (zs.zip percents), ?_, hadd, ?_, ?_, ?_, ?_⟩
  · unfold addNuclidesAtomPercent
    rw [if_neg (by omega), hzs]
    simp only [Option.bind_eq_bind, Option.bind_some]
    rw [meanMass_eq mass _ hml, zero_add, if_neg (fun h => hpos.ne' h.2)]
    rfl
  · rw [List.map_map]
    exact List.map_fst_zip (by omega)
  · generalize massSum mass (zs.zip percents) = S
    have : percents = (zs.zip percents).map (·.2) := (List.map_snd_zip (by omega)).symm
    conv_rhs => rw [this]
    rw [List.map_map, List.map_map]
    apply List.map_congr_left
    intro q _
    simp only [Function.comp_apply]
    ring
  · unfold massSum
    rw [List.map_map]
    have : ∀ q ∈ zs.zip percents, ((fun p : ℤ × ℚ => p.2 * mass p.1) ∘ fun zp : ℤ × ℚ =>
        (zp.1, zp.2 * m.density * nAvo / massSum mass (zs.zip percents))) q =
        (m.density * nAvo / massSum mass (zs.zip percents)) * (q.2 * mass q.1) := by
      intro q _
      simp only [Function.comp_apply]
      ring
    unfold massSum at this hpos
    rw [List.map_congr_left this, List.sum_map_mul_left, div_mul_cancel₀ _ hpos.ne']
  · intro hd
    have := nAvo_pos
    positivity

/-! ### UO2 -/

/-- Atomic masses of the isotopes of uranium, oxygen and gadolinium. -/
def isotopeMass (z : ℤ) : ℚ :=
  if z = 92234 then 234.040946
  else if z = 92235 then 235.043923
  else if z = 92236 then 236.045562
  else if z = 92238 then 238.050783
  else if z = 8016 then 15.9949146
  else if z = 64152 then 151.919786
  else if z = 64154 then 153.920861
  else if z = 64155 then 154.922618
  else if z = 64156 then 155.922118
  else if z = 64157 then 156.923956
  else if z = 64158 then 157.924019
  else if z = 64160 then 159.927049
  else 0

/-- The nuclides of an element with this atomic number. -/
def element (Z : ℤ) (l : List (ℤ × ℚ)) : List (ℤ × ℚ) := l.filter fun p => p.1 / 1000 == Z

/-- Number of atoms. -/
def atoms (l : List (ℤ × ℚ)) : ℚ := (l.map (·.2)).sum

/-- The nuclides that `setUO2` adds. -/
theorem uo2_list (m : Material) (w g : ℚ) (hw0 : 0 ≤ w) (hw1 : w ≤ 1) :
    ∃ m' a4 a5 a6 a8 nU nGad, setUO2 m w g = some m' ∧
      Added m m' ([(92234, a4), (92235, a5), (92236, a6), (92238, a8)] ++
        (if 0 < 2 * nGad then [(64152, abGd152 * (2 * nGad)), (64154, abGd154 * (2 * nGad)), (64155, abGd155 * (2 * nGad)),
          (64156, abGd156 * (2 * nGad)), (64157, abGd157 * (2 * nGad)), (64158, abGd158 * (2 * nGad)),
          (64160, abGd160 * (2 * nGad))] else []) ++ [(8016, 2 * nU + 3 * nGad)]) ∧
      a4 + a5 + a6 + a8 = nU ∧
      a5 * mU235 = w * (a4 * mU234 + a5 * mU235 + a6 * mU236 + a8 * mU238) ∧
      a4 * mU234 + a5 * mU235 + a6 * mU236 + a8 * mU238 + 2 * nU * mO16 = (1 - g) * m.density * nAvo ∧
      nGad * (2 * (abGd152 * mGd152 + abGd154 * mGd154 + abGd155 * mGd155 + abGd156 * mGd156 + abGd157 * mGd157 +
        abGd158 * mGd158 + abGd160 * mGd160) + 3 * mO16) = g * m.density * nAvo ∧
      (0 ≤ m.density → g ≤ 1 → 0 ≤ a4 ∧ 0 ≤ a5 ∧ 0 ≤ a6 ∧ 0 ≤ nU) ∧
      (0 ≤ m.density → g ≤ 1 → 1.0135 * w ≤ 1 → 0 ≤ a8) ∧
      (0 < m.density → g < 1 → 1 < 1.0135 * w → a8 < 0) := by
  have p4 : (0 : ℚ) < mU234 := by unfold mU234; norm_num
  have p5 : (0 : ℚ) < mU235 := by unfold mU235; norm_num
  have p6 : (0 : ℚ) < mU236 := by unfold mU236; norm_num
  have p8 : (0 : ℚ) < mU238 := by unfold mU238; norm_num
  have pO : (0 : ℚ) < mO16 := by unfold mO16; norm_num
  have pN := nAvo_pos
  have pG : (0 : ℚ) < 2 * (abGd152 * mGd152 + abGd154 * mGd154 + abGd155 * mGd155 + abGd156 * mGd156 + abGd157 * mGd157 +
      abGd158 * mGd158 + abGd160 * mGd160) + 3 * mO16 := by
    unfold abGd152 abGd154 abGd155 abGd156 abGd157 abGd158 abGd160 mGd152 mGd154 mGd155 mGd156 mGd157 mGd158 mGd160 mO16
    norm_num
  have h48 : 1 / mU238 < 1 / mU235 := one_div_lt_one_div_of_lt p5 (by unfold mU235 mU238; norm_num)
  -- the common denominator
  obtain ⟨D, hD⟩ : ∃ D, D = w / mU235 + 0.0089 * w / mU234 + 0.0046 * w / mU236 +
    (1 - (0.0089 * w + w + 0.0046 * w)) / mU238 := ⟨_, rfl⟩
  have hDpos : 0 < D := by
    have e4 : 0 ≤ 0.0089 * w / mU234 := by positivity
    have e6 : 0 ≤ 0.0046 * w / mU236 := by positivity
    have e5 : w / mU235 + (1 - (0.0089 * w + w + 0.0046 * w)) / mU238 = w * (1 / mU235 - 1.0135 * (1 / mU238)) + 1 / mU238 := by ring
    have i8 : 0 < 1 / mU238 := by positivity
    have i5 : 1 / mU235 - 1.0135 * (1 / mU238) > - (1 / mU238) := by
      have : 0 < 1 / mU235 := by positivity
      nlinarith
    nlinarith
  have hD' : 0.0089 * w / mU234 + w / mU235 + 0.0046 * w / mU236 + (1 - (0.0089 * w + w + 0.0046 * w)) / mU238 = D := by
    rw [hD]; ring
  have hM : 0 < 1 / D + 2 * mO16 := by positivity
  obtain ⟨nU, hnU⟩ : ∃ nU, nU = (1 - g) * m.density * nAvo / (1 / D + 2 * mO16) := ⟨_, rfl⟩
  obtain ⟨nG, hnG⟩ : ∃ nG, nG = g * m.density * nAvo / (2 * (abGd152 * mGd152 + abGd154 * mGd154 + abGd155 * mGd155 + abGd156 * mGd156 +
      abGd157 * mGd157 + abGd158 * mGd158 + abGd160 * mGd160) + 3 * mO16) := ⟨_, rfl⟩
  have hUmass : 0.0089 * w / mU234 / D * nU * mU234 + w / mU235 / D * nU * mU235 + 0.0046 * w / mU236 / D * nU * mU236 +
      (1 - (0.0089 * w + w + 0.0046 * w)) / mU238 / D * nU * mU238 = nU / D := by
    field_simp
    ring
  obtain ⟨m', hset, hadd⟩ : ∃ m', setUO2 m w g = some m' ∧
      Added m m' ([(92234, 0.0089 * w / mU234 / D * nU), (92235, w / mU235 / D * nU), (92236, 0.0046 * w / mU236 / D * nU),
        (92238, (1 - (0.0089 * w + w + 0.0046 * w)) / mU238 / D * nU)] ++
        (if 0 < 2 * nG then [(64152, abGd152 * (2 * nG)), (64154, abGd154 * (2 * nG)), (64155, abGd155 * (2 * nG)),
          (64156, abGd156 * (2 * nG)), (64157, abGd157 * (2 * nG)), (64158, abGd158 * (2 * nG)),
          (64160, abGd160 * (2 * nG))] else []) ++ [(8016, 2 * nU + 3 * nG)]) := by
    unfold setUO2
    dsimp only
    rw [← hD, if_neg (by push Not; exact ⟨hDpos.ne', hM.ne'⟩), hD']
    refine ⟨_, rfl, ?_⟩
    · have h1 := ((((Added.refl m).snoc 92234 (0.0089 * w / mU234 / D * nU)).snoc 92235 (w / mU235 / D * nU)).snoc 92236
        (0.0046 * w / mU236 / D * nU)).snoc 92238 ((1 - (0.0089 * w + w + 0.0046 * w)) / mU238 / D * nU)
      rw [← hnU]
      have hden : (addNuclide (addNuclide (addNuclide (addNuclide m 92234 (0.0089 * w / mU234 / D * nU)) 92235 (w / mU235 / D * nU)) 92236
        (0.0046 * w / mU236 / D * nU)) 92238 ((1 - (0.0089 * w + w + 0.0046 * w)) / mU238 / D * nU)).density = m.density := rfl
      rw [hden, ← hnG]
      by_cases hg : 0 < 2 * nG
      · rw [if_pos hg, if_pos hg]
        have h2 := (((((((h1.snoc 64152 (abGd152 * (2 * nG))).snoc 64154 (abGd154 * (2 * nG))).snoc 64155 (abGd155 * (2 * nG))).snoc
          64156 (abGd156 * (2 * nG))).snoc 64157 (abGd157 * (2 * nG))).snoc 64158 (abGd158 * (2 * nG))).snoc 64160
          (abGd160 * (2 * nG))).snoc 8016 (2 * nU + 3 * nG)
        simpa using h2
      · rw [if_neg hg, if_neg hg]
        have h2 := h1.snoc 8016 (2 * nU + 3 * nG)
        simpa using h2
  refine ⟨m', 0.0089 * w / mU234 / D * nU, w / mU235 / D * nU, 0.0046 * w / mU236 / D * nU,
    (1 - (0.0089 * w + w + 0.0046 * w)) / mU238 / D * nU, nU, nG, hset, hadd, ?_, ?_, ?_, ?_, ?_, ?_, ?_⟩
  · have : 0.0089 * w / mU234 / D * nU + w / mU235 / D * nU + 0.0046 * w / mU236 / D * nU +
        (1 - (0.0089 * w + w + 0.0046 * w)) / mU238 / D * nU = (0.0089 * w / mU234 + w / mU235 + 0.0046 * w / mU236 +
        (1 - (0.0089 * w + w + 0.0046 * w)) / mU238) / D * nU := by ring
    rw [this, hD', div_self hDpos.ne', one_mul]
  · rw [hUmass]
    field_simp
  · rw [hUmass, hnU]
    field_simp
  · rw [hnG, div_mul_cancel₀ _ pG.ne']
  · intro hd hg
    have hnU0 : 0 ≤ nU := by
      rw [hnU]
      have : 0 ≤ 1 - g := by linarith
      positivity
    exact ⟨by positivity, by positivity, by positivity, hnU0⟩
  · intro hd hg hw
    have hnU0 : 0 ≤ nU := by
      rw [hnU]
      have : 0 ≤ 1 - g := by linarith
      positivity
    have : 0 ≤ 1 - (0.0089 * w + w + 0.0046 * w) := by linarith
    positivity
  · intro hd hg hw
    have hnU0 : 0 < nU := by
      rw [hnU]
      have : 0 < 1 - g := by linarith
      positivity
    have h1 : (1 - (0.0089 * w + w + 0.0046 * w)) / mU238 / D < 0 :=
      div_neg_of_neg_of_pos (div_neg_of_neg_of_pos (by linarith) p8) hDpos
    exact mul_neg_of_neg_of_pos h1 hnU0

/-- `setUO2`: the mass is that of the material, the enrichment and the share of Gd2O3 are the given ones, and the
oxygen matches the metal atoms. -/
theorem C56_uo2_partial (m : Material) (w g : ℚ) (hw0 : 0 ≤ w) (hw1 : 1.0135 * w ≤ 1) (hg0 : 0 ≤ g) (hg1 : g ≤ 1) (hd : 0 < m.density) :
    ∃ m' added, setUO2 m w g = some m' ∧ Added m m' added ∧ (∀ q ∈ added, 0 ≤ q.2) ∧ (added.map (·.1)).Nodup ∧
      massSum isotopeMass added = m.density * nAvo ∧
      massSum isotopeMass (added.filter fun p => p.1 == 92235) = w * massSum isotopeMass (element 92 added) ∧
      massSum isotopeMass (element 64 added) + 3 / 2 * atoms (element 64 added) * isotopeMass 8016 = g * m.density * nAvo ∧
      atoms (element 8 added) = 2 * atoms (element 92 added) + 3 / 2 * atoms (element 64 added) := by
  obtain ⟨m', a4, a5, a6, a8, nU, nG, h1, h2, h3, h4, h5, h6, h7, h8, -⟩ := uo2_list m w g hw0 (by linarith)
  obtain ⟨q4, q5, q6, qU⟩ := h7 hd.le hg1
  have q8 := h8 hd.le hg1 hw1
  have pN := nAvo_pos
  have hab : abGd152 + abGd154 + abGd155 + abGd156 + abGd157 + abGd158 + abGd160 = 1 := by
    unfold abGd152 abGd154 abGd155 abGd156 abGd157 abGd158 abGd160
    norm_num
  have i4 : isotopeMass 92234 = mU234 := by simp [isotopeMass, mU234]
  have i5 : isotopeMass 92235 = mU235 := by simp [isotopeMass, mU235]
  have i6 : isotopeMass 92236 = mU236 := by simp [isotopeMass, mU236]
  have i8 : isotopeMass 92238 = mU238 := by simp [isotopeMass, mU238]
  have iO : isotopeMass 8016 = mO16 := by simp [isotopeMass, mO16]
  have g2 : isotopeMass 64152 = mGd152 := by simp [isotopeMass, mGd152]
  have g4 : isotopeMass 64154 = mGd154 := by simp [isotopeMass, mGd154]
  have g5 : isotopeMass 64155 = mGd155 := by simp [isotopeMass, mGd155]
  have g6 : isotopeMass 64156 = mGd156 := by simp [isotopeMass, mGd156]
  have g7 : isotopeMass 64157 = mGd157 := by simp [isotopeMass, mGd157]
  have g8 : isotopeMass 64158 = mGd158 := by simp [isotopeMass, mGd158]
  have g0 : isotopeMass 64160 = mGd160 := by simp [isotopeMass, mGd160]
  have pG : (0 : ℚ) < 2 * (abGd152 * mGd152 + abGd154 * mGd154 + abGd155 * mGd155 + abGd156 * mGd156 + abGd157 * mGd157 +
      abGd158 * mGd158 + abGd160 * mGd160) + 3 * mO16 := by
    unfold abGd152 abGd154 abGd155 abGd156 abGd157 abGd158 abGd160 mGd152 mGd154 mGd155 mGd156 mGd157 mGd158 mGd160 mO16
    norm_num
  have hG0 : 0 ≤ nG := by
    by_contra hc
    have : nG * (2 * (abGd152 * mGd152 + abGd154 * mGd154 + abGd155 * mGd155 + abGd156 * mGd156 + abGd157 * mGd157 +
      abGd158 * mGd158 + abGd160 * mGd160) + 3 * mO16) < 0 := mul_neg_of_neg_of_pos (not_le.1 hc) pG
    have h0 : 0 ≤ g * m.density * nAvo := by positivity
    linarith
  refine ⟨m', _, h1, h2, ?_⟩
  by_cases hg : 0 < 2 * nG
  · rw [if_pos hg]
    refine ⟨?_, ?_, ?_, ?_, ?_, ?_⟩
    · intro q hq
      have z2 : 0 ≤ abGd152 := by unfold abGd152; norm_num
      have z4 : 0 ≤ abGd154 := by unfold abGd154; norm_num
      have z5 : 0 ≤ abGd155 := by unfold abGd155; norm_num
      have z6 : 0 ≤ abGd156 := by unfold abGd156; norm_num
      have z7 : 0 ≤ abGd157 := by unfold abGd157; norm_num
      have z8 : 0 ≤ abGd158 := by unfold abGd158; norm_num
      have z0 : 0 ≤ abGd160 := by unfold abGd160; norm_num
      simp only [List.cons_append, List.nil_append, List.mem_cons, List.not_mem_nil, or_false] at hq
      rcases hq with rfl | rfl | rfl | rfl | rfl | rfl | rfl | rfl | rfl | rfl | rfl | rfl <;> dsimp only <;> positivity
    · simp
    · simp only [massSum, List.cons_append, List.nil_append, List.map_cons, List.map_nil, List.sum_cons, List.sum_nil,
        i4, i5, i6, i8, iO, g2, g4, g5, g6, g7, g8, g0]
      linear_combination h5 + h6
    · simp only [massSum, element, List.cons_append, List.nil_append, List.filter_cons, List.filter_nil]
      norm_num [i4, i5, i6, i8]
      linear_combination h4
    · simp only [massSum, atoms, element, List.cons_append, List.nil_append, List.filter_cons, List.filter_nil]
      norm_num [g2, g4, g5, g6, g7, g8, g0, iO]
      linear_combination h6 + 3 * nG * mO16 * hab
    · simp only [atoms, element, List.cons_append, List.nil_append, List.filter_cons, List.filter_nil]
      norm_num
      linear_combination (-2) * h3 - 3 * nG * hab
  · have hz : nG = 0 := by linarith [not_lt.1 hg]
    subst hz
    rw [if_neg hg]
    refine ⟨?_, ?_, ?_, ?_, ?_, ?_⟩
    · intro q hq
      simp only [List.cons_append, List.nil_append, List.append_nil, List.mem_cons, List.not_mem_nil, or_false] at hq
      rcases hq with rfl | rfl | rfl | rfl | rfl <;> dsimp only <;> positivity
    · simp
    · simp only [massSum, List.cons_append, List.nil_append, List.append_nil, List.map_cons, List.map_nil, List.sum_cons, List.sum_nil,
        i4, i5, i6, i8, iO]
      linear_combination h5 + h6
    · simp only [massSum, element, List.cons_append, List.nil_append, List.append_nil, List.filter_cons, List.filter_nil]
      norm_num [i4, i5, i6, i8]
      linear_combination h4
    · simp only [massSum, atoms, element, List.cons_append, List.nil_append, List.append_nil, List.filter_cons, List.filter_nil]
      have h6' : 0 = g * m.density * nAvo := by linarith [h6, zero_mul (2 * (abGd152 * mGd152 + abGd154 * mGd154 + abGd155 * mGd155 +
        abGd156 * mGd156 + abGd157 * mGd157 + abGd158 * mGd158 + abGd160 * mGd160) + 3 * mO16)]
      rw [← h6']
      norm_num
    · simp only [atoms, element, List.cons_append, List.nil_append, List.append_nil, List.filter_cons, List.filter_nil]
      norm_num
      linear_combination -h3

/-- Enrichments above 98.7 % pass the checks and give a negative number density of U-238. -/
theorem C56_uo2_negative_fails (m : Material) (w g : ℚ) (hw : 1 < 1.0135 * w) (hw1 : w ≤ 1) (hg : g < 1) (hd : 0 < m.density) :
    ∃ m' added n, setUO2 m w g = some m' ∧ Added m m' added ∧ ((92238 : ℤ), n) ∈ added ∧ n < 0 := by
  obtain ⟨m', a4, a5, a6, a8, nU, nG, h1, h2, -, -, -, -, -, -, h9⟩ := uo2_list m w g (by linarith) hw1
  exact ⟨m', _, a8, h1, h2, by simp, h9 hd hg hw⟩

/-- 5 % enriched, 3 % Gd2O3: the hypotheses of `C56_uo2_partial`; and full enrichment: those of the negation. -/
example : (0 : ℚ) ≤ 0.05 ∧ 1.0135 * 0.05 ≤ (1 : ℚ) ∧ (0 : ℚ) ≤ 0.03 ∧ (0.03 : ℚ) ≤ 1 := by norm_num
example : (1 : ℚ) < 1.0135 * 1 := by norm_num
/-- Water by weight. -/
example : massOf 1001 = some 1.00783 ∧ massOf 8016 = some 15.9949 := by decide +kernel
/-- Water by atoms: `H1`, `O16`. -/
example : List.Forall₂ (fun s z => Nuclide.toZAID s = some z) [[72, 49], [79, 49, 54]] [1001, 8016] := by
  refine .cons ?_ (.cons ?_ .nil)
  · have := Nuclide.C52_zaid 1 ['H'] rfl (by simp) [] (by simp) 1 (by simp) [] (by simp)
    simpa [Nuclide.ascii, StrView.digits] using this
  · have := Nuclide.C52_zaid 8 ['O'] rfl (by simp) [] (by simp) 16 (by simp) [] (by simp)
    simpa [Nuclide.ascii, StrView.digits] using this

end Verif.Phys
