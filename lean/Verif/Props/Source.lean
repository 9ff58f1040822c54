import Mathlib.Algebra.BigOperators.Group.Finset.Basic
import Mathlib.Tactic.NormNum
import Verif.Props.Soup
import Verif.Props.Names
import Verif.Model.Source

/-!
# C79 The source computed from an MPACT flux file
-/

namespace Verif.Source

open Verif.Str (Byte)
open Verif.Polytope Verif.Phys Verif.ElemTypes Verif.Names

/-! ### Specification -/

/-- The face types an MPACT mesh may have. -/
def IsFaceType (t : VTK) : Prop := t = 5 ∨ t = 9 ∨ t = 22 ∨ t = 23

/-- The sets hold one named `name` that gives the value `f i` to element `i`, for each of `n` elements, in order. -/
def HasField (sets : List (ElSet (List Byte) ℝ)) (n : Nat) (name : List Byte) (f : Nat → ℝ) : Prop :=
  ∃ e ∈ sets, e.name = name ∧ e.ids = List.range n ∧ e.data = (List.range n).map f

/-- The scattering and fission source in a face, without the multiplication factor:
`(∑_g φ_g σ_{s,g}, ∑_g φ_g νσ_{f,g})`. -/
noncomputable def sourceAt (ng : Nat) (phi ss nf : Nat → ℝ) : ℝ × ℝ :=
  (∑ g ∈ Finset.range ng, phi g * ss g, ∑ g ∈ Finset.range ng, phi g * nf g)

/-! ### Lemmas -/

theorem mapM_range {α : Type} (n : Nat) (f : Nat → Option α) (g : Nat → α) (h : ∀ i < n, f i = some (g i)) :
    (List.range n).mapM f = some ((List.range n).map g) := by
  have key : ∀ l : List Nat, (∀ i ∈ l, i < n) → l.mapM f = some (l.map g) := by
    intro l
    induction l with
    | nil => intro _; rfl
    | cons a l ih =>
      intro hl
      rw [List.mapM_cons, h a (hl a (by simp)), ih fun i hi => hl i (by simp [hi])]
      rfl
  exact key _ fun i hi => List.mem_range.1 hi

theorem incRev_some : ∀ l : List Byte, (∃ b ∈ l, b ≠ 57) → ∃ t, incRev l = some t := by
  intro l
  induction l with
  | nil => rintro ⟨b, hb, -⟩; simp at hb
  | cons c l ih =>
    rintro ⟨b, hb, hne⟩
    rw [incRev]
    by_cases hc : c = 57
    · rw [if_pos hc]
      rcases List.mem_cons.1 hb with rfl | hb
      · exact absurd hc hne
      · obtain ⟨t, ht⟩ := ih ⟨b, hb, hne⟩
        rw [ht]
        exact ⟨_, rfl⟩
    · rw [if_neg hc]
      exact ⟨_, rfl⟩

theorem increment_some (d : List Byte) : ∃ t, increment (fluxPrefix ++ d) = some t := by
  obtain ⟨t, ht⟩ := incRev_some (fluxPrefix ++ d).reverse ⟨95, by simp [fluxPrefix], by decide⟩
  unfold increment
  rw [ht]
  exact ⟨_, rfl⟩

theorem readSet_field {V T : Type} (s : Soup V T (List Byte) ℝ) (els sets) (h : Rep s els sets) (hg : GoodSets sets)
    (n : Nat) (hn : 0 < n) (name : List Byte) (f : Nat → ℝ) (hf : HasField sets n name f) (old : List ℝ) :
    readSet s name old = some ((List.range n).map f) := by
  obtain ⟨e, he, h1, h2, h3⟩ := hf
  unfold readSet
  rw [(C46_getElsetByName s els sets h hg name old).1 e he h1, if_neg]
  · rw [Option.map_some, Option.elim_some, h3]
  · rw [h3]
    intro hc
    have := congrArg List.length hc
    simp at this
    omega

theorem toInt_nat (k : Nat) (hk : k + 1 < 2 ^ 31) : toInt ((k : ℝ) + 1) = some ((k : Int) + 1) := by
  unfold toInt
  dsimp only
  have h0 : (0 : ℝ) ≤ (k : ℝ) + 1 := by positivity
  have hf : ⌊(k : ℝ) + 1⌋ = (k : Int) + 1 := by
    have : (k : ℝ) + 1 = (((k : Int) + 1 : Int) : ℝ) := by push_cast; rfl
    rw [this, Int.floor_intCast]
  rw [if_pos h0, hf, if_pos]
  constructor <;> omega

theorem groups {V T : Type} (s : Soup V T (List Byte) ℝ) (els sets) (h : Rep s els sets) (hg : GoodSets sets)
    (mats : List (XSec ℝ)) (n ng : Nat) (hn : 0 < n) (hng : ng < 1000) (mat : Nat → Nat) (phi ss nf : Nat → Nat → ℝ)
    (hflux : ∀ g < ng, ∀ d, IsDecimal 3 (g + 1) d → HasField sets n (fluxPrefix ++ d) (phi g))
    (hx : ∀ i < n, ∃ m, mats[mat i]? = some m ∧ ∀ g < ng, m.s[g]? = some (ss i g) ∧ m.nuf[g]? = some (nf i g))
    (junk : List ℝ) :
    ∀ k ≤ ng, ∃ d flux, (List.range k).foldlM (groupStep s mats ((List.range n).map fun i => (mat i : Int)))
        (fluxPrefix ++ firstGroup, junk, List.replicate n (0, 0)) =
      some (d, flux, (List.range n).map fun i => sourceAt k (fun g => phi g i) (ss i) (nf i)) ∧
      (k < ng → ∃ w, IsDecimal 3 (k + 1) w ∧ d = fluxPrefix ++ w) := by
  intro k
  induction k with
  | zero =>
    intro _
    refine ⟨_, junk, ?_, fun _ => ⟨firstGroup, ⟨rfl, by unfold IsDigit; decide, rfl⟩, rfl⟩⟩
    simp only [List.range_zero, List.foldlM_nil, sourceAt, Finset.range_zero, Finset.sum_empty, List.map_const', List.length_range]
    rfl
  | succ k ih =>
    intro hk
    obtain ⟨d, flux, h1, h2⟩ := ih (by omega)
    obtain ⟨w, hw, rfl⟩ := h2 (by omega)
    rw [List.range_succ, List.foldlM_append, h1]
    simp only [Option.bind_eq_bind, Option.bind_some, List.foldlM_cons, List.foldlM_nil]
    unfold groupStep
    dsimp only
    rw [readSet_field s els sets h hg n hn _ _ (hflux k (by omega) w hw)]
    have ha : addGroup mats ((List.range n).map fun i => (mat i : Int)) ((List.range n).map (phi k)) k
        ((List.range n).map fun i => sourceAt k (fun g => phi g i) (ss i) (nf i)) =
        some ((List.range n).map fun i => sourceAt (k + 1) (fun g => phi g i) (ss i) (nf i)) := by
      unfold addGroup
      rw [List.length_map, List.length_range]
      apply mapM_range
      intro i hi
      obtain ⟨m, m1, m2⟩ := hx i hi
      obtain ⟨m3, m4⟩ := m2 k (by omega)
      have hr : (List.range n)[i]? = some i := by rw [List.getElem?_range hi]
      simp only [List.getElem?_map, hr, Option.map_some, Option.bind_eq_bind, Option.bind_some, at?]
      rw [if_pos (by omega), Int.toNat_natCast, m1]
      simp only [Option.bind_some, m3, m4]
      simp only [sourceAt, Finset.sum_range_succ]
      rfl
    simp only [Option.bind_eq_bind, Option.bind_some]
    rw [ha, Option.bind_some]
    by_cases hlast : k + 1 + 1 < 10 ^ 3
    · obtain ⟨t, ht, hinc⟩ := C63_increment 3 (k + 1) fluxPrefix w hw hlast
      rw [hinc]
      exact ⟨_, _, rfl, fun _ => ⟨t, ht, rfl⟩⟩
    · obtain ⟨t, ht⟩ := increment_some w
      rw [ht]
      exact ⟨_, _, rfl, fun hlt => by omega⟩

/-! ### Properties -/

/-- **C79.**  A file with elements of one face type, a material number (from one) and a flux per group for each face, in
order, for at most 999 groups: the source of face `i` is the sum over the groups of the flux times the scattering and
the nu-fission cross sections of the material of face `i`.

Partial: the data of a set are taken to belong to elements 0, 1, 2, … whatever ids the set has (`C79_order_fails`), and the
claim fails for a thousand groups (`C79_names_fails`) or when a group is missing (`C79_missing_fails`). -/
theorem C79_source_partial {V : Type} (s : Soup V VTK (List Byte) ℝ) (els : List (VTK × List Nat)) (sets)
    (h : Rep s els sets) (hg : GoodSets sets) (t : VTK) (ht : IsFaceType t) (hne : els ≠ []) (hall : ∀ e ∈ els, e.1 = t)
    (mats : List (XSec ℝ)) (m0 : XSec ℝ) (h0 : mats[0]? = some m0) (hng : m0.ng < 1000)
    (mat : Nat → Nat) (phi ss nf : Nat → Nat → ℝ)
    (hmat : HasField sets els.length [109, 97, 116, 101, 114, 105, 97, 108] fun i => mat i + 1)
    (hrange : ∀ i < els.length, mat i + 1 < 2 ^ 31)
    (hflux : ∀ g < m0.ng, ∀ d, IsDecimal 3 (g + 1) d → HasField sets els.length ([102, 108, 117, 120, 95] ++ d) (phi g))
    (hx : ∀ i < els.length, ∃ m, mats[mat i]? = some m ∧
      ∀ g < m0.ng, m.s[g]? = some (ss i g) ∧ m.nuf[g]? = some (nf i g))
    (junk : List ℝ) :
    getSource s mats junk =
      some ((List.range els.length).map fun i => sourceAt m0.ng (fun g => phi g i) (ss i) (nf i)) := by
  have hn : 0 < els.length := List.length_pos_iff.2 hne
  have hty : getElemTypes s = [t] := by
    obtain ⟨h1, h2⟩ := C46_elemTypes s
    have hm : ∀ x, x ∈ getElemTypes s ↔ x = t := by
      intro x
      rw [h2, h.types, List.mem_map]
      constructor
      · rintro ⟨e, he, rfl⟩
        exact hall e he
      · rintro rfl
        obtain ⟨e, he⟩ := List.exists_mem_of_ne_nil _ hne
        exact ⟨e, he, hall e he⟩
    match hl : getElemTypes s, h1, hm with
    | [], _, hm => exact absurd ((hm t).2 rfl) (by simp)
    | [a], _, hm => rw [(hm a).1 (by simp)]
    | a :: b :: l, h1, hm =>
      have e1 := (hm a).1 (by simp)
      have e2 := (hm b).1 (by simp)
      rw [List.nodup_cons] at h1
      exact absurd (by rw [e1, e2]; simp) h1.1
  unfold getSource
  rw [hty]
  dsimp only
  rw [if_pos (show t = VTK.Triangle ∨ t = VTK.Quad ∨ t = VTK.QuadraticTriangle ∨ t = VTK.QuadraticQuad from ht)]
  unfold getSourceOf
  have hlen : s.types.length = els.length := by rw [h.types, List.length_map]
  dsimp only
  rw [hlen]
  have hids : materialIds s els.length = some ((List.range els.length).map fun i => (mat i : Int)) := by
    unfold materialIds
    rw [readSet_field s els sets h hg _ hn materialName _ hmat]
    simp only [Option.bind_eq_bind, Option.bind_some]
    apply mapM_range
    intro i hi
    rw [List.getElem?_map, List.getElem?_range hi, Option.map_some, Option.bind_some, toInt_nat _ (hrange i hi)]
    simp
  rw [hids, h0]
  simp only [Option.bind_eq_bind, Option.bind_some]
  obtain ⟨d, flux, e, -⟩ := groups s els sets h hg mats els.length m0.ng hn hng mat phi ss nf hflux hx junk m0.ng le_rfl
  rw [e]
  rfl

/-- **C79.**  A file with elements of several types, of a type that is not a face, or without elements gives no source. -/
theorem C79_rejects {V : Type} (s : Soup V VTK (List Byte) ℝ) (mats : List (XSec ℝ)) (junk : List ℝ)
    (hbad : ¬ ∃ t, IsFaceType t ∧ s.types ≠ [] ∧ ∀ x ∈ s.types, x = t) : getSource s mats junk = some [] := by
  unfold getSource
  obtain ⟨h1, h2⟩ := C46_elemTypes s
  split
  · rename_i t heq
    rw [if_neg]
    intro ht
    apply hbad
    refine ⟨t, ht, ?_, ?_⟩
    · intro he
      have := (h2 t).1 (by rw [heq]; simp)
      rw [he] at this
      simp at this
    · intro x hxm
      have := (h2 x).2 hxm
      rw [heq] at this
      simpa using this
  · rfl

/-! ### Where the claim fails -/

/-- One group, `σ_s = 1`, `νσ_f = 2`. -/
def mat1 : XSec ℝ := ⟨true, true, 1, [0], [0], [2], [0], [1], [1]⟩
/-- Two groups, `σ_s = (1, 10)`, no fission. -/
def mat2 : XSec ℝ := ⟨true, false, 2, [0, 0], [0, 0], [0, 0], [0, 0], [1, 10], [0, 0, 0, 0]⟩

/-- Two triangles; the flux set lists element 1 first. -/
def swapped : Soup Unit VTK (List Byte) ℝ where
  verts := [(), (), (), ()]
  types := [5, 5]
  eoffs := [0, 3, 6]
  conn := [0, 1, 2, 1, 3, 2]
  names := [materialName, fluxPrefix ++ firstGroup]
  soffs := [0, 2, 4]
  sids := [0, 1, 1, 0]
  sdata := [[1, 1], [10, 20]]

/-- A triangle with the flux of the first group only. -/
def oneGroup : Soup Unit VTK (List Byte) ℝ where
  verts := [(), (), ()]
  types := [5]
  eoffs := [0, 3]
  conn := [0, 1, 2]
  names := [materialName, fluxPrefix ++ firstGroup]
  soffs := [0, 1, 2]
  sids := [0, 0]
  sdata := [[1], [5]]

/-- A triangle whose material number is zero. -/
def noMaterial : Soup Unit VTK (List Byte) ℝ := { oneGroup with sdata := [[0], [5]] }

theorem toInt_one : toInt 1 = some 1 := by simpa using toInt_nat 0 (by norm_num)

/-- **C79 fails** when a set lists the elements in another order: element 1 has flux 10 and element 0 has flux 20, but the
source is computed with flux 10 in face 0 and flux 20 in face 1. -/
theorem C79_order_fails : ∃ sets, Rep swapped [(5, [0, 1, 2]), (5, [1, 3, 2])] sets ∧ GoodSets sets ∧
    (⟨fluxPrefix ++ firstGroup, [1, 0], [10, 20]⟩ : ElSet (List Byte) ℝ) ∈ sets ∧
    ∀ junk, getSource swapped [mat1] junk = some [(10, 20), (20, 40)] := by
  refine ⟨[⟨materialName, [0, 1], [1, 1]⟩, ⟨fluxPrefix ++ firstGroup, [1, 0], [10, 20]⟩],
    ⟨rfl, rfl, rfl, rfl, rfl, rfl, rfl⟩, ⟨by decide, by simp, by simp⟩, by simp, ?_⟩
  intro junk
  have h1 : readSet swapped materialName [] = some [1, 1] := rfl
  have h2 : readSet swapped (fluxPrefix ++ firstGroup) junk = some [10, 20] := rfl
  have h3 : increment (fluxPrefix ++ firstGroup) = some (fluxPrefix ++ [48, 48, 50]) := rfl
  have h4 : getElemTypes swapped = [5] := rfl
  have h5 : swapped.types.length = 2 := rfl
  unfold getSource
  rw [h4]
  dsimp only
  rw [if_pos (show (5 : VTK) = VTK.Triangle ∨ (5 : VTK) = VTK.Quad ∨ (5 : VTK) = VTK.QuadraticTriangle ∨
    (5 : VTK) = VTK.QuadraticQuad from Or.inl rfl)]
  unfold getSourceOf materialIds
  dsimp only
  rw [h1, h5]
  simp [List.range_succ, toInt_one, groupStep, h2, h3, addGroup, at?, mat1]
  norm_num

/-- **C79 fails** when the set of a group is missing: the flux of the group before is used again, and nothing is
reported. -/
theorem C79_missing_fails : (fluxPrefix ++ [48, 48, 50]) ∉ oneGroup.names ∧
    ∀ junk, getSource oneGroup [mat2] junk = some [(5 * 1 + 5 * 10, 0)] := by
  refine ⟨by decide, ?_⟩
  intro junk
  have h1 : readSet oneGroup materialName [] = some [1] := rfl
  have h2 : readSet oneGroup (fluxPrefix ++ firstGroup) junk = some [5] := rfl
  have h3 : increment (fluxPrefix ++ firstGroup) = some (fluxPrefix ++ [48, 48, 50]) := rfl
  have h6 : readSet oneGroup (fluxPrefix ++ [48, 48, 50]) [5] = some [5] := rfl
  have h7 : increment (fluxPrefix ++ [48, 48, 50]) = some (fluxPrefix ++ [48, 48, 51]) := rfl
  have h4 : getElemTypes oneGroup = [5] := rfl
  have h5 : oneGroup.types.length = 1 := rfl
  unfold getSource
  rw [h4]
  dsimp only
  rw [if_pos (show (5 : VTK) = VTK.Triangle ∨ (5 : VTK) = VTK.Quad ∨ (5 : VTK) = VTK.QuadraticTriangle ∨
    (5 : VTK) = VTK.QuadraticQuad from Or.inl rfl)]
  unfold getSourceOf materialIds
  dsimp only
  rw [h1, h5]
  simp [List.range_succ, toInt_one, groupStep, h2, h3, addGroup, at?, mat2, h6, h7]

/-- **C79 fails** for a thousand groups: after `flux_999` the set `` flux`000 `` is looked up. -/
theorem C79_names_fails : increment (fluxPrefix ++ [57, 57, 57]) = some [102, 108, 117, 120, 96, 48, 48, 48] := rfl

/-- **C79 fails** for a face without a material (number 0): the material at index -1 is used, outside the list. -/
theorem C79_material_fails (junk : List ℝ) : getSource noMaterial [mat1] junk = none := by
  have h1 : readSet noMaterial materialName [] = some [0] := rfl
  have h2 : readSet noMaterial (fluxPrefix ++ firstGroup) junk = some [5] := rfl
  have h4 : getElemTypes noMaterial = [5] := rfl
  have h5 : noMaterial.types.length = 1 := rfl
  have h0 : toInt 0 = some 0 := by simp [toInt]
  unfold getSource
  rw [h4]
  dsimp only
  rw [if_pos (show (5 : VTK) = VTK.Triangle ∨ (5 : VTK) = VTK.Quad ∨ (5 : VTK) = VTK.QuadraticTriangle ∨
    (5 : VTK) = VTK.QuadraticQuad from Or.inl rfl)]
  unfold getSourceOf materialIds
  dsimp only
  rw [h1, h5]
  simp [List.range_succ, h0, groupStep, h2, addGroup, at?, mat1]

/-- The conversion of a material number: towards zero, and defined exactly if the result is a 32-bit integer. -/
theorem C79_convert (x : ℝ) (k : Int) :
    (toInt x = some k ↔ (0 ≤ x → (k : ℝ) ≤ x ∧ x < k + 1) ∧ (x < 0 → (k : ℝ) - 1 < x ∧ x ≤ k) ∧
      -2 ^ 31 - 1 < x ∧ x < 2 ^ 31) ∧
    (toInt x = none ↔ x ≤ -2 ^ 31 - 1 ∨ 2 ^ 31 ≤ x) := by
  have key : ∃ k' : Int, (0 ≤ x → (k' : ℝ) ≤ x ∧ x < k' + 1) ∧ (x < 0 → (k' : ℝ) - 1 < x ∧ x ≤ k') ∧
      toInt x = if -2 ^ 31 ≤ k' ∧ k' < 2 ^ 31 then some k' else none := by
    unfold toInt
    by_cases h : 0 ≤ x
    · rw [if_pos h]
      exact ⟨⌊x⌋, fun _ => ⟨Int.floor_le x, Int.lt_floor_add_one x⟩, fun hx => absurd h (by linarith), rfl⟩
    · rw [if_neg h]
      exact ⟨⌈x⌉, fun hx => absurd hx h, fun _ => ⟨by linarith [Int.ceil_lt_add_one x], Int.le_ceil x⟩, rfl⟩
  obtain ⟨k', h1, h2, h3⟩ := key
  have range : (-2 ^ 31 ≤ k' ∧ k' < 2 ^ 31) ↔ -2 ^ 31 - 1 < x ∧ x < 2 ^ 31 := by
    constructor
    · rintro ⟨a, b⟩
      have a' : ((-2 ^ 31 : ℤ) : ℝ) ≤ k' := by exact_mod_cast a
      have b' : (k' : ℝ) + 1 ≤ ((2 ^ 31 : ℤ) : ℝ) := by exact_mod_cast b
      push_cast at a' b'
      rcases le_or_gt 0 x with hx | hx
      · have := h1 hx; constructor <;> linarith
      · have := h2 hx; constructor <;> linarith
    · rintro ⟨a, b⟩
      rcases le_or_gt 0 x with hx | hx
      · obtain ⟨c, d⟩ := h1 hx
        have c' : (k' : ℝ) < ((2 ^ 31 : ℤ) : ℝ) := by push_cast; linarith
        have d' : ((-1 : ℤ) : ℝ) < k' := by push_cast; linarith
        have c'' : k' < 2 ^ 31 := by exact_mod_cast c'
        have d'' : -1 < k' := by exact_mod_cast d'
        exact ⟨by norm_num; omega, c''⟩
      · obtain ⟨c, d⟩ := h2 hx
        have c' : (k' : ℝ) < ((1 : ℤ) : ℝ) := by push_cast; linarith
        have d' : ((-2 ^ 31 - 1 : ℤ) : ℝ) < k' := by push_cast; linarith
        have c'' : k' < 1 := by exact_mod_cast c'
        have d'' : -2 ^ 31 - 1 < k' := by exact_mod_cast d'
        norm_num at d'' ⊢
        constructor <;> omega
  rw [h3]
  constructor
  · constructor
    · intro h
      split at h
      · rename_i hr
        cases h
        exact ⟨h1, h2, range.1 hr⟩
      · simp at h
    · rintro ⟨a, b, c⟩
      rw [if_pos (range.2 c)]
      congr 1
      rcases le_or_gt 0 x with hx | hx
      · obtain ⟨p, q⟩ := h1 hx
        obtain ⟨p', q'⟩ := a hx
        have u : (k' : ℝ) < k + 1 := by linarith
        have v : (k : ℝ) < k' + 1 := by linarith
        have u' : k' < k + 1 := by exact_mod_cast u
        have v' : k < k' + 1 := by exact_mod_cast v
        omega
      · obtain ⟨p, q⟩ := h2 hx
        obtain ⟨p', q'⟩ := b hx
        have u : (k' : ℝ) < k + 1 := by linarith
        have v : (k : ℝ) < k' + 1 := by linarith
        have u' : k' < k + 1 := by exact_mod_cast u
        have v' : k < k' + 1 := by exact_mod_cast v
        omega
  · constructor
    · intro h
      split at h
      · simp at h
      · rename_i hr
        rw [range, not_and_or, not_lt, not_lt] at hr
        exact hr
    · intro h
      rw [if_neg]
      rw [range, not_and_or, not_lt, not_lt]
      exact h

/-- The hypotheses of `C79_source_partial` hold of one triangle of material 1 with flux 5. -/
example (junk : List ℝ) : getSource oneGroup [mat1] junk = some [(5, 10)] := by
  have := C79_source_partial oneGroup [(5, [0, 1, 2])]
    [⟨materialName, [0], [1]⟩, ⟨fluxPrefix ++ firstGroup, [0], [5]⟩] ⟨rfl, rfl, rfl, rfl, rfl, rfl, rfl⟩
    ⟨by decide, by simp, by simp⟩ 5 (Or.inl rfl) (by simp) (by simp) [mat1] mat1 rfl (by simp [mat1])
    (fun _ => 0) (fun _ _ => 5) (fun _ _ => 1) (fun _ _ => 2)
    ⟨_, List.mem_cons_self, rfl, rfl, by simp⟩ (by simp)
    (by
      intro g hg d hd
      have : g = 0 := by simp [mat1] at hg; exact hg
      subst this
      have e : d = firstGroup := decimal_unique hd ⟨rfl, by unfold IsDigit; decide, rfl⟩
      subst e
      exact ⟨_, List.mem_cons_of_mem _ List.mem_cons_self, rfl, rfl, by simp⟩)
    (by
      intro i hi
      refine ⟨mat1, rfl, ?_⟩
      intro g hg
      have : g = 0 := by simp [mat1] at hg; exact hg
      subst this
      exact ⟨rfl, rfl⟩) junk
  rw [this]
  simp [sourceAt, mat1]
  norm_num

end Verif.Source
