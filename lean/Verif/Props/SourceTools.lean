import Verif.Model.SourceTools
import Verif.Props.Source

/-!
# C106: the programs that extract the source add the scattering, fission and total sources
-/

namespace Verif.Source

open Verif.Str (Byte)
open Verif.Polytope Verif.Phys Verif.ElemTypes
open Verif.XSLib (Res)
open Verif.Names (IsDecimal)

/-- A text as bytes. -/
def bytes (t : String) : List Byte := t.toList.map fun c => UInt8.ofNat c.toNat

theorem addOr_ok {V T : Type} {s : Soup V T (List Byte) ℝ} {els sets} (h : Rep s els sets) (name : List Byte) (ids : List Nat) (data : List ℝ)
    (h1 : ∀ e ∈ sets, e.name ≠ name) (h2 : ids ≠ []) (h3 : data.length = ids.length) :
    ∃ s', addOr s name ids data = .ok s' ∧ s'.verts = s.verts ∧ Rep s' els (sets ++ [⟨name, ids, data⟩]) := by
  have hn : name ∉ s.names := by
    rw [h.names, List.mem_map]
    rintro ⟨e, he, hx⟩
    exact h1 e he hx
  unfold addOr
  rw [addElset_accept s name ids data hn h2 (Or.inr h3)]
  dsimp only
  rw [if_neg (by omega)]
  exact ⟨_, rfl, rfl, h.addElset name ids data⟩

theorem addOr_bad {V T : Type} {s : Soup V T (List Byte) ℝ} {els sets} (h : Rep s els sets) (name : List Byte) (ids : List Nat) (data : List ℝ)
    (h1 : ∃ e ∈ sets, e.name = name) : addOr s name ids data = .refused := by
  have hn : name ∈ s.names := by
    rw [h.names, List.mem_map]
    exact h1
  unfold addOr
  rw [addElset_reject s name ids data (fun hh => hh.1 hn)]
  rfl

/-- The sum over the groups of the flux times a cross section. -/
noncomputable def rate (ng : Nat) (phi sigma : Nat → ℝ) : ℝ := ∑ g ∈ Finset.range ng, phi g * sigma g

/-- **C106.**  For a file as in property C79 without source sets, the file that is written has the same elements and sets and three sets
more: at every element the scattering source, the fission source divided by `k`, and their sum. -/
theorem C106_sources_partial {V : Type} (k : ℝ) (s : Soup V VTK (List Byte) ℝ) (els : List (VTK × List Nat)) (sets)
    (h : Rep s els sets) (hg : GoodSets sets) (t : VTK) (ht : IsFaceType t) (hne : els ≠ []) (hall : ∀ e ∈ els, e.1 = t)
    (mats : List (XSec ℝ)) (m0 : XSec ℝ) (h0 : mats[0]? = some m0) (hng : m0.ng < 1000)
    (mat : Nat → Nat) (phi ss nf : Nat → Nat → ℝ)
    (hmat : HasField sets els.length [109, 97, 116, 101, 114, 105, 97, 108] fun i => mat i + 1)
    (hrange : ∀ i < els.length, mat i + 1 < 2 ^ 31)
    (hflux : ∀ g < m0.ng, ∀ d, IsDecimal 3 (g + 1) d → HasField sets els.length ([102, 108, 117, 120, 95] ++ d) (phi g))
    (hx : ∀ i < els.length, ∃ m, mats[mat i]? = some m ∧
      ∀ g < m0.ng, m.s[g]? = some (ss i g) ∧ m.nuf[g]? = some (nf i g))
    (hnew : ∀ e ∈ sets, e.name ≠ bytes "scattering_source" ∧ e.name ≠ bytes "fission_source" ∧ e.name ≠ bytes "total_source")
    (junk : List ℝ) :
    ∃ s', sourceProgram k s mats junk = .ok s' ∧ s'.verts = s.verts ∧ Rep s' els (sets ++
      [⟨bytes "scattering_source", List.range els.length, (List.range els.length).map fun i => rate m0.ng (fun g => phi g i) (ss i)⟩,
       ⟨bytes "fission_source", List.range els.length, (List.range els.length).map fun i => rate m0.ng (fun g => phi g i) (nf i) / k⟩,
       ⟨bytes "total_source", List.range els.length, (List.range els.length).map fun i =>
          rate m0.ng (fun g => phi g i) (ss i) + rate m0.ng (fun g => phi g i) (nf i) / k⟩]) := by
  have hsrc := C79_source_partial s els sets h hg t ht hne hall mats m0 h0 hng mat phi ss nf hmat hrange hflux hx junk
  have hpos : List.range els.length ≠ [] := by
    have := List.length_pos_iff.2 hne
    rw [Ne, List.range_eq_nil]
    omega
  have n12 : scatteringName ≠ fissionName := by decide
  have n13 : scatteringName ≠ totalName := by decide
  have n23 : fissionName ≠ totalName := by decide
  unfold sourceProgram
  rw [hsrc]
  show ∃ s', (addOr s scatteringName _ _).bind _ = _ ∧ _
  rw [List.length_map, List.length_range, List.map_map, List.map_map]
  obtain ⟨s1, e1, v1, r1⟩ := addOr_ok h scatteringName (List.range els.length) (h1 := fun e he => (hnew e he).1) (h2 := hpos)
    (data := (List.range els.length).map ((fun q : ℝ × ℝ => q.1) ∘ fun i => sourceAt m0.ng (fun g => phi g i) (ss i) (nf i))) (h3 := by simp)
  obtain ⟨s2, e2, v2, r2⟩ := addOr_ok r1 fissionName (List.range els.length) (h1 := by
      intro e he
      rcases List.mem_append.1 he with he | he
      · exact (hnew e he).2.1
      · rw [List.mem_singleton.1 he]; exact n12) (h2 := hpos)
    (data := (List.range els.length).map ((fun q : ℝ × ℝ => 1 / k * q.2) ∘ fun i => sourceAt m0.ng (fun g => phi g i) (ss i) (nf i))) (h3 := by simp)
  obtain ⟨s3, e3, v3, r3⟩ := addOr_ok r2 totalName (List.range els.length) (h1 := by
      intro e he
      rcases List.mem_append.1 he with he | he
      · rcases List.mem_append.1 he with he | he
        · exact (hnew e he).2.2
        · rw [List.mem_singleton.1 he]; exact n13
      · rw [List.mem_singleton.1 he]; exact n23) (h2 := hpos)
    (data := List.zipWith (fun a b => a + b)
      ((List.range els.length).map ((fun q : ℝ × ℝ => q.1) ∘ fun i => sourceAt m0.ng (fun g => phi g i) (ss i) (nf i)))
      ((List.range els.length).map ((fun q : ℝ × ℝ => 1 / k * q.2) ∘ fun i => sourceAt m0.ng (fun g => phi g i) (ss i) (nf i)))) (h3 := by simp)
  refine ⟨s3, ?_, ?_, ?_⟩
  · rw [e1]
    show (addOr s1 fissionName _ _).bind _ = _
    rw [e2]
    exact e3
  · rw [v3, v2, v1]
  · rw [List.append_assoc, List.append_assoc] at r3
    have d2 : ((List.range els.length).map ((fun q : ℝ × ℝ => 1 / k * q.2) ∘ fun i => sourceAt m0.ng (fun g => phi g i) (ss i) (nf i))) =
        (List.range els.length).map fun i => rate m0.ng (fun g => phi g i) (nf i) / k := by
      apply List.map_congr_left
      intro i _
      show 1 / k * rate m0.ng (fun g => phi g i) (nf i) = _
      rw [one_div, mul_comm, div_eq_mul_inv]
    rw [d2, List.zipWith_map, List.zipWith_self] at r3
    exact r3

/-- **C106**, false: a file that has been written by the program before is refused. -/
theorem C106_again_fails {V : Type} (k : ℝ) (s : Soup V VTK (List Byte) ℝ) (els : List (VTK × List Nat)) (sets)
    (h : Rep s els sets) (mats : List (XSec ℝ)) (junk : List ℝ) (hold : ∃ e ∈ sets, e.name = bytes "scattering_source")
    (s' : Soup V VTK (List Byte) ℝ) : sourceProgram k s mats junk ≠ .ok s' := by
  unfold sourceProgram
  cases getSource s mats junk with
  | none => intro hh; exact absurd hh (by simp [Res.ofOption, Res.bind])
  | some src =>
    show (addOr s scatteringName _ _).bind _ ≠ _
    rw [addOr_bad h scatteringName _ _ hold]
    simp [Res.bind]

/-- **C106.**  A file with elements of several types, of a type that is not a face, or without elements is refused. -/
theorem C106_rejects {V : Type} (k : ℝ) (s : Soup V VTK (List Byte) ℝ) (mats : List (XSec ℝ)) (junk : List ℝ)
    (hbad : ¬ ∃ t, IsFaceType t ∧ s.types ≠ [] ∧ ∀ x ∈ s.types, x = t) : sourceProgram k s mats junk = .refused := by
  unfold sourceProgram
  rw [C79_rejects s mats junk hbad]
  show (addOr s scatteringName _ _).bind _ = _
  have : addOr s scatteringName (List.range ([] : List (ℝ × ℝ)).length) (([] : List (ℝ × ℝ)).map fun q => q.1) = .refused := by
    unfold addOr
    rw [addElset_reject s scatteringName (List.range ([] : List (ℝ × ℝ)).length) _ (fun hh => hh.2.1 rfl)]
    rfl
  rw [this]
  rfl

/-- One triangle of flux 5 with cross sections 1 and 2, and `k = 2`: the sources 5, 5 and 10. -/
example (junk : List ℝ) : ∃ s', sourceProgram 2 oneGroup [mat1] junk = .ok s' ∧ Rep s' [(5, [0, 1, 2])]
    [⟨materialName, [0], [1]⟩, ⟨fluxPrefix ++ firstGroup, [0], [5]⟩, ⟨bytes "scattering_source", [0], [5]⟩, ⟨bytes "fission_source", [0], [5]⟩,
      ⟨bytes "total_source", [0], [10]⟩] := by
  obtain ⟨s', h1, -, h2⟩ := C106_sources_partial 2 oneGroup [(5, [0, 1, 2])]
    [⟨materialName, [0], [1]⟩, ⟨fluxPrefix ++ firstGroup, [0], [5]⟩] ⟨rfl, rfl, rfl, rfl, rfl, rfl, rfl⟩
    ⟨by decide, by simp, by simp⟩ 5 (Or.inl rfl) (by simp) (by simp) [mat1] mat1 rfl (by simp [mat1])
    (fun _ => 0) (fun _ _ => 5) (fun _ _ => 1) (fun _ _ => 2)
    ⟨_, List.mem_cons_self, rfl, rfl, by simp⟩ (by simp)
    (by
      intro g hg d hd
      have : g = 0 := by simp [mat1] at hg; exact hg
      subst this
      have e : d = firstGroup := Names.decimal_unique hd ⟨rfl, by unfold Names.IsDigit; decide, rfl⟩
      subst e
      exact ⟨_, List.mem_cons_of_mem _ List.mem_cons_self, rfl, rfl, by simp⟩)
    (by
      intro i hi
      refine ⟨mat1, rfl, ?_⟩
      intro g hg
      have : g = 0 := by simp [mat1] at hg; exact hg
      subst this
      exact ⟨rfl, rfl⟩)
    (by
      intro e he
      simp only [List.mem_cons, List.not_mem_nil, or_false] at he
      rcases he with rfl | rfl <;> decide) junk
  refine ⟨s', h1, ?_⟩
  have e1 : rate mat1.ng (fun _ => 5) (fun _ => 1) = 5 := by simp [rate, mat1]
  have e2 : rate mat1.ng (fun _ => 5) (fun _ => 2) = 10 := by simp [rate, mat1]; norm_num
  have e3 : (10 : ℝ) / 2 = 5 := by norm_num
  have e4 : (5 : ℝ) + 5 = 10 := by norm_num
  simp only [e1, e2, e3, e4] at h2
  exact h2

end Verif.Source
