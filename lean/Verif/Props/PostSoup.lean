import Verif.Lemmas.PostTools
import Verif.Lemmas.Abaqus
import Verif.Props.Names
import Verif.Props.MeshSoup
import Verif.Props.CmfdInfo
import Verif.Props.PostText

/-!
# C105: the spectrum, and the data of the CMFD analysis, from a soup
-/

namespace Verif.Post

open Verif.Polytope Verif.CmfdInfo
open Verif.Str (Byte)
open Verif.Geom (Pt Poly)
open Verif.ElemTypes (VTK)
open Verif.XSLib (Res)
open Verif.Names (IsDecimal IsDigit value C63_increment C63_overflow_fails decimal_unique increment)
open Verif.Abaqus (digit_toNat)
open Verif.Phys (XSec)
open Verif.Mpact (Model)

set_option linter.unusedSectionVars false

/-! ### What is read -/

section
variable {V T K : Type}

/-- The data of the first set with this name; none without a set. -/
def dataOf (sets : List (ElSet (List Byte) K)) (name : List Byte) : List K := ((sets.find? fun e => e.name = name).map (·.data)).getD []

theorem byName (s : Soup V T (List Byte) K) (els : List (T × List Nat)) (sets : List (ElSet (List Byte) K)) (h : Rep s els sets)
    (name : List Byte) (old : List K) :
    getElsetByName s name old = some ((sets.find? fun e => e.name = name).map fun e => (e.ids, if e.data = [] then old else e.data)) := by
  have hget := C46_getElset s els sets h
  unfold getElsetByName
  rw [h.names, List.findIdx?_map]
  have hf : ((fun n : List Byte => decide (n = name)) ∘ fun x : ElSet (List Byte) K => x.name) = fun e => decide (e.name = name) := rfl
  rw [hf]
  cases hi : sets.findIdx? fun e => decide (e.name = name) with
  | none =>
    have : (sets.find? fun e => decide (e.name = name)) = none := by
      rw [List.find?_eq_none]
      rw [List.findIdx?_eq_none_iff] at hi
      intro x hx
      simpa using hi x hx
    rw [this]; rfl
  | some i =>
    rw [List.findIdx?_eq_some_iff_getElem] at hi
    obtain ⟨hl, h1, h2⟩ := hi
    have : (sets.find? fun e => decide (e.name = name)) = some sets[i] := by
      rw [List.find?_eq_some_iff_getElem]
      exact ⟨h1, i, hl, rfl, fun j hj => by simpa using h2 j hj⟩
    rw [this]
    dsimp only
    rw [hget, List.getElem?_eq_getElem hl]
    rfl

end

/-! ### The spectrum -/

section
variable {K : Type} [Field K] [LinearOrder K]

theorem groupFlux_eq (areas flux : List K) (n : Nat) (ha : n ≤ areas.length) (hf : n ≤ flux.length) :
    groupFlux areas flux n = some ((List.range n).map fun i => flux.getD i 0 * areas.getD i 0).sum := by
  have key : ∀ m ≤ n, ∃ st : K × K, (List.range m).foldlM (fun (st : K × K) i => (flux[i]?).bind fun f => (areas[i]?).bind fun a =>
      let acc := st.2 + f * a
      some (if i % 128 = 127 then (st.1 + acc, 0) else (st.1, acc))) (0, 0) = some st ∧
      st.1 + st.2 = ((List.range m).map fun i => flux.getD i 0 * areas.getD i 0).sum := by
    intro m
    induction m with
    | zero => intro _; exact ⟨(0, 0), rfl, by simp⟩
    | succ m ih =>
      intro hm
      obtain ⟨st, h1, h2⟩ := ih (by omega)
      have e1 : flux[m]? = some (flux.getD m 0) := by rw [List.getD_eq_getElem?_getD, List.getElem?_eq_getElem (by omega)]; rfl
      have e2 : areas[m]? = some (areas.getD m 0) := by rw [List.getD_eq_getElem?_getD, List.getElem?_eq_getElem (by omega)]; rfl
      rw [List.range_succ, List.foldlM_append, h1]
      simp only [Option.bind_eq_bind, Option.bind_some, List.foldlM_cons, List.foldlM_nil]
      rw [e1, e2]
      refine ⟨_, rfl, ?_⟩
      rw [List.map_append, List.sum_append, ← h2]
      split_ifs <;> simp [add_assoc]
  obtain ⟨st, h1, h2⟩ := key n (le_refl _)
  unfold groupFlux
  rw [h1, ← h2]
  rfl

/-- The loop stops at the first name without data. -/
theorem spectrumLoop_eq {V T : Type} (s : Soup V T (List Byte) K) (els : List (T × List Nat)) (sets : List (ElSet (List Byte) K)) (h : Rep s els sets)
    (areas : List K) (nm : Nat → List Byte) (k : Nat) (hinc : ∀ i < k, increment (nm i) = some (nm (i + 1)))
    (hset : ∀ i < k, ∃ e, (sets.find? fun e => e.name = nm i) = some e ∧ e.data ≠ [] ∧ e.ids.length ≤ areas.length ∧ e.ids.length = e.data.length)
    (hend : dataOf sets (nm k) = []) : ∀ (m i fuel : Nat) (acc : List K), i + m = k → m < fuel →
    spectrumLoop s areas fuel (nm i) acc = some (acc ++ (List.range' i m).map fun g =>
      ((List.range (dataOf sets (nm g)).length).map fun j => (dataOf sets (nm g)).getD j 0 * areas.getD j 0).sum) := by
  intro m
  induction m with
  | zero =>
    intro i fuel acc hi hf
    obtain ⟨f, rfl⟩ : ∃ f, fuel = f + 1 := ⟨fuel - 1, by omega⟩
    have : i = k := by omega
    subst this
    rw [spectrumLoop, byName s els sets h, Option.bind_some]
    unfold dataOf at hend
    cases hx : sets.find? fun e => decide (e.name = nm i) with
    | none => simp
    | some e =>
      rw [hx] at hend
      have : e.data = [] := hend
      simp [this]
  | succ m ih =>
    intro i fuel acc hi hf
    obtain ⟨f, rfl⟩ : ∃ f, fuel = f + 1 := ⟨fuel - 1, by omega⟩
    obtain ⟨e, h1, h2, h3, h4⟩ := hset i (by omega)
    have hd : dataOf sets (nm i) = e.data := by unfold dataOf; rw [h1]; rfl
    rw [spectrumLoop, byName s els sets h, Option.bind_some, h1]
    dsimp only [Option.map_some]
    rw [if_neg h2, if_neg h2, groupFlux_eq areas e.data e.ids.length h3 (by omega), Option.bind_some, hinc i (by omega), Option.bind_some,
      ih (i + 1) f _ (by omega) (by omega), List.range'_succ, List.map_cons, hd, h4]
    simp

/-- `"flux_"` and the group number with three digits. -/
def fluxName (g : Nat) : List Byte :=
  ("flux_".toList.map fun c => UInt8.ofNat c.toNat) ++ [g / 100, g / 10 % 10, g % 10].map fun d => UInt8.ofNat (48 + d)

theorem decimal3 (g : Nat) (h : g < 1000) : IsDecimal 3 g ([g / 100, g / 10 % 10, g % 10].map fun d => UInt8.ofNat (48 + d)) := by
  refine ⟨rfl, ?_, ?_⟩
  · intro c hc
    obtain ⟨d, hd, rfl⟩ := List.mem_map.1 hc
    have : d < 10 := by
      simp only [List.mem_cons, List.not_mem_nil, or_false] at hd
      omega
    rw [IsDigit, digit_toNat d this]
    omega
  · simp only [value, List.map_cons, List.map_nil, List.foldl_cons, List.foldl_nil]
    rw [digit_toNat _ (by omega), digit_toNat _ (by omega), digit_toNat _ (by omega)]
    omega

theorem fluxName_next (g : Nat) (h : g + 1 < 1000) : increment (fluxName g) = some (fluxName (g + 1)) := by
  obtain ⟨t, ht, e⟩ := C63_increment 3 g ("flux_".toList.map fun c => UInt8.ofNat c.toNat) _ (decimal3 g (by omega)) (by simpa using h)
  rw [fluxName, e, decimal_unique ht (decimal3 (g + 1) h)]
  rfl

/-- The face of an element: its vertices without the height. -/
def faceOf (N : Nat) (verts : List (Pt 3 K)) (c : List Nat) : Poly N 2 K :=
  fun j => ![(verts.getD (c.getD j.val 0) 0) 0, (verts.getD (c.getD j.val 0) 0) 1]

/-- The sum over the elements of the value times the area. -/
def integral (N : Nat) (area : Poly N 2 K → K) (verts : List (Pt 3 K)) (els : List (VTK × List Nat)) (e : ElSet (List Byte) K) : K :=
  (List.zipWith (fun i x => x * area (faceOf N verts (els.getD i (0, [])).2)) e.ids e.data).sum

/-- A soup of elements of one type with existing vertices at one height. -/
structure OneKind (N : Nat) (ty : VTK) (eps : K) (s : Soup (Pt 3 K) VTK (List Byte) K) (els : List (VTK × List Nat))
    (sets : List (ElSet (List Byte) K)) : Prop where
  rep : Rep s els sets
  some_ : els ≠ []
  all : ∀ e ∈ els, e.1 = ty ∧ e.2.length = N
  verts : ∀ e ∈ els, ∀ i ∈ e.2, i < s.verts.length
  flat : ∃ p0, s.verts.head? = some p0 ∧ ∀ p ∈ s.verts, |p 2 - p0 2| ≤ eps

theorem faces_eq (N : Nat) (ty : VTK) (eps : K) (junk : Nat → Pt 2 K) (s : Soup (Pt 3 K) VTK (List Byte) K) (els sets) (h : OneKind N ty eps s els sets) :
    ∃ m : Mesh.FVM (Pt 2 K) N, Mesh.ofSoup N ty true eps junk s = some (some m) ∧
      m.fv.mapM (Mesh.loadFace m.v) = some (els.map fun e => faceOf N s.verts e.2) := by
  obtain ⟨p0, hp, hz⟩ := h.flat
  obtain ⟨m, h1, h2, h3, -⟩ := Mesh.C82_of_soup_partial s els sets h.rep ty h.some_ h.all p0 hp eps hz true junk
  refine ⟨m, h1, ?_⟩
  have key : ∀ (fv : List (Fin N → Nat)) (l : List (VTK × List Nat)), fv.map List.ofFn = l.map (·.2) →
      (∀ e ∈ l, ∀ i ∈ e.2, i < s.verts.length) → fv.mapM (Mesh.loadFace m.v) = some (l.map fun e => faceOf N s.verts e.2) := by
    intro fv
    induction fv with
    | nil =>
      intro l hl _
      cases l with
      | nil => rfl
      | cons _ _ => simp at hl
    | cons c fv ih =>
      intro l hl hv
      cases l with
      | nil => simp at hl
      | cons e l =>
        rw [List.map_cons, List.map_cons] at hl
        obtain ⟨hc, hl⟩ := List.cons.inj hl
        have hlt : ∀ j, c j < s.verts.length := by
          intro j
          apply hv e (by simp)
          rw [← hc, List.mem_ofFn]
          exact ⟨j, rfl⟩
        have hlt' : ∀ j, c j < m.v.length := by rw [h2, List.length_map]; exact hlt
        have hload : Mesh.loadFace m.v c = some (faceOf N s.verts e.2) := by
          unfold Mesh.loadFace
          rw [dif_pos hlt']
          congr 1
          funext j
          have e1 : e.2.getD j.val 0 = c j := by
            rw [← hc, List.getD_eq_getElem?_getD, List.getElem?_ofFn]
            simp
          have e2 : s.verts.getD (c j) 0 = s.verts[c j]'(hlt j) := by
            rw [List.getD_eq_getElem?_getD, List.getElem?_eq_getElem (hlt j)]; rfl
          unfold faceOf
          rw [e1, e2]
          simp only [h2, List.getElem_map]
        rw [List.mapM_cons, hload, ih l hl fun e he => hv e (by simp [he])]
        rfl
  exact key m.fv els h3 h.verts

theorem integral_range (N : Nat) (area : Poly N 2 K → K) (verts : List (Pt 3 K)) (els : List (VTK × List Nat)) (e : ElSet (List Byte) K)
    (hi : e.ids = List.range els.length) (hl : e.ids.length = e.data.length) :
    ((List.range e.data.length).map fun j => e.data.getD j 0 * (els.map fun e => area (faceOf N verts e.2)).getD j 0).sum =
      integral N area verts els e := by
  unfold integral
  congr 1
  rw [hi] at hl ⊢
  rw [List.length_range] at hl
  apply List.ext_getElem
  · simp [hl]
  · intro j h1 h2
    have hj : j < e.data.length := by simpa using h1
    have hj' : j < els.length := by omega
    simp [hj, hj']

/-- **C105.**  If the groups 1 to `k` (at most 998) have sets `flux_001`, `flux_002`, … with a value for every element, in order, and the
next group has none, the spectrum is, for every group, the sum over the elements of flux times area. -/
theorem C105_spectrum_partial (N : Nat) (ty : VTK) (area : Poly N 2 K → K) (eps : K) (junk : Nat → Pt 2 K)
    (s : Soup (Pt 3 K) VTK (List Byte) K) (els sets) (h : OneKind N ty eps s els sets) (k : Nat) (hk : k ≤ 998)
    (flux : Nat → ElSet (List Byte) K)
    (hset : ∀ g, 1 ≤ g → g ≤ k → (sets.find? fun e => e.name = fluxName g) = some (flux g) ∧ (flux g).ids = List.range els.length ∧
      (flux g).data.length = els.length)
    (hend : ∀ e ∈ sets, e.name ≠ fluxName (k + 1)) (fuel : Nat) (hf : k < fuel) :
    spectrumOf N ty area eps junk fuel s = .ok ((List.range k).map fun g => integral N area s.verts els (flux (g + 1))) := by
  obtain ⟨m, h1, h2⟩ := faces_eq N ty eps junk s els sets h
  have hpos : 0 < els.length := List.length_pos_iff.2 h.some_
  unfold spectrumOf
  rw [h1]
  show (Res.ofOption (m.fv.mapM (Mesh.loadFace m.v))).bind _ = _
  rw [h2]
  show Res.ofOption (spectrumLoop s ((els.map fun e => faceOf N s.verts e.2).map area) fuel firstFlux []) = _
  have hfirst : firstFlux = fluxName (0 + 1) := by decide +kernel
  have hno : (sets.find? fun e => decide (e.name = fluxName (k + 1))) = none := by
    rw [List.find?_eq_none]
    intro e he
    simpa using hend e he
  rw [hfirst, spectrumLoop_eq s els sets h.rep _ (fun i => fluxName (i + 1)) k (fun i hi => fluxName_next (i + 1) (by omega)) (fun i hi => by
      obtain ⟨e1, e2, e3⟩ := hset (i + 1) (by omega) (by omega)
      exact ⟨_, e1, fun h0 => by rw [h0] at e3; simp at e3; omega, by rw [e2]; simp, by rw [e2, e3]; simp⟩)
      (by unfold dataOf; rw [hno]; rfl) k 0 fuel [] (by omega) hf]
  rw [List.nil_append, ← List.range_eq_range']
  show Res.ok _ = _
  congr 1
  apply List.map_congr_left
  intro g hg
  have hg := List.mem_range.1 hg
  obtain ⟨e1, e2, e3⟩ := hset (g + 1) (by omega) (by omega)
  have hd : dataOf sets (fluxName (g + 1)) = (flux (g + 1)).data := by unfold dataOf; rw [e1]; rfl
  rw [hd, List.map_map]
  exact integral_range N area s.verts els _ e2 (by rw [e2, e3]; simp)

/-- **C105**, false: the positions of the values are not used.  A set with one value, for the second element, is multiplied with the area of the
first. -/
theorem C105_ids_fails (N : Nat) (ty : VTK) (area : Poly N 2 K → K) (eps : K) (junk : Nat → Pt 2 K)
    (s : Soup (Pt 3 K) VTK (List Byte) K) (els sets) (h : OneKind N ty eps s els sets) (a b : VTK × List Nat) (hels : els = [a, b]) (x : K)
    (hsets : sets = [⟨fluxName 1, [1], [x]⟩]) (fuel : Nat) (hf : 1 < fuel) :
    spectrumOf N ty area eps junk fuel s = .ok [x * area (faceOf N s.verts a.2)] ∧
      integral N area s.verts els ⟨fluxName 1, [1], [x]⟩ = x * area (faceOf N s.verts b.2) := by
  constructor
  · obtain ⟨m, h1, h2⟩ := faces_eq N ty eps junk s els sets h
    unfold spectrumOf
    rw [h1]
    show (Res.ofOption (m.fv.mapM (Mesh.loadFace m.v))).bind _ = _
    rw [h2]
    show Res.ofOption (spectrumLoop s ((els.map fun e => faceOf N s.verts e.2).map area) fuel firstFlux []) = _
    have hfirst : firstFlux = fluxName (0 + 1) := by decide +kernel
    have hne : fluxName 1 ≠ fluxName 2 := by decide
    have hd : dataOf sets (fluxName 1) = [x] := by unfold dataOf; rw [hsets]; simp
    rw [hfirst, spectrumLoop_eq s els sets h.rep _ (fun i => fluxName (i + 1)) 1 (fun i hi => fluxName_next (i + 1) (by omega)) (fun i hi => by
        have : i = 0 := by omega
        subst this
        exact ⟨⟨fluxName 1, [1], [x]⟩, by rw [hsets]; simp, by simp, by rw [hels]; simp, by simp⟩)
        (by unfold dataOf; rw [hsets]; simp [hne]) 1 0 fuel [] (by omega) hf]
    show Res.ok _ = _
    congr 1
    simp [hd, hels]
  · simp [integral, hels]

/-- The name after `flux_999`. -/
theorem after_999 : increment (fluxName 999) = some ("flux`000".toUTF8.toList) := by decide +kernel

/-- **C105**, false: at most 999 groups are found.  After `flux_999` the set <code>flux`000</code> is looked up, so that, whatever name the set of the
thousandth group has, it is left out. -/
theorem C105_limit_fails (N : Nat) (ty : VTK) (area : Poly N 2 K → K) (eps : K) (junk : Nat → Pt 2 K)
    (s : Soup (Pt 3 K) VTK (List Byte) K) (els sets) (h : OneKind N ty eps s els sets)
    (hset : ∀ g, 1 ≤ g → g ≤ 999 → ∃ e, (sets.find? fun e => e.name = fluxName g) = some e ∧ e.ids = List.range els.length ∧
      e.data.length = els.length)
    (hend : ∀ e ∈ sets, e.name ≠ "flux`000".toUTF8.toList) (fuel : Nat) (hf : 999 < fuel) :
    ∃ l, spectrumOf N ty area eps junk fuel s = .ok l ∧ l.length = 999 := by
  obtain ⟨m, h1, h2⟩ := faces_eq N ty eps junk s els sets h
  have hpos : 0 < els.length := List.length_pos_iff.2 h.some_
  unfold spectrumOf
  rw [h1]
  show ∃ l, (Res.ofOption (m.fv.mapM (Mesh.loadFace m.v))).bind _ = _ ∧ _
  rw [h2]
  show ∃ l, Res.ofOption (spectrumLoop s ((els.map fun e => faceOf N s.verts e.2).map area) fuel firstFlux []) = _ ∧ _
  have hfirst : firstFlux = (fun i => if i < 999 then fluxName (i + 1) else "flux`000".toUTF8.toList) 0 := by decide +kernel
  have hno : (sets.find? fun e => decide (e.name = "flux`000".toUTF8.toList)) = none := by
    rw [List.find?_eq_none]
    intro e he
    simpa using hend e he
  rw [hfirst, spectrumLoop_eq s els sets h.rep _ (fun i => if i < 999 then fluxName (i + 1) else "flux`000".toUTF8.toList) 999 (fun i hi => by
      rw [if_pos hi]
      by_cases h9 : i + 1 < 999
      · rw [if_pos h9]; exact fluxName_next (i + 1) (by omega)
      · have : i = 998 := by omega
        subst this
        exact after_999) (fun i hi => by
      rw [if_pos hi]
      obtain ⟨e, e1, e2, e3⟩ := hset (i + 1) (by omega) (by omega)
      exact ⟨_, e1, fun h0 => by rw [h0] at e3; simp at e3; omega, by rw [e2]; simp, by rw [e2, e3]; simp⟩)
      (by unfold dataOf; rw [if_neg (by omega), hno]; rfl) 999 0 fuel [] (by omega) hf]
  exact ⟨_, rfl, by simp⟩

end

/-- **C105.**  The type of the elements decides which area is used; elements of several types, or of another type, are refused. -/
theorem C105_kinds (eps : ℝ) (junk : Nat → Pt 2 ℝ) (fuel : Nat) (s : Soup (Pt 3 ℝ) VTK (List Byte) ℝ) :
    ((∃ a ∈ s.types, ∃ b ∈ s.types, a ≠ b) → spectrum eps junk fuel s = .refused) ∧
    ∀ ty, s.types ≠ [] → (∀ t ∈ s.types, t = ty) →
      (ty = 5 → spectrum eps junk fuel s = spectrumOf 3 5 Geom.triArea eps junk fuel s) ∧
      (ty = 9 → spectrum eps junk fuel s = spectrumOf 4 9 Geom.quadArea eps junk fuel s) ∧
      (ty = 22 → spectrum eps junk fuel s = spectrumOf 6 22 Geom.tri6Area eps junk fuel s) ∧
      (ty = 23 → spectrum eps junk fuel s = spectrumOf 8 23 Geom.quad8Area eps junk fuel s) ∧
      (ty ∉ [5, 9, 22, 23] → spectrum eps junk fuel s = .refused) := by
  constructor
  · rintro ⟨a, ha, b, hb, hab⟩
    obtain ⟨h1, h2⟩ := C46_elemTypes s
    rw [← h2] at ha hb
    unfold spectrum
    match hl : getElemTypes s with
    | [] => rfl
    | [t] =>
      rw [hl] at ha hb
      simp only [List.mem_cons, List.not_mem_nil, or_false] at ha hb
      exact absurd (ha.trans hb.symm) hab
    | _ :: _ :: _ => rfl
  · intro ty hne hall
    have ht := Mesh.types_single s ty hne hall
    unfold spectrum
    rw [ht]
    dsimp only
    refine ⟨?_, ?_, ?_, ?_, ?_⟩
    · rintro rfl; rfl
    · rintro rfl; rfl
    · rintro rfl; rfl
    · rintro rfl; rfl
    · intro hn
      simp only [List.mem_cons, List.not_mem_nil, or_false, not_or] at hn
      rw [if_neg (show ¬ty = VTK.Triangle from hn.1), if_neg (show ¬ty = VTK.Quad from hn.2.1),
        if_neg (show ¬ty = VTK.QuadraticTriangle from hn.2.2.1), if_neg (show ¬ty = VTK.QuadraticQuad from hn.2.2.2)]

/-! ### The data of the CMFD analysis -/

section
variable {V T K : Type}

theorem found (sets : List (ElSet (List Byte) K)) (name : List Byte) (e : ElSet (List Byte) K)
    (h : ∀ x, (x ∈ sets ∧ x.name = name) ↔ x = e) : (sets.find? fun x => x.name = name) = some e := by
  obtain ⟨h1, h2⟩ := (h e).2 rfl
  cases hf : sets.find? fun x => decide (x.name = name) with
  | none =>
    rw [List.find?_eq_none] at hf
    exact absurd h2 (by simpa using hf e h1)
  | some x =>
    have hm := List.mem_of_find?_eq_some hf
    have hp := List.find?_some hf
    rw [(h x).1 ⟨hm, by simpa using hp⟩]

theorem pull_found (s : Soup V T (List Byte) K) (els sets) (h : Rep s els sets) (name : List Byte) (e : ElSet (List Byte) K)
    (he : ∀ x, (x ∈ sets ∧ x.name = name) ↔ x = e) (hd : e.data ≠ []) (st : List Nat × List K) : pull s name st = some (e.ids, e.data) := by
  unfold pull
  rw [byName s els sets h, found sets name e he]
  dsimp only [Option.map_some, Option.elim]
  rw [if_neg hd]
  rfl

theorem pull_none (s : Soup V T (List Byte) K) (els sets) (h : Rep s els sets) (name : List Byte) (he : ∀ x ∈ sets, x.name ≠ name)
    (st : List Nat × List K) : pull s name st = some st := by
  have hno : (sets.find? fun e => decide (e.name = name)) = none := by
    rw [List.find?_eq_none]
    intro e h1
    simpa using he e h1
  unfold pull
  rw [byName s els sets h, hno]
  rfl

/-- The set is the only one of its name, and has values. -/
structure IsOnly (sets : List (ElSet (List Byte) K)) (name : List Byte) (e : ElSet (List Byte) K) : Prop where
  only : ∀ x, (x ∈ sets ∧ x.name = name) ↔ x = e
  ids : e.ids ≠ []
  data : e.data ≠ []

/-- There is no set of this name. -/
def NoSet (sets : List (ElSet (List Byte) K)) (name : List Byte) : Prop := ∀ x ∈ sets, x.name ≠ name

theorem label_total (g : Nat) (h : g < 100000) : preTotal ++ Names.getASCIINumber g = label "Homogenized_Total_XS_Group_" g := by
  rw [digits5 g h]; rfl

theorem label_ratio (g : Nat) (h : g < 100000) : preRatio ++ Names.getASCIINumber g = label "Homogenized_Scattering_Ratio_Group_" g := by
  rw [digits5 g h]; rfl

theorem label_radius (g : Nat) (h : g < 100000) : preRadius ++ Names.getASCIINumber g = label "1D_odCMFD_Spectral_Radius_Group_" g := by
  rw [digits5 g h]; rfl

/-- **C105.**  If the groups 0 to `ng - 1` have their three sets and the next one has none, the three files have the values of these sets,
group by group. -/
theorem C105_info_partial (s : Soup V T (List Byte) K) (els sets) (h : Rep s els sets) (ng : Nat) (hng : ng < 100000)
    (t c r : Nat → ElSet (List Byte) K)
    (ht : ∀ g < ng, IsOnly sets (label "Homogenized_Total_XS_Group_" g) (t g))
    (hc : ∀ g < ng, IsOnly sets (label "Homogenized_Scattering_Ratio_Group_" g) (c g))
    (hr : ∀ g < ng, IsOnly sets (label "1D_odCMFD_Spectral_Radius_Group_" g) (r g))
    (hend : NoSet sets (label "Homogenized_Total_XS_Group_" ng) ∧ NoSet sets (label "Homogenized_Scattering_Ratio_Group_" ng) ∧
      NoSet sets (label "1D_odCMFD_Spectral_Radius_Group_" ng)) (fuel : Nat) (hf : ng < fuel) :
    infoLoop s fuel 0 ([], [], []) = some ((List.range ng).map fun g => (t g).data, (List.range ng).map fun g => (c g).data,
      (List.range ng).map fun g => (r g).data) := by
  have key : ∀ (m i fuel : Nat) (A B C : List (List K)), i + m = ng → m < fuel → infoLoop s fuel i (A, B, C) =
      some (A ++ (List.range' i m).map fun g => (t g).data, B ++ (List.range' i m).map fun g => (c g).data,
        C ++ (List.range' i m).map fun g => (r g).data) := by
    intro m
    induction m with
    | zero =>
      intro i fuel A B C hi hf
      obtain ⟨f, rfl⟩ : ∃ f, fuel = f + 1 := ⟨fuel - 1, by omega⟩
      have : i = ng := by omega
      subst this
      rw [infoLoop, label_total i hng, label_ratio i hng, label_radius i hng, pull_none s els sets h _ hend.1, Option.bind_some,
        pull_none s els sets h _ hend.2.1, Option.bind_some, pull_none s els sets h _ hend.2.2, Option.bind_some]
      simp [push]
    | succ m ih =>
      intro i fuel A B C hi hf
      obtain ⟨f, rfl⟩ : ∃ f, fuel = f + 1 := ⟨fuel - 1, by omega⟩
      have hi' : i < ng := by omega
      rw [infoLoop, label_total i (by omega), label_ratio i (by omega), label_radius i (by omega),
        pull_found s els sets h _ _ (ht i hi').only (ht i hi').data, Option.bind_some,
        pull_found s els sets h _ _ (hc i hi').only (hc i hi').data, Option.bind_some,
        pull_found s els sets h _ _ (hr i hi').only (hr i hi').data, Option.bind_some]
      dsimp only [push]
      rw [if_neg (ht i hi').ids, if_neg (hc i hi').ids, if_neg (hr i hi').ids, if_neg (fun hh => (ht i hi').ids hh.1),
        ih (i + 1) f _ _ _ (by omega) (by omega), List.range'_succ]
      simp
  rw [key ng 0 fuel [] [] [] (by omega) hf, ← List.range_eq_range']
  rfl

/-- **C105**, false: if only the total cross sections are there, the two other files have them too. -/
theorem C105_repeat_fails (s : Soup V T (List Byte) K) (els sets) (h : Rep s els sets) (t : ElSet (List Byte) K)
    (ht : IsOnly sets (label "Homogenized_Total_XS_Group_" 0) t)
    (hno : NoSet sets (label "Homogenized_Scattering_Ratio_Group_" 0) ∧ NoSet sets (label "1D_odCMFD_Spectral_Radius_Group_" 0))
    (hend : NoSet sets (label "Homogenized_Total_XS_Group_" 1) ∧ NoSet sets (label "Homogenized_Scattering_Ratio_Group_" 1) ∧
      NoSet sets (label "1D_odCMFD_Spectral_Radius_Group_" 1)) (fuel : Nat) (hf : 1 < fuel) :
    infoLoop s fuel 0 ([], [], []) = some ([t.data], [t.data], [t.data]) := by
  obtain ⟨f, rfl⟩ : ∃ f, fuel = f + 1 + 1 := ⟨fuel - 2, by omega⟩
  rw [infoLoop, label_total 0 (by omega), label_ratio 0 (by omega), label_radius 0 (by omega), pull_found s els sets h _ _ ht.only ht.data,
    Option.bind_some, pull_none s els sets h _ hno.1, Option.bind_some, pull_none s els sets h _ hno.2, Option.bind_some]
  dsimp only [push]
  rw [if_neg ht.ids, if_neg (fun hh => ht.ids hh.1), infoLoop, label_total 1 (by omega), label_ratio 1 (by omega), label_radius 1 (by omega), pull_none s els sets h _ hend.1,
    Option.bind_some, pull_none s els sets h _ hend.2.1, Option.bind_some, pull_none s els sets h _ hend.2.2, Option.bind_some]
  simp [push]

end

section
variable {K M : Type} [Field K] [LinearOrder K]

/-- **C105.**  What `writeCMFDInfo` writes for a model (property C86) is what the files have: for every group, at every place of a coarse cell, the
total cross section, the scattering ratio and the spectral radius. -/
theorem C105_written_partial (ninf : K) (rho : K → K → K → K) (s : Model K M) (ng : Nat) (mats : List (XSec K))
    (meshes : List (List (K × Nat))) (h : Ready s ng mats meshes) (hng : ng < 100000)
    (hused : ∀ c < s.cells.length, ∃ t, IsTile s t ∧ t.id = c)
    (hne : ∀ c < s.cells.length, ∀ g < ng, sigT mats meshes c g ≠ 0) (fuel : Nat) (hf : ng < fuel) :
    ∃ (soup : CSoup K) (L : List (Tile K)), info ninf rho s mats meshes = .ok soup ∧ (L.map Tile.path).Nodup ∧ (∀ t, t ∈ L ↔ IsTile s t) ∧
      soup.verts = L.flatMap Tile.corners ∧
      infoLoop soup fuel 0 ([], [], []) = some ((List.range ng).map fun g => L.map fun t => sigT mats meshes t.id g,
        (List.range ng).map fun g => L.map fun t => mean mats meshes .s t.id g / sigT mats meshes t.id g,
        (List.range ng).map fun g => L.map fun t => radiusOf rho s mats meshes t.id g) := by
  obtain ⟨soup, L, e1, e2, e3, e4, e5⟩ := C86_info_partial ninf rho s ng mats meshes h hused hne
  refine ⟨soup, L, e1, e2, e3, e4, ?_⟩
  have hn := h.built.small.2.2.2
  have hL : L ≠ [] := by
    rintro rfl
    have hc : 0 < s.cells.length := by
      obtain ⟨b1, -, b3, -⟩ := h.built.core
      obtain ⟨c, hc⟩ := List.exists_mem_of_ne_nil _ b1
      obtain ⟨c1, c2⟩ := b3 c hc
      obtain ⟨a, ha⟩ := get_of_lt s.assemblies c.toNat (by omega)
      obtain ⟨g1, g2, g3, -⟩ := h.built.asy a (List.mem_of_getElem? ha)
      obtain ⟨c', hc'⟩ := List.exists_mem_of_ne_nil _ g1
      obtain ⟨c3, c4⟩ := g3 c' hc'
      obtain ⟨l, hl⟩ := get_of_lt s.lattices c'.toNat (by omega)
      obtain ⟨g1, g2, g3, -⟩ := h.built.lat l (List.mem_of_getElem? hl)
      obtain ⟨c', hc'⟩ := List.exists_mem_of_ne_nil _ g1
      obtain ⟨c3, c4⟩ := g3 c' hc'
      obtain ⟨r, hr⟩ := get_of_lt s.rtms c'.toNat (by omega)
      obtain ⟨g1, g2, g3, -⟩ := h.built.rtm r (List.mem_of_getElem? hr)
      obtain ⟨c', hc'⟩ := List.exists_mem_of_ne_nil _ g1
      obtain ⟨c3, c4⟩ := g3 c' hc'
      omega
    obtain ⟨t, ht, -⟩ := hused 0 hc
    exact absurd ((e3 t).2 ht) (by simp)
  have name_ne : ∀ (a b : String) (i j : Nat), a.toList.length ≠ b.toList.length → label a i ≠ label b j := by
    intro a b i j hab e
    have := congrArg List.length e
    rw [label_length, label_length] at this
    omega
  have mem : ∀ x : ElSet (List Byte) K, x ∈ (List.range s.cells.length).map (cellSet L) ++
          (List.range ng).map (groupSet "Homogenized_Total_XS_Group_" L (sigT mats meshes)) ++
          (List.range ng).map (groupSet "Homogenized_Scattering_Ratio_Group_" L
            fun c g => mean mats meshes .s c g / sigT mats meshes c g) ++
          (List.range ng).map (groupSet "1D_odCMFD_Spectral_Radius_Group_" L (radiusOf rho s mats meshes)) ↔
      (∃ c < s.cells.length, cellSet L c = x) ∨ (∃ g < ng, groupSet "Homogenized_Total_XS_Group_" L (sigT mats meshes) g = x) ∨
      (∃ g < ng, groupSet "Homogenized_Scattering_Ratio_Group_" L (fun c g => mean mats meshes .s c g / sigT mats meshes c g) g = x) ∨
      (∃ g < ng, groupSet "1D_odCMFD_Spectral_Radius_Group_" L (radiusOf rho s mats meshes) g = x) := by
    intro x
    simp only [List.mem_append, List.mem_map, List.mem_range, or_assoc]
  have l0 : "Coarse_Cell_".toList.length = 12 := by decide
  have l1 : "Homogenized_Total_XS_Group_".toList.length = 27 := by decide
  have l2 : "Homogenized_Scattering_Ratio_Group_".toList.length = 35 := by decide
  have l3 : "1D_odCMFD_Spectral_Radius_Group_".toList.length = 32 := by decide
  have e6 := C105_info_partial soup _ _ e5 ng hng (groupSet "Homogenized_Total_XS_Group_" L (sigT mats meshes))
    (groupSet "Homogenized_Scattering_Ratio_Group_" L fun c g => mean mats meshes .s c g / sigT mats meshes c g)
    (groupSet "1D_odCMFD_Spectral_Radius_Group_" L (radiusOf rho s mats meshes)) ?_ ?_ ?_ ?_ fuel hf
  · exact e6
  · intro g hg
    refine ⟨fun x => ⟨?_, ?_⟩, by simpa [groupSet] using hL, by simpa [groupSet] using hL⟩
    · rw [mem]
      rintro ⟨⟨c, -, rfl⟩ | ⟨c, hc, rfl⟩ | ⟨c, -, rfl⟩ | ⟨c, -, rfl⟩, hx⟩
      · exact absurd hx (name_ne _ _ _ _ (by omega))
      · rw [label_inj _ c g (by omega) (by omega) hx]
      · exact absurd hx (name_ne _ _ _ _ (by omega))
      · exact absurd hx (name_ne _ _ _ _ (by omega))
    · rintro rfl
      exact ⟨(mem _).2 (Or.inr (Or.inl ⟨g, hg, rfl⟩)), rfl⟩
  · intro g hg
    refine ⟨fun x => ⟨?_, ?_⟩, by simpa [groupSet] using hL, by simpa [groupSet] using hL⟩
    · rw [mem]
      rintro ⟨⟨c, -, rfl⟩ | ⟨c, -, rfl⟩ | ⟨c, hc, rfl⟩ | ⟨c, -, rfl⟩, hx⟩
      · exact absurd hx (name_ne _ _ _ _ (by omega))
      · exact absurd hx (name_ne _ _ _ _ (by omega))
      · rw [label_inj _ c g (by omega) (by omega) hx]
      · exact absurd hx (name_ne _ _ _ _ (by omega))
    · rintro rfl
      exact ⟨(mem _).2 (Or.inr (Or.inr (Or.inl ⟨g, hg, rfl⟩))), rfl⟩
  · intro g hg
    refine ⟨fun x => ⟨?_, ?_⟩, by simpa [groupSet] using hL, by simpa [groupSet] using hL⟩
    · rw [mem]
      rintro ⟨⟨c, -, rfl⟩ | ⟨c, -, rfl⟩ | ⟨c, -, rfl⟩ | ⟨c, hc, rfl⟩, hx⟩
      · exact absurd hx (name_ne _ _ _ _ (by omega))
      · exact absurd hx (name_ne _ _ _ _ (by omega))
      · exact absurd hx (name_ne _ _ _ _ (by omega))
      · rw [label_inj _ c g (by omega) (by omega) hx]
    · rintro rfl
      exact ⟨(mem _).2 (Or.inr (Or.inr (Or.inr ⟨g, hg, rfl⟩))), rfl⟩
  · refine ⟨?_, ?_, ?_⟩ <;> intro x hx hn' <;> rw [mem] at hx <;>
      rcases hx with ⟨c, -, rfl⟩ | ⟨c, hc, rfl⟩ | ⟨c, hc, rfl⟩ | ⟨c, hc, rfl⟩ <;>
      first
        | exact absurd hn' (name_ne _ _ _ _ (by omega))
        | exact absurd (label_inj _ c ng (by omega) (by omega) hn') (by omega)

end

/-! ### The powers -/

/-- **C105.**  After the heading, the file has one line for each power, with the power and the coordinates as in property C103; the program
ends without an error exactly if the sum of the powers differs from 1 by at most a thousandth. -/
theorem C105_powers (l : List (ℚ × ℚ × ℚ)) :
    (powerFile l).1.splitOn 10 = "Power, x, y".toUTF8.toList :: l.map (fun p => fixed16 p.1 ++ [44, 32] ++ fixed16 p.2.1 ++ [44, 32] ++ fixed16 p.2.2) ++ [[]] ∧
      ((powerFile l).2 = true ↔ |(l.map (·.1)).sum - 1| ≤ 1 / 1000) := by
  constructor
  · have hh : "Power, x, y\n".toList.map (fun c => UInt8.ofNat c.toNat) = "Power, x, y".toUTF8.toList ++ 10 :: [] := by decide +kernel
    have hno : (10 : Byte) ∉ "Power, x, y".toUTF8.toList := by decide +kernel
    have hb : ∀ l : List (ℚ × ℚ × ℚ), (l.flatMap fun p => fixed16 p.1 ++ [44, 32] ++ fixed16 p.2.1 ++ [44, 32] ++ fixed16 p.2.2 ++ [10]).splitOn 10 =
        l.map (fun p => fixed16 p.1 ++ [44, 32] ++ fixed16 p.2.1 ++ [44, 32] ++ fixed16 p.2.2) ++ [[]] := by
      intro l
      induction l with
      | nil => rfl
      | cons p l ih =>
        have h1 : ∀ x : ℚ, (10 : Byte) ∉ fixed16 x := fun x => by
          obtain ⟨v, hv, -⟩ := C103_text x
          exact (number_no hv).1
        rw [List.map_cons, List.cons_append, ← ih, List.flatMap_cons, List.append_assoc _ [10], List.singleton_append]
        refine List.splitOn_append_cons_self_of_not_mem ?_ _
        simp [h1]
    unfold powerFile
    dsimp only
    rw [hh, List.append_assoc, List.cons_append, List.nil_append, List.splitOn_append_cons_self_of_not_mem hno, hb]
    rfl
  · have hs : ∀ (l : List (ℚ × ℚ × ℚ)) (a : ℚ), l.foldl (fun acc p => acc + p.1) a = a + (l.map (·.1)).sum := by
      intro l
      induction l with
      | nil => intro a; simp
      | cons p l ih => intro a; rw [List.foldl_cons, ih]; simp [add_assoc]
    unfold powerFile
    dsimp only
    rw [hs, zero_add]
    simp

/-! ### Examples -/

/-- Two triangles of areas 1/2 and 1, and a set. -/
def twoTri (ids : List Nat) (data : List ℚ) : Soup (Pt 3 ℚ) VTK (List Byte) ℚ :=
  ⟨[![0, 0, 0], ![1, 0, 0], ![0, 1, 0], ![1, 2, 0]], [5, 5], [0, 3, 6], [0, 1, 2, 1, 3, 2], [fluxName 1], [0, ids.length], ids, [data]⟩

theorem kind_twoTri (ids : List Nat) (data : List ℚ) :
    OneKind 3 5 0 (twoTri ids data) [(5, [0, 1, 2]), (5, [1, 3, 2])] [⟨fluxName 1, ids, data⟩] := by
  refine ⟨⟨rfl, rfl, rfl, rfl, by simp [twoTri], by simp [twoTri, offsOf, psum, List.range_succ], rfl⟩, by simp, by decide, by simp [twoTri], _, rfl, ?_⟩
  intro p hp
  simp only [twoTri, List.mem_cons, List.not_mem_nil, or_false] at hp
  rcases hp with rfl | rfl | rfl | rfl <;> simp

/-- The spectrum of two triangles with the values 2 and 3: `2 · 1/2 + 3 · 1`. -/
example : spectrumOf 3 5 Geom.triArea 0 (fun _ => 0) 2 (twoTri [0, 1] [2, 3]) = .ok [4] := by
  rw [C105_spectrum_partial 3 5 Geom.triArea 0 (fun _ => 0) _ _ _ (kind_twoTri [0, 1] [2, 3]) 1 (by omega) (fun _ => ⟨fluxName 1, [0, 1], [2, 3]⟩)
    (fun g h1 h2 => by
      have : g = 1 := by omega
      subst this
      exact ⟨by simp, rfl, rfl⟩) (by simp; decide) 2 (by omega)]
  refine congrArg Res.ok ?_
  decide +kernel

/-- The value 2 for the second triangle, of area 1, gives 1. -/
example : spectrumOf 3 5 Geom.triArea 0 (fun _ => 0) 2 (twoTri [1] [2]) = .ok [1] := by
  rw [(C105_ids_fails 3 5 Geom.triArea 0 (fun _ => 0) _ _ _ (kind_twoTri [1] [2]) _ _ rfl 2 rfl 2 (by omega)).1]
  refine congrArg Res.ok ?_
  decide +kernel

/-- The data of the model of property C86, read back. -/
example : ∃ (soup : CSoup ℚ) (a b c : List (List ℚ)), info (-1000000) (fun w t c => w * t * c) core2 [Phys.demo]
    [[(1 / 2, 0), (1 / 2, 0)], [(1 / 4, 0), (3 / 4, 0)]] = .ok soup ∧ infoLoop soup 3 0 ([], [], []) = some (a, b, c) ∧ a.length = 2 := by
  obtain ⟨soup, _, h, -, -, -, h2⟩ := C105_written_partial (-1000000) (fun w t c => w * t * c) core2 2 [Phys.demo] _
    (ready2 _ (Or.inl rfl) 0 (by simp)) (by omega) used2 (by
      intro c hc g hg
      have : c < 2 := hc
      interval_cases c <;> interval_cases g <;> decide +kernel) 3 (by omega)
  exact ⟨soup, _, _, _, h, h2, by simp⟩

/-- A soup with the total cross sections only. -/
def totalOnly : CSoup ℚ := ⟨[], [], [], [], [label "Homogenized_Total_XS_Group_" 0], [0, 1], [0], [[7]]⟩

theorem rep_totalOnly : Rep totalOnly [] [⟨label "Homogenized_Total_XS_Group_" 0, [0], [7]⟩] := ⟨rfl, rfl, rfl, rfl, rfl, rfl, rfl⟩

/-- They are written three times. -/
example : infoLoop totalOnly 2 0 ([], [], []) = some ([[7]], [[7]], [[7]]) := by
  refine C105_repeat_fails _ _ _ rep_totalOnly ⟨label "Homogenized_Total_XS_Group_" 0, [0], [7]⟩
    ⟨fun x => ⟨fun h => by simpa using h.1, fun h => by subst h; simp⟩, by simp, by simp⟩ ?_ ?_ 2 (by omega)
  · simp only [NoSet, List.mem_singleton, forall_eq]; decide
  · simp only [NoSet, List.mem_singleton, forall_eq]; decide

theorem fluxName_inj (a b : Nat) (ha : a < 1000) (hb : b < 1000) (h : fluxName a = fluxName b) : a = b := by
  rw [← (decimal3 a ha).2.2, ← (decimal3 b hb).2.2, List.append_cancel_left h]

/-- One triangle and `n` groups. -/
def manyGroups (n : Nat) : Soup (Pt 3 ℚ) VTK (List Byte) ℚ :=
  ⟨[![0, 0, 0], ![1, 0, 0], ![0, 1, 0]], [5], [0, 3], [0, 1, 2], (List.range n).map fun g => fluxName g,
    offsOf ((List.range n).map fun _ => [0]), ((List.range n).map fun _ => [0]).flatten, (List.range n).map fun g : Nat => [(g : ℚ)]⟩

theorem kind_many (n : Nat) : OneKind 3 5 0 (manyGroups n) [(5, [0, 1, 2])] ((List.range n).map fun g : Nat => ⟨fluxName g, [0], [(g : ℚ)]⟩) := by
  refine ⟨⟨rfl, rfl, rfl, ?_, ?_, ?_, ?_⟩, by simp, by simp, by simp [manyGroups], _, rfl, by simp [manyGroups]⟩ <;> rw [List.map_map] <;> rfl

/-- A thousand groups: 999 numbers. -/
example : ∃ l, spectrumOf 3 5 Geom.triArea 0 (fun _ => 0) 1001 (manyGroups 1000) = .ok l ∧ l.length = 999 := by
  refine C105_limit_fails 3 5 Geom.triArea 0 (fun _ => 0) _ _ _ (kind_many 1000) ?_ ?_ 1001 (by omega)
  · intro g h1 h2
    refine ⟨⟨fluxName g, [0], [(g : ℚ)]⟩, found _ _ _ fun x => ⟨?_, ?_⟩, rfl, rfl⟩
    · rintro ⟨hx, hn⟩
      obtain ⟨g', hg', rfl⟩ := List.mem_map.1 hx
      rw [fluxName_inj g' g (List.mem_range.1 hg') (by omega) hn]
    · rintro rfl
      exact ⟨List.mem_map.2 ⟨g, List.mem_range.2 (by omega), rfl⟩, rfl⟩
  · intro e he hn
    obtain ⟨g, hg, rfl⟩ := List.mem_map.1 he
    have h4 : (fluxName g)[4]? = ("flux`000".toUTF8.toList)[4]? := congrArg (fun l : List Byte => l[4]?) hn
    have h5 : (fluxName g)[4]? = some 95 := rfl
    rw [h5] at h4
    revert h4
    decide +kernel

/-- Powers 1/4 and 3/4 are accepted, 1/4 alone is not. -/
example : (powerFile [(1 / 4, 0, 0), (3 / 4, 1, 0)]).2 = true ∧ (powerFile [(1 / 4, 0, 0)]).2 = false := by decide +kernel

end Verif.Post
