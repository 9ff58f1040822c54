import Verif.Model.ModelFiles
import Verif.Lemmas.Tokens
import Verif.Lemmas.Abaqus
import Mathlib.Data.List.Sort

/-!
# C88 The text of the input file and of the cross section file
-/

namespace Verif.MFiles

open Verif.Str (Byte)
open Verif.StrView
open Verif.Abaqus

set_option linter.unusedSectionVars false
variable {K : Type} [Field K] [LinearOrder K]

/-! ## Specification -/

/-- No line break. -/
def Plain (l : List Byte) : Prop := 10 ∉ l

/-- The line that begins a material, with the type `ty`. -/
def header (strF : K → List Byte) (ty : List Byte) (i : Nat) (m : Mat K) : List Byte :=
  str "  mat " ++ fmtInt (i + 1) ++ [32] ++ ty ++ [32] ++ strF m.density ++ str " g/cc " ++ strF m.temperature ++ str " K \\ "

/-- A nuclide. -/
def nuclide (outF : K → List Byte) (p : ℤ × K) : List Byte := fmtInt p.1 ++ [32] ++ outF p.2

/-- The lines of the material `i`: a comment with the name, then a line for each nuclide; the first one follows the header,
with the placeholder `<type>`, the others are moved to the same column for a type `c` of one character. -/
def materialLines (strF outF : K → List Byte) (c : Byte) (i : Nat) (m : Mat K) : List (List Byte) :=
  (str "  ! " ++ m.name) :: match m.zaids.zip m.dens with
    | [] => []
    | p :: ps => (header strF (str "<type>") i m ++ nuclide outF p) ::
        ps.map fun p => List.replicate (header strF [c] i m).length 32 ++ nuclide outF p

/-- The lines of all materials from number `i` on. -/
def materialsLines (strF outF : K → List Byte) (c : Byte) (i : Nat) (ms : List (Mat K)) : List (List Byte) :=
  (ms.zipIdx i).flatMap fun p => materialLines strF outF c p.2 p.1

/-- The lines of the input file. -/
def inputLines (strF outF : K → List Byte) (c : Byte) (stem filename : List Byte) (ms : List (Mat K)) (mcl : K) : List (List Byte) :=
  [str "CASEID MPACT_" ++ stem, [], str "STATE", str "  edit fsr_flux fsr_power", [], str "MATERIAL"] ++
  materialsLines strF outF c 0 ms ++
  [str "GEOM", str "  um2_core", str "    " ++ filename, [], str "XSEC", str "  xslib ORNL mpact51g_71_v4.2m5_12062016_sph.fmt", [],
    str "OPTION", str "  bound_cond <west_bc> <north_bc> <east_bc> <south_bc> <top_bc> <bottom_bc>", str "  solver 1 2",
    str "  ! ray spacing is set such that the expected number of intersections in the largest",
    str "  ! 90% of faces is 4+ for any given direction. (mean chord length / 4)",
    str "  ray " ++ outF (mcl / 4) ++ str " CHEBYSHEV-YAMAMOTO 16 3", str "  parallel 1 1 1 1", str "  conv_crit 2*1.e-6",
    str "  iter_lim 2000 1 1", str "  vis_edits T T", str "  cmfd A mgnode F 0.0 1.0 150 F"]

/-- The lines of a material in the cross section file. -/
def xsLines (outF : K → List Byte) (x : XMat K) (ng : Nat) : List (List Byte) :=
  x.name :: (List.range ng).map fun g => List.intercalate [32] (([x.a, x.f, x.nuf, x.tr, x.s].map fun l => outF (l.getD g 0)))

/-! ## Lines -/

/-- Lines, each with its end. -/
def unlines (ls : List (List Byte)) : List Byte := ls.flatMap fun l => l ++ [10]

theorem unlines_append (a b : List (List Byte)) : unlines (a ++ b) = unlines a ++ unlines b := by simp [unlines]

theorem split_unlines : ∀ (ls : List (List Byte)) (r : List Byte), (∀ l ∈ ls, Plain l) → split 10 (unlines ls ++ r) = ls ++ split 10 r := by
  intro ls
  induction ls with
  | nil => intro r _; rfl
  | cons l ls ih =>
    intro r h
    have : unlines (l :: ls) ++ r = l ++ 10 :: (unlines ls ++ r) := by simp [unlines]
    rw [this, split_append 10 l _ (h l (by simp)), ih r fun x hx => h x (by simp [hx])]
    rfl

theorem plain_append {a b : List Byte} : Plain (a ++ b) ↔ Plain a ∧ Plain b := by simp [Plain]

theorem plain_digits (n : Nat) : Plain (digits n) := by
  intro h
  have := (digits_digit n 10 h).1
  revert this
  decide

theorem plain_fmtInt (z : ℤ) : Plain (fmtInt z) := by
  unfold fmtInt
  split_ifs
  · intro h
    simp only [List.mem_cons] at h
    rcases h with h | h
    · exact absurd h (by decide)
    · exact plain_digits _ h
  · exact plain_digits _

/-! ## Names -/

theorem findLast_some (a b : List Byte) (c : Byte) (hb : c ∉ b) (hlen : (a ++ c :: b).length ≤ 2 ^ 31) :
    findLastOf (a ++ c :: b) c (2 ^ 31 - 1) = some a.length := by
  have key : ∀ n, n ≤ (a ++ c :: b).length → a.length < n → findLastLoop (a ++ c :: b) c n = some a.length := by
    intro n
    induction n with
    | zero => omega
    | succ n ih =>
      intro h1 h2
      rw [findLastLoop]
      by_cases hn : n = a.length
      · subst hn
        rw [if_pos (by simp)]
      · rw [if_neg, ih (by omega) (by omega)]
        rw [List.getElem?_append_right (by omega)]
        obtain ⟨k, hk⟩ : ∃ k, n - a.length = k + 1 := ⟨n - a.length - 1, by omega⟩
        rw [hk, List.getElem?_cons_succ]
        exact fun h => hb (List.mem_of_getElem? h)
  unfold findLastOf
  have : 2 ^ 31 - 1 + 1 = 2 ^ 31 := by norm_num
  split_ifs with h
  · exact key _ (by omega) (by simp only [List.length_append, List.length_cons] at hlen h ⊢; omega)
  · exact key _ le_rfl (by simp)

theorem findLast_none (l : List Byte) (c : Byte) (h : c ∉ l) (pos : Nat) : findLastOf l c pos = none := by
  have key : ∀ n, findLastLoop l c n = none := by
    intro n
    induction n with
    | zero => rfl
    | succ n ih =>
      rw [findLastLoop, if_neg (fun hh => h (List.mem_of_getElem? hh)), ih]
  exact key _

/-- The name without directory and extension. -/
theorem C88_name (dir stem ext : List Byte) (hd : dir = [] ∨ ∃ d, dir = d ++ [47]) (hs : 47 ∉ stem) (he : 46 ∉ ext) (he' : 47 ∉ ext)
    (hlen : (dir ++ stem ++ 46 :: ext).length ≤ 2 ^ 31) :
    baseName (dir ++ stem ++ 46 :: ext) = dir ++ stem ∧ modelName (dir ++ stem ++ 46 :: ext) = some stem := by
  have hb : baseName (dir ++ stem ++ 46 :: ext) = dir ++ stem := by
    unfold baseName
    rw [findLast_some _ _ _ he hlen]
    exact List.take_left
  refine ⟨hb, ?_⟩
  unfold modelName
  rw [hb]
  rcases hd with rfl | ⟨d, rfl⟩
  · rw [findLast_none]
    · simp
    · simp [hs, he']
  · have e : d ++ [47] ++ stem ++ 46 :: ext = d ++ 47 :: (stem ++ 46 :: ext) := by simp
    rw [e] at hlen
    rw [e, findLast_some _ _ _ (by simp [hs, he']) hlen]
    dsimp only
    rw [if_pos (by simp)]
    have : d ++ [47] ++ stem = (d ++ [47]) ++ stem := rfl
    rw [this, List.drop_left' (by simp)]

/-! ## Materials -/

theorem nuclides_eq (outF : K → List Byte) (pad : Nat) (m : Mat K) : ∀ (n i : Nat), i + n = m.zaids.length → m.zaids.length ≤ m.dens.length →
    nuclides outF pad m n i = some (unlines (((m.zaids.zip m.dens).drop i).map fun p => List.replicate pad 32 ++ nuclide outF p)) := by
  intro n
  induction n with
  | zero =>
    intro i hi hd
    rw [List.drop_eq_nil_of_le (by rw [List.length_zip]; omega)]
    rfl
  | succ n ih =>
    intro i hi hd
    have h1 : i < m.zaids.length := by omega
    have h2 : i < m.dens.length := by omega
    have h3 : i < (m.zaids.zip m.dens).length := by rw [List.length_zip]; omega
    rw [nuclides, List.getElem?_eq_getElem h1, Option.bind_some, List.getElem?_eq_getElem h2, Option.bind_some, ih (i + 1) (by omega) hd,
      Option.bind_some, List.drop_eq_getElem_cons h3, List.getElem_zip]
    simp [unlines, nuclide]

theorem matInfo_eq (strF : K → List Byte) (i : Nat) (m : Mat K) : matInfo strF i m = header strF (str "<type>") i m := by
  have : str " <type> " = [32] ++ str "<type>" ++ [32] := by decide
  unfold matInfo header
  rw [this]
  simp only [List.append_assoc]

theorem matInfo_length (strF : K → List Byte) (c : Byte) (i : Nat) (m : Mat K) :
    (matInfo strF i m).length - 5 = (header strF [c] i m).length := by
  rw [matInfo_eq]
  unfold header
  have : (str "<type>").length = 6 := by decide
  simp only [List.length_append, this, List.length_singleton]
  omega

theorem matText_eq (strF outF : K → List Byte) (c : Byte) (i : Nat) (m : Mat K) (h0 : m.zaids ≠ []) (hd : m.zaids.length ≤ m.dens.length) :
    matText strF outF i m = some (unlines (materialLines strF outF c i m)) := by
  have hpos := List.length_pos_iff.2 h0
  unfold matText
  dsimp only
  rw [if_neg (by omega), List.getElem?_eq_getElem hpos, Option.bind_some, List.getElem?_eq_getElem (by omega : 0 < m.dens.length), Option.bind_some,
    nuclides_eq outF _ m _ 1 (by omega) hd, Option.bind_some, matInfo_length strF c, matInfo_eq]
  have hz : 0 < (m.zaids.zip m.dens).length := by rw [List.length_zip]; omega
  have hzip : m.zaids.zip m.dens = (m.zaids[0], m.dens[0]) :: (m.zaids.zip m.dens).drop 1 := by
    conv_lhs => rw [← List.drop_zero (l := m.zaids.zip m.dens), List.drop_eq_getElem_cons hz, List.getElem_zip]
  unfold materialLines
  rw [hzip]
  simp [unlines, nuclide]

theorem matsText_eq (strF outF : K → List Byte) (c : Byte) : ∀ (ms : List (Mat K)) (i : Nat),
    (∀ m ∈ ms, m.zaids ≠ [] ∧ m.zaids.length ≤ m.dens.length) →
    matsText strF outF i ms = some (unlines (materialsLines strF outF c i ms)) := by
  intro ms
  induction ms with
  | nil => intro i _; rfl
  | cons m ms ih =>
    intro i h
    rw [matsText, matText_eq strF outF c i m (h m (by simp)).1 (h m (by simp)).2, Option.bind_some, ih (i + 1) fun x hx => h x (by simp [hx]),
      Option.bind_some, ← unlines_append]
    rfl

theorem plain_header {strF : K → List Byte} {ty : List Byte} {i : Nat} {m : Mat K} (hs : ∀ x, Plain (strF x)) (ht : Plain ty) :
    Plain (header strF ty i m) := by
  unfold header
  simp only [plain_append]
  exact ⟨⟨⟨⟨⟨⟨⟨⟨by unfold Plain; decide, plain_fmtInt _⟩, by unfold Plain; decide⟩, ht⟩, by unfold Plain; decide⟩, hs _⟩, by unfold Plain; decide⟩, hs _⟩,
    by unfold Plain; decide⟩

theorem plain_nuclide {outF : K → List Byte} (ho : ∀ x, Plain (outF x)) (p : ℤ × K) : Plain (nuclide outF p) := by
  unfold nuclide
  simp only [plain_append]
  exact ⟨⟨plain_fmtInt _, by unfold Plain; decide⟩, ho _⟩

theorem plain_materials (strF outF : K → List Byte) (c : Byte) (hs : ∀ x, Plain (strF x)) (ho : ∀ x, Plain (outF x)) (i : Nat) (ms : List (Mat K))
    (hn : ∀ m ∈ ms, Plain m.name) : ∀ l ∈ materialsLines strF outF c i ms, Plain l := by
  intro l hl
  unfold materialsLines at hl
  rw [List.mem_flatMap] at hl
  obtain ⟨⟨m, k⟩, hm, hl⟩ := hl
  have hm : m ∈ ms := by
    obtain ⟨h1, -, h2⟩ := List.mem_zipIdx hm
    rw [h2]
    exact List.getElem_mem _
  dsimp only at hl
  unfold materialLines at hl
  rw [List.mem_cons] at hl
  rcases hl with rfl | hl
  · rw [plain_append]
    exact ⟨by unfold Plain; decide, hn m hm⟩
  · cases hz : m.zaids.zip m.dens with
    | nil => rw [hz] at hl; simp at hl
    | cons p ps =>
      rw [hz] at hl
      dsimp only at hl
      rw [List.mem_cons, List.mem_map] at hl
      rcases hl with rfl | ⟨q, -, rfl⟩
      · rw [plain_append]
        exact ⟨plain_header hs (by unfold Plain; decide), plain_nuclide ho _⟩
      · rw [plain_append]
        refine ⟨?_, plain_nuclide ho _⟩
        intro h
        exact absurd (List.eq_of_mem_replicate h) (by decide)

/-- The lines of the input file, if every material has a nuclide; see `C88_void_fails`. -/
theorem C88_input_partial (strF outF : K → List Byte) (hs : ∀ x, Plain (strF x)) (ho : ∀ x, Plain (outF x)) (sorter : List K → List K) (c : Byte)
    (filename stem : List Byte) (ms : List (Mat K)) (mcls : List K) (mcl : K) (hf : Plain filename) (hst : Plain stem)
    (hname : modelName filename = some stem) (hmcl : repChord sorter mcls = some mcl)
    (hm : ∀ m ∈ ms, Plain m.name ∧ m.zaids ≠ [] ∧ m.zaids.length ≤ m.dens.length) :
    ∃ text, inputText strF outF sorter filename ms mcls = some text ∧ split 10 text = inputLines strF outF c stem filename ms mcl := by
  unfold inputText
  rw [hname, Option.bind_some, matsText_eq strF outF c ms 0 fun m h => (hm m h).2, Option.bind_some, hmcl, Option.bind_some]
  refine ⟨_, rfl, ?_⟩
  have hmp := plain_materials strF outF c hs ho 0 ms fun m h => (hm m h).1
  unfold inputLines
  generalize materialsLines strF outF c 0 ms = mat at hmp ⊢
  have e : ∀ a b : List (List Byte), ∀ t r, t = unlines (a ++ mat ++ b) ++ r → Plain r → (∀ l ∈ a, Plain l) → (∀ l ∈ b, Plain l) →
      split 10 t = a ++ mat ++ (b ++ [r]) := by
    intro a b t r ht hr ha hb
    rw [ht, split_unlines, split_free 10 r hr]
    · simp
    · intro l hl
      simp only [List.mem_append] at hl
      rcases hl with (hl | hl) | hl
      · exact ha l hl
      · exact hmp l hl
      · exact hb l hl
  refine e [str "CASEID MPACT_" ++ stem, [], str "STATE", str "  edit fsr_flux fsr_power", [], str "MATERIAL"]
    [str "GEOM", str "  um2_core", str "    " ++ filename, [], str "XSEC", str "  xslib ORNL mpact51g_71_v4.2m5_12062016_sph.fmt", [],
    str "OPTION", str "  bound_cond <west_bc> <north_bc> <east_bc> <south_bc> <top_bc> <bottom_bc>", str "  solver 1 2",
    str "  ! ray spacing is set such that the expected number of intersections in the largest",
    str "  ! 90% of faces is 4+ for any given direction. (mean chord length / 4)",
    str "  ray " ++ outF (mcl / 4) ++ str " CHEBYSHEV-YAMAMOTO 16 3", str "  parallel 1 1 1 1", str "  conv_crit 2*1.e-6",
    str "  iter_lim 2000 1 1", str "  vis_edits T T"] _ (str "  cmfd A mgnode F 0.0 1.0 150 F") ?_ (by unfold Plain; decide) ?_ ?_
  · rw [show str "\n\n" = [10] ++ [10] by decide,
      show str "  edit fsr_flux fsr_power\n\n" = str "  edit fsr_flux fsr_power" ++ [10] ++ [10] by decide,
      show str "  xslib ORNL mpact51g_71_v4.2m5_12062016_sph.fmt\n\n" = str "  xslib ORNL mpact51g_71_v4.2m5_12062016_sph.fmt" ++ [10] ++ [10] by decide,
      show str "STATE\n" = str "STATE" ++ [10] by decide,
      show str "MATERIAL\n" = str "MATERIAL" ++ [10] by decide,
      show str "GEOM\n" = str "GEOM" ++ [10] by decide,
      show str "  um2_core\n" = str "  um2_core" ++ [10] by decide,
      show str "XSEC\n" = str "XSEC" ++ [10] by decide,
      show str "OPTION\n" = str "OPTION" ++ [10] by decide,
      show str "  bound_cond <west_bc> <north_bc> <east_bc> <south_bc> <top_bc> <bottom_bc>\n" = str "  bound_cond <west_bc> <north_bc> <east_bc> <south_bc> <top_bc> <bottom_bc>" ++ [10] by decide,
      show str "  solver 1 2\n" = str "  solver 1 2" ++ [10] by decide,
      show str "  ! ray spacing is set such that the expected number of intersections in the largest\n" = str "  ! ray spacing is set such that the expected number of intersections in the largest" ++ [10] by decide,
      show str "  ! 90% of faces is 4+ for any given direction. (mean chord length / 4)\n" = str "  ! 90% of faces is 4+ for any given direction. (mean chord length / 4)" ++ [10] by decide,
      show str " CHEBYSHEV-YAMAMOTO 16 3\n" = str " CHEBYSHEV-YAMAMOTO 16 3" ++ [10] by decide,
      show str "  parallel 1 1 1 1\n" = str "  parallel 1 1 1 1" ++ [10] by decide,
      show str "  conv_crit 2*1.e-6\n" = str "  conv_crit 2*1.e-6" ++ [10] by decide,
      show str "  iter_lim 2000 1 1\n" = str "  iter_lim 2000 1 1" ++ [10] by decide,
      show str "  vis_edits T T\n" = str "  vis_edits T T" ++ [10] by decide]
    rw [unlines_append, unlines_append]
    generalize unlines mat = um
    unfold unlines
    simp only [List.flatMap_cons, List.flatMap_nil, List.append_assoc, List.nil_append, List.append_nil]
  · intro l hl
    simp only [List.mem_cons, List.not_mem_nil, or_false] at hl
    rcases hl with rfl | rfl | rfl | rfl | rfl | rfl
    · exact plain_append.2 ⟨by unfold Plain; decide, hst⟩
    all_goals (unfold Plain; decide)
  · intro l hl
    simp only [List.mem_cons, List.not_mem_nil, or_false] at hl
    rcases hl with rfl | rfl | rfl | rfl | rfl | rfl | rfl | rfl | rfl | rfl | rfl | rfl | rfl | rfl | rfl | rfl | rfl
    · unfold Plain; decide
    · unfold Plain; decide
    · exact plain_append.2 ⟨by unfold Plain; decide, hf⟩
    all_goals try (unfold Plain; decide)
    exact plain_append.2 ⟨plain_append.2 ⟨by unfold Plain; decide, ho _⟩, by unfold Plain; decide⟩

theorem matsText_append (strF outF : K → List Byte) : ∀ (ms : List (Mat K)) (m : Mat K) (i : Nat) (t : List Byte), matsText strF outF i ms = some t →
    matsText strF outF i (ms ++ [m]) = (matText strF outF (i + ms.length) m).bind fun r => some (t ++ r) := by
  intro ms
  induction ms with
  | nil =>
    intro m i t h
    obtain rfl := Option.some.inj h
    simp [matsText]
  | cons x ms ih =>
    intro m i t h
    rw [matsText] at h
    rw [List.cons_append, matsText]
    cases hx : matText strF outF i x with
    | none => rw [hx] at h; exact absurd h (by simp)
    | some a =>
      rw [hx, Option.bind_some] at h
      cases hs : matsText strF outF (i + 1) ms with
      | none => rw [hs] at h; exact absurd h (by simp)
      | some b =>
        rw [hs, Option.bind_some] at h
        obtain rfl := Option.some.inj h
        rw [Option.bind_some, ih m (i + 1) b hs, List.length_cons, show i + 1 + ms.length = i + (ms.length + 1) by omega]
        cases matText strF outF (i + (ms.length + 1)) m with
        | none => rfl
        | some c => simp

/-- Nothing ends the line of a material without nuclides: after the last material, the keyword `GEOM` is on the line of the material. -/
theorem C88_void_fails (strF outF : K → List Byte) (hs : ∀ x, Plain (strF x)) (ho : ∀ x, Plain (outF x)) (sorter : List K → List K)
    (filename stem : List Byte) (ms : List (Mat K)) (m : Mat K) (mcls : List K) (mcl : K) (hst : Plain stem)
    (hname : modelName filename = some stem) (hmcl : repChord sorter mcls = some mcl)
    (hm : ∀ m ∈ ms, Plain m.name ∧ m.zaids ≠ [] ∧ m.zaids.length ≤ m.dens.length) (hmn : Plain m.name) (hz : m.zaids = []) :
    ∃ text rest, inputText strF outF sorter filename (ms ++ [m]) mcls = some text ∧ split 10 text =
      [str "CASEID MPACT_" ++ stem, [], str "STATE", str "  edit fsr_flux fsr_power", [], str "MATERIAL"] ++
      materialsLines strF outF 49 0 ms ++
      (str "  ! " ++ m.name) :: (header strF (str "<type>") ms.length m ++ str "GEOM") :: str "  um2_core" :: rest := by
  unfold inputText
  rw [hname, Option.bind_some, matsText_append strF outF ms m 0 _ (matsText_eq strF outF 49 ms 0 fun m h => (hm m h).2), hmcl]
  have hmat : matText strF outF (0 + ms.length) m = some (str "  ! " ++ m.name ++ [10] ++ header strF (str "<type>") ms.length m) := by
    unfold matText
    dsimp only
    rw [if_pos (by rw [hz]; rfl), matInfo_eq, Nat.zero_add]
  rw [hmat, Option.bind_some, Option.bind_some, Option.bind_some]
  have hmp := plain_materials strF outF 49 hs ho 0 ms fun m h => (hm m h).1
  have hhead : Plain (header strF (str "<type>") ms.length m) := plain_header hs (by unfold Plain; decide)
  generalize materialsLines strF outF 49 0 ms = mat at hmp ⊢
  generalize header strF (str "<type>") ms.length m = hd at hhead ⊢
  rw [show str "\n\n" = [10] ++ [10] by decide, show str "STATE\n" = str "STATE" ++ [10] by decide,
    show str "  edit fsr_flux fsr_power\n\n" = str "  edit fsr_flux fsr_power" ++ [10] ++ [10] by decide,
    show str "MATERIAL\n" = str "MATERIAL" ++ [10] by decide, show str "GEOM\n" = str "GEOM" ++ [10] by decide,
    show str "  um2_core\n" = str "  um2_core" ++ [10] by decide]
  have key : ∀ a r t, t = unlines (a ++ mat ++ [str "  ! " ++ m.name, hd ++ str "GEOM", str "  um2_core"]) ++ r → (∀ l ∈ a, Plain l) →
      split 10 t = a ++ mat ++ (str "  ! " ++ m.name) :: (hd ++ str "GEOM") :: str "  um2_core" :: split 10 r := by
    intro a r t ht ha
    rw [ht, split_unlines]
    · simp
    · intro l hl
      simp only [List.mem_append, List.mem_cons, List.not_mem_nil, or_false] at hl
      rcases hl with (hl | hl) | rfl | rfl | rfl
      · exact ha l hl
      · exact hmp l hl
      · exact plain_append.2 ⟨by unfold Plain; decide, hmn⟩
      · exact plain_append.2 ⟨hhead, by unfold Plain; decide⟩
      · unfold Plain; decide
  refine ⟨_, _, rfl, key _ (str "    " ++ filename ++ ([10] ++ [10]) ++
    str "XSEC\n" ++ str "  xslib ORNL mpact51g_71_v4.2m5_12062016_sph.fmt\n\n" ++
    str "OPTION\n" ++ str "  bound_cond <west_bc> <north_bc> <east_bc> <south_bc> <top_bc> <bottom_bc>\n" ++
    str "  solver 1 2\n" ++
    str "  ! ray spacing is set such that the expected number of intersections in the largest\n" ++
    str "  ! 90% of faces is 4+ for any given direction. (mean chord length / 4)\n" ++
    str "  ray " ++ outF (mcl / 4) ++ str " CHEBYSHEV-YAMAMOTO 16 3\n" ++
    str "  parallel 1 1 1 1\n" ++ str "  conv_crit 2*1.e-6\n" ++ str "  iter_lim 2000 1 1\n" ++ str "  vis_edits T T\n" ++
    str "  cmfd A mgnode F 0.0 1.0 150 F") _ ?_ ?_⟩
  · rw [unlines_append, unlines_append]
    generalize unlines mat = um
    unfold unlines
    simp only [List.flatMap_cons, List.flatMap_nil, List.append_assoc, List.nil_append, List.append_nil]
  · intro l hl
    simp only [List.mem_cons, List.not_mem_nil, or_false] at hl
    rcases hl with rfl | rfl | rfl | rfl | rfl | rfl
    · exact plain_append.2 ⟨by unfold Plain; decide, hst⟩
    all_goals (unfold Plain; decide)

/-! ## Cross sections -/

theorem groups_eq (outF : K → List Byte) (x : XMat K) (ng : Nat) (h : ∀ l ∈ [x.a, x.f, x.nuf, x.tr, x.s], ng ≤ l.length) : ∀ (n g : Nat),
    g + n = ng → groups outF x n g = some (unlines ((List.range' g n).map fun g =>
      List.intercalate [32] (([x.a, x.f, x.nuf, x.tr, x.s].map fun l => outF (l.getD g 0))))) := by
  intro n
  induction n with
  | zero => intro g _; rfl
  | succ n ih =>
    intro g hg
    have e : ∀ l ∈ [x.a, x.f, x.nuf, x.tr, x.s], l[g]? = some (l.getD g 0) := by
      intro l hl
      have := h l hl
      rw [List.getD_eq_getElem?_getD, List.getElem?_eq_getElem (by omega)]
      rfl
    rw [groups, e x.a (by simp), Option.bind_some, e x.f (by simp), Option.bind_some, e x.nuf (by simp), Option.bind_some,
      e x.tr (by simp), Option.bind_some, e x.s (by simp), Option.bind_some, ih (g + 1) (by omega), Option.bind_some, List.range'_succ]
    simp [unlines, List.intercalate, List.intersperse]

/-- The lines of the cross section file, if all materials have as many groups as the first one. -/
theorem C88_xs_partial (outF : K → List Byte) (ho : ∀ x, Plain (outF x)) (ms : List (XMat K)) (ng : Nat) (h0 : ms ≠ [])
    (hm : ∀ x ∈ ms, Plain x.name ∧ x.ng = ng ∧ ∀ l ∈ [x.a, x.f, x.nuf, x.tr, x.s], l.length = ng) :
    ∃ text, xsText outF ms = some text ∧ split 10 text =
      (fmtInt ms.length ++ [32] ++ fmtInt ng) :: ms.flatMap (fun x => xsLines outF x ng) ++ [[]] := by
  have key : ∀ ms : List (XMat K), (∀ x ∈ ms, Plain x.name ∧ x.ng = ng ∧ ∀ l ∈ [x.a, x.f, x.nuf, x.tr, x.s], l.length = ng) →
      xmats outF ng ms = some (unlines (ms.flatMap fun x => xsLines outF x ng)) := by
    intro ms
    induction ms with
    | nil => intro _; rfl
    | cons x ms ih =>
      intro hm
      rw [xmats, groups_eq outF x ng (fun l hl => ((hm x (by simp)).2.2 l hl).ge) ng 0 (by omega), Option.bind_some,
        ih fun y hy => hm y (by simp [hy]), Option.bind_some, List.flatMap_cons, unlines_append, ← List.range_eq_range']
      simp [unlines, xsLines]
  have hpos := List.length_pos_iff.2 h0
  unfold xsText
  rw [List.getElem?_eq_getElem hpos, Option.bind_some, (hm _ (List.getElem_mem hpos)).2.1, key ms hm, Option.bind_some]
  refine ⟨_, rfl, ?_⟩
  have e : fmtInt ms.length ++ [32] ++ fmtInt ng ++ [10] ++ unlines (ms.flatMap fun x => xsLines outF x ng) =
      unlines ((fmtInt ms.length ++ [32] ++ fmtInt ng) :: ms.flatMap (fun x => xsLines outF x ng)) ++ [] := by
    simp [unlines]
  rw [e, split_unlines]
  · rfl
  · intro l hl
    rw [List.mem_cons, List.mem_flatMap] at hl
    rcases hl with rfl | ⟨x, hx, hl⟩
    · simp only [plain_append]
      exact ⟨⟨plain_fmtInt _, by unfold Plain; decide⟩, plain_fmtInt _⟩
    · unfold xsLines at hl
      rw [List.mem_cons, List.mem_map] at hl
      rcases hl with rfl | ⟨g, -, rfl⟩
      · exact (hm x hx).1
      · have h32 : Plain [32] := by unfold Plain; decide
        simp [List.intercalate, List.intersperse, Plain] at h32 ⊢
        exact ⟨ho _, ho _, ho _, ho _, ho _⟩

/-- A material with fewer groups than the first one, or no material at all: the file is not defined. -/
theorem C88_groups_fails (outF : K → List Byte) : xsText outF ([] : List (XMat K)) = none ∧
    ∀ (x : XMat K) (ms : List (XMat K)), (∃ y ∈ ms, y.a.length < x.ng) → xsText outF (x :: ms) = none := by
  refine ⟨rfl, fun x ms hy => ?_⟩
  have short : ∀ (y : XMat K) (ng n g : Nat), y.a.length < ng → g + n = ng → g ≤ y.a.length → groups outF y n g = none := by
    intro y ng n
    induction n with
    | zero => intro g h1 h2 h3; omega
    | succ n ih =>
      intro g h1 h2 h3
      rw [groups]
      by_cases hg : g < y.a.length
      · rw [ih (g + 1) h1 (by omega) (by omega)]
        cases y.a[g]? <;> cases y.f[g]? <;> cases y.nuf[g]? <;> cases y.tr[g]? <;> cases y.s[g]? <;> rfl
      · rw [List.getElem?_eq_none (by omega)]
        rfl
  have key : ∀ l : List (XMat K), (∃ y ∈ l, y.a.length < x.ng) → xmats outF x.ng l = none := by
    intro l
    induction l with
    | nil => rintro ⟨y, hy, -⟩; simp at hy
    | cons z l ih =>
      rintro ⟨y, hy, h⟩
      rw [List.mem_cons] at hy
      rw [xmats]
      rcases hy with rfl | hy
      · rw [short y x.ng x.ng 0 h (by omega) (by omega)]
        rfl
      · rw [ih ⟨y, hy, h⟩]
        cases groups outF z x.ng 0 <;> rfl
  unfold xsText
  obtain ⟨y, hy, h⟩ := hy
  rw [List.getElem?_cons_zero, Option.bind_some, key _ ⟨y, by simp [hy], h⟩]
  rfl

/-- A material with more groups than the first one is cut. -/
theorem C88_more_fails (outF : K → List Byte) :
    ∃ (x y y' : XMat K), y.ng = 1 ∧ y'.ng = 2 ∧ y'.a.length = 2 ∧ xsText outF [x, y] = xsText outF [x, y'] :=
  ⟨⟨[65], 1, [1], [1], [1], [1], [1]⟩, ⟨[66], 1, [2], [2], [2], [2], [2]⟩,
    ⟨[66], 2, [2, 3], [2, 3], [2, 3], [2, 3], [2, 3]⟩, rfl, rfl, rfl, rfl⟩

/-! ## Examples -/

/-- Two materials. -/
def fuel : Mat ℚ := ⟨[70], 10, 300, [92235, 8016], [1, 2]⟩

def air : Mat ℚ := ⟨[65], 1, 300, [], []⟩

/-- `dir/a.b.xdmf` -/
def sampleName : List Byte := str "dir/a.b.xdmf"

example : baseName sampleName = str "dir/a.b" ∧ modelName sampleName = some (str "a.b") :=
  C88_name (str "dir/") (str "a.b") (str "xdmf") (.inr ⟨str "dir", by decide⟩) (by decide) (by decide) (by decide) (by decide)

/-- The hypotheses of `C88_input_partial` hold for a file with one material. -/
example : ∃ text, inputText (fun _ => [49]) (fun _ => [49]) (fun l => l.insertionSort (· ≤ ·)) sampleName [fuel] [3, 4] = some text ∧
    split 10 text = inputLines (fun _ => [49]) (fun _ => [49]) 50 (str "a.b") sampleName [fuel] 3 := by
  refine C88_input_partial _ _ (fun _ => by unfold Plain; decide) (fun _ => by unfold Plain; decide) _ _ _ _ _ _ _
    (by unfold Plain; decide) (by unfold Plain; decide) (by decide) (by decide +kernel) ?_
  intro m hm
  simp only [List.mem_singleton] at hm
  subst hm
  exact ⟨by unfold Plain; decide, by simp [fuel], by simp [fuel]⟩

/-- The nuclides of the sample are in one column. -/
example : materialLines (fun _ => [49]) (fun _ => [49]) 50 0 fuel =
    [str "  ! F", str "  mat 1 <type> 1 g/cc 1 K \\ 92235 1", str "                       8016 1"] := by decide +kernel

/-- With air after the fuel, no line begins with `GEOM`. -/
example : ∃ text, inputText (fun _ => [49]) (fun _ => [49]) (fun l => l.insertionSort (· ≤ ·)) sampleName [fuel, air] [3, 4] = some text ∧
    ∀ l ∈ split 10 text, ¬ str "GEOM" <+: l := by
  have : ((inputText (fun _ => [49]) (fun _ => [49]) (fun l => l.insertionSort (· ≤ ·)) sampleName [fuel, air] [3, 4]).map fun text =>
      decide (∀ l ∈ split 10 text, ¬ str "GEOM" <+: l)) = some true := by decide +kernel
  rw [Option.map_eq_some_iff] at this
  obtain ⟨text, h1, h2⟩ := this
  exact ⟨text, h1, by simpa using h2⟩

/-! ## The file of the volumes -/

/-- The file of the volumes has a line for every material: its name, a space, its volume. -/
theorem C87_text {M : Type} (outF : K → List Byte) (name : M → List Byte) (mats : List M) (vols : List K) (hl : vols.length = mats.length)
    (hp : ∀ m ∈ mats, Plain (name m)) (hs : ∀ m ∈ mats, 32 ∉ name m) (hf : ∀ v, Plain (outF v) ∧ 32 ∉ outF v) :
    ∃ lines, split 10 (volumesText outF name mats vols) = lines ++ [[]] ∧ lines.length = mats.length ∧
      ∀ (i : Nat) m v, mats[i]? = some m → vols[i]? = some v → ∃ l, lines[i]? = some l ∧ split 32 l = [name m, outF v] := by
  refine ⟨(mats.zip vols).map fun p => name p.1 ++ 32 :: outF p.2, ?_, by simp [hl], fun i m v hm hv => ?_⟩
  · have : volumesText outF name mats vols = unlines ((mats.zip vols).map fun p => name p.1 ++ 32 :: outF p.2) ++ [] := by
      simp [volumesText, unlines, List.flatMap_map]
    rw [this, split_unlines]
    · rfl
    · intro l hl
      obtain ⟨p, hp', rfl⟩ := List.mem_map.1 hl
      have h1 := hp p.1 (List.of_mem_zip (a := p.1) (b := p.2) hp').1
      have h2 := (hf p.2).1
      simp only [Plain, List.mem_append, List.mem_cons, not_or] at h1 h2 ⊢
      exact ⟨h1, by decide, h2⟩
  · refine ⟨name m ++ 32 :: outF v, ?_, ?_⟩
    · rw [List.getElem?_map, (List.getElem?_zip_eq_some (z := (m, v))).2 ⟨hm, hv⟩]
      rfl
    · rw [split_append 32 _ _ (hs m (List.mem_of_getElem? hm)), split_free 32 _ (hf v).2]

/-- The hypotheses of `C87_text` hold for two materials. -/
example : ∃ lines, split 10 (volumesText (fun _ : ℚ => str "1.5") (fun m : String => str m) ["UO2", "Water"] [3 / 2, 3 / 2]) = lines ++ [[]] ∧
    lines.length = 2 := by
  obtain ⟨l, h1, h2, _⟩ := C87_text (fun _ : ℚ => str "1.5") (fun m : String => str m) ["UO2", "Water"] [3 / 2, 3 / 2] rfl
    (by unfold Plain; decide +kernel) (by decide +kernel) (fun _ => by unfold Plain; decide +kernel)
  exact ⟨l, h1, h2⟩

end Verif.MFiles
