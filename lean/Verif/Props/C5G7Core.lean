import Verif.Props.C5G7CoreSpec
import Verif.Props.C5G7Plane
import Verif.Props.PinTolerance
import Verif.Props.Mpact
import Verif.Lemmas.PinModular
import Verif.Model.C5G7Core

/-!
# The C5G7 core with standard meshes

C113: the program makes the benchmark's core, with the exact amounts of material.
-/

set_option linter.unusedSectionVars false

namespace Verif.C5G7CoreP

open Verif (IsStdSort)
open Verif.Pin Verif.PinArea Verif.PropsPinArea
open Verif.Mpact
open Verif.ElemTypes (MeshType)
open Verif.CmfdInfo (Tile IsTile)
open Verif.LatticeText (tableOf)
open Verif.ModularL
open Verif.C5G7Core
open Verif.C5G7Spec
open Verif.C5G7CoreSpec
open Verif.C5G7P (idOf pin_known away_le away_mirror)

variable {M : Type}

/-! ### The texts -/

/-- The pins of the three lattices. -/
def pinId (k i j : Nat) : Nat := if k = 0 then idOf (pin .uo2 (away i) (away j)) else if k = 1 then idOf (pin .mox (away i) (away j)) else 6

/-- The assemblies of the core, rows from the top. -/
def asyId (a b : Nat) : Nat := match square a b with
  | .uo2 => 0
  | .mox => 1
  | .water => 2

theorem uo2_eq : Bench.lattice C5G7.uo2Text = some (tableOf 17 17 (pinId 0)) := LatticeText.lattice_eq (by decide +kernel)

theorem mox_eq : Bench.lattice C5G7.moxText = some (tableOf 17 17 (pinId 1)) := LatticeText.lattice_eq (by decide +kernel)

theorem h2o_eq : Bench.lattice h2oText = some (tableOf 17 17 (pinId 2)) := LatticeText.lattice_eq (by decide +kernel)

theorem core_eq : Bench.lattice coreText = some (tableOf 3 3 asyId) := LatticeText.lattice_eq (by decide +kernel)

/-! ### The calls -/

theorem mapM_get {α β : Type} {f : α → Option β} : ∀ {l : List α} {as : List β}, l.mapM f = some as →
    as.length = l.length ∧ ∀ (k : Nat) (x : α), l[k]? = some x → ∃ y, as[k]? = some y ∧ f x = some y := by
  intro l
  induction l with
  | nil => intro as h; simp at h; subst h; simp
  | cons a l ih =>
    intro as h
    rw [List.mapM_cons] at h
    cases hf : f a with
    | none => rw [hf] at h; simp at h
    | some b =>
      cases hl : l.mapM f with
      | none => rw [hf, hl] at h; simp at h
      | some bs =>
        rw [hf, hl] at h
        simp at h
        subst h
        obtain ⟨h1, h2⟩ := ih hl
        refine ⟨by simp [h1], ?_⟩
        intro k x hx
        cases k with
        | zero => simp at hx; subst hx; exact ⟨b, by simp, hf⟩
        | succ k => simpa using h2 k x (by simpa using hx)

theorem addRTMs_eq {K : Type} [Field K] [LinearOrder K] [IsStrictOrderedRing K] {sort : List K → List K}
    (hsort : ∀ l, IsStdSort (fun a b => decide (a < b)) l (sort l)) {eps w h : K} (he : 0 < eps)
    (hw : eps ≤ w) (hh : eps ≤ h) : ∀ (is : List Nat) (s : Model K M), (∀ i ∈ is, i < s.cells.length) →
    (∀ c ∈ s.cells, c.ext = (w, h)) → (∀ r ∈ s.rtms, r.xs = [0, w] ∧ r.ys = [0, h]) →
    addRTMs sort eps is s = some { s with rtms := s.rtms ++ is.map (single w h) } := by
  intro is
  induction is with
  | nil => intro s _ _ _; simp [addRTMs]
  | cons i is ih =>
    intro s hi hc hr
    rw [addRTMs, CoarseGrid.addRTM_one hsort he hw hh s i (hi i (by simp)) hc hr, Option.bind_some]
    dsimp only
    rw [ih { s with rtms := s.rtms ++ [⟨[0, w], [0, h], [(i : ℤ)]⟩] } (fun j hj => hi j (by simp [hj])) hc (by
      intro r hrm
      rcases List.mem_append.1 hrm with h' | h'
      · exact hr r h'
      · rw [List.mem_singleton.1 h']; exact ⟨rfl, rfl⟩)]
    simp [single]

/-- The model before the modules: seven materials, the two meshes, seven cells. -/
noncomputable def before (mats : List M) (mesh box : Mesh ℝ) : Model ℝ M :=
  { Model.empty ℝ M with
    materials := mats
    quad8s := [mesh]
    quads := [box]
    cells := (cells 0 0).map fun q => ⟨(126 / 100, 126 / 100), q.1, q.2.1, q.2.2⟩ }

theorem addCells_eq {mats : List M} (hm : mats.length = 7) {mesh box : Mesh ℝ} (h8 : mesh.faces.length = 48) (h4 : box.faces.length = 25) :
    ∀ (qs : List (MeshType × ℤ × List Int8)) (s : Model ℝ M), s.materials = mats → s.quad8s = [mesh] → s.quads = [box] →
    (∀ q ∈ qs, (q.1 = MeshType.QuadraticQuad ∧ q.2.2.length = 48 ∨ q.1 = MeshType.Quad ∧ q.2.2.length = 25) ∧ q.2.1 = 0 ∧
      ∀ x ∈ q.2.2, 0 ≤ x.toInt ∧ x.toInt < 7) →
    addCells (126 / 100, 126 / 100) qs s = some { s with cells := s.cells ++ qs.map fun q => ⟨(126 / 100, 126 / 100), q.1, q.2.1, q.2.2⟩ } := by
  intro qs
  induction qs with
  | nil => intro s _ _ _ _; simp [addCells]
  | cons q qs ih =>
    intro s hs1 hs2 hs3 hq
    obtain ⟨ht, hid, hx⟩ := hq q (by simp)
    have hany : (q.2.2.any fun id => decide (id.toInt < 0) || decide (id.toInt ≥ s.materials.length)) = false := by
      rw [List.any_eq_false]
      intro x hxm
      have := hx x hxm
      rw [hs1, hm]
      simp only [Bool.or_eq_true, decide_eq_true_eq]
      push_cast
      omega
    have hone : addCoarseCell s ((126 / 100 : ℝ), (126 / 100 : ℝ)) q.1 q.2.1 q.2.2 =
        some ({ s with cells := s.cells ++ [⟨(126 / 100, 126 / 100), q.1, q.2.1, q.2.2⟩] }, (s.cells.length : ℤ)) := by
      unfold addCoarseCell
      dsimp only
      rw [if_neg (by norm_num), hid, if_neg (by decide)]
      rcases ht with ⟨ht, hl⟩ | ⟨ht, hl⟩
      · have : s.meshes q.1 = some [mesh] := by rw [ht, ← hs2]; rfl
        rw [this]
        dsimp only
        rw [if_neg (by simp)]
        simp only [at?, lt_irrefl, if_false, Int.toNat_zero, List.getElem?_cons_zero, Option.bind_some]
        rw [if_neg (by rw [h8, hl]; simp), hany]
        rfl
      · have : s.meshes q.1 = some [box] := by rw [ht, ← hs3]; rfl
        rw [this]
        dsimp only
        rw [if_neg (by simp)]
        simp only [at?, lt_irrefl, if_false, Int.toNat_zero, List.getElem?_cons_zero, Option.bind_some]
        rw [if_neg (by rw [h4, hl]; simp), hany]
        rfl
    rw [addCells, hone, Option.bind_some]
    dsimp only
    rw [ih { s with cells := s.cells ++ [⟨(126 / 100, 126 / 100), q.1, q.2.1, q.2.2⟩] } hs1 hs2 hs3 fun q' hq' => hq q' (by simp [hq'])]
    simp

theorem cells_fit : ∀ q ∈ cells 0 0, (q.1 = MeshType.QuadraticQuad ∧ q.2.2.length = 48 ∨ q.1 = MeshType.Quad ∧ q.2.2.length = 25) ∧ q.2.1 = 0 ∧
    ∀ x ∈ q.2.2, 0 ≤ x.toInt ∧ x.toInt < 7 := by decide +kernel

/-- The heights of the slices. -/
theorem heights_get {i : Nat} (h : i < 11) : (heights : List ℝ)[i]? = some ((i : ℝ) * (2142 / 100)) := by
  unfold heights
  rw [List.getElem?_map, List.getElem?_range h, Option.map_some]
  congr 1
  ring

theorem heights_list : (heights : List ℝ) = [0, 2142 / 100, 4284 / 100, 6426 / 100, 8568 / 100, 10710 / 100, 12852 / 100, 14994 / 100, 17136 / 100,
    19278 / 100, 21420 / 100] := by
  unfold heights
  simp only [List.range, List.range.loop, List.map_cons, List.map_nil]
  norm_num

theorem heights_ok (eps : ℝ) : ∀ a ∈ (assemblies : List (Assembly ℝ)), Heights eps 3 0 (21420 / 100) a := by
  have hs : isSorted (heights : List ℝ) = true := by
    rw [heights_list]
    simp only [isSorted]
    norm_num
  have h1 : (heights : List ℝ).head? = some 0 := by rw [heights_list]; rfl
  have h2 : (heights : List ℝ).getLast? = some (21420 / 100) := by rw [heights_list]; rfl
  have hl : (heights : List ℝ).length = 11 := by simp [heights]
  intro a ha
  simp only [assemblies, List.mem_cons, List.not_mem_nil, or_false] at ha
  rcases ha with rfl | rfl | rfl
  all_goals exact ⟨by simp, by decide, by simp [hl], hs, h1, h2⟩

/-! ### Areas -/

/-- The areas of a cylindrical cell. -/
theorem cyl_areas {mesh : Mesh ℝ} (h : cylindricalMesh (realLibm 0) (126 / 100) [54 / 100, 62 / 100] [3, 2] 8 2 = some (some mesh)) :
    ∃ as : List ℝ, mesh.faces.mapM (faceArea8 mesh) = some as ∧ as.length = 48 ∧ (as.take 24).sum = Real.pi * (54 / 100) ^ 2 ∧
      (as.drop 24).sum = (126 / 100) ^ 2 - Real.pi * (54 / 100) ^ 2 := by
  have hd := PropsPinAccept.c5g7_drawn
  obtain ⟨as, has, hsum⟩ := C61_quadratic_total (126 / 100) _ _ 8 mesh hd.pos h
  obtain ⟨hlen, hget⟩ := mapM_get has
  have hl : mesh.faces.length = 48 := (cylindricalMesh_order h).2
  rw [hl] at hlen
  have htake : as.take 24 = List.replicate 24 (Real.pi * (54 / 100) ^ 2 / 24) := by
    refine List.eq_replicate_of_mem ?_ |>.trans (by rw [List.length_take, hlen]; rfl)
    intro x hx
    obtain ⟨k, hk⟩ := List.mem_iff_getElem?.1 hx
    have hk24 : k < 24 := by
      by_contra hn
      rw [List.getElem?_eq_none (by rw [List.length_take]; omega)] at hk
      simp at hk
    rw [List.getElem?_take_of_lt hk24] at hk
    obtain ⟨f, hf, hfa⟩ := C61_quadratic_rings (126 / 100) _ _ 8 mesh hd.pos (by simp; norm_num) h 0 (k / 8) (k % 8) (54 / 100) 3 rfl rfl
      (by omega) (by omega)
    have hidx : ((([3, 2] : List ℤ).take 0).map Int.toNat).sum + k / 8 = k / 8 := by simp
    rw [hidx, show k / 8 * (8 : ℤ).toNat + k % 8 = k by simp; omega] at hf
    obtain ⟨y, hy, hy2⟩ := hget k f hf
    rw [hk] at hy
    cases hy
    rw [hfa] at hy2
    cases hy2
    simp [innerRadius]
    ring
  have h24 : (as.take 24).sum = Real.pi * (54 / 100) ^ 2 := by
    rw [htake, List.sum_replicate]
    simp only [nsmul_eq_mul]
    push_cast
    ring
  refine ⟨as, has, hlen, h24, ?_⟩
  have := List.sum_append (l₁ := as.take 24) (l₂ := as.drop 24)
  rw [List.take_append_drop, hsum, h24] at this
  linarith

/-- The areas of a water cell. -/
theorem box_areas {box : Mesh ℝ} (h : rectangularMesh ((126 / 100 : ℝ), (126 / 100 : ℝ)) 5 5 = some (some box)) :
    ∃ as : List ℝ, box.faces.mapM (PropsRectPin.faceArea box) = some as ∧ as.length = 25 ∧ as.sum = (126 / 100) ^ 2 := by
  obtain ⟨as, has, hsum⟩ := PropsRectPin.C62_area _ 5 5 box h
  refine ⟨as, has, ?_, by rw [hsum]; ring⟩
  rw [(mapM_get has).1]
  exact_mod_cast (PropsRectPin.C62_boxes _ 5 5 box h).1

/-- The faces of a cell. -/
theorem faces_of {s : Model ℝ M} {id : Nat} {ext : ℝ × ℝ} {t : MeshType} {ids : List Int8} {mesh : Mesh ℝ} {as : List ℝ}
    (hcell : s.cells[id]? = some ⟨ext, t, 0, ids⟩) (hmesh : s.meshes t = some [mesh]) (hl : as.length = ids.length)
    (has : mesh.faces.mapM (if t = MeshType.QuadraticQuad then faceArea8 mesh else PropsRectPin.faceArea mesh) = some as)
    (mat : Int8 → M) (hmat : ∀ x ∈ ids, 0 ≤ x.toInt ∧ s.materials[x.toInt.toNat]? = some (mat x)) :
    Faces s id (List.zipWith (fun a x => (a, mat x)) as ids) := by
  obtain ⟨h1, h2⟩ := mapM_get has
  refine ⟨_, _, mesh, hcell, hmesh, le_rfl, rfl, by rw [← h1, hl], by simp [hl], ?_⟩
  intro k face x hk hx
  obtain ⟨y, hy, hy2⟩ := h2 k face hk
  obtain ⟨m1, m2⟩ := hmat x (List.mem_of_getElem? hx)
  refine ⟨m1, y, mat x, ?_, m2, ?_⟩
  · dsimp only at hx
    rw [List.getElem?_zipWith, hy, hx]
  · dsimp only
    rw [← hy2]
    split <;> rfl

theorem zipWith_const {α β γ : Type} (f : α → β → γ) (b : β) : ∀ (l : List α) (n : Nat), l.length = n →
    List.zipWith f l (List.replicate n b) = l.map fun a => f a b := by
  intro l
  induction l with
  | nil => intro n h; subst h; rfl
  | cons a l ih => intro n h; subst h; simp [List.replicate_succ, ih _ rfl]

theorem amount_append (nm : M → Overlay.Name) (fs gs : List (ℝ × M)) (x : Overlay.Name) :
    amount nm (fs ++ gs) x = amount nm fs x + amount nm gs x := by
  unfold amount
  rw [List.filter_append, List.map_append, List.sum_append]

theorem amount_const (nm : M → Overlay.Name) (as : List ℝ) (m : M) (x : Overlay.Name) :
    amount nm (as.map fun a => (a, m)) x = if nm m = x then as.sum else 0 := by
  unfold amount
  split
  · rename_i h
    rw [List.filter_eq_self.2 (by simp [h]), List.map_map]
    congr 1
    exact List.map_id'' (fun _ => rfl) _
  · rename_i h
    rw [List.filter_eq_nil_iff.2 (by simp [h])]
    rfl

/-! ### The program -/

theorem names_length {nm : M → Overlay.Name} {mats : List M} (hnm : mats.map nm = XSValid.c5g7Names.map name) : mats.length = 7 := by
  have := congrArg List.length hnm
  simpa [XSValid.c5g7Names] using this

theorem pins_lt : ∀ k < 3, ∀ i < 17, ∀ j < 17, pinId k i j < 7 := by
  intro k _ i hi j hj
  unfold pinId
  split
  · exact (pin_known .uo2 (by decide) (away_le hi) (away_le hj)).1.trans (by decide)
  · split
    · exact (pin_known .mox (by decide) (away_le hi) (away_le hj)).1.trans (by decide)
    · decide

/-- What the program makes. -/
theorem program_eq {sort : List ℝ → List ℝ} (hsort : ∀ l, IsStdSort (fun a b => decide (a < b)) l (sort l)) {eps : ℝ} (he : 0 < eps) (hle : eps ≤ 126 / 100)
    {mats : List M} (hm : mats.length = 7) {mesh box : Mesh ℝ}
    (h8 : cylindricalMesh (realLibm eps) (126 / 100) [54 / 100, 62 / 100] [3, 2] 8 2 = some (some mesh))
    (h4 : rectangularMesh ((126 / 100 : ℝ), (126 / 100 : ℝ)) 5 5 = some (some box)) :
    program (realLibm eps) sort eps mats = some (hier { before mats mesh box with rtms := (List.range 7).map (single (126 / 100) (126 / 100)) }
      (126 / 100) (126 / 100) 7 17 17 3 3 3 pinId assemblies asyId) := by
  have hmats : addMaterials mats [0, 1, 2, 3, 4, 5, 6] (Model.empty ℝ M) = some { Model.empty ℝ M with materials := mats } := by
    match mats, hm with
    | [m0, m1, m2, m3, m4, m5, m6], _ => rfl
  have hf8 : mesh.faces.length = 48 := (cylindricalMesh_order h8).2
  have hf4 : box.faces.length = 25 := by exact_mod_cast (PropsRectPin.C62_boxes _ 5 5 box h4).1
  unfold program
  simp only [Option.bind_eq_bind]
  rw [hmats, Option.bind_some]
  unfold addCylindricalPinMesh
  rw [h8]
  dsimp only
  rw [if_neg (by decide), Option.bind_some]
  unfold addRectangularPinMesh
  rw [h4]
  dsimp only
  rw [Option.bind_some]
  dsimp only
  have hc : addCells (126 / 100, 126 / 100) (cells 0 0) { Model.empty ℝ M with materials := mats, quad8s := [mesh], quads := [box] } =
      some (before mats mesh box) := by
    rw [addCells_eq hm hf8 hf4 (cells 0 0) _ rfl rfl rfl cells_fit]
    rfl
  have hr := addRTMs_eq hsort he hle hle (List.range 7) (before mats mesh box) (by
      intro i hi
      have := List.mem_range.1 hi
      simp [before, cells]
      omega) (by
      intro c hc
      unfold before at hc
      obtain ⟨q, -, rfl⟩ := List.mem_map.1 hc
      rfl) (by intro r hr; simp [before, Model.empty] at hr)
  refine (congrArg (Option.bind · _) hc).trans ?_
  rw [Option.bind_some, hr, Option.bind_some, uo2_eq, mox_eq, h2o_eq, core_eq]
  simp only [Option.bind_some]
  have hend : ¬ ((eps < |(0 : ℝ) + 1 / 2| ∨ eps < |(21420 / 100 : ℝ) - 1 / 2|) ∧ eps < |(0 : ℝ)|) := by
    rw [abs_zero]
    intro h
    exact absurd h.2 (not_lt.2 he.le)
  exact addRest_eq hsort he hle hle hend 7 17 17 3 3 3 (by decide) (by decide) (by decide) (by decide) (by decide) pinId pins_lt assemblies (heights_ok eps)
    asyId (by decide) _ (by simp [before, Model.empty]) rfl rfl rfl

theorem name_inj : ∀ p < 6, name (XSValid.c5g7Names.getD p "") ≠ name "Moderator" := by decide +kernel

theorem content_known {c r k i j : Nat} (h : content c r k i j ≠ "Moderator") :
    k ≠ 9 ∧ square c (2 - r) ≠ .water ∧ content c r k i j = pin (square c (2 - r)) (away i) (away j) := by
  unfold content at h ⊢
  split at h
  · exact absurd rfl h
  · rename_i hn
    push Not at hn
    exact ⟨hn.1, hn.2, by rw [if_neg (by push Not; exact hn)]⟩

theorem asyId_lt : ∀ a b, asyId a b < 3 := by
  intro a b
  unfold asyId
  split <;> decide

/-- The lattice in a slice. -/
def latId (c r k : Nat) : Nat := if k = 9 then 2 else asyId c (2 - r)

theorem slot (c r k : Nat) (hk : k < 10) : ∃ a, (assemblies : List (Assembly ℝ))[asyId c (2 - r)]? = some a ∧
    a.children[k]? = some ((latId c r k : Nat) : ℤ) ∧ a.zs = heights := by
  unfold latId
  have := asyId_lt c (2 - r)
  generalize asyId c (2 - r) = x at *
  interval_cases x
  · refine ⟨_, rfl, ?_, rfl⟩
    interval_cases k <;> rfl
  · refine ⟨_, rfl, ?_, rfl⟩
    interval_cases k <;> rfl
  · refine ⟨_, rfl, ?_, rfl⟩
    interval_cases k <;> rfl

theorem pinId_content {c r k i j : Nat} (hi : i < 17) (hj : j < 17) :
    (content c r k i j ≠ "Moderator" → pinId (latId c r k) i (16 - j) < 6 ∧
      XSValid.c5g7Names.getD (pinId (latId c r k) i (16 - j)) "" = content c r k i j) ∧
    (content c r k i j = "Moderator" → pinId (latId c r k) i (16 - j) = 6) := by
  have hne : ∀ p < 6, XSValid.c5g7Names.getD p "" ≠ "Moderator" := by decide
  unfold pinId latId asyId content
  rw [away_mirror hj]
  by_cases hk : k = 9
  · simp [hk]
  · cases hs : square c (2 - r) with
    | water => simp [hk]
    | uo2 =>
      have := pin_known .uo2 (by decide) (away_le hi) (away_le hj)
      simp only [hk, false_or, if_false, reduceCtorEq, if_true]
      exact ⟨fun _ => this, fun h => absurd (this.2.trans h) (hne _ this.1)⟩
    | mox =>
      have := pin_known .mox (by decide) (away_le hi) (away_le hj)
      simp only [hk, false_or, if_false, reduceCtorEq, if_true, one_ne_zero]
      exact ⟨fun _ => this, fun h => absurd (this.2.trans h) (hne _ this.1)⟩

/-- **C113.**  With a tolerance of at most 1/10000 cm (it is 1/10000 cm with `float` and 1/10000000 cm with `double`) the program ends with the core of
the benchmark, with the amount of every material as in the benchmark. -/
theorem C113_c5g7 (nm : M → Overlay.Name) (mats : List M) (hnm : mats.map nm = XSValid.c5g7Names.map name)
    (sort : List ℝ → List ℝ) (hsort : ∀ l, IsStdSort (fun a b => decide (a < b)) l (sort l)) (eps : ℝ) (he : 0 < eps) (hle : eps ≤ 1 / 10000) :
    ∃ s, program (realLibm eps) sort eps mats = some s ∧ Core nm s := by
  have hm := names_length hnm
  obtain ⟨mesh, h8⟩ := PropsPinAccept.c5g7_meshed eps
  obtain ⟨box, h4⟩ := (PropsRectPin.C62_accepts ((126 / 100 : ℝ), (126 / 100 : ℝ)) 5 5).2 (by norm_num) (by norm_num) (by norm_num) (by norm_num) (by norm_num)
  have h80 := h8
  have htol := PropsPinAccept.C112_tolerance_quadratic eps _ _ _ PropsPinAccept.c5g7_drawn 8 le_rfl (by decide) (PropsPinAccept.c5g7_small eps he.le hle)
  rw [show ((8 : Nat) : ℤ) = 8 from rfl] at htol
  rw [htol] at h80
  refine ⟨_, program_eq hsort he (by linarith) hm h8 h4, ?_⟩
  have hids : ∀ a ∈ (assemblies : List (Assembly ℝ)), ∀ i ∈ a.children, 0 ≤ i ∧ i < (3 : Nat) := fun a ha => (heights_ok eps a ha).ids
  have htile := hier_tile { before mats mesh box with rtms := (List.range 7).map (single (126 / 100) (126 / 100)) }
    (126 / 100) (126 / 100) 7 17 17 3 3 3 pinId assemblies asyId pins_lt hids
  constructor
  · intro t ht
    obtain ⟨a1, a2, a3, a4, a5, a, k, lo, hi, h1, h2, -⟩ := (htile t).1 ht
    refine ⟨a1, a2, ?_, a3, a4, a5⟩
    have hl := (heights_ok eps a (List.mem_of_getElem? h1)).len
    have := (List.getElem?_eq_some_iff.1 h2).1
    have hz : ∀ a ∈ (assemblies : List (Assembly ℝ)), a.zs.length = 11 := by
      intro a ha
      simp only [assemblies, List.mem_cons, List.not_mem_nil, or_false] at ha
      rcases ha with rfl | rfl | rfl <;> simp [heights]
    have := hz a (List.mem_of_getElem? h1)
    omega
  · intro c hc r hr k hk i hi j hj
    obtain ⟨a, ha1, ha2, ha3⟩ := slot c r k hk
    refine ⟨⟨⟨(c, r), k, (i, j), (0, 0)⟩, pinId (latId c r k) i (16 - j),
      ((c : ℝ) * (2142 / 100) + i * (126 / 100), (r : ℝ) * (2142 / 100) + j * (126 / 100)),
      ((c : ℝ) * (2142 / 100) + (i + 1) * (126 / 100), (r : ℝ) * (2142 / 100) + (j + 1) * (126 / 100)), ((k : ℝ) + 1 / 2) * (2142 / 100)⟩,
      (htile _).2 ⟨hc, hr, hi, hj, rfl, a, latId c r k, _, _, ha1, ha2,
      by rw [ha3]; exact heights_get (i := k) (by omega), by rw [ha3]; exact heights_get (i := k + 1) (by omega), rfl, ?_, ?_, ?_⟩, rfl, rfl, rfl, rfl, ?_⟩
    · refine Prod.ext ?_ ?_ <;> dsimp only <;> push_cast <;> ring
    · refine Prod.ext ?_ ?_ <;> dsimp only <;> push_cast <;> ring
    · dsimp only
      push_cast
      ring
    · obtain ⟨q1, q2⟩ := pinId_content (c := c) (r := r) (k := k) hi hj
      generalize pinId (latId c r k) i (16 - j) = p at q1 q2
      generalize content c r k i j = x at q1 q2
      have hname : ∀ p (hp : p < mats.length), nm mats[p] = name (XSValid.c5g7Names.getD p "") := by
        intro p hp
        have h1 : (mats.map nm)[p]? = some (nm mats[p]) := by rw [List.getElem?_map, List.getElem?_eq_getElem hp]; rfl
        rw [hnm, List.getElem?_map] at h1
        have h2 : p < XSValid.c5g7Names.length := by rw [hm] at hp; exact hp
        rw [List.getElem?_eq_getElem h2, Option.map_some, Option.some.injEq] at h1
        rw [← h1, List.getD_eq_getElem _ _ h2]
      have h6 : nm mats[6] = name "Moderator" := hname 6 (by omega)
      by_cases hx : x = "Moderator"
      · obtain rfl := q2 hx
        obtain ⟨as, b1, b2, b3⟩ := box_areas h4
        have hf : Faces (hier { before mats mesh box with rtms := (List.range 7).map (single (126 / 100) (126 / 100)) }
            (126 / 100) (126 / 100) 7 17 17 3 3 3 pinId assemblies asyId) 6 _ := faces_of (t := MeshType.Quad) (ids := List.replicate 25 6) (mesh := box) (as := as)
          (ext := (126 / 100, 126 / 100)) rfl rfl (by simp [b2]) b1 (fun _ => mats[6]) (by
            intro y hy
            rw [List.eq_of_mem_replicate hy]
            exact ⟨by decide, by simp only [hier, before]; exact List.getElem?_eq_getElem (i := 6) (by omega)⟩)
        rw [zipWith_const _ _ _ _ b2] at hf
        refine ⟨_, hf, ?_, fun h => absurd hx h, fun _ => ?_⟩
        · intro f hf
          obtain ⟨y, -, rfl⟩ := List.mem_map.1 hf
          exact Or.inr h6
        · rw [amount_const, if_pos h6, b3]
      · obtain ⟨hp6, hpx⟩ := q1 hx
        obtain ⟨as, b1, b2, b3, b4⟩ := cyl_areas h80
        have hp7 : p < mats.length := by omega
        have hcell : (hier { before mats mesh box with rtms := (List.range 7).map (single (126 / 100) (126 / 100)) }
            (126 / 100) (126 / 100) 7 17 17 3 3 3 pinId assemblies asyId).cells[p]? =
            some ⟨(126 / 100, 126 / 100), MeshType.QuadraticQuad, 0, List.replicate 24 (Int8.ofNat p) ++ List.replicate 24 6⟩ := by
          interval_cases p <;> rfl
        have hval : (Int8.ofNat p).toInt = p ∧ (Int8.ofNat p = 6 ↔ p = 6) := by interval_cases p <;> decide
        have hf := faces_of hcell (mesh := mesh) (as := as) rfl (by simp [b2]) b1 (fun y => if y = 6 then mats[6] else mats[p]) (by
            intro y hy
            rcases List.mem_append.1 hy with hy | hy
            · rw [List.eq_of_mem_replicate hy, hval.1, if_neg (by rw [hval.2]; omega)]
              exact ⟨by positivity, by simp only [hier, before, Int.toNat_natCast]; exact List.getElem?_eq_getElem hp7⟩
            · rw [List.eq_of_mem_replicate hy, if_pos rfl]
              exact ⟨by decide, by simp only [hier, before]; exact List.getElem?_eq_getElem (i := 6) (by omega)⟩)
        rw [← List.take_append_drop 24 as, List.zipWith_append (by simp [b2]), zipWith_const _ _ _ _ (by simp [b2]), zipWith_const _ _ _ _ (by simp [b2]),
          if_neg (by rw [hval.2]; omega), if_pos rfl] at hf
        have hpn : nm mats[p] = name x := by rw [hname p hp7, hpx]
        have hne : name x ≠ name "Moderator" := by rw [← hpx]; exact name_inj p hp6
        refine ⟨_, hf, ?_, fun _ => ⟨?_, ?_⟩, fun h => absurd h hx⟩
        · intro f hf
          rcases List.mem_append.1 hf with hf | hf <;> obtain ⟨y, -, rfl⟩ := List.mem_map.1 hf
          · exact Or.inl hpn
          · exact Or.inr h6
        · rw [amount_append, amount_const, amount_const, if_pos hpn, if_neg (by rw [h6]; exact hne.symm), b3, add_zero]
        · rw [amount_append, amount_const, amount_const, if_neg (by rw [hpn]; exact hne), if_pos h6, b4, zero_add]

/-- There are such materials, sorts and tolerances. -/
example : ∃ s, program (realLibm (1 / 10000)) (fun l => l.insertionSort (· ≤ ·)) (1 / 10000) (XSValid.c5g7Names.map name) = some s ∧ Core id s :=
  C113_c5g7 id _ (by simp) _ (fun l => ⟨List.perm_insertionSort _ _, by
    have := List.pairwise_insertionSort (· ≤ ·) l
    simpa using this⟩) _ (by norm_num) le_rfl

end Verif.C5G7CoreP
