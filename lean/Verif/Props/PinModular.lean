import Verif.Props.PinModularSpec
import Verif.Lemmas.PinModular

/-!
# Plane models with pin-modular ray tracing

C111: the model has at every point of the core what the drawing has there, although it keeps one coarse cell for each kind of pin.
-/

set_option linter.unusedSectionVars false

namespace Verif.ModularP

open Verif (IsStdSort)
open Verif.XSLib (Res)
open Verif.Gmsh (Gm DimTag)
open Verif.GmshSpec (region)
open Verif.OverlayGroupsSpec (cell)
open Verif.Overlay (Name Cut cuts)
open Verif.PinsSpec
open Verif.Programs
open Verif.ProgramsSpec
open Verif.ProgramsP
open Verif.ProgramsL
open Verif.CoarseGrid (Fresh)
open Verif.CmfdInfo (Tile IsTile)
open Verif.LatticeText (tableOf idAt_tableOf good_tableOf)
open Verif.ElemTypes (MeshType)
open Verif.ModularL
open Verif.ModularSpec

variable {K C M : Type} [Field K] [LinearOrder K] [IsStrictOrderedRing K]

section
variable {eps : K} {q : Plan K C} (he : 0 < eps) (hq : q.Sound eps)
include hq

theorem call_good {a b : Nat} (ha : a < q.A) (_hb : b < q.B) : Good eps (q.call a b) :=
  good_tableOf eps (q.call a b) q.nx q.ny (q.pin (q.lat a (q.B - 1 - b))) rfl hq.pos.1 hq.pos.2.1
    (fun i hi j hj => hq.known _ (hq.there a ha _ (by omega)) i hi j hj) hq.mats hq.size

theorem call_inside (a b : Nat) : Inside (q.call a b) := ⟨hq.up, hq.order, hq.small⟩

theorem idAt_call (a b : Nat) {i j : Nat} (hi : i < q.nx) (hj : j < q.ny) : idAt (q.call a b).ids.reverse i j = some (q.pinAt a b i j : ℤ) := by
  show idAt (tableOf q.nx q.ny _).reverse i j = _
  rw [idAt_tableOf, if_pos ⟨hi, hj⟩]
  rfl

theorem idAt_some (a b : Nat) {i j : Nat} (h : (idAt (q.call a b).ids.reverse i j).isSome) : i < q.nx ∧ j < q.ny := by
  have h' : (idAt (tableOf q.nx q.ny (q.pin (q.lat a (q.B - 1 - b)))).reverse i j).isSome := h
  rw [idAt_tableOf] at h'
  by_contra hn
  rw [if_neg hn] at h'
  cases h'

theorem inPin_of {a b i j : Nat} (ha : a < q.A) (hb : b < q.B) (hi : i < q.nx) (hj : j < q.ny) (P : K × K) : InCell (q.call a b) i j P ↔ q.InPin a b i j P := by
  unfold InCell Plan.InPin Plan.call
  dsimp only
  have e1 : (a * (q.nx * q.size.1) + i * q.size.1 : K) = (a * q.nx + i) * q.size.1 := by ring
  have e2 : (a * (q.nx * q.size.1) + (i + 1) * q.size.1 : K) = (a * q.nx + i + 1) * q.size.1 := by ring
  have e3 : (b * (q.ny * q.size.2) + j * q.size.2 : K) = (b * q.ny + j) * q.size.2 := by ring
  have e4 : (b * (q.ny * q.size.2) + (j + 1) * q.size.2 : K) = (b * q.ny + j + 1) * q.size.2 := by ring
  rw [e1, e2, e3, e4]
  exact ⟨fun h => ⟨ha, hb, hi, hj, h⟩, fun h => h.2.2.2.2⟩

/-- A number is column `i` of part `a` in one way only. -/
theorem split_unique {n a a' i i' : Nat} (hi : i < n) (hi' : i' < n) (h : a * n + i = a' * n + i') : a = a' ∧ i = i' := by
  clear hq
  have h1 : (a * n + i) % n = i := by rw [Nat.add_comm, Nat.add_mul_mod_self_right, Nat.mod_eq_of_lt hi]
  have h2 : (a' * n + i') % n = i' := by rw [Nat.add_comm, Nat.add_mul_mod_self_right, Nat.mod_eq_of_lt hi']
  have h3 : i = i' := by rw [← h1, h, h2]
  subst h3
  have h4 : a * n = a' * n := by omega
  exact ⟨Nat.eq_of_mul_eq_mul_right (by omega) h4, rfl⟩

include he in
/-- The cells of the pins are apart. -/
theorem inPin_unique {a b i j a' b' i' j' : Nat} {P : K × K} (h : q.InPin a b i j P) (h' : q.InPin a' b' i' j' P) :
    a = a' ∧ b = b' ∧ i = i' ∧ j = j' := by
  obtain ⟨_, _, hi, hj, h1, h2, h3, h4⟩ := h
  obtain ⟨_, _, hi', hj', h1', h2', h3', h4'⟩ := h'
  have c1 : ∀ a i : Nat, ((a * q.nx + i : Nat) : K) = a * q.nx + i := fun a i => by push_cast; ring
  have c2 : ∀ b j : Nat, ((b * q.ny + j : Nat) : K) = b * q.ny + j := fun a i => by push_cast; ring
  have e1 := cell_unique (a := (0 : K)) (x := P.1) (i := a * q.nx + i) (i' := a' * q.nx + i') (he.trans_le hq.size.1)
    (by rw [c1, zero_add]; exact h1) (by rw [c1, zero_add]; exact h2) (by rw [c1, zero_add]; exact h1') (by rw [c1, zero_add]; exact h2')
  have e2 := cell_unique (a := (0 : K)) (x := P.2) (i := b * q.ny + j) (i' := b' * q.ny + j') (he.trans_le hq.size.2)
    (by rw [c2, zero_add]; exact h3) (by rw [c2, zero_add]; exact h4) (by rw [c2, zero_add]; exact h3') (by rw [c2, zero_add]; exact h4')
  obtain ⟨rfl, rfl⟩ := split_unique hq hi hi' e1
  obtain ⟨rfl, rfl⟩ := split_unique hq hj hj' e2
  exact ⟨rfl, rfl, rfl, rfl⟩

/-- The model after the calls. -/
theorem model_eq (he : 0 < eps) {sort : List K → List K} (hsort : ∀ l, IsStdSort (fun a b => decide (a < b)) l (sort l)) (s : Mpact.Model K M) (hs : Fresh s) :
    (Modular.addPins sort eps q.size (List.range q.radii.length) s).bind (Modular.addRest sort eps q.lattices q.assemblies (rows q.A q.B q.lat)) =
      some (hier { s with cells := List.replicate q.radii.length ⟨q.size, MeshType.Invalid, -1, []⟩ } q.size.1 q.size.2 q.radii.length q.nx q.ny q.A q.B q.L
        q.pin q.assemblies q.lat) := by
  obtain ⟨hc, hr, hl, ha, hco⟩ := hs
  have hn : 0 < q.radii.length := by
    obtain ⟨rad, h, -⟩ := hq.some
    exact List.length_pos_of_mem h
  have h1 := addPins_eq hsort he hq.size.1 hq.size.2 q.radii.length 0 s (by rw [hc]; rfl) (by simp [hc]) (by simp [hr])
  simp only [Nat.zero_add, List.map_id', hc, hr, List.nil_append] at h1
  have hz : (-1 / 2 : K) ≤ 1 / 2 := by linarith
  rw [show q.size = (q.size.1, q.size.2) from rfl, h1, Option.bind_some]
  refine (addRest_eq hsort (lo := -1 / 2) (hi := 1 / 2) he hq.size.1 hq.size.2 ?_ q.radii.length q.nx q.ny q.A q.B q.L hn hq.pos.1 hq.pos.2.1 hq.pos.2.2.1 hq.pos.2.2.2
    q.pin hq.known q.assemblies ?_ q.lat ?_
    { s with
      cells := List.replicate q.radii.length ⟨(q.size.1, q.size.2), MeshType.Invalid, -1, []⟩
      rtms := (List.range q.radii.length).map (single q.size.1 q.size.2) } rfl hl ha hco).trans ?_
  · rintro ⟨h1 | h1, -⟩
    · rw [show (-1 / 2 + 1 / 2 : K) = 0 by ring, abs_zero] at h1
      exact absurd h1 (not_lt.2 he.le)
    · rw [sub_self, abs_zero] at h1
      exact absurd h1 (not_lt.2 he.le)
  · intro a ha
    obtain ⟨k, hk, rfl⟩ := List.mem_map.1 ha
    rw [List.mem_range] at hk
    refine ⟨by simp, by simpa using hk, by simp, ?_, by simp, by simp⟩
    simp only [Mpact.isSorted, Bool.and_true]
    simpa using hz
  · intro i hi j hj
    rw [Plan.assemblies, List.length_map, List.length_range]
    exact hq.there i hi j hj
  · simp [hier]

theorem child (k : Nat) (l : Nat) (c : ℤ) : ∀ a, q.assemblies[k]? = some a → a.children[l]? = some c → l = 0 ∧ c = k ∧ k < q.L := by
  intro a ha hc
  unfold Plan.assemblies at ha
  rw [List.getElem?_map] at ha
  obtain ⟨k', hk', rfl⟩ := Option.map_eq_some_iff.1 ha
  obtain ⟨hlt, hk'⟩ := List.getElem?_eq_some_iff.1 hk'
  rw [List.getElem_range] at hk'
  subst hk'
  rw [List.length_range] at hlt
  have hl : l = 0 := by
    have := (List.getElem?_eq_some_iff.1 hc).1
    simpa using this
  subst hl
  exact ⟨rfl, by simpa using hc.symm, hlt⟩

theorem asy_get {a b : Nat} (ha : a < q.A) (hb : b < q.B) : q.assemblies[q.lat a (q.B - 1 - b)]? =
    some ⟨[-1 / 2, 1 / 2], [((q.lat a (q.B - 1 - b) : Nat) : ℤ)]⟩ := by
  unfold Plan.assemblies
  rw [List.getElem?_map, List.getElem?_range (hq.there a ha _ (by omega))]
  rfl

theorem kids : ∀ a ∈ q.assemblies, ∀ i ∈ a.children, 0 ≤ i ∧ i < q.L := by
  intro a ha i hi
  obtain ⟨k, hk, rfl⟩ := List.mem_map.1 ha
  rw [List.mem_range] at hk
  simp only [List.mem_singleton] at hi
  subst hi
  exact ⟨Int.natCast_nonneg _, by exact_mod_cast hk⟩

/-- The places of the coarse cells are the places of the pins. -/
theorem tile_iff (s : Mpact.Model K M) (t : Tile K) :
    IsTile (hier s q.size.1 q.size.2 q.radii.length q.nx q.ny q.A q.B q.L q.pin q.assemblies q.lat) t ↔
      ∃ a < q.A, ∃ b < q.B, ∃ i < q.nx, ∃ j < q.ny, t = ⟨⟨(a, b), 0, (i, j), (0, 0)⟩, q.pinAt a b i j,
        ((a * q.nx + i) * q.size.1, (b * q.ny + j) * q.size.2), ((a * q.nx + i + 1) * q.size.1, (b * q.ny + j + 1) * q.size.2), 0⟩ := by
  rw [hier_tile s q.size.1 q.size.2 q.radii.length q.nx q.ny q.A q.B q.L q.pin q.assemblies q.lat hq.known (kids hq)]
  obtain ⟨⟨⟨a, b⟩, lev, ⟨i, j⟩, ce⟩, id, lo, hi, z⟩ := t
  dsimp only
  constructor
  · rintro ⟨ha, hb, hi', hj', rfl, A, k, z0, z1, h1, h2, h3, h4, rfl, rfl, rfl, rfl⟩
    obtain ⟨rfl, hk, hkL⟩ := child hq _ _ _ A h1 h2
    obtain rfl : k = q.lat a (q.B - 1 - b) := by exact_mod_cast hk
    rw [asy_get hq ha hb, Option.some.injEq] at h1
    subst h1
    simp only [List.getElem?_cons_zero, List.getElem?_cons_succ, Option.some.injEq] at h3 h4
    subst h3 h4
    refine ⟨a, ha, b, hb, i, hi', j, hj', ?_⟩
    simp only [Tile.mk.injEq, true_and]
    refine ⟨rfl, ?_⟩
    ring
  · rintro ⟨a', ha, b', hb, i', hi', j', hj', e⟩
    cases e
    exact ⟨ha, hb, hi', hj', rfl, _, q.lat a (q.B - 1 - b), -1 / 2, 1 / 2, asy_get hq ha hb, rfl, rfl, rfl, rfl, rfl, rfl, by ring⟩

/-- The rectangles cut from the drawing. -/
theorem cuts_eq (s : Mpact.Model K M) (hcells : s.cells.length = q.radii.length) :
    ∃ l, cuts (hier s q.size.1 q.size.2 q.radii.length q.nx q.ny q.A q.B q.L q.pin q.assemblies q.lat) = .ok l ∧ l.length = q.radii.length ∧
      ∀ (p : Nat) c, l[p]? = some c → ∃ a < q.A, ∃ b < q.B, ∃ i < q.nx, ∃ j < q.ny, q.pinAt a b i j = p ∧
        rectSet c = box ((a * q.nx + i) * q.size.1, (b * q.ny + j) * q.size.2) q.size := by
  have hat := hier_at s q.size.1 q.size.2 q.radii.length q.nx q.ny q.A q.B q.L q.pin q.assemblies q.lat hq.known (kids hq)
  obtain ⟨l, h1, h2, h3⟩ := OverlayGrid.C91_first_partial (hier s q.size.1 q.size.2 q.radii.length q.nx q.ny q.A q.B q.L q.pin q.assemblies q.lat)
    (hier_whole _ _ _ _ _ _ _ _ _ _ _ _ hq.pos.1 hq.pos.2.1 hq.pos.2.2.1 hq.pos.2.2.2 hq.known (by
      intro a ha
      obtain ⟨k, hk, rfl⟩ := List.mem_map.1 ha
      rw [List.mem_range] at hk
      exact ⟨by simp, by simp, by simpa using hk⟩) (by
      intro i hi j hj
      rw [Plan.assemblies, List.length_map, List.length_range]
      exact hq.there i hi j hj) hcells.ge) (by
    intro c hc
    obtain ⟨a, ha, b, hb, i, hi, j, hj, e⟩ := hq.used c (by rw [← hcells]; exact hc)
    exact ⟨⟨a, b, 0, i, j, 0, 0⟩, _, (hat _ _ _).2 ⟨ha, hb, hi, hj, rfl, rfl, _, q.lat a (q.B - 1 - b), -1 / 2, 1 / 2, asy_get hq ha hb, rfl, rfl, rfl,
      by rw [← e]; rfl, rfl⟩⟩)
  refine ⟨l, h1, h2.trans hcells, ?_⟩
  intro p c hc
  obtain ⟨⟨a, b, k, i, j, ci, cj⟩, hp, -⟩ := h3 p c hc
  obtain ⟨ha, hb, hi, hj, -, -, A, k', lo, hi', g1, g2, g3, g4, g5, rfl⟩ := (hat _ _ _).1 hp
  dsimp only at *
  obtain ⟨-, hk, -⟩ := child hq _ _ _ A g1 g2
  obtain rfl : k' = q.lat a (q.B - 1 - b) := by exact_mod_cast hk
  refine ⟨a, ha, b, hb, i, hi, j, hj, ?_, ?_⟩
  · exact_mod_cast g5.symm
  · have e1 : (a * (q.size.1 * q.nx) + q.size.1 * i : K) = (a * q.nx + i) * q.size.1 := by ring
    have e2 : (b * (q.size.2 * q.ny) + q.size.2 * j : K) = (b * q.ny + j) * q.size.2 := by ring
    unfold rectSet box
    dsimp only
    rw [e1, e2]

end

theorem box_corner {c c' e : K × K} (h1 : 0 < e.1) (h2 : 0 < e.2) (h : box c e = box c' e) : c = c' := by
  have hc : c ∈ box c' e := by
    rw [← h]
    exact ⟨le_refl _, by linarith, le_refl _, by linarith⟩
  have hc' : c' ∈ box c e := by
    rw [h]
    exact ⟨le_refl _, by linarith, le_refl _, by linarith⟩
  exact Prod.ext (le_antisymm hc'.1 hc.1) (le_antisymm hc'.2.2.1 hc.2.2.1)

/-- **C111.**  A core of lattices of pins of one size, drawn lattice by lattice in any order, with a model that has one coarse cell for each
kind of pin.  The program comes to the overlay without an error.  Whatever fragments the kernel then finds, the overlay succeeds; the model
has at every point of the core the material of the first circle of the pin there that reaches the point, or the fill material if none does,
and no other; the group of each coarse cell is the rectangle of one pin of its kind, and nothing is left outside of these rectangles. -/
theorem C111_modular (clos : DimTag → List DimTag) (hself : ∀ e, (2, e) ∈ clos (2, e)) (hother : ∀ e e', (2, e) ∈ clos (2, e') → e = e')
    (sort : List K → List K) (hsort : ∀ l, IsStdSort (fun a b => decide (a < b)) l (sort l)) (eps : K) (he : 0 < eps)
    (color : DimTag → C) (q : Plan K C) (hq : q.Sound eps) (pls : List (Placement K C))
    (hpls : ∀ pl, pl ∈ pls ↔ ∃ a < q.A, ∃ b < q.B, pl = q.call a b) (s : Mpact.Model K M) (hs : Fresh s) (fill : Name × C) :
    Yields clos sort eps color pls s q.size q.radii.length q.lattices q.assemblies (rows q.A q.B q.lat) fill fun m g reg =>
      (∀ a b i j rad ms P, q.InPin a b i j P → q.radii[q.pinAt a b i j]? = some rad → q.mats[q.pinAt a b i j]? = some ms → ∀ x,
        Seen m g reg P x ↔ x = (look rad ms (dist2 P ((a * q.nx + i + 1 / 2) * q.size.1, (b * q.ny + j + 1 / 2) * q.size.2))).getD fill.1) ∧
      (∀ p < q.radii.length, ∃ a < q.A, ∃ b < q.B, ∃ i < q.nx, ∃ j < q.ny, q.pinAt a b i j = p ∧
        region reg g 2 (cell p) = {P | q.InPin a b i j P}) ∧
      ∀ P n d, P ∈ region reg g d n → ∃ p < q.radii.length, P ∈ region reg g 2 (cell p) := by
  have hgood : ∀ pl ∈ pls, Good eps pl := by
    intro pl hpl
    obtain ⟨a, ha, b, hb, rfl⟩ := (hpls pl).1 hpl
    exact call_good hq ha hb
  have hins : ∀ pl ∈ pls, Inside pl := by
    intro pl hpl
    obtain ⟨a, ha, b, hb, rfl⟩ := (hpls pl).1 hpl
    exact call_inside hq a b
  have hpos : 0 < q.radii.length := by
    obtain ⟨rad, h, -⟩ := hq.some
    exact List.length_pos_of_mem h
  have hw0 := he.trans_le hq.size.1
  have hh0 := he.trans_le hq.size.2
  obtain ⟨o, h1, hc, -, hhas, hne⟩ := all_calls clos hself hother sort hsort eps he pls (start color) (start_clean color) hgood
  have hne := hne (by
    obtain ⟨rad, h, h'⟩ := hq.some
    obtain ⟨p, hp⟩ := List.mem_iff_getElem?.1 h
    obtain ⟨r, rs, rfl⟩ := List.exists_cons_of_ne_nil h'
    obtain ⟨a, ha, b, hb, i, hi, j, hj, e⟩ := hq.used p (List.getElem?_eq_some_iff.1 hp).1
    refine ⟨q.call a b, (hpls _).2 ⟨a, ha, b, hb, rfl⟩, i, j, p, 0, r, ?_, _, hp, rfl⟩
    rw [idAt_call hq a b hi hj, e])
  have hhas : ∀ P y, Has o P y ↔ ∃ pl ∈ pls, Shows pl P y := by
    intro P y
    have h0 : ¬ Has (start color : Pins.Occ K C) P y := by rintro ⟨R, hR, _⟩; cases hR
    exact Iff.trans (hhas P y) ⟨fun h => h.resolve_left h0, Or.inr⟩
  have hmodel := model_eq hq he hsort s hs
  obtain ⟨cs, h3, hlen, hcut⟩ := cuts_eq hq { s with cells := List.replicate q.radii.length ⟨q.size, MeshType.Invalid, -1, []⟩ } (by simp)
  have hbox : ∀ a b i j, a < q.A → b < q.B → i < q.nx → j < q.ny →
      box ((a * q.nx + i) * q.size.1, (b * q.ny + j) * q.size.2) q.size = {P | q.InPin a b i j P} := by
    intro a b i j ha hb hi hj
    ext P
    unfold box Plan.InPin
    simp only [Set.mem_ofPred_eq]
    have e1 : ((a * q.nx + i) * q.size.1 + q.size.1 : K) = (a * q.nx + i + 1) * q.size.1 := by ring
    have e2 : ((b * q.ny + j) * q.size.2 + q.size.2 : K) = (b * q.ny + j + 1) * q.size.2 := by ring
    rw [e1, e2]
    exact ⟨fun h => ⟨ha, hb, hi, hj, h⟩, fun h => h.2.2.2.2⟩
  refine ⟨o, hier { s with cells := List.replicate q.radii.length ⟨q.size, MeshType.Invalid, -1, []⟩ } q.size.1 q.size.2 q.radii.length q.nx q.ny q.A q.B q.L
    q.pin q.assemblies q.lat, cs, ?_, ?_⟩
  · unfold Modular.build
    rw [h1]
    show (Res.ofOption _).bind _ = _
    obtain ⟨m1, e1, e2⟩ := Option.bind_eq_some_iff.1 hmodel
    rw [e1]
    show (Res.ofOption (Modular.addRest _ _ _ _ _ m1)).bind _ = _
    rw [e2]
    show (cuts _).bind _ = _
    rw [h3]
    rfl
  intro map all reg F
  obtain ⟨g, gone, g1, g2, g3, g4⟩ := lay_points clos o hc hne cs (by intro h; rw [h] at hlen; simp at hlen; omega) (by rw [hlen]; exact hq.count) (by
    intro c hcm
    obtain ⟨p, hp⟩ := List.mem_iff_getElem?.1 hcm
    obtain ⟨a, ha, b, hb, i, hi, j, hj, -, e⟩ := hcut p c hp
    rw [e]
    exact ⟨((a * q.nx + i) * q.size.1, (b * q.ny + j) * q.size.2), le_refl _, by dsimp only; linarith, le_refl _, by dsimp only; linarith⟩) map all reg F fill
  have hreg : ∀ p < q.radii.length, ∃ a < q.A, ∃ b < q.B, ∃ i < q.nx, ∃ j < q.ny, q.pinAt a b i j = p ∧ (∀ P, q.InPin a b i j P → ∃ c ∈ cs, P ∈ rectSet c) ∧
      region reg g 2 (cell p) = {P | q.InPin a b i j P} := by
    intro p hp
    have hget := List.getElem?_eq_getElem (l := cs) (i := p) (by omega)
    obtain ⟨a, ha, b, hb, i, hi, j, hj, e, e'⟩ := hcut p _ hget
    rw [hbox a b i j ha hb hi hj] at e'
    refine ⟨a, ha, b, hb, i, hi, j, hj, e, ?_, by rw [g3 p _ hget, e']⟩
    intro P hP
    exact ⟨_, List.mem_of_getElem? hget, by rw [e']; exact hP⟩
  refine ⟨g, gone, g1, ?_, ?_, ?_⟩
  · intro a b i j rad ms P hP hrad hms x
    have hP' := hP
    obtain ⟨ha, hb, hi, hj, p1, p2, p3, p4⟩ := hP'
    have hid : q.pinAt a b i j < q.radii.length := (List.getElem?_eq_some_iff.1 hrad).1
    obtain ⟨a0, ha0, b0, hb0, i0, hi0, j0, hj0, e0, hcs, hr0⟩ := hreg _ hid
    -- the corresponding point
    obtain ⟨Q, hQ⟩ : ∃ Q : K × K, Q = ((a0 * q.nx + i0) * q.size.1, (b0 * q.ny + j0) * q.size.2) +
        (P - ((a * q.nx + i) * q.size.1, (b * q.ny + j) * q.size.2)) := ⟨_, rfl⟩
    have q1 : Q.1 = (a0 * q.nx + i0) * q.size.1 + (P.1 - (a * q.nx + i) * q.size.1) := by rw [hQ]; rfl
    have q2 : Q.2 = (b0 * q.ny + j0) * q.size.2 + (P.2 - (b * q.ny + j) * q.size.2) := by rw [hQ]; rfl
    have hQin : q.InPin a0 b0 i0 j0 Q := by
      refine ⟨ha0, hb0, hi0, hj0, ?_, ?_, ?_, ?_⟩ <;> rw [add_one_mul] at * <;> first | rw [q1] | rw [q2]
      all_goals linarith
    have hmat : MaterialAt g reg Q ((look rad ms (dist2 P ((a * q.nx + i + 1 / 2) * q.size.1, (b * q.ny + j + 1 / 2) * q.size.2))).getD fill.1) := by
      have hdist : dist2 P ((a * q.nx + i + 1 / 2) * q.size.1, (b * q.ny + j + 1 / 2) * q.size.2) = dist2 Q (centre (q.call a0 b0) i0 j0) := by
        unfold dist2 centre Plan.call
        dsimp only
        rw [q1, q2]
        ring
      have hiff := point_in he pls hgood hins (by
        intro c hc c' hc' hne P i j i' j' s1 s2 s3 s4
        obtain ⟨u, hu, v, hv, rfl⟩ := (hpls c).1 hc
        obtain ⟨u', hu', v', hv', rfl⟩ := (hpls c').1 hc'
        have t1 := idAt_some hq u v s1
        have t2 := idAt_some hq u' v' s2
        obtain ⟨rfl, rfl, -, -⟩ := inPin_unique he hq ((inPin_of hq hu hv t1.1 t1.2 P).1 s3) ((inPin_of hq hu' hv' t2.1 t2.2 P).1 s4)
        exact hne rfl) (q.call a0 b0) ((hpls _).2 ⟨a0, ha0, b0, hb0, rfl⟩) i0 j0 (q.pinAt a0 b0 i0 j0) rad ms (idAt_call hq a0 b0 hi0 hj0)
        (by rw [e0]; exact hrad) (by rw [e0]; exact hms) Q ((inPin_of hq ha0 hb0 hi0 hj0 Q).2 hQin)
      rw [hdist]
      refine g2 Q (hcs Q hQin) _ ?_ ?_
      · intro y hy
        rw [(hiff y).1 ((hhas Q y).1 hy)]
        rfl
      · cases hl : look rad ms (dist2 Q (centre (q.call a0 b0) i0 j0)) with
        | none => exact Or.inr rfl
        | some x => exact Or.inl ((hhas Q x).2 ((hiff x).2 hl))
    have hsz : ∀ a b i j : Nat, (((a * q.nx + i + 1) * q.size.1, (b * q.ny + j + 1) * q.size.2) : K × K) -
        ((a * q.nx + i) * q.size.1, (b * q.ny + j) * q.size.2) = q.size := by
      intro a b i j
      refine Prod.ext ?_ ?_
      · show (a * q.nx + i + 1) * q.size.1 - (a * q.nx + i) * q.size.1 = _; ring
      · show (b * q.ny + j + 1) * q.size.2 - (b * q.ny + j) * q.size.2 = _; ring
    constructor
    · rintro ⟨t, corner, ht, hPt, hcor, hx⟩
      obtain ⟨a', ha', b', hb', i', hi', j', hj', rfl⟩ := (tile_iff hq _ t).1 ht
      dsimp only at hPt hcor hx
      rw [hsz] at hPt hcor
      rw [hbox a' b' i' j' ha' hb' hi' hj'] at hPt
      obtain ⟨rfl, rfl, rfl, rfl⟩ := inPin_unique he hq hPt hP
      rw [hr0, ← hbox a0 b0 i0 j0 ha0 hb0 hi0 hj0] at hcor
      rw [← box_corner hw0 hh0 hcor, ← hQ] at hx
      exact (hmat x).1 ((hx x).2 rfl)
    · rintro rfl
      refine ⟨_, ((a0 * q.nx + i0) * q.size.1, (b0 * q.ny + j0) * q.size.2), (tile_iff hq _ _).2 ⟨a, ha, b, hb, i, hi, j, hj, rfl⟩, ?_, ?_, ?_⟩
      · dsimp only
        rw [hsz, hbox a b i j ha hb hi hj]
        exact hP
      · dsimp only
        rw [hsz, hbox a0 b0 i0 j0 ha0 hb0 hi0 hj0, hr0]
      · dsimp only
        rw [← hQ]
        exact hmat
  · intro p hp
    obtain ⟨a, ha, b, hb, i, hi, j, hj, e, -, e'⟩ := hreg p hp
    exact ⟨a, ha, b, hb, i, hi, j, hj, e, e'⟩
  · intro P n d hP
    obtain ⟨c, hcm, hPc⟩ := g4 P n d hP
    obtain ⟨p, hp⟩ := List.mem_iff_getElem?.1 hcm
    exact ⟨p, by have := (List.getElem?_eq_some_iff.1 hp).1; omega, by rw [g3 p c hp]; exact hPc⟩

end Verif.ModularP
