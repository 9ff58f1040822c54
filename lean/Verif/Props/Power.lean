import Verif.Lemmas.Power
import Verif.Props.Box
import Verif.Props.Stats
import Verif.Props.Quadratic
import Mathlib.Algebra.Order.Ring.Rat
import Mathlib.Algebra.BigOperators.Group.List.Basic
import Mathlib.Tactic.NormNum
import Mathlib.Tactic.Ring
import Mathlib.Tactic.Linarith

/-!
# C65: power extraction

Specification: `Positive` faces, the relation `Adjacent` (two such faces have vertices closer than the tolerance) and its
reflexive transitive closure.
-/

set_option linter.unusedSectionVars false

namespace Verif.PropsPower

open Power Geom Box

section
variable {K : Type} [Field K] [LinearOrder K] [IsStrictOrderedRing K] {N : Nat}

/-- Face `i` exists and has positive power. -/
def Positive (faces : List (Poly N 2 K)) (power : List K) (i : Nat) : Prop := ∃ f p, faces[i]? = some f ∧ power[i]? = some p ∧ 0 < p

/-- Faces `i` and `j` have positive power and vertices closer than `tol`. -/
def Adjacent (tol : K) (faces : List (Poly N 2 K)) (power : List K) (i j : Nat) : Prop :=
  Positive faces power i ∧ Positive faces power j ∧
    ∃ (a b : Poly N 2 K) (u v : Fin N), faces[i]? = some a ∧ faces[j]? = some b ∧ sqDist (a u) (b v) < tol ^ 2

/-- The bounding box of a face contains its vertices. -/
def BoxesVertices (kind : Kind N K) : Prop := ∀ (v : Poly N 2 K) i, Inside (v i) (kind.box v)

/-- Vertices closer than `tol` are, in each direction, not further apart than the part by which the two boxes are enlarged. -/
def NearFits (kind : Kind N K) (tol scl : K) (faces : List (Poly N 2 K)) (power : List K) : Prop :=
  ∀ i j (a b : Poly N 2 K) (u v : Fin N), Positive faces power i → Positive faces power j → faces[i]? = some a → faces[j]? = some b →
    sqDist (a u) (b v) < tol ^ 2 → ∀ d, |a u d - b v d| ≤ (scl - 1) / 2 * (extents (kind.box a) d + extents (kind.box b) d)

/-- The power of face `i` times its area. -/
def facePower (kind : Kind N K) (faces : List (Poly N 2 K)) (power : List K) (i : Nat) : Option K := do
  let f ← faces[i]?
  let p ← power[i]?
  some (p * kind.area f)

/-- The area of face `i`. -/
def faceArea (kind : Kind N K) (faces : List (Poly N 2 K)) (i : Nat) : Option K := (faces[i]?).map kind.area

/-- The area of face `i` times its centroid. -/
def faceMoment (kind : Kind N K) (faces : List (Poly N 2 K)) (i : Nat) : Option (Pt 2 K) := do
  let f ← faces[i]?
  let c ← kind.centroid f
  some fun d => kind.area f * c d

/-- `e` is the power and the centroid of the faces `s`. -/
structure IsEntry (kind : Kind N K) (faces : List (Poly N 2 K)) (power : List K) (s : List Nat) (e : K × Option (Pt 2 K)) : Prop where
  power : ∃ ps, s.mapM (facePower kind faces power) = some ps ∧ e.1 = ps.sum
  centroid : ∀ c, e.2 = some c → ∃ as ms, s.mapM (faceArea kind faces) = some as ∧ s.mapM (faceMoment kind faces) = some ms ∧ as.sum ≠ 0 ∧
    ∀ d, as.sum * c d = ms.sum d
  defined : ∀ as ms, s.mapM (faceArea kind faces) = some as → s.mapM (faceMoment kind faces) = some ms → as.sum ≠ 0 → e.2 ≠ none

/-! ## Items -/

theorem mem_items {faces : List (Poly N 2 K)} {power : List K} {x : Item N K} :
    x ∈ items faces power ↔ faces[x.id]? = some x.verts ∧ power[x.id]? = some x.power ∧ 0 < x.power := by
  unfold items
  simp only [List.mem_map, List.mem_filter, decide_eq_true_eq]
  constructor
  · rintro ⟨⟨⟨f, p⟩, i⟩, ⟨hm, hp⟩, rfl⟩
    rw [List.mem_zipIdx_iff_getElem?, List.getElem?_zip_eq_some] at hm
    exact ⟨hm.1, hm.2, hp⟩
  · rintro ⟨h1, h2, h3⟩
    exact ⟨((x.verts, x.power), x.id), ⟨by rw [List.mem_zipIdx_iff_getElem?, List.getElem?_zip_eq_some]; exact ⟨h1, h2⟩, h3⟩, rfl⟩

theorem items_nodup {faces : List (Poly N 2 K)} {power : List K} : ((items faces power).map (·.id)).Nodup := by
  unfold items
  rw [List.map_map]
  have : ((fun x : Item N K => x.id) ∘ fun x : (Poly N 2 K × K) × Nat => (⟨x.2, x.1.1, x.1.2⟩ : Item N K)) = Prod.snd := rfl
  rw [this]
  have h : (((faces.zip power).zipIdx).map Prod.snd).Nodup := by
    rw [List.zipIdx_map_snd]
    exact List.nodup_range'
  exact h.sublist (List.filter_sublist.map _)

theorem positive_iff {faces : List (Poly N 2 K)} {power : List K} {i : Nat} : Positive faces power i ↔ ∃ x ∈ items faces power, x.id = i := by
  constructor
  · rintro ⟨f, p, h1, h2, h3⟩
    exact ⟨⟨i, f, p⟩, mem_items.2 ⟨h1, h2, h3⟩, rfl⟩
  · rintro ⟨x, hx, rfl⟩
    obtain ⟨h1, h2, h3⟩ := mem_items.1 hx
    exact ⟨_, _, h1, h2, h3⟩

theorem share_iff {tol : K} {a b : Poly N 2 K} : shareVertex tol a b = true ↔ ∃ u v, sqDist (a u) (b v) < tol ^ 2 := by
  simp [shareVertex, pow_two]

theorem sqDist_comm {D : Nat} (p q : Pt D K) : sqDist p q = sqDist q p := by
  unfold sqDist
  exact Finset.sum_congr rfl fun i _ => by ring

theorem share_symm {tol : K} {a b : Poly N 2 K} (h : shareVertex tol a b = true) : shareVertex tol b a = true := by
  rw [share_iff] at h ⊢
  obtain ⟨u, v, h⟩ := h
  exact ⟨v, u, by rw [sqDist_comm]; exact h⟩

theorem adjacent_iff {tol : K} {faces : List (Poly N 2 K)} {power : List K} {x y : Item N K} (hx : x ∈ items faces power) (hy : y ∈ items faces power) :
    Adjacent tol faces power x.id y.id ↔ shareVertex tol x.verts y.verts = true := by
  have h1 := (mem_items.1 hx).1
  have h2 := (mem_items.1 hy).1
  rw [share_iff]
  constructor
  · rintro ⟨-, -, a, b, u, v, ha, hb, h⟩
    rw [h1] at ha; rw [h2] at hb
    cases ha; cases hb
    exact ⟨u, v, h⟩
  · rintro ⟨u, v, h⟩
    exact ⟨positive_iff.2 ⟨x, hx, rfl⟩, positive_iff.2 ⟨y, hy, rfl⟩, _, _, u, v, h1, h2, h⟩

theorem item_ext {faces : List (Poly N 2 K)} {power : List K} {x y : Item N K} (hx : x ∈ items faces power) (hy : y ∈ items faces power) (h : x.id = y.id) : x = y := by
  obtain ⟨a1, a2, _⟩ := mem_items.1 hx
  obtain ⟨b1, b2, _⟩ := mem_items.1 hy
  rw [h] at a1 a2
  rw [a1] at b1; rw [a2] at b2
  cases x; cases y
  simp_all

/-- The relation on items and the one on ids. -/
theorem conn_iff {tol : K} {faces : List (Poly N 2 K)} {power : List K} {x y : Item N K} (hx : x ∈ items faces power) (hy : y ∈ items faces power) :
    Conn (fun a b : Item N K => shareVertex tol a.verts b.verts) (items faces power) x y ↔ Relation.ReflTransGen (Adjacent tol faces power) x.id y.id := by
  constructor
  · intro h
    induction h with
    | refl => exact .refl
    | tail _ hst ih => exact (ih hst.1).tail ((adjacent_iff hst.1 hst.2.1).2 hst.2.2)
  · intro h
    have key : ∀ j, Relation.ReflTransGen (Adjacent tol faces power) x.id j → ∃ z ∈ items faces power, z.id = j ∧
        Conn (fun a b : Item N K => shareVertex tol a.verts b.verts) (items faces power) x z := by
      intro j hj
      induction hj with
      | refl => exact ⟨x, hx, rfl, .refl⟩
      | tail _ hst ih =>
        obtain ⟨z, hz, rfl, hc⟩ := ih
        obtain ⟨w, hw, rfl⟩ := positive_iff.1 hst.2.1
        exact ⟨w, hw, rfl, hc.tail ⟨hz, hw, (adjacent_iff hz hw).1 hst⟩⟩
    obtain ⟨z, hz, he, hc⟩ := key _ h
    rw [item_ext hy hz he.symm]
    exact hc

theorem near_intersects {kind : Kind N K} (hk : BoxesVertices kind) {tol scl : K} {faces : List (Poly N 2 K)} {power : List K}
    (hn : NearFits kind tol scl faces power) {x y : Item N K} (hx : x ∈ items faces power) (hy : y ∈ items faces power) (h : shareVertex tol x.verts y.verts = true) :
    intersects (scale (kind.box x.verts) scl) (scale (kind.box y.verts) scl) = true := by
  obtain ⟨u, v, huv⟩ := share_iff.1 h
  rw [intersects_iff]
  intro d
  have h1 := hn x.id y.id _ _ u v (positive_iff.2 ⟨x, hx, rfl⟩) (positive_iff.2 ⟨y, hy, rfl⟩) (mem_items.1 hx).1 (mem_items.1 hy).1 huv d
  have hu := hk x.verts u d
  have hv := hk y.verts v d
  rw [abs_le] at h1
  simp only [scale]
  generalize extents (kind.box x.verts) d = e1 at *
  generalize extents (kind.box y.verts) d = e2 at *
  constructor <;> linarith [h1.1, h1.2]

/-! ## Entries -/

theorem mapM_some {α β : Type} (g : α → Option β) (w : α → β) (l : List α) (h : ∀ x ∈ l, g x = some (w x)) : l.mapM g = some (l.map w) := by
  induction l with
  | nil => rfl
  | cons x l ih =>
    rw [List.mapM_cons, h x (by simp), ih fun y hy => h y (by simp [hy])]
    rfl

theorem mapM_map {α β γ : Type} (f : α → β) (g : β → Option γ) (l : List α) : (l.map f).mapM g = l.mapM fun x => g (f x) := by
  induction l with
  | nil => rfl
  | cons x l ih => rw [List.map_cons, List.mapM_cons, List.mapM_cons, ih]

theorem mapM_congr {α β : Type} {f g : α → Option β} {l : List α} (h : ∀ x ∈ l, f x = g x) : l.mapM f = l.mapM g := by
  induction l with
  | nil => rfl
  | cons x l ih => rw [List.mapM_cons, List.mapM_cons, h x (by simp), ih fun y hy => h y (by simp [hy])]

theorem mapM_nil_iff {α β : Type} {f : α → Option β} {l : List α} (h : l.mapM f = some []) : l = [] := by
  cases l with
  | nil => rfl
  | cons x l =>
    rw [List.mapM_cons] at h
    cases h1 : f x <;> cases h2 : l.mapM f <;> simp [h1, h2] at h

theorem list_sum_apply (l : List (Pt 2 K)) (d : Fin 2) : l.sum d = (l.map (· d)).sum := by
  induction l with
  | nil => rfl
  | cons x l ih => rw [List.sum_cons, List.map_cons, List.sum_cons, Pi.add_apply, ih]

theorem entry_spec {kind : Kind N K} {faces : List (Poly N 2 K)} {power : List K} {s : List (Item N K)} (hs : ∀ x ∈ s, x ∈ items faces power) (hne : s ≠ []) :
    ∃ e, entry kind s = some e ∧ IsEntry kind faces power (s.map (·.id)) e ∧ e.1 = (s.map fun f => f.power * kind.area f.verts).sum := by
  have hA : Stats.pairwiseSum (s.map fun f => kind.area f.verts) = some (s.map fun f => kind.area f.verts).sum := by
    rw [Stats.C18_sum, if_neg (by simpa using hne)]
  have hP : Stats.pairwiseSum (s.map fun f => f.power * kind.area f.verts) = some (s.map fun f => f.power * kind.area f.verts).sum := by
    rw [Stats.C18_sum, if_neg (by simpa using hne)]
  have hma : (s.map (·.id)).mapM (faceArea kind faces) = some (s.map fun f => kind.area f.verts) := by
    rw [mapM_map]
    exact mapM_some _ _ _ fun x hx => by simp only [faceArea]; rw [(mem_items.1 (hs x hx)).1]; rfl
  have hmm : (s.map (·.id)).mapM (faceMoment kind faces) = s.mapM fun f => (kind.centroid f.verts).map fun c => (fun d => kind.area f.verts * c d : Pt 2 K) := by
    rw [mapM_map]
    refine mapM_congr fun x hx => ?_
    simp only [faceMoment]
    rw [(mem_items.1 (hs x hx)).1]
    cases h : kind.centroid x.verts <;> simp [h]
  unfold entry
  rw [hA, hP]
  refine ⟨_, rfl, ⟨?_, ?_, ?_⟩, rfl⟩
  · refine ⟨_, ?_, rfl⟩
    rw [mapM_map]
    refine mapM_some _ _ _ fun x hx => ?_
    simp only [facePower]
    rw [(mem_items.1 (hs x hx)).1, (mem_items.1 (hs x hx)).2.1]
    rfl
  · intro c hc
    dsimp only at hc
    cases hm : s.mapM (fun f => (kind.centroid f.verts).map fun c => (fun d => kind.area f.verts * c d : Pt 2 K)) with
    | none => simp [hm] at hc
    | some ms =>
      have hne' : ms ≠ [] := fun h => hne (mapM_nil_iff (h ▸ hm))
      simp only [hm, Option.bind_eq_bind, Option.bind_some, Stats.C18_sum, if_neg hne'] at hc
      split at hc
      · simp at hc
      · rename_i h0
        cases hc
        refine ⟨_, ms, hma, hmm.trans hm, h0, fun d => ?_⟩
        exact mul_div_cancel₀ _ h0
  · intro as ms h1 h2 h0 hc
    rw [hma] at h1
    cases h1
    rw [hmm] at h2
    have hne' : ms ≠ [] := fun h => hne (mapM_nil_iff (h ▸ h2))
    dsimp only at hc
    simp only [h2, Option.bind_eq_bind, Option.bind_some, Stats.C18_sum, if_neg hne', if_neg h0] at hc
    simp at hc

theorem map_flatMap {α β γ : Type} (f : β → γ) (g : α → List β) (l : List α) : (l.flatMap g).map f = (l.map fun x => (g x).map f).flatten := by
  induction l with
  | nil => rfl
  | cons x l ih => rw [List.flatMap_cons, List.map_append, ih, List.map_cons, List.flatten_cons]

theorem mapM_ex {α β : Type} {f : α → Option β} {P : α → β → Prop} {l : List α} (h : ∀ x ∈ l, ∃ y, f x = some y ∧ P x y) :
    ∃ ys, l.mapM f = some ys ∧ List.Forall₂ P l ys := by
  induction l with
  | nil => exact ⟨[], rfl, .nil⟩
  | cons x l ih =>
    obtain ⟨y, hy, hp⟩ := h x (by simp)
    obtain ⟨ys, hys, hps⟩ := ih fun z hz => h z (by simp [hz])
    exact ⟨y :: ys, by rw [List.mapM_cons, hy, hys]; rfl, .cons hp hps⟩

theorem forall_map {α β γ : Type} {P : α → β → Prop} {l : List α} {ys : List β} (h : List.Forall₂ P l ys) {f : β → γ} {g : α → γ} (hp : ∀ x y, P x y → f y = g x) :
    ys.map f = l.map g := by
  induction h with
  | nil => rfl
  | cons h _ ih => rw [List.map_cons, List.map_cons, hp _ _ h, ih]

theorem sum_flatten (l : List (List K)) : l.flatten.sum = (l.map List.sum).sum := by
  induction l with
  | nil => rfl
  | cons x l ih => rw [List.flatten_cons, List.sum_append, List.map_cons, List.sum_cons, ih]

theorem items_sum {kind : Kind N K} {faces : List (Poly N 2 K)} {power : List K} :
    (items faces power).map (fun f => f.power * kind.area f.verts) = ((faces.zip power).filter fun x => decide (0 < x.2)).map fun x => x.2 * kind.area x.1 := by
  have : ∀ (l : List (Poly N 2 K × K)) (k : Nat), ((l.zipIdx k).filter fun x => decide (0 < x.1.2)).map (fun x => x.1.2 * kind.area x.1.1) =
      (l.filter fun x => decide (0 < x.2)).map fun x => x.2 * kind.area x.1 := by
    intro l
    induction l with
    | nil => intro k; rfl
    | cons a l ih =>
      intro k
      rw [List.zipIdx_cons, List.filter_cons, List.filter_cons]
      split
      · rw [List.map_cons, List.map_cons, ih]
      · rw [ih]
  unfold items
  rw [List.map_map]
  exact this _ 0

/-! ## The theorems -/

/-- **C65**: `getPowers` gives one entry per connected component of the faces with positive power (`groups` lists the components): every such face is in
exactly one group, the members of the group of `x` are exactly the faces that can be reached from `x`, and each entry holds the power and the centroid of its
group. Power and mesh must fit (`hlen`); vertices that are close must be so relative to the size of the faces (`NearFits`, see `C65_exact` and `C65_large`). -/
theorem C65_components_partial (kind : Kind N K) (hk : BoxesVertices kind) (tol scl : K) (sorter : List (Item N K) → List (Item N K))
    (hsort : ∀ l, IsStdSort (fun a b : Item N K => decide (a.id < b.id)) l (sorter l)) (faces : List (Poly N 2 K)) (power : List K)
    (hlen : faces.length ≤ power.length) (hn : NearFits kind tol scl faces power) :
    ∃ (groups : List (List Nat)) (out : List (K × Option (Pt 2 K))), getPowers kind tol scl sorter faces power = some out ∧
      groups.flatten.Nodup ∧ (∀ i, i ∈ groups.flatten ↔ Positive faces power i) ∧ (∀ s ∈ groups, s ≠ []) ∧
      (∀ s ∈ groups, ∀ x ∈ s, ∀ y, y ∈ s ↔ Relation.ReflTransGen (Adjacent tol faces power) x y) ∧
      List.Forall₂ (IsEntry kind faces power) groups out ∧
      (out.map (·.1)).sum = (((faces.zip power).filter fun x => decide (0 < x.2)).map fun x => x.2 * kind.area x.1).sum := by
  unfold getPowers
  rw [if_neg (by omega)]
  dsimp only
  obtain ⟨hperm, hne, hcomp⟩ := components (touch := fun a b : Item N K => shareVertex tol a.verts b.verts) (box := fun a : Item N K => scale (kind.box a.verts) scl)
    (U := items faces power) (fun a b => share_symm) (fun l => (hsort l).perm) (fun a ha b hb h => near_intersects hk hn ha hb h)
  generalize mergeAll (fun a b : Item N K => shareVertex tol a.verts b.verts) sorter (pass (fun a b : Item N K => shareVertex tol a.verts b.verts)
    (fun a : Item N K => scale (kind.box a.verts) scl) (items faces power)) = sets at *
  have hmem : ∀ s ∈ sets, ∀ x ∈ s.1, x ∈ items faces power := fun s hs x hx => hperm.mem_iff.1 (List.mem_flatMap.2 ⟨s, hs, hx⟩)
  obtain ⟨out, hout, hall⟩ := mapM_ex (l := sets) (f := fun s => entry kind s.1) (P := fun s e => IsEntry kind faces power (s.1.map (·.id)) e ∧
      e.1 = (s.1.map fun f => f.power * kind.area f.verts).sum) fun s hs => entry_spec (hmem s hs) (hne s hs)
  have hflat : (sets.map fun s => s.1.map (·.id)).flatten = (sets.flatMap (·.1)).map (·.id) := (map_flatMap _ _ _).symm
  refine ⟨sets.map fun s => s.1.map (·.id), out, hout, ?_, ?_, ?_, ?_, ?_, ?_⟩
  · rw [hflat]
    exact ((hperm.map (·.id)).nodup_iff).2 items_nodup
  · intro i
    rw [hflat, positive_iff, List.mem_map]
    exact ⟨fun ⟨x, hx, he⟩ => ⟨x, hperm.mem_iff.1 hx, he⟩, fun ⟨x, hx, he⟩ => ⟨x, hperm.mem_iff.2 hx, he⟩⟩
  · intro s hs
    obtain ⟨t, ht, rfl⟩ := List.mem_map.1 hs
    simpa using hne t ht
  · intro s hs i hi j
    obtain ⟨t, ht, rfl⟩ := List.mem_map.1 hs
    obtain ⟨x, hx, rfl⟩ := List.mem_map.1 hi
    have hxi := hmem t ht x hx
    constructor
    · intro hj
      obtain ⟨y, hy, rfl⟩ := List.mem_map.1 hj
      exact (conn_iff hxi (hmem t ht y hy)).1 ((hcomp t ht x hx y).1 hy)
    · intro hj
      have hpos : Positive faces power j := by
        rcases Relation.ReflTransGen.cases_tail hj with h | ⟨_, _, h⟩
        · rw [h]; exact positive_iff.2 ⟨x, hxi, rfl⟩
        · exact h.2.1
      obtain ⟨y, hy, rfl⟩ := positive_iff.1 hpos
      exact List.mem_map.2 ⟨y, (hcomp t ht x hx y).2 ((conn_iff hxi hy).2 hj), rfl⟩
  · rw [List.forall₂_map_left_iff]
    exact hall.imp fun _ _ h => h.1
  · rw [← items_sum, ← (hperm.map _).sum_eq, map_flatMap, sum_flatten, List.map_map]
    congr 1
    exact forall_map hall fun _ _ h => h.2

/-- A power list shorter than the list of faces is read out of bounds. -/
theorem C65_short (kind : Kind N K) (tol scl : K) (sorter : List (Item N K) → List (Item N K)) (faces : List (Poly N 2 K)) (power : List K)
    (h : power.length < faces.length) : getPowers kind tol scl sorter faces power = none := by
  unfold getPowers
  rw [if_pos h]

/-- When close vertices coincide, enlarging the boxes (or not) is enough. -/
theorem C65_exact (kind : Kind N K) (hk : BoxesVertices kind) (tol scl : K) (hs : 1 ≤ scl) (faces : List (Poly N 2 K)) (power : List K)
    (h : ∀ (i j : Nat) (a b : Poly N 2 K) (u v : Fin N), faces[i]? = some a → faces[j]? = some b → sqDist (a u) (b v) < tol ^ 2 → a u = b v) :
    NearFits kind tol scl faces power := by
  intro i j a b u v _ _ ha hb hd d
  rw [h i j a b u v ha hb hd, sub_self, abs_zero]
  have h1 := hk a u d
  have h2 := hk b v d
  have : 0 ≤ extents (kind.box a) d + extents (kind.box b) d := by
    unfold extents; linarith
  have : 0 ≤ (scl - 1) / 2 := by linarith
  positivity

theorem sq_le_sqDist {D : Nat} (p q : Pt D K) (d : Fin D) : (p d - q d) ^ 2 ≤ sqDist p q := by
  unfold sqDist
  rw [pow_two]
  exact Finset.single_le_sum (f := fun i => (p i - q i) * (p i - q i)) (fun i _ => mul_self_nonneg _) (Finset.mem_univ d)

/-- When the faces with positive power extend at least `tol / (scl - 1)` (one thousandth, in the code) in both directions, no neighbour is missed. -/
theorem C65_large (kind : Kind N K) (tol scl : K) (ht : 0 < tol) (hs : 1 < scl) (faces : List (Poly N 2 K)) (power : List K)
    (h : ∀ (i : Nat) (a : Poly N 2 K), Positive faces power i → faces[i]? = some a → ∀ d, tol ≤ (scl - 1) * extents (kind.box a) d) :
    NearFits kind tol scl faces power := by
  intro i j a b u v hi hj ha hb hd d
  have h1 := h i a hi ha d
  have h2 := h j b hj hb d
  have h3 := lt_of_le_of_lt (sq_le_sqDist (a u) (b v) d) hd
  have h4 : |a u d - b v d| ≤ tol := by
    rw [abs_le]
    constructor <;> nlinarith
  have : (scl - 1) / 2 * (extents (kind.box a) d + extents (kind.box b) d) = ((scl - 1) * extents (kind.box a) d + (scl - 1) * extents (kind.box b) d) / 2 := by ring
  linarith

/-! ## The kinds of faces -/

theorem foldl_inside {ι : Type} (f : ι → AABB 2 K) (l : List ι) (a : AABB 2 K) (p : Pt 2 K) (h : Inside p a ∨ ∃ i ∈ l, Inside p (f i)) :
    Inside p (l.foldl (fun a i => add a (f i)) a) := by
  induction l generalizing a with
  | nil =>
    rcases h with h | ⟨i, hi, _⟩
    · exact h
    · simp at hi
  | cons x l ih =>
    rw [List.foldl_cons]
    apply ih
    rcases h with h | ⟨i, hi, h⟩
    · left
      intro d
      have := within_add_left a (f x) d
      exact ⟨le_trans this.1 (h d).1, le_trans (h d).2 this.2⟩
    · rcases List.mem_cons.1 hi with rfl | hi
      · left
        intro d
        have := within_add_right a (f i) d
        exact ⟨le_trans this.1 (h d).1, le_trans (h d).2 this.2⟩
      · exact .inr ⟨i, hi, h⟩

theorem linBox_inside {n : Nat} (v : Poly (n + 1) 2 K) (i : Fin (n + 1)) : Inside (v i) (linBox v) := by
  unfold linBox
  refine foldl_inside (fun i : Fin n => (⟨v i.succ, v i.succ⟩ : AABB 2 K)) _ _ _ ?_
  induction i using Fin.cases with
  | zero => exact .inl fun d => ⟨le_refl _, le_refl _⟩
  | succ i => exact .inr ⟨i, List.mem_finRange _, fun d => ⟨le_refl _, le_refl _⟩⟩

theorem qseg_inside (q : Poly 3 2 K) (i : Fin 3) : Inside (q i) (qsegBox q) := by
  have h := (C31_boundingBox q).1
  obtain ⟨h0, h1, h2, _⟩ := C31_interpolate q
  fin_cases i
  · have := h 0 (le_refl _) zero_le_one; rw [h0] at this; exact this
  · have := h 1 zero_le_one (le_refl _); rw [h1] at this; exact this
  · have := h (1 / 2) (by norm_num) (by norm_num); rw [h2] at this; exact this

theorem qpolyBox_inside {m : Nat} (v : Poly (2 * (m + 1)) 2 K) (p : Pt 2 K) (h : ∃ (e : Fin (m + 1)) (k : Fin 3), getEdge2 v e k = p) : Inside p (qpolyBox v) := by
  obtain ⟨e, k, rfl⟩ := h
  unfold qpolyBox
  refine foldl_inside (fun i : Fin m => qsegBox (getEdge2 v i.succ)) _ _ _ ?_
  induction e using Fin.cases with
  | zero => exact .inl (qseg_inside _ k)
  | succ e => exact .inr ⟨e, List.mem_finRange _, qseg_inside _ k⟩

end

/-- The boxes of all four kinds of faces contain their vertices. -/
theorem C65_kinds : BoxesVertices (triKind (K := ℚ)) ∧ BoxesVertices (triKind (K := ℝ)) ∧ BoxesVertices (quadKind (K := ℝ)) ∧ BoxesVertices tri6Kind ∧ BoxesVertices quad8Kind := by
  refine ⟨fun v i => linBox_inside v i, fun v i => linBox_inside v i, fun v i => linBox_inside v i, fun v i => qpolyBox_inside (m := 2) v _ ?_, fun v i => qpolyBox_inside (m := 3) v _ ?_⟩
  · fin_cases i
    · exact ⟨0, 0, rfl⟩
    · exact ⟨1, 0, rfl⟩
    · exact ⟨2, 0, rfl⟩
    · exact ⟨0, 2, rfl⟩
    · exact ⟨1, 2, rfl⟩
    · exact ⟨2, 2, rfl⟩
  · fin_cases i
    · exact ⟨0, 0, rfl⟩
    · exact ⟨1, 0, rfl⟩
    · exact ⟨2, 0, rfl⟩
    · exact ⟨3, 0, rfl⟩
    · exact ⟨0, 2, rfl⟩
    · exact ⟨1, 2, rfl⟩
    · exact ⟨2, 2, rfl⟩
    · exact ⟨3, 2, rfl⟩

/-! ## Small faces -/

/-- Two triangles 1e-4 wide with a gap of 5e-6 between them. -/
def tiny : List (Poly 3 2 ℚ) := [![![0, 0], ![1 / 10000, 0], ![0, 1 / 10000]], ![![105 / 1000000, 0], ![205 / 1000000, 0], ![105 / 1000000, 1 / 10000]]]

/-- Without `NearFits` the claim is false: two faces closer than the tolerance but with boxes that do not meet give two entries. -/
theorem C65_tolerance_fails (sorter : List (Item 3 ℚ) → List (Item 3 ℚ)) :
    Adjacent (1 / 100000) tiny [1, 1] 0 1 ∧ ∃ e1 e2, getPowers triKind (1 / 100000) (101 / 100) sorter tiny [1, 1] = some [e1, e2] := by
  constructor
  · refine ⟨⟨_, 1, rfl, rfl, one_pos⟩, ⟨_, 1, rfl, rfl, one_pos⟩, _, _, 1, 0, rfl, rfl, ?_⟩
    simp [sqDist, Fin.sum_univ_two]
    norm_num
  · unfold getPowers
    rw [if_neg (by decide)]
    dsimp only
    have hU : items tiny [1, 1] = [⟨0, tiny[0], 1⟩, ⟨1, tiny[1], 1⟩] := by
      unfold items tiny
      simp
    have hi : intersects (scale ((triKind (K := ℚ)).box tiny[1]) (101 / 100)) (scale ((triKind (K := ℚ)).box tiny[0]) (101 / 100)) = false := by decide +kernel
    have hi' : intersects (scale ((triKind (K := ℚ)).box tiny[0]) (101 / 100)) (scale ((triKind (K := ℚ)).box tiny[1]) (101 / 100)) = false := by decide +kernel
    rw [hU]
    simp only [pass, List.foldl_cons, List.foldl_nil, place, hi, Bool.false_and, Bool.false_eq_true, if_false]
    rw [mergeAll]
    split
    · have he : ∀ x : Item 3 ℚ, ∃ e, entry triKind [x] = some e := fun x => ⟨_, by simp only [entry, List.map_cons, List.map_nil, Stats.C18_sum]; rfl⟩
      obtain ⟨e1, h1⟩ := he ⟨0, tiny[0], 1⟩
      obtain ⟨e2, h2⟩ := he ⟨1, tiny[1], 1⟩
      exact ⟨e1, e2, by rw [List.mapM_cons, List.mapM_cons, List.mapM_nil, h1, h2]; rfl⟩
    · rename_i h
      exfalso
      simp [findPair, pairs, List.range_succ, joinable, hi'] at h

/-! ## A mesh that meets the hypotheses -/

/-- Three unit triangles: the first two share a vertex, the third is apart; the power of a fourth, between the groups, is zero. -/
def mesh : List (Poly 3 2 ℚ) :=
  [![![0, 0], ![1, 0], ![0, 1]], ![![5, 0], ![6, 0], ![5, 1]], ![![1, 0], ![2, 0], ![1, 1]], ![![2, 0], ![5, 0], ![2, 1]]]

example : NearFits triKind (1 / 100000) (101 / 100) mesh [1, 2, 3, 0] := by
  apply C65_large _ _ _ (by norm_num) (by norm_num)
  have : ∀ a ∈ mesh, ∀ d, (1 / 100000 : ℚ) ≤ (101 / 100 - 1) * extents ((triKind (K := ℚ)).box a) d := by decide +kernel
  intro i a _ ha
  exact this a (List.mem_of_getElem? ha)

example : Adjacent (1 / 100000) mesh [1, 2, 3, 0] 0 2 := by
  refine ⟨⟨_, 1, rfl, rfl, by norm_num⟩, ⟨_, 3, rfl, rfl, by norm_num⟩, _, _, 1, 0, rfl, rfl, ?_⟩
  simp [sqDist, Fin.sum_univ_two]

end Verif.PropsPower
