import Verif.Model.ModelFiles
import Verif.Props.MpactTotals
import Verif.Props.Stats

/-! # Lemmas for the text files of a model -/

namespace Verif.MFiles

open Verif.Pin (Mesh)
open Verif.Mpact

set_option linter.unusedSectionVars false
variable {K M : Type} [Field K] [LinearOrder K]

theorem mapM_some {α β : Type} {f : α → Option β} {g : α → β} : ∀ (l : List α), (∀ x ∈ l, f x = some (g x)) → l.mapM f = some (l.map g) := by
  intro l
  induction l with
  | nil => intro _; rfl
  | cons x l ih =>
    intro h
    rw [List.mapM_cons, h x (by simp), ih fun y hy => h y (by simp [hy])]
    rfl

theorem mapM_none {α β : Type} {f : α → Option β} : ∀ (l : List α), (∃ x ∈ l, f x = none) → l.mapM f = none := by
  intro l
  induction l with
  | nil => rintro ⟨x, hx, -⟩; simp at hx
  | cons x l ih =>
    rintro ⟨y, hy, h⟩
    rw [List.mapM_cons]
    cases hf : f x with
    | none => rfl
    | some a =>
      simp only [List.mem_cons] at hy
      rcases hy with rfl | hy
      · rw [h] at hf; exact absurd hf (by simp)
      · rw [ih ⟨y, hy, h⟩]
        rfl

/-- A loop body that appends `g m` to the volumes of the material `m`. -/
def Appends (n : Nat) (f : List (List K) → Option (List (List K))) (g : Nat → List K) : Prop :=
  ∀ V : Nat → List K, f ((List.range n).map V) = some ((List.range n).map fun m => V m ++ g m)

theorem appends_forIds {n : Nat} {f : ℤ → List (List K) → Option (List (List K))} {g : ℤ → Nat → List K} : ∀ (ids : List ℤ),
    (∀ id ∈ ids, Appends n (f id) (g id)) → Appends n (forIds f ids) fun m => ids.flatMap fun id => g id m := by
  intro ids
  induction ids with
  | nil => intro _ V; simp [forIds]
  | cons i ids ih =>
    intro h V
    rw [forIds, h i (by simp) V, Option.bind_some, ih (fun id hid => h id (by simp [hid])) _]
    simp

theorem set_append (n : Nat) (V : Nat → List K) (j : Nat) (v : K) :
    ((List.range n).map V).set j (V j ++ [v]) = (List.range n).map fun m => V m ++ if m = j then [v] else [] := by
  apply List.ext_getElem (by simp)
  intro i h1 h2
  rw [List.getElem_set]
  split_ifs with h
  · subst h
    simp
  · have : i ≠ j := fun e => h e.symm
    simp [this]

/-- The volumes of the faces of one material. -/
def faceVols (fs : List (Int8 × K)) (dz : K) (m : Nat) : List K := (fs.filter fun q => q.1.toInt = (m : ℤ)).map fun q => q.2 * dz

theorem appends_faces (area : Mesh K → Nat → K) (mesh : Mesh K) (mats : List Int8) (dz : K) (n : Nat)
    (hm : ∀ x ∈ mats, 0 ≤ x.toInt ∧ x.toInt < n) : ∀ (k i : Nat), i + k ≤ mats.length →
    Appends n (volFaces area mesh mats dz k i) (faceVols ((mats.drop i).zip ((List.range' i k).map (area mesh))) dz) := by
  intro k
  induction k with
  | zero => intro i _ V; simp [volFaces, faceVols]
  | succ k ih =>
    intro i hi V
    have hx : i < mats.length := by omega
    obtain ⟨h0, h1⟩ := hm mats[i] (List.getElem_mem hx)
    have hj : mats[i].toInt.toNat < n := by omega
    have hat : at? ((List.range n).map V) mats[i].toInt = some (V mats[i].toInt.toNat) := by
      rw [at?_eq]
      exact ⟨h0, by rw [List.getElem?_map, List.getElem?_range hj]; rfl⟩
    rw [volFaces, List.getElem?_eq_getElem hx, Option.bind_some, hat, Option.bind_some, set_append, ih (i + 1) (by omega) _,
      List.drop_eq_getElem_cons hx, List.range'_succ, List.map_cons, List.zip_cons_cons]
    congr 1
    apply List.map_congr_left
    intro m _
    rw [List.append_assoc]
    congr 1
    unfold faceVols
    rw [List.filter_cons]
    by_cases hmj : m = mats[i].toInt.toNat
    · rw [if_pos hmj, if_pos (by simp; omega)]
      rfl
    · rw [if_neg hmj, if_neg (by simp; omega)]
      rfl

theorem isMeshOf_unique {s : Model K M} {c : CoarseCell K} {m1 m2 : Mesh K} (h1 : IsMeshOf s c m1) (h2 : IsMeshOf s c m2) : m1 = m2 := by
  obtain ⟨l, hl, e⟩ := isMeshOf_meshes h1
  obtain ⟨l', hl', e'⟩ := isMeshOf_meshes h2
  rw [hl] at hl'
  obtain rfl := Option.some.inj hl'
  rw [e] at e'
  exact Option.some.inj e'

end Verif.MFiles
