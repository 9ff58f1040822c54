import Verif.Lemmas.PinTopo
import Verif.Props.Mpact
import Verif.Model.Geom
import Mathlib.Algebra.Order.Floor.Ring
import Mathlib.Data.Rat.Floor
import Mathlib.Tactic.FieldSimp
import Mathlib.Tactic.Positivity
import Mathlib.Tactic.LinearCombination

/-!
# C62: the rectangular pin mesh tiles the rectangle
-/

namespace Verif.PropsRectPin

open Verif Verif.Pin Verif.Conform

set_option linter.unusedSectionVars false

/-- Vertex number of grid point `(x, y)`. -/
def V (nx x y : Nat) : Nat := y * (nx + 1) + x

theorem V_inj {nx x y x' y' : Nat} (hx : x ≤ nx) (hx' : x' ≤ nx) (h : V nx x y = V nx x' y') : x = x' ∧ y = y' := by
  unfold V at h
  have := PinTopo.block_inj (n := nx + 1) (r := y) (a := x) (r' := y') (a' := x') (by omega) (by omega) (by rw [Nat.mul_comm, Nat.mul_comm (nx + 1) y']; exact h)
  exact ⟨this.2, this.1⟩

/-- Face of grid cell `(i, j)`. -/
def cell (nx i j : Nat) : List Nat := [V nx i j, V nx (i + 1) j, V nx (i + 1) (j + 1), V nx i (j + 1)]

theorem cell_eq (nx i j : Nat) :
    [j * (nx + 1) + i, j * (nx + 1) + i + 1, j * (nx + 1) + i + 1 + nx + 1, j * (nx + 1) + i + 1 + nx + 1 - 1] = cell nx i j := by
  have : (j + 1) * (nx + 1) = j * (nx + 1) + nx + 1 := by ring
  simp only [cell, V, this, List.cons.injEq, and_true, true_and]
  generalize j * (nx + 1) = z
  omega

theorem rectFaces_get {nx ny p : Nat} {F : List Nat} (h : (rectFaces nx ny)[p]? = some F) :
    ∃ i < nx, ∃ j < ny, p = j * nx + i ∧ F = cell nx i j := by
  unfold rectFaces at h
  obtain ⟨j, hj, i, hi, hp, hx⟩ := PinTopo.flatMap_get (m := nx) _ (fun i => by simp) h
  obtain ⟨-, rfl⟩ := PinTopo.map_get hx
  exact ⟨i, hi, j, hj, hp, cell_eq nx i j⟩

theorem rectFaces_at {nx ny i j : Nat} (hi : i < nx) (hj : j < ny) : (rectFaces nx ny)[j * nx + i]? = some (cell nx i j) := by
  unfold rectFaces
  induction ny with
  | zero => omega
  | succ ny ih =>
    have hlen : ((List.range ny).flatMap fun j : Nat => (List.range nx).map fun i =>
        [j * (nx + 1) + i, j * (nx + 1) + i + 1, j * (nx + 1) + i + 1 + nx + 1, j * (nx + 1) + i + 1 + nx + 1 - 1]).length = ny * nx :=
      PinTopo.flatMap_len (m := nx) _ fun i => by simp
    rw [List.range_succ, List.flatMap_append, List.flatMap_singleton]
    by_cases hjn : j = ny
    · subst hjn
      rw [List.getElem?_append_right (by rw [hlen]; omega), hlen, Nat.add_sub_cancel_left, List.getElem?_map, List.getElem?_range hi, Option.map_some]
      exact congrArg some (cell_eq nx i j)
    · have hj' : j < ny := by omega
      have : j * nx + i < ny * nx := by
        have : (j + 1) * nx ≤ ny * nx := Nat.mul_le_mul_right _ hj'
        rw [Nat.succ_mul] at this
        omega
      rw [List.getElem?_append_left (by rw [hlen]; exact this)]
      exact ih hj'

/-- The boundary, counterclockwise from the lower left corner. -/
def rectLoop (nx ny : Nat) : List (Edge Nat) :=
  ((List.range nx).map fun i => ⟨V nx i 0, V nx (i + 1) 0, none⟩) ++ ((List.range ny).map fun j => ⟨V nx nx j, V nx nx (j + 1), none⟩) ++
    ((List.range nx).map fun i => ⟨V nx (nx - i) ny, V nx (nx - i - 1) ny, none⟩) ++ ((List.range ny).map fun j => ⟨V nx 0 (ny - j), V nx 0 (ny - j - 1), none⟩)

theorem mem_rectLoop {nx ny : Nat} {e : Edge Nat} : e ∈ rectLoop nx ny ↔
    (∃ i < nx, e = ⟨V nx i 0, V nx (i + 1) 0, none⟩) ∨ (∃ j < ny, e = ⟨V nx nx j, V nx nx (j + 1), none⟩) ∨
    (∃ i < nx, e = ⟨V nx (i + 1) ny, V nx i ny, none⟩) ∨ (∃ j < ny, e = ⟨V nx 0 (j + 1), V nx 0 j, none⟩) := by
  unfold rectLoop
  simp only [List.mem_append, List.mem_map, List.mem_range, or_assoc]
  constructor
  · rintro (⟨i, hi, rfl⟩ | ⟨i, hi, rfl⟩ | ⟨i, hi, rfl⟩ | ⟨i, hi, rfl⟩)
    · exact Or.inl ⟨i, hi, rfl⟩
    · exact Or.inr (Or.inl ⟨i, hi, rfl⟩)
    · exact Or.inr (Or.inr (Or.inl ⟨nx - i - 1, by omega, by rw [show nx - i - 1 + 1 = nx - i by omega]⟩))
    · exact Or.inr (Or.inr (Or.inr ⟨ny - i - 1, by omega, by rw [show ny - i - 1 + 1 = ny - i by omega]⟩))
  · rintro (⟨i, hi, rfl⟩ | ⟨i, hi, rfl⟩ | ⟨i, hi, rfl⟩ | ⟨i, hi, rfl⟩)
    · exact Or.inl ⟨i, hi, rfl⟩
    · exact Or.inr (Or.inl ⟨i, hi, rfl⟩)
    · exact Or.inr (Or.inr (Or.inl ⟨nx - i - 1, by omega, by rw [show nx - (nx - i - 1) = i + 1 by omega, Nat.add_sub_cancel]⟩))
    · exact Or.inr (Or.inr (Or.inr ⟨ny - i - 1, by omega, by rw [show ny - (ny - i - 1) = i + 1 by omega, Nat.add_sub_cancel]⟩))

theorem cell_edges (nx i j : Nat) : quadEdges (cell nx i j) =
    [⟨V nx i j, V nx (i + 1) j, none⟩, ⟨V nx (i + 1) j, V nx (i + 1) (j + 1), none⟩, ⟨V nx (i + 1) (j + 1), V nx i (j + 1), none⟩, ⟨V nx i (j + 1), V nx i j, none⟩] := rfl

theorem edge_at {nx i j k : Nat} {e : Edge Nat} (h : (quadEdges (cell nx i j))[k]? = some e) :
    (k = 0 ∧ e = ⟨V nx i j, V nx (i + 1) j, none⟩) ∨ (k = 1 ∧ e = ⟨V nx (i + 1) j, V nx (i + 1) (j + 1), none⟩) ∨
    (k = 2 ∧ e = ⟨V nx (i + 1) (j + 1), V nx i (j + 1), none⟩) ∨ (k = 3 ∧ e = ⟨V nx i (j + 1), V nx i j, none⟩) := by
  rw [cell_edges] at h
  have : k < 4 := (List.getElem?_eq_some_iff.1 h).1
  interval_cases k <;> simp at h <;> simp [← h]

/-- The edges lead from `x` to `y`. -/
def IsChain (x y : Nat) (l : List (Edge Nat)) : Prop := l.map (·.a) ++ [y] = x :: l.map (·.b)

theorem IsChain.append {x y z : Nat} {l l' : List (Edge Nat)} (h : IsChain x y l) (h' : IsChain y z l') : IsChain x z (l ++ l') := by
  unfold IsChain at *
  rw [List.map_append, List.append_assoc, h', List.map_append, ← List.cons_append, ← h, List.append_assoc, List.singleton_append]

theorem isChain_range (f : Nat → Nat) (n : Nat) : IsChain (f 0) (f n) ((List.range n).map fun i => ⟨f i, f (i + 1), none⟩) := by
  unfold IsChain
  rw [List.map_map, List.map_map]
  change (List.range n).map f ++ [f n] = f 0 :: (List.range n).map (f ∘ Nat.succ)
  rw [← List.map_map, ← List.map_cons, ← List.range_succ_eq_map, List.range_succ, List.map_append, List.map_singleton]

theorem IsChain.closed {x : Nat} {l : List (Edge Nat)} (h : IsChain x x l) : l.map (·.b) = (l.map (·.a)).rotate 1 := by
  unfold IsChain at h
  cases l with
  | nil => rfl
  | cons e l =>
    rw [List.map_cons, List.cons_append, List.cons.injEq] at h
    rw [← h.2, List.map_cons, List.rotate_cons_succ, List.rotate_zero, h.1]

/-- The mesh is conforming, with the `2 (nx + ny)` edges around the rectangle as its boundary. -/
theorem rect_conform {nx ny : Nat} (hx : 0 < nx) (hy : 0 < ny) :
    Conforming ((nx + 1) * (ny + 1)) quadEdges (rectFaces nx ny) (rectLoop nx ny) := by
  have hmem : ∀ F ∈ rectFaces nx ny, ∃ i < nx, ∃ j < ny, F = cell nx i j := by
    intro F hF
    obtain ⟨p, hp⟩ := List.mem_iff_getElem?.1 hF
    obtain ⟨i, hi, j, hj, -, e⟩ := rectFaces_get hp
    exact ⟨i, hi, j, hj, e⟩
  have hin : ∀ i < nx, ∀ j < ny, cell nx i j ∈ rectFaces nx ny := fun i hi j hj => List.mem_of_getElem? (rectFaces_at hi hj)
  refine ⟨?_, ?_, ?_, ?_, ?_, ?_, ?_, ?_, ?_, ?_⟩
  · intro F hF
    obtain ⟨i, hi, j, hj, rfl⟩ := hmem F hF
    rfl
  · intro F hF v hv
    obtain ⟨i, hi, j, hj, rfl⟩ := hmem F hF
    have key : ∀ x y, x ≤ nx → y ≤ ny → V nx x y < (nx + 1) * (ny + 1) := by
      intro x y h1 h2
      unfold V
      have : (y + 1) * (nx + 1) ≤ (ny + 1) * (nx + 1) := Nat.mul_le_mul_right _ (by omega)
      rw [Nat.succ_mul y] at this
      rw [Nat.mul_comm (nx + 1)]
      omega
    simp only [cell, List.mem_cons, List.not_mem_nil, or_false] at hv
    rcases hv with rfl | rfl | rfl | rfl <;> exact key _ _ (by omega) (by omega)
  · intro F hF
    obtain ⟨i, hi, j, hj, rfl⟩ := hmem F hF
    simp only [cell, List.nodup_cons, List.mem_cons, List.not_mem_nil, or_false, not_or, List.nodup_nil, and_true, not_false_eq_true]
    refine ⟨⟨?_, ?_, ?_⟩, ⟨?_, ?_⟩, ?_⟩ <;> intro hc <;> have := V_inj (by omega) (by omega) hc <;> omega
  · intro v hv
    have hd := Nat.div_add_mod v (nx + 1)
    have hm := Nat.mod_lt v (show nx + 1 > 0 by omega)
    have hq : v / (nx + 1) < ny + 1 := by
      rw [Nat.div_lt_iff_lt_mul (by omega), Nat.mul_comm]; exact hv
    have hV : v = V nx (v % (nx + 1)) (v / (nx + 1)) := by unfold V; rw [Nat.mul_comm]; exact hd.symm
    generalize v % (nx + 1) = x at *
    generalize v / (nx + 1) = y at *
    have hcx : (x < nx ∨ (x - 1 < nx ∧ x = x - 1 + 1)) := by omega
    have hcy : (y < ny ∨ (y - 1 < ny ∧ y = y - 1 + 1)) := by omega
    rcases hcx with h1 | ⟨h1, e1⟩ <;> rcases hcy with h2 | ⟨h2, e2⟩
    · exact ⟨_, hin x h1 y h2, by simp [cell, hV]⟩
    · exact ⟨_, hin x h1 _ h2, by rw [hV, e2]; simp [cell]⟩
    · exact ⟨_, hin _ h1 y h2, by rw [hV, e1]; simp [cell]⟩
    · exact ⟨_, hin _ h1 _ h2, by rw [hV, e1, e2]; simp [cell]⟩
  · intro p q k l f g e e' hp hq he he' ha hb
    obtain ⟨i, hi, j, hj, rfl, rfl⟩ := rectFaces_get hp
    obtain ⟨i', hi', j', hj', rfl, rfl⟩ := rectFaces_get hq
    suffices h : i = i' ∧ j = j' ∧ k = l by obtain ⟨rfl, rfl, rfl⟩ := h; exact ⟨rfl, rfl⟩
    rcases edge_at he with ⟨rfl, rfl⟩ | ⟨rfl, rfl⟩ | ⟨rfl, rfl⟩ | ⟨rfl, rfl⟩ <;>
      rcases edge_at he' with ⟨rfl, rfl⟩ | ⟨rfl, rfl⟩ | ⟨rfl, rfl⟩ | ⟨rfl, rfl⟩ <;>
      have h1 := V_inj (by omega) (by omega) ha <;> have h2 := V_inj (by omega) (by omega) hb <;> omega
  · intro F hF e he
    obtain ⟨i, hi, j, hj, rfl⟩ := hmem F hF
    have hne : ∀ i' j', i' < nx → (i' ≠ i ∨ j' ≠ j) → cell nx i' j' ≠ cell nx i j := by
      intro i' j' hi' hne hc
      simp only [cell, List.cons.injEq] at hc
      have := V_inj (by omega) (by omega) hc.1
      omega
    rw [cell_edges] at he
    simp only [List.mem_cons, List.not_mem_nil, or_false] at he
    rw [mem_rectLoop]
    rcases he with rfl | rfl | rfl | rfl
    · cases j with
      | zero => exact Or.inl (Or.inl ⟨i, hi, rfl⟩)
      | succ j => exact Or.inr ⟨_, hin i hi j (by omega), hne _ _ hi (by omega), by simp [cell_edges, Edge.rev]⟩
    · by_cases h : i + 1 = nx
      · exact Or.inl (Or.inr (Or.inl ⟨j, hj, by rw [h]⟩))
      · exact Or.inr ⟨_, hin (i + 1) (by omega) j hj, hne _ _ (by omega) (by omega), by simp [cell_edges, Edge.rev]⟩
    · by_cases h : j + 1 = ny
      · exact Or.inl (Or.inr (Or.inr (Or.inl ⟨i, hi, by rw [h]⟩)))
      · exact Or.inr ⟨_, hin i hi (j + 1) (by omega), hne _ _ hi (by omega), by simp [cell_edges, Edge.rev]⟩
    · cases i with
      | zero => exact Or.inl (Or.inr (Or.inr (Or.inr ⟨j, hj, rfl⟩)))
      | succ i => exact Or.inr ⟨_, hin i (by omega) j hj, hne _ _ (by omega) (by omega), by simp [cell_edges, Edge.rev]⟩
  · intro e he
    rcases mem_rectLoop.1 he with ⟨i, hi, rfl⟩ | ⟨i, hi, rfl⟩ | ⟨i, hi, rfl⟩ | ⟨i, hi, rfl⟩
    · exact ⟨_, hin i hi 0 hy, by simp [cell_edges]⟩
    · exact ⟨_, hin (nx - 1) (by omega) i hi, by rw [cell_edges, Nat.sub_add_cancel (by omega)]; simp⟩
    · exact ⟨_, hin i hi (ny - 1) (by omega), by rw [cell_edges, Nat.sub_add_cancel (by omega)]; simp⟩
    · exact ⟨_, hin 0 hx i hi, by simp [cell_edges]⟩
  · intro e he F hF e' he' ⟨ha, hb⟩
    obtain ⟨i, hi, j, hj, rfl⟩ := hmem F hF
    rw [cell_edges] at he'
    simp only [List.mem_cons, List.not_mem_nil, or_false] at he'
    rcases mem_rectLoop.1 he with ⟨i', hi', rfl⟩ | ⟨i', hi', rfl⟩ | ⟨i', hi', rfl⟩ | ⟨i', hi', rfl⟩ <;> rcases he' with rfl | rfl | rfl | rfl <;>
      have h1 := V_inj (by omega) (by omega) ha <;> have h2 := V_inj (by omega) (by omega) hb <;> omega
  · unfold rectLoop
    simp only [List.map_append, List.map_map]
    have inj : ∀ (n : Nat) (f g : Nat → Nat), (∀ i < n, f i ≤ nx) → (∀ a < n, ∀ b < n, f a = f b → g a = g b → a = b) →
        ((List.range n).map ((fun e : Edge Nat => e.a) ∘ fun i => (⟨V nx (f i) (g i), 0, none⟩ : Edge Nat))).Nodup := by
      intro n f g hf hfg
      refine List.Nodup.map_on ?_ List.nodup_range
      intro x hx y hy hxy
      rw [List.mem_range] at hx hy
      have := V_inj (hf x hx) (hf y hy) hxy
      exact hfg x hx y hy this.1 this.2
    rw [List.nodup_append', List.nodup_append', List.nodup_append']
    refine ⟨⟨⟨inj nx (fun i => i) (fun _ => 0) (fun i hi => by omega) (fun a _ b _ h _ => h),
      inj ny (fun _ => nx) (fun i => i) (fun i hi => le_refl _) (fun a _ b _ _ h => h), ?_⟩,
      inj nx (fun i => nx - i) (fun _ => ny) (fun i hi => by omega) (fun a ha b hb h _ => by omega), ?_⟩,
      inj ny (fun _ => 0) (fun i => ny - i) (fun i hi => by omega) (fun a ha b hb _ h => by omega), ?_⟩
    all_goals
      intro v h1 h2
      simp only [List.mem_append, List.mem_map, List.mem_range, Function.comp] at h1 h2
      obtain ⟨b, hb, rfl⟩ := h2
    · obtain ⟨a, ha, h⟩ := h1
      have := V_inj (by omega) (by omega) h; omega
    · rcases h1 with ⟨a, ha, h⟩ | ⟨a, ha, h⟩ <;> have := V_inj (by omega) (by omega) h <;> omega
    · rcases h1 with (⟨a, ha, h⟩ | ⟨a, ha, h⟩) | ⟨a, ha, h⟩ <;> have := V_inj (by omega) (by omega) h <;> omega
  · apply IsChain.closed (x := V nx 0 0)
    have h3 := isChain_range (fun i => V nx (nx - i) ny) nx
    have h4 := isChain_range (fun i => V nx 0 (ny - i)) ny
    simp only [Nat.sub_self, Nat.sub_zero] at h3 h4
    exact (((isChain_range (fun i => V nx i 0) nx).append (isChain_range (fun i => V nx nx i) ny)).append h3).append h4

theorem rectLoop_length (nx ny : Nat) : (rectLoop nx ny).length = 2 * (nx + ny) := by
  simp [rectLoop]; omega

/-! ## Geometry -/

variable {K : Type} [Field K] [LinearOrder K] [IsStrictOrderedRing K]

/-- The vertices of face `f` are the corners of the box from `(x0, y0)` to `(x1, y1)`, counterclockwise from the lower left. -/
def IsBox (mesh : Mesh K) (f : List Nat) (x0 y0 x1 y1 : K) : Prop :=
  f.map (fun v => mesh.verts[v]?) = [some (x0, y0), some (x1, y0), some (x1, y1), some (x0, y1)]

/-- The area of a quadrilateral, positive when it is counterclockwise (shoelace formula); `none` if a vertex does not exist. -/
def faceArea (mesh : Mesh K) (f : List Nat) : Option K :=
  match f.map fun v => mesh.verts[v]? with
  | [some a, some b, some c, some d] =>
    some ((a.1 * b.2 - b.1 * a.2 + (b.1 * c.2 - c.1 * b.2) + (c.1 * d.2 - d.1 * c.2) + (d.1 * a.2 - a.1 * d.2)) / 2)
  | _ => none

theorem verts_at {dx dy : K} {nx ny x y : Nat} (hx : x ≤ nx) (hy : y ≤ ny) : (rectVerts dx dy nx ny)[V nx x y]? = some ((x : K) * dx, (y : K) * dy) := by
  unfold rectVerts V
  generalize hN : ny + 1 = N
  have hy' : y < N := by omega
  clear hN hy
  induction N with
  | zero => omega
  | succ N ih =>
    have hlen : ((List.range N).flatMap fun j : Nat => (List.range (nx + 1)).map fun i : Nat => ((i : K) * dx, (j : K) * dy)).length = N * (nx + 1) :=
      PinTopo.flatMap_len (m := nx + 1) _ fun i => by simp
    rw [List.range_succ (n := N), List.flatMap_append, List.flatMap_singleton]
    by_cases hjn : y = N
    · subst hjn
      rw [List.getElem?_append_right (by rw [hlen]; omega), hlen, Nat.add_sub_cancel_left, List.getElem?_map, List.getElem?_range (by omega), Option.map_some]
    · have : y * (nx + 1) + x < N * (nx + 1) := by
        have : (y + 1) * (nx + 1) ≤ N * (nx + 1) := Nat.mul_le_mul_right _ (by omega)
        rw [Nat.succ_mul] at this
        omega
      rw [List.getElem?_append_left (by rw [hlen]; exact this)]
      exact ih (by omega)

theorem rectangularMesh_data {ext : K × K} {nx ny : ℤ} {mesh : Mesh K} (h : rectangularMesh ext nx ny = some (some mesh)) :
    0 < ext.1 ∧ 0 < ext.2 ∧ 0 < nx.toNat ∧ 0 < ny.toNat ∧
      mesh = ⟨rectVerts (ext.1 / (nx.toNat : K)) (ext.2 / (ny.toNat : K)) nx.toNat ny.toNat, rectFaces nx.toNat ny.toNat⟩ := by
  unfold rectangularMesh at h
  split at h
  · simp at h
  rename_i h1
  split at h
  · simp at h
  rename_i h2
  split at h
  · simp at h
  push Not at h1 h2
  cases h
  exact ⟨h1.1, h1.2, by omega, by omega, rfl⟩

/-- **C62.**  The faces are the `nx * ny` boxes of the grid, row by row, counterclockwise, and all of the same area. -/
theorem C62_boxes (ext : K × K) (nx ny : ℤ) (mesh : Mesh K) (h : rectangularMesh ext nx ny = some (some mesh)) :
    (mesh.faces.length : ℤ) = nx * ny ∧
    ∀ i j : Nat, (i : ℤ) < nx → (j : ℤ) < ny → ∃ f, mesh.faces[j * nx.toNat + i]? = some f ∧
      IsBox mesh f (i * (ext.1 / nx)) (j * (ext.2 / ny)) ((i + 1) * (ext.1 / nx)) ((j + 1) * (ext.2 / ny)) ∧
      faceArea mesh f = some (ext.1 * ext.2 / (nx * ny)) := by
  obtain ⟨h1, h2, h3, h4, rfl⟩ := rectangularMesh_data h
  have e1 : ((nx.toNat : ℤ)) = nx := by omega
  have e2 : ((ny.toNat : ℤ)) = ny := by omega
  have c1 : ((nx.toNat : K)) = (nx : K) := by rw [← Int.cast_natCast, e1]
  have c2 : ((ny.toNat : K)) = (ny : K) := by rw [← Int.cast_natCast, e2]
  have p1 : (0 : K) < (nx : K) := by rw [← c1]; exact_mod_cast h3
  have p2 : (0 : K) < (ny : K) := by rw [← c2]; exact_mod_cast h4
  refine ⟨?_, ?_⟩
  · dsimp only
    rw [Mpact.rectFaces_length]; push_cast; rw [e1, e2]
  · intro i j hi hj
    have hi' : i < nx.toNat := by omega
    have hj' : j < ny.toNat := by omega
    have hbox : IsBox ⟨rectVerts (ext.1 / (nx.toNat : K)) (ext.2 / (ny.toNat : K)) nx.toNat ny.toNat, rectFaces nx.toNat ny.toNat⟩ (cell nx.toNat i j)
        (i * (ext.1 / nx)) (j * (ext.2 / ny)) ((i + 1) * (ext.1 / nx)) ((j + 1) * (ext.2 / ny)) := by
      unfold IsBox cell
      simp only [List.map_cons, List.map_nil]
      rw [verts_at (by omega) (by omega), verts_at (by omega) (by omega), verts_at (by omega) (by omega), verts_at (by omega) (by omega), c1, c2]
      push_cast
      rfl
    refine ⟨_, rectFaces_at hi' hj', hbox, ?_⟩
    unfold faceArea
    unfold IsBox at hbox
    rw [hbox]
    simp only [Option.some.injEq]
    field_simp
    ring

/-- **C62.**  Every vertex belongs to a face, every edge off the boundary to exactly two faces in opposite directions, and the boundary is the
loop of `2 (nx + ny)` edges around the rectangle. -/
theorem C62_conforming (ext : K × K) (nx ny : ℤ) (mesh : Mesh K) (h : rectangularMesh ext nx ny = some (some mesh)) :
    ∃ loop, (loop.length : ℤ) = 2 * (nx + ny) ∧ Conforming mesh.verts.length quadEdges mesh.faces loop ∧
      ∀ e ∈ loop, ∃ p q : K × K, mesh.verts[e.a]? = some p ∧ mesh.verts[e.b]? = some q ∧
        ((p.2 = 0 ∧ q.2 = 0) ∨ (p.1 = ext.1 ∧ q.1 = ext.1) ∨ (p.2 = ext.2 ∧ q.2 = ext.2) ∨ (p.1 = 0 ∧ q.1 = 0)) := by
  obtain ⟨h1, h2, h3, h4, rfl⟩ := rectangularMesh_data h
  have p1 : (nx.toNat : K) ≠ 0 := by exact_mod_cast (by omega : nx.toNat ≠ 0)
  have p2 : (ny.toNat : K) ≠ 0 := by exact_mod_cast (by omega : ny.toNat ≠ 0)
  refine ⟨rectLoop nx.toNat ny.toNat, by rw [rectLoop_length]; omega, ?_, ?_⟩
  · have : (rectVerts (ext.1 / (nx.toNat : K)) (ext.2 / (ny.toNat : K)) nx.toNat ny.toNat).length = (nx.toNat + 1) * (ny.toNat + 1) := by
      unfold rectVerts
      rw [PinTopo.flatMap_len (m := nx.toNat + 1) _ fun i => by simp, Nat.mul_comm]
    rw [this]
    exact rect_conform h3 h4
  · intro e he
    rcases mem_rectLoop.1 he with ⟨i, hi, rfl⟩ | ⟨i, hi, rfl⟩ | ⟨i, hi, rfl⟩ | ⟨i, hi, rfl⟩ <;>
      refine ⟨_, _, verts_at (by omega) (by omega), verts_at (by omega) (by omega), ?_⟩
    · left; simp
    · right; left
      constructor <;> dsimp only <;> field_simp
    · right; right; left
      constructor <;> dsimp only <;> field_simp
    · right; right; right; simp

theorem slot_exists {d x : K} {n : Nat} (hn : 0 < n) (h0 : 0 ≤ x) (h1 : x ≤ n * d) : ∃ i < n, (i : K) * d ≤ x ∧ x ≤ ((i : K) + 1) * d := by
  induction n with
  | zero => omega
  | succ n ih =>
    by_cases h : x ≤ n * d ∧ 0 < n
    · obtain ⟨i, hi, h⟩ := ih h.2 h.1
      exact ⟨i, by omega, h⟩
    · rw [not_and_or] at h
      refine ⟨n, by omega, ?_, by push_cast at h1; exact h1⟩
      rcases h with h | h
      · exact le_of_lt (not_le.1 h)
      · have : n = 0 := by omega
        subst this
        simpa using h0

/-- **C62.**  The faces cover the rectangle: every point of it lies in the box of some face. -/
theorem C62_cover (ext : K × K) (nx ny : ℤ) (mesh : Mesh K) (h : rectangularMesh ext nx ny = some (some mesh)) (x y : K) (hx : 0 ≤ x ∧ x ≤ ext.1) (hy : 0 ≤ y ∧ y ≤ ext.2) :
    ∃ f ∈ mesh.faces, ∃ x0 y0 x1 y1, IsBox mesh f x0 y0 x1 y1 ∧ x0 ≤ x ∧ x ≤ x1 ∧ y0 ≤ y ∧ y ≤ y1 := by
  obtain ⟨h1, h2, h3, h4, -⟩ := rectangularMesh_data h
  have c1 : ((nx.toNat : K)) = (nx : K) := by rw [← Int.cast_natCast, show (nx.toNat : ℤ) = nx by omega]
  have c2 : ((ny.toNat : K)) = (ny : K) := by rw [← Int.cast_natCast, show (ny.toNat : ℤ) = ny by omega]
  have p1 : (nx : K) ≠ 0 := by rw [← c1]; exact_mod_cast (by omega : nx.toNat ≠ 0)
  have p2 : (ny : K) ≠ 0 := by rw [← c2]; exact_mod_cast (by omega : ny.toNat ≠ 0)
  obtain ⟨i, hi, hi1, hi2⟩ := slot_exists (d := ext.1 / nx) h3 hx.1 (by rw [c1, mul_div_cancel₀ _ p1]; exact hx.2)
  obtain ⟨j, hj, hj1, hj2⟩ := slot_exists (d := ext.2 / ny) h4 hy.1 (by rw [c2, mul_div_cancel₀ _ p2]; exact hy.2)
  obtain ⟨f, hf, hb, -⟩ := (C62_boxes ext nx ny mesh h).2 i j (by omega) (by omega)
  exact ⟨f, List.mem_of_getElem? hf, _, _, _, _, hb, hi1, hi2, hj1, hj2⟩

/-- **C62.**  The faces lie in the rectangle, and no point is strictly inside two of them. -/
theorem C62_disjoint (ext : K × K) (nx ny : ℤ) (mesh : Mesh K) (h : rectangularMesh ext nx ny = some (some mesh)) (p : Nat) (f : List Nat) (hp : mesh.faces[p]? = some f) :
    ∃ x0 y0 x1 y1, IsBox mesh f x0 y0 x1 y1 ∧ 0 ≤ x0 ∧ x0 < x1 ∧ x1 ≤ ext.1 ∧ 0 ≤ y0 ∧ y0 < y1 ∧ y1 ≤ ext.2 ∧
      ∀ (q : Nat) (g : List Nat) (u0 v0 u1 v1 x y : K), mesh.faces[q]? = some g → IsBox mesh g u0 v0 u1 v1 →
        x0 < x → x < x1 → y0 < y → y < y1 → u0 < x → x < u1 → v0 < y → y < v1 → p = q := by
  obtain ⟨h1, h2, h3, h4, hm⟩ := rectangularMesh_data h
  have c1 : ((nx.toNat : K)) = (nx : K) := by rw [← Int.cast_natCast, show (nx.toNat : ℤ) = nx by omega]
  have c2 : ((ny.toNat : K)) = (ny : K) := by rw [← Int.cast_natCast, show (ny.toNat : ℤ) = ny by omega]
  have p1 : (0 : K) < (nx : K) := by rw [← c1]; exact_mod_cast h3
  have p2 : (0 : K) < (ny : K) := by rw [← c2]; exact_mod_cast h4
  have d1 : 0 < ext.1 / (nx : K) := div_pos h1 p1
  have d2 : 0 < ext.2 / (ny : K) := div_pos h2 p2
  have hget : ∀ (p : Nat) (f : List Nat), mesh.faces[p]? = some f → ∃ i < nx.toNat, ∃ j < ny.toNat, p = j * nx.toNat + i ∧
      IsBox mesh f (i * (ext.1 / nx)) (j * (ext.2 / ny)) ((i + 1) * (ext.1 / nx)) ((j + 1) * (ext.2 / ny)) := by
    intro p f hp
    have hp' : (rectFaces nx.toNat ny.toNat)[p]? = some f := by rw [hm] at hp; exact hp
    obtain ⟨i, hi, j, hj, rfl, -⟩ := rectFaces_get hp'
    obtain ⟨g, hg, hb, -⟩ := (C62_boxes ext nx ny mesh h).2 i j (by omega) (by omega)
    rw [hp] at hg
    cases hg
    exact ⟨i, hi, j, hj, rfl, hb⟩
  obtain ⟨i, hi, j, hj, rfl, hb⟩ := hget p f hp
  have le1 : ∀ (n i : Nat) (N e : K), i < n → (n : K) = N → 0 < N → 0 < e / N → ((i : K) + 1) * (e / N) ≤ e := by
    intro n i N e hi hn hN he
    have : ((i : K) + 1) ≤ N := by rw [← hn]; exact_mod_cast hi
    calc ((i : K) + 1) * (e / N) ≤ N * (e / N) := mul_le_mul_of_nonneg_right this he.le
      _ = e := by field_simp
  have slot : ∀ {d z : K} {a b : Nat}, 0 < d → (a : K) * d < z → z < ((b : K) + 1) * d → a ≤ b := by
    intro d z a b hd ha hb
    have : (a : K) < (b : K) + 1 := lt_of_mul_lt_mul_right (ha.trans hb) hd.le
    have : a < b + 1 := by exact_mod_cast this
    omega
  refine ⟨_, _, _, _, hb, by positivity, by linarith, le1 _ i _ _ hi c1 p1 d1, by positivity, by linarith, le1 _ j _ _ hj c2 p2 d2, ?_⟩
  intro q g u0 v0 u1 v1 x y hq hbg a1 a2 a3 a4 b1 b2 b3 b4
  obtain ⟨i', hi', j', hj', rfl, hb'⟩ := hget q g hq
  unfold IsBox at hbg hb'
  rw [hbg] at hb'
  simp only [List.cons.injEq, Option.some.injEq, Prod.mk.injEq, and_true] at hb'
  obtain ⟨⟨e1, e2⟩, -, ⟨e3, e4⟩, -⟩ := hb'
  rw [e1] at b1; rw [e2] at b3; rw [e3] at b2; rw [e4] at b4
  have := slot d1 a1 b2
  have := slot d1 b1 a2
  have := slot d2 a3 b4
  have := slot d2 b3 a4
  rw [show i = i' by omega, show j = j' by omega]

/-- **C62.**  The areas of all faces add up to the area of the rectangle. -/
theorem C62_area (ext : K × K) (nx ny : ℤ) (mesh : Mesh K) (h : rectangularMesh ext nx ny = some (some mesh)) :
    ∃ as : List K, mesh.faces.mapM (faceArea mesh) = some as ∧ as.sum = ext.1 * ext.2 := by
  obtain ⟨h1, h2, h3, h4, hm⟩ := rectangularMesh_data h
  have hB := C62_boxes ext nx ny mesh h
  have hall : ∀ f ∈ mesh.faces, faceArea mesh f = some (ext.1 * ext.2 / (nx * ny)) := by
    intro f hf
    obtain ⟨p, hp⟩ := List.mem_iff_getElem?.1 hf
    have hp' : (rectFaces nx.toNat ny.toNat)[p]? = some f := by rw [hm] at hp; exact hp
    obtain ⟨i, hi, j, hj, rfl, -⟩ := rectFaces_get hp'
    obtain ⟨g, hg, -, ha⟩ := hB.2 i j (by omega) (by omega)
    rw [hp] at hg
    cases hg
    exact ha
  have hmap : ∀ l : List (List Nat), (∀ f ∈ l, faceArea mesh f = some (ext.1 * ext.2 / (nx * ny))) →
      l.mapM (faceArea mesh) = some (List.replicate l.length (ext.1 * ext.2 / (nx * ny))) := by
    intro l hl
    induction l with
    | nil => rfl
    | cons f l ih =>
      rw [List.mapM_cons, hl f (by simp), ih fun g hg => hl g (by simp [hg])]
      rfl
  refine ⟨_, hmap _ hall, ?_⟩
  have p1 : (nx : K) ≠ 0 := by exact_mod_cast (by omega : nx ≠ 0)
  have p2 : (ny : K) ≠ 0 := by exact_mod_cast (by omega : ny ≠ 0)
  have hl : (mesh.faces.length : K) = (nx : K) * ny := by
    have := hB.1
    rw [← Int.cast_natCast, this]; push_cast; rfl
  rw [List.sum_replicate, nsmul_eq_mul, hl]
  field_simp

/-- **C62.**  A rectangle or a count that is not positive is rejected; sizes that do not fit in 32 bits are undefined behaviour; all others are accepted. -/
theorem C62_accepts (ext : K × K) (nx ny : ℤ) :
    (rectangularMesh ext nx ny = some none ↔ ext.1 ≤ 0 ∨ ext.2 ≤ 0 ∨ nx ≤ 0 ∨ ny ≤ 0) ∧
    (0 < ext.1 → 0 < ext.2 → 0 < nx → 0 < ny → (nx + 1) * (ny + 1) < 2 ^ 31 → ∃ mesh, rectangularMesh ext nx ny = some (some mesh)) := by
  unfold rectangularMesh
  constructor
  · split
    · rename_i h; simp only [true_iff]; tauto
    · rename_i h
      split
      · rename_i h'; simp only [true_iff]; tauto
      · rename_i h'
        split
        · simp only [reduceCtorEq, false_iff]; tauto
        · simp only [reduceCtorEq, Option.some.injEq, false_iff]; tauto
  · intro a b c d e
    rw [if_neg (by push Not; exact ⟨a, b⟩), if_neg (by omega), if_neg (by omega)]
    exact ⟨_, rfl⟩

/-! The hypotheses are met. -/

example : ∃ mesh : Mesh ℚ, rectangularMesh (3, 2) 3 4 = some (some mesh) := (C62_accepts ((3 : ℚ), 2) 3 4).2 (by norm_num) (by norm_num) (by norm_num) (by norm_num) (by norm_num)

example : ((rectangularMesh ((3 : ℚ), 2) 3 1).map (·.map fun x => x.faces)) = some (some [[0, 1, 5, 4], [1, 2, 6, 5], [2, 3, 7, 6]]) := by
  decide +kernel

end Verif.PropsRectPin
