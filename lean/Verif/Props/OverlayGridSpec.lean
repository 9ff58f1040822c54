import Verif.Model.OverlayGrid

/-! Specification of the rectangles of the coarse grid (C91). -/

namespace Verif.OverlaySpec

open Verif.Mpact hiding Lattice
open Verif.Overlay

variable {K M : Type} [Field K] [LinearOrder K]

/-- Where an object stands: column and row of the assembly, number of the lattice from below, column and row of the module,
column and row of the coarse cell. -/
structure Path where
  ai : Nat
  aj : Nat
  k : Nat
  li : Nat
  lj : Nat
  ci : Nat
  cj : Nat
  deriving DecidableEq

/-- The coarse cell `c` stands at `p`, and `cut` is the upper half of the slab that it occupies there: its corner is the sum of the
corners of assembly, module and cell, and the middle of the slab. -/
def At (s : Model K M) (p : Path) (c : ℤ) (cut : Cut K) : Prop :=
  ∃ (i : ℤ) (asy : Assembly K) (j : ℤ) (lat : Mpact.Lattice K) (r : ℤ) (rtm : Rect K) (ax ay lo hi x0 x1 y0 y1 : K),
    (p.ai < s.core.xs.length - 1 ∧ p.aj < s.core.ys.length - 1 ∧ s.core.children[p.ai + p.aj * (s.core.xs.length - 1)]? = some i ∧
      s.core.xs[p.ai]? = some ax ∧ s.core.ys[p.aj]? = some ay ∧ 0 ≤ i ∧ s.assemblies[i.toNat]? = some asy) ∧
    (asy.children[p.k]? = some j ∧ asy.zs[p.k]? = some lo ∧ asy.zs[p.k + 1]? = some hi ∧ 0 ≤ j ∧ s.lattices[j.toNat]? = some lat) ∧
    (p.li < lat.nx ∧ p.lj < lat.ny ∧ lat.children[p.li + p.lj * lat.nx]? = some r ∧ 0 ≤ r ∧ s.rtms[r.toNat]? = some rtm) ∧
    (p.ci < rtm.xs.length - 1 ∧ p.cj < rtm.ys.length - 1 ∧ rtm.children[p.ci + p.cj * (rtm.xs.length - 1)]? = some c ∧
      rtm.xs[p.ci]? = some x0 ∧ rtm.xs[p.ci + 1]? = some x1 ∧ rtm.ys[p.cj]? = some y0 ∧ rtm.ys[p.cj + 1]? = some y1) ∧
    cut = ⟨(ax + lat.spacing.1 * (p.li : K) + x0, ay + lat.spacing.2 * (p.lj : K) + y0, (lo + hi) / 2), (x1 - x0, y1 - y0, (hi - lo) / 2)⟩

/-- The order in which the places are visited: assemblies by row and column, lattices from below, modules by row and column, cells by
row and column. -/
def Path.before (p q : Path) : Prop :=
  [p.aj, p.ai, p.k, p.lj, p.li, p.cj, p.ci] < [q.aj, q.ai, q.k, q.lj, q.li, q.cj, q.ci]

/-- The tables of a model that the modifiers build: a child for every cell of a grid, at least one, and all of them exist. -/
structure Whole (s : Model K M) : Prop where
  core : s.core.children ≠ [] ∧ s.core.children.length = (s.core.xs.length - 1) * (s.core.ys.length - 1) ∧
    ∀ i ∈ s.core.children, 0 ≤ i ∧ i < s.assemblies.length
  asy : ∀ a ∈ s.assemblies, a.children ≠ [] ∧ a.children.length + 1 = a.zs.length ∧
    ∀ i ∈ a.children, 0 ≤ i ∧ i < s.lattices.length
  lat : ∀ l ∈ s.lattices, l.children ≠ [] ∧ l.children.length = l.nx * l.ny ∧ ∀ i ∈ l.children, 0 ≤ i ∧ i < s.rtms.length
  rtm : ∀ r ∈ s.rtms, r.children ≠ [] ∧ r.children.length = (r.xs.length - 1) * (r.ys.length - 1) ∧
    ∀ i ∈ r.children, 0 ≤ i ∧ i < s.cells.length

/-- The objects fit: divisions ascend, a module starts at the origin and is not larger than the spacing of a lattice it is in, a
lattice is not larger than the cell of the core it is in. -/
structure Fits (s : Model K M) : Prop where
  core : s.core.xs.Pairwise (· ≤ ·) ∧ s.core.ys.Pairwise (· ≤ ·)
  asy : ∀ a ∈ s.assemblies, a.zs.Pairwise (· ≤ ·)
  rtm : ∀ r ∈ s.rtms, r.xs.Pairwise (· ≤ ·) ∧ r.ys.Pairwise (· ≤ ·) ∧ (∀ x ∈ r.xs, 0 ≤ x) ∧ ∀ y ∈ r.ys, 0 ≤ y
  inLat : ∀ l ∈ s.lattices, ∀ i ∈ l.children, ∀ r, s.rtms[i.toNat]? = some r →
    (∀ x ∈ r.xs, x ≤ l.spacing.1) ∧ ∀ y ∈ r.ys, y ≤ l.spacing.2
  inCore : ∀ (ai aj : Nat) (i j : ℤ) (a : Assembly K) (l : Mpact.Lattice K) (x0 x1 y0 y1 : K),
    s.core.children[ai + aj * (s.core.xs.length - 1)]? = some i → s.assemblies[i.toNat]? = some a → j ∈ a.children →
    s.lattices[j.toNat]? = some l → s.core.xs[ai]? = some x0 → s.core.xs[ai + 1]? = some x1 → s.core.ys[aj]? = some y0 →
    s.core.ys[aj + 1]? = some y1 → l.spacing.1 * (l.nx : K) ≤ x1 - x0 ∧ l.spacing.2 * (l.ny : K) ≤ y1 - y0

/-- The interiors have no common point. -/
def Apart (a b : Cut K) : Prop :=
  ∀ x y z : K, ¬ ((a.ll.1 < x ∧ x < a.ll.1 + a.ext.1 ∧ a.ll.2.1 < y ∧ y < a.ll.2.1 + a.ext.2.1 ∧
      a.ll.2.2 < z ∧ z < a.ll.2.2 + a.ext.2.2) ∧
    (b.ll.1 < x ∧ x < b.ll.1 + b.ext.1 ∧ b.ll.2.1 < y ∧ y < b.ll.2.1 + b.ext.2.1 ∧ b.ll.2.2 < z ∧ z < b.ll.2.2 + b.ext.2.2))

end Verif.OverlaySpec
