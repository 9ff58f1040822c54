import Verif.Model.ModelXdmf

/-! What is said about a model and the tables read from its XDMF file. -/

namespace Verif.ModelXdmf

open Verif.Mpact

/-- `rows` is the `ny × nx` table with child `(i, j)` in column `i` of the `j`-th row from the bottom. -/
def IsTable (nx ny : Nat) (ch : List ℤ) (rows : List (List ℤ)) : Prop :=
  rows.length = ny ∧ (∀ r ∈ rows, r.length = nx) ∧
    ∀ i j : Nat, i < nx → j < ny → ((rows.reverse[j]?).bind fun r => r[i]?) = ch[i + j * nx]?

section
variable {K M T : Type} [Field K] [LinearOrder K]

/-- A body moved by `off`. -/
def shift (off : K × K) (b : Body K T) : Body K T := ⟨b.verts.map fun v => (v.1 + off.1, v.2 + off.2), b.rest⟩

/-- The ids of a list are indices into a list of `n` objects. -/
def InRange (n : Nat) (ch : List ℤ) : Prop := ∀ c ∈ ch, 0 ≤ c ∧ c < n

/-- The model is one that the modifiers build: each object has a child for each of its grid cells, and at least one, and the
children exist.  The numbers are within the reach of the names and of `Int`. -/
structure Built (s : Model K M) (nCells : Nat) : Prop where
  core : s.core.children ≠ [] ∧ s.core.children.length = (s.core.xs.length - 1) * (s.core.ys.length - 1) ∧
    InRange s.assemblies.length s.core.children ∧ s.core.xs.length ≤ 2 ^ 31 ∧ s.core.ys.length ≤ 2 ^ 31
  asy : ∀ a ∈ s.assemblies, a.children ≠ [] ∧ a.children.length + 1 = a.zs.length ∧ InRange s.lattices.length a.children ∧
    a.zs.length ≤ 2 ^ 31
  lat : ∀ l ∈ s.lattices, l.children ≠ [] ∧ l.children.length = l.nx * l.ny ∧ InRange s.rtms.length l.children ∧
    l.nx < 2 ^ 31 ∧ l.ny < 2 ^ 31
  rtm : ∀ r ∈ s.rtms, r.children ≠ [] ∧ r.children.length = (r.xs.length - 1) * (r.ys.length - 1) ∧
    InRange nCells r.children ∧ r.xs.length ≤ 2 ^ 31 ∧ r.ys.length ≤ 2 ^ 31
  small : s.assemblies.length ≤ 100000 ∧ s.lattices.length ≤ 100000 ∧ s.rtms.length ≤ 100000 ∧ nCells ≤ 100000

/-- The box moves with the body. -/
def Moves (bb : Body K T → (K × K) × (K × K)) (b : Body K T) : Prop :=
  ∀ off, bb (shift off b) =
    (((bb b).1.1 + off.1, (bb b).1.2 + off.2), ((bb b).2.1 + off.1, (bb b).2.2 + off.2))

/-- Every object is used. -/
structure AllUsed (s : Model K M) (nCells : Nat) : Prop where
  asy : ∀ i : Nat, i < s.assemblies.length → (i : ℤ) ∈ s.core.children
  lat : ∀ i : Nat, i < s.lattices.length → ∃ a ∈ s.assemblies, (i : ℤ) ∈ a.children
  rtm : ∀ i : Nat, i < s.rtms.length → ∃ a ∈ s.lattices, (i : ℤ) ∈ a.children
  cell : ∀ i : Nat, i < nCells → ∃ a ∈ s.rtms, (i : ℤ) ∈ a.children

end

end Verif.ModelXdmf
