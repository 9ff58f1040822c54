import Verif.Lemmas.ModelXdmf
import Verif.Props.ModelXdmfSpec
import Mathlib.Data.Rat.Floor

/-!
# C64: reading back the XDMF file of a model

The reader puts the id of the *assembly* into `lattice_ids` when it meets a new lattice (model.cpp 2599).  So the claim is false
in general, and holds when lattice `i` is only used in assembly `i`.
-/

set_option linter.unusedSectionVars false

namespace Verif.PropsModelXdmf

open Verif.Mpact Verif.Grid Verif.ModelXdmf
open Verif.Str (Byte)

variable {K M T : Type} [Field K] [LinearOrder K]

/-- The tables are those of the model: what the reader hands to `addCore`, `addAssembly`, `addLattice`, `addRTM` and
`addCoarseCell`, in the order of the ids. -/
structure Recreates (bb : Body K T → (K × K) × (K × K)) (s : Model K M) (bodies : List (Body K T)) (out : Tables K T) : Prop where
  core : IsTable (s.core.xs.length - 1) (s.core.ys.length - 1) s.core.children out.core
  asyCount : out.asys.length = s.assemblies.length
  asy : ∀ (i : Nat) a, s.assemblies[i]? = some a → out.asys[i]? = some (a.children, a.zs)
  latCount : out.lats.length = s.lattices.length
  lat : ∀ (i : Nat) l, s.lattices[i]? = some l → ∃ t, out.lats[i]? = some t ∧ IsTable l.nx l.ny l.children t
  rtmCount : out.rtms.length = s.rtms.length
  rtm : ∀ (i : Nat) r, s.rtms[i]? = some r →
    ∃ t, out.rtms[i]? = some t ∧ IsTable (r.xs.length - 1) (r.ys.length - 1) r.children t
  cellCount : out.cells.length = bodies.length
  cell : ∀ (i : Nat) b, bodies[i]? = some b → out.cells[i]? = some
    (⟨b.verts.map fun v => (v.1 - (bb b).1.1, v.2 - (bb b).1.2), b.rest⟩,
      ((bb b).2.1 - (bb b).1.1, (bb b).2.2 - (bb b).1.2))

theorem at_nat {α : Type} {l : List α} {i : Nat} {x y : α} (h : l[i]? = some x) (h' : at? l (i : ℤ) = some y) : x = y := by
  unfold at? at h'
  rw [if_neg (by omega), Int.toNat_natCast, h] at h'
  exact Option.some.inj h'

/-- The round trip for a reader that puts `key asy lat` into `lattice_ids`, when that is `lat` wherever it is used. -/
theorem roundtrip (bb : Body K T → (K × K) × (K × K)) (s : Model K M) (bodies : List (Body K T)) (tail : List Nat → List Byte)
    (hB : Built s bodies.length) (hU : AllUsed s bodies.length) (hb : ∀ b ∈ bodies, Moves bb b)
    (key : ℤ → ℤ → ℤ) (hkey : ∀ (i : Nat) a, s.assemblies[i]? = some a → ∀ l ∈ a.children, key i l = l) :
    ∃ tree out, write s bodies tail = some tree ∧ readWith bb key tree = some out ∧ Recreates bb s bodies out := by
  obtain ⟨tree, hw, hd, hch⟩ := write_rep s bodies hB tail
  obtain ⟨out, hr, hc, ⟨a1, a2⟩, ⟨l1, l2⟩, ⟨r1, r2⟩, ⟨c1, c2⟩⟩ := read_spec bb s bodies hB hU hb key hkey tree hd hch
  refine ⟨tree, out, hw, hr, hc, a1, ?_, l1, ?_, r1, ?_, c1, ?_⟩
  · intro i a ha
    obtain ⟨x, hx, r, hr, rfl⟩ := a2 i (List.getElem?_eq_some_iff.1 ha).1
    rw [at_nat ha hr, hx]
  · intro i a ha
    obtain ⟨x, hx, r, hr, ht⟩ := l2 i (List.getElem?_eq_some_iff.1 ha).1
    rw [at_nat ha hr]
    exact ⟨x, hx, ht⟩
  · intro i a ha
    obtain ⟨x, hx, r, hr, ht⟩ := r2 i (List.getElem?_eq_some_iff.1 ha).1
    rw [at_nat ha hr]
    exact ⟨x, hx, ht⟩
  · intro i a ha
    obtain ⟨x, hx, r, hr, rfl⟩ := c2 i (List.getElem?_eq_some_iff.1 ha).1
    rw [at_nat ha hr, hx]
    rfl

/-- **C64**, for models in which lattice `i` is used only in assembly `i`.  Missing: models in which an assembly has another
lattice, for which the claim is false (`C64_two_lattices_fails`, `C64_exchanged_fails`). -/
theorem C64_roundtrip_partial (bb : Body K T → (K × K) × (K × K)) (s : Model K M) (bodies : List (Body K T))
    (tail : List Nat → List Byte)
    (hB : Built s bodies.length) (hU : AllUsed s bodies.length) (hb : ∀ b ∈ bodies, Moves bb b)
    (hown : ∀ (i : Nat) a, s.assemblies[i]? = some a → ∀ l ∈ a.children, l = (i : ℤ)) :
    ∃ tree out, write s bodies tail = some tree ∧ read bb tree = some out ∧ Recreates bb s bodies out :=
  roundtrip bb s bodies tail hB hU hb (fun asy _ => asy) fun i a ha l hl => (hown i a ha l hl).symm

/-- **C64**, with `lattice_ids.emplace_back(lattice_id)` in line 2599: then it holds for all models whose objects are all used. -/
theorem C64_corrected (bb : Body K T → (K × K) × (K × K)) (s : Model K M) (bodies : List (Body K T))
    (tail : List Nat → List Byte)
    (hB : Built s bodies.length) (hU : AllUsed s bodies.length) (hb : ∀ b ∈ bodies, Moves bb b) :
    ∃ tree out, write s bodies tail = some tree ∧ readWith bb (fun _ lat => lat) tree = some out ∧ Recreates bb s bodies out :=
  roundtrip bb s bodies tail hB hU hb (fun _ lat => lat) fun _ _ _ _ _ => rfl

/-- **C64.**  A table read from the file is flattened to the children of the object. -/
theorem C64_flatten (nx ny : Nat) (ch : List ℤ) (rows : List (List ℤ)) (h : IsTable nx ny ch rows) (hl : ch.length = nx * ny)
    (hy : 0 < ny) : flattenLattice rows [] = some ch := by
  obtain ⟨h1, h2, h3⟩ := h
  subst h1
  obtain ⟨out, e, l, p⟩ := C39_flatten rows [] nx (List.length_pos_iff.1 hy) h2
  rw [e, Option.some.injEq]
  apply List.ext_getElem?
  intro k
  rcases Nat.lt_or_ge k (nx * rows.length) with hk | hk
  · have hnx : 0 < nx := by
      rcases Nat.eq_zero_or_pos nx with h0 | h0
      · rw [h0, Nat.zero_mul] at hk; omega
      · exact h0
    have hi : k % nx < nx := Nat.mod_lt _ hnx
    have hj : k / nx < rows.length := (Nat.div_lt_iff_lt_mul hnx).2 (by rw [Nat.mul_comm]; exact hk)
    have hk' : k % nx + k / nx * nx = k := by rw [Nat.mul_comm]; exact Nat.mod_add_div k nx
    have := p (k % nx) (k / nx) hi hj
    rw [h3 _ _ hi hj, hk'] at this
    exact this
  · rw [List.getElem?_eq_none (by rw [l, Nat.mul_comm]; exact hk), List.getElem?_eq_none (by rw [hl]; exact hk)]

/-- The bounding box of the vertices. -/
def box (b : Body K T) : (K × K) × (K × K) := match b.verts with
  | [] => ((0, 0), (0, 0))
  | v :: l => l.foldl (fun bx p => ((min bx.1.1 p.1, min bx.1.2 p.2), (max bx.2.1 p.1, max bx.2.2 p.2))) (v, v)

/-- **C64.**  The bounding box of the vertices moves with the body, so `Moves` holds for meshes with straight edges. -/
theorem C64_moves [IsStrictOrderedRing K] (b : Body K T) (hv : b.verts ≠ []) : Moves box b := by
  intro off
  obtain ⟨vs, rest⟩ := b
  cases vs with
  | nil => exact absurd rfl hv
  | cons v l =>
    have : ∀ (l : List (K × K)) (bx : (K × K) × (K × K)),
        (l.map fun v => (v.1 + off.1, v.2 + off.2)).foldl
          (fun bx p => ((min bx.1.1 p.1, min bx.1.2 p.2), (max bx.2.1 p.1, max bx.2.2 p.2)))
          ((bx.1.1 + off.1, bx.1.2 + off.2), (bx.2.1 + off.1, bx.2.2 + off.2)) =
        (let r := l.foldl (fun bx p => ((min bx.1.1 p.1, min bx.1.2 p.2), (max bx.2.1 p.1, max bx.2.2 p.2))) bx
        ((r.1.1 + off.1, r.1.2 + off.2), (r.2.1 + off.1, r.2.2 + off.2))) := by
      intro l
      induction l with
      | nil => intro bx; rfl
      | cons p l ih =>
        intro bx
        rw [List.map_cons, List.foldl_cons, List.foldl_cons, ← ih]
        congr 1
        dsimp only
        rw [min_add_add_right, min_add_add_right, max_add_add_right, max_add_add_right]
    exact this l (v, v)

/-! ### Witnesses -/

/-- A unit square. -/
def square : Body ℚ Unit := ⟨[(0, 0), (1, 0), (1, 1), (0, 1)], ()⟩

/-- Two kinds of cells, two ray tracing modules, two lattices; assemblies and core are given. -/
def sample (core : Rect ℚ) (asys : List (Assembly ℚ)) : Model ℚ Unit :=
  { Model.empty ℚ Unit with
    core := core
    assemblies := asys
    lattices := [⟨(2, 1), 1, 1, [0]⟩, ⟨(2, 1), 1, 2, [0, 1]⟩]
    rtms := [⟨[0, 1, 2], [0, 1], [0, 1]⟩, ⟨[0, 1, 2], [0, 1], [1, 1]⟩] }

/-- One assembly with two lattices. -/
def twoLattices : Model ℚ Unit := sample ⟨[0, 2], [0, 1], [0]⟩ [⟨[0, 1, 3], [0, 1]⟩]

/-- Two assemblies; the first has lattice 1, the second lattice 0. -/
def exchanged : Model ℚ Unit := sample ⟨[0, 2, 4], [0, 1], [0, 1]⟩ [⟨[0, 1], [1]⟩, ⟨[0, 1], [0]⟩]

/-- Two assemblies with their own lattices, three times in the core. -/
def own : Model ℚ Unit := sample ⟨[0, 2, 4, 6], [0, 1], [1, 0, 1]⟩ [⟨[0, 1], [0]⟩, ⟨[0, 1, 2], [1, 1]⟩]

theorem built_sample (core : Rect ℚ) (asys : List (Assembly ℚ))
    (hc : core.children ≠ [] ∧ core.children.length = (core.xs.length - 1) * (core.ys.length - 1) ∧
      InRange asys.length core.children ∧ core.xs.length ≤ 2 ^ 31 ∧ core.ys.length ≤ 2 ^ 31)
    (ha : ∀ a ∈ asys, a.children ≠ [] ∧ a.children.length + 1 = a.zs.length ∧ InRange 2 a.children ∧ a.zs.length ≤ 2 ^ 31)
    (hs : asys.length ≤ 100000) : Built (sample core asys) 2 := by
  refine ⟨hc, ha, ?_, ?_, ?_⟩
  · intro l hl
    simp only [sample, List.mem_cons, List.not_mem_nil, or_false] at hl
    rcases hl with rfl | rfl <;> simp [InRange, sample]
  · intro l hl
    simp only [sample, List.mem_cons, List.not_mem_nil, or_false] at hl
    rcases hl with rfl | rfl <;> simp [InRange]
  · exact ⟨hs, by simp [sample], by simp [sample], by norm_num⟩

/-- **C64** is false: with two lattices in an assembly the reader indexes `lattice_rtm_ids` out of bounds. -/
theorem C64_two_lattices_fails : Built twoLattices 2 ∧ AllUsed twoLattices 2 ∧
    ∃ tree, write twoLattices [square, square] (fun _ => []) = some tree ∧ read box tree = none := by
  refine ⟨?_, ?_, ?_⟩
  · apply built_sample <;> simp [InRange]
  · refine ⟨?_, ?_, ?_, ?_⟩ <;> intro i hi
    · simp [twoLattices, sample] at hi ⊢
      omega
    all_goals
      simp [twoLattices, sample] at hi ⊢
      interval_cases i <;> simp
  · have : ∃ tree, write twoLattices [square, square] (fun _ => []) = some tree := by
      obtain ⟨n, h, -⟩ := write_rep twoLattices [square, square] (by apply built_sample <;> simp [InRange]) (fun _ => [])
      exact ⟨n, h⟩
    obtain ⟨tree, h⟩ := this
    refine ⟨tree, h, ?_⟩
    have e : (write twoLattices [square, square] (fun _ => [])).bind (fun t => (read box t).map fun _ => ()) = none := by
      decide +kernel
    rw [h, Option.bind_some] at e
    exact Option.map_eq_none_iff.1 e

/-- **C64** is false: when the first assembly has lattice 1 and the second lattice 0, only one lattice is recreated, and lattice 0
gets the table of lattice 1. -/
theorem C64_exchanged_fails : Built exchanged 2 ∧ AllUsed exchanged 2 ∧
    ∃ tree out, write exchanged [square, square] (fun _ => []) = some tree ∧ read box tree = some out ∧
      out.lats = [[[1], [0]]] := by
  refine ⟨?_, ?_, ?_⟩
  · apply built_sample <;> simp [InRange]
  · refine ⟨?_, ?_, ?_, ?_⟩ <;> intro i hi
    all_goals
      simp [exchanged, sample] at hi ⊢
      interval_cases i <;> simp
  · have e : (write exchanged [square, square] (fun _ => [])).bind (fun t => (read box t).map fun o => o.lats) =
        some [[[1], [0]]] := by decide +kernel
    obtain ⟨tree, h1, h2⟩ := Option.bind_eq_some_iff.1 e
    obtain ⟨out, h3, h4⟩ := Option.map_eq_some_iff.1 h2
    exact ⟨tree, out, h1, h3, h4⟩

/-- The hypotheses of `C64_roundtrip_partial` can be met. -/
example : Built own 2 ∧ AllUsed own 2 ∧ (∀ b ∈ [square, square], Moves box b) ∧
    ∀ (i : Nat) a, own.assemblies[i]? = some a → ∀ l ∈ a.children, l = (i : ℤ) := by
  refine ⟨by apply built_sample <;> simp [InRange], ⟨?_, ?_, ?_, ?_⟩, ?_, ?_⟩
  any_goals
    intro i hi
    simp [own, sample] at hi ⊢
    interval_cases i <;> simp
  · intro b hb
    have : b = square := by simpa using hb
    subst this
    exact C64_moves square (by simp [square])
  · intro i a ha l hl
    simp only [own, sample] at ha
    match i with
    | 0 => simp at ha; subst ha; simpa using hl
    | 1 => simp at ha; subst ha; simpa using hl
    | i + 2 => simp at ha

end Verif.PropsModelXdmf
