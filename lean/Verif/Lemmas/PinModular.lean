import Verif.Model.PinModular
import Verif.Lemmas.LatticeText
import Verif.Props.LatticePrograms

/-! Lemmas on models of single-cell modules. -/

set_option linter.unusedSectionVars false

namespace Verif.ModularL

open Verif (IsStdSort)
open Verif.Overlay (Cut cuts)
open Verif.OverlaySpec (At Whole)
open Verif.Mpact
open Verif.Modular
open Verif.PinsSpec (idAt)
open Verif.LatticeText (tableOf tableOf_length idAt_tableOf)
open Verif.ElemTypes (MeshType)
open Verif.CmfdInfo (Tile IsTile)

variable {K M : Type} [Field K] [LinearOrder K] [IsStrictOrderedRing K]

/-! ### Tables -/

theorem table_rows {nx ny : Nat} {f : Nat → Nat → Nat} : ∀ r ∈ tableOf nx ny f, r.length = nx := by
  intro r hr
  obtain ⟨j, -, rfl⟩ := List.mem_map.1 hr
  simp

/-- The children of a table, in the order of the model. -/
def flat (nx ny : Nat) (f : Nat → Nat → Nat) : List ℤ := (tableOf nx ny f).reverse.flatten

theorem flat_get {nx ny : Nat} (f : Nat → Nat → Nat) {i j : Nat} (hi : i < nx) (hj : j < ny) :
    (flat nx ny f)[i + j * nx]? = some ((f i (ny - 1 - j) : Nat) : ℤ) := by
  unfold flat
  rw [flatten_uniform nx _ (fun r hr => table_rows r (List.mem_reverse.1 hr)) i j hi]
  have := idAt_tableOf nx ny f i j
  rw [if_pos ⟨hi, hj⟩] at this
  exact this

theorem flat_length (nx ny : Nat) (f : Nat → Nat → Nat) : (flat nx ny f).length = nx * ny := by
  unfold flat
  rw [flatten_length nx _ (fun r hr => table_rows r (List.mem_reverse.1 hr)), List.length_reverse, tableOf_length, Nat.mul_comm]

theorem mem_table {nx ny : Nat} {f : Nat → Nat → Nat} {x : ℤ} (h : x ∈ (tableOf nx ny f).flatten) : ∃ i < nx, ∃ j < ny, x = (f i j : Nat) := by
  obtain ⟨r, hr, hx⟩ := List.mem_flatten.1 h
  obtain ⟨j, hj, rfl⟩ := List.mem_map.1 hr
  obtain ⟨i, hi, rfl⟩ := List.mem_map.1 hx
  exact ⟨i, List.mem_range.1 hi, j, List.mem_range.1 hj, rfl⟩

theorem mem_flat {nx ny : Nat} {f : Nat → Nat → Nat} {x : ℤ} (h : x ∈ flat nx ny f) : ∃ i < nx, ∃ j < ny, x = (f i j : Nat) := by
  refine mem_table ?_
  unfold flat at h
  simp only [List.mem_flatten, List.mem_reverse] at h ⊢
  exact h

theorem table_ne {nx ny : Nat} {f : Nat → Nat → Nat} (hy : 0 < ny) : tableOf nx ny f ≠ [] := by
  intro h
  have := tableOf_length nx ny f
  rw [h] at this
  simp at this
  omega

theorem flatten_eq {nx ny : Nat} {f : Nat → Nat → Nat} (hy : 0 < ny) : Grid.flattenLattice (tableOf nx ny f) [] = some (flat nx ny f) :=
  flattenLattice_eq _ nx (table_ne hy) table_rows

/-- A table that is not empty has a first row. -/
theorem table_cons {nx ny : Nat} {f : Nat → Nat → Nat} (hy : 0 < ny) : ∃ row0 rows, tableOf nx ny f = row0 :: rows ∧ row0.length = nx ∧
    (∀ r ∈ rows, r.length = nx) := by
  obtain ⟨row0, rows, h⟩ := List.exists_cons_of_ne_nil (table_ne (nx := nx) (f := f) hy)
  refine ⟨row0, rows, h, table_rows row0 (by rw [h]; simp), fun r hr => table_rows (ny := ny) (f := f) r (by rw [h]; simp [hr])⟩

/-! ### Sums of equal widths -/

theorem sums_replicate (n : Nat) (w : K) : ∀ x, Grid.sums x (List.replicate n w) = (List.range (n + 1)).map fun i : Nat => x + i * w := by
  induction n with
  | zero => intro x; simp [Grid.sums]
  | succ n ih =>
    intro x
    rw [List.replicate_succ, Grid.sums, ih, List.range_succ_eq_map (n := n + 1), List.map_cons, List.map_map]
    congr 1
    · simp
    · refine List.map_congr_left fun i _ => ?_
      simp only [Function.comp_apply]
      push_cast
      ring

/-- The divisions of `n` equal parts. -/
def divs (n : Nat) (w : K) : List K := (List.range (n + 1)).map fun i : Nat => i * w

theorem divs_length (n : Nat) (w : K) : (divs n w).length = n + 1 := by simp [divs]

theorem divs_get {n : Nat} (w : K) {i : Nat} (h : i ≤ n) : (divs n w)[i]? = some (i * w) := by
  unfold divs
  rw [List.getElem?_map, List.getElem?_range (by omega)]
  rfl

theorem mkGrid_equal {sort : List K → List K} (hsort : ∀ l, IsStdSort (fun a b => decide (a < b)) l (sort l)) {eps w h : K} (he : 0 < eps)
    (hw : eps ≤ w) (hh : eps ≤ h) (L : Nat) (A B : Nat) (hA : 0 < A) (hB : 0 < B) (f : Nat → Nat → Nat) (hf : ∀ i < A, ∀ j < B, f i j < L) :
    mkGrid sort eps (List.replicate L (w, h)) ((tableOf A B f).map fun row => row.map Int.toNat) = some (divs A w, divs B h) := by
  have hl : List.Forall₂ (fun row h' => List.Forall₂ (fun id w' => (List.replicate L (w, h))[id]? = some (w', h')) row (List.replicate A w))
      ((tableOf A B f).map fun row => row.map Int.toNat).reverse (List.replicate B h) := by
    refine ProgramsL.forall₂_replicate (by simp [tableOf_length]) fun row hrow => ?_
    rw [List.mem_reverse] at hrow
    obtain ⟨r, hr, rfl⟩ := List.mem_map.1 hrow
    refine ProgramsL.forall₂_replicate (by rw [List.length_map]; exact table_rows r hr) fun id hid => ?_
    obtain ⟨z, hz, rfl⟩ := List.mem_map.1 hid
    obtain ⟨i, hi, j, hj, rfl⟩ := mem_table (List.mem_flatten.2 ⟨r, hr, hz⟩)
    rw [Int.toNat_natCast, List.getElem?_replicate_of_lt (hf i hi j hj)]
  obtain ⟨⟨_, _, b, hb, _, _⟩, huniq⟩ := Grid.C38_ids he (List.replicate L (w, h)) _ (List.replicate A w) (List.replicate B h)
    (by rw [Ne, List.replicate_eq_nil_iff]; omega) (by rw [Ne, List.replicate_eq_nil_iff]; omega)
    (fun x hx => by rw [List.eq_of_mem_replicate hx]; exact hw) (fun x hx => by rw [List.eq_of_mem_replicate hx]; exact hh) hl
  have := huniq _ _ ⟨b, hb, hsort _, hsort _⟩
  unfold mkGrid
  rw [hb, Option.map_some, this.1, this.2.1, sums_replicate, sums_replicate]
  simp [divs]

/-! ### The calls -/

theorem addCell_eq (s : Model K M) (size : K × K) (h1 : 0 < size.1) (h2 : 0 < size.2) : addCoarseCell s size MeshType.Invalid (-1) [] =
    some ({ s with cells := s.cells ++ [⟨size, MeshType.Invalid, -1, []⟩] }, (s.cells.length : ℤ)) := by
  unfold addCoarseCell
  dsimp only
  rw [if_neg (by push Not; exact ⟨h1, h2⟩), if_pos rfl]

/-- The module of one cell. -/
def single (w h : K) (i : Nat) : Rect K := ⟨[0, w], [0, h], [(i : ℤ)]⟩

/-- `n` pins after the ones that are there. -/
theorem addPins_eq {sort : List K → List K} (hsort : ∀ l, IsStdSort (fun a b => decide (a < b)) l (sort l)) {eps w h : K} (he : 0 < eps)
    (hw : eps ≤ w) (hh : eps ≤ h) (n : Nat) : ∀ (m : Nat) (s : Model K M), s.cells.length = m →
    (∀ c ∈ s.cells, c.ext = (w, h)) → (∀ r ∈ s.rtms, r.xs = [0, w] ∧ r.ys = [0, h]) →
    addPins sort eps (w, h) ((List.range n).map (m + ·)) s = some { s with
      cells := s.cells ++ List.replicate n ⟨(w, h), MeshType.Invalid, -1, []⟩
      rtms := s.rtms ++ (List.range n).map fun i => single w h (m + i) } := by
  induction n with
  | zero => intro m s _ _ _; simp [addPins]
  | succ n ih =>
    intro m s hm hc hr
    rw [List.range_succ_eq_map, List.map_cons, List.map_map, addPins, addCell_eq s (w, h) (he.trans_le hw) (he.trans_le hh), Option.bind_some]
    have hc' : ∀ c ∈ s.cells ++ [⟨(w, h), MeshType.Invalid, -1, []⟩], c.ext = (w, h) := by
      intro c hcm
      rcases List.mem_append.1 hcm with h' | h'
      · exact hc c h'
      · rw [List.mem_singleton.1 h']
    dsimp only
    rw [CoarseGrid.addRTM_one hsort he hw hh { s with cells := s.cells ++ [⟨(w, h), MeshType.Invalid, -1, []⟩] } (m + 0) (by simp [hm]) hc' hr,
      Option.bind_some]
    have := ih (m + 1) { s with cells := s.cells ++ [⟨(w, h), MeshType.Invalid, -1, []⟩], rtms := s.rtms ++ [⟨[0, w], [0, h], [((m + 0 : Nat) : ℤ)]⟩] }
      (by simp [hm]) hc' (by
        intro r hrm
        rcases List.mem_append.1 hrm with h' | h'
        · exact hr r h'
        · rw [List.mem_singleton.1 h']; exact ⟨rfl, rfl⟩)
    have e : (List.range n).map ((m + ·) ∘ Nat.succ) = (List.range n).map (m + 1 + ·) := List.map_congr_left fun i _ => by
      simp only [Function.comp_apply]; omega
    rw [e, this, List.map_cons, List.map_map]
    have e2 : (List.range n).map ((fun i => single w h (m + i)) ∘ Nat.succ) = (List.range n).map fun i => single w h (m + 1 + i) :=
      List.map_congr_left fun i _ => by simp only [Function.comp_apply]; congr 1; omega
    rw [e2]
    simp [single, List.append_assoc, List.replicate_succ]

theorem addLattices_eq {w h : K} (nx ny n : Nat) (hy : 0 < ny) (pin : Nat → Nat → Nat → Nat) (ks : List Nat)
    (hp : ∀ k ∈ ks, ∀ i < nx, ∀ j < ny, pin k i j < n) : ∀ s : Model K M, s.rtms.length = n → s.rtms.head?.map (fun r => (r.xs, r.ys)) = some ([0, w], [0, h]) →
    addLattices (ks.map fun k => tableOf nx ny (pin k)) s =
      some { s with lattices := s.lattices ++ ks.map fun k => ⟨(w, h), nx, ny, flat nx ny (pin k)⟩ } := by
  induction ks with
  | nil => intro s _ _; simp [addLattices]
  | cons k ks ih =>
    intro s hr hr0
    rw [List.map_cons, addLattices]
    have h1 : Mpact.addLattice s (tableOf nx ny (pin k)) =
        some ({ s with lattices := s.lattices ++ [⟨(w, h), nx, ny, flat nx ny (pin k)⟩] }, (s.lattices.length : ℤ)) := by
      unfold Mpact.addLattice
      rw [if_neg (by
        intro hany
        obtain ⟨x, hx1, hx2⟩ := List.any_eq_true.1 hany
        obtain ⟨i, hi, j, hj, rfl⟩ := mem_table hx1
        have := hp k (by simp) i hi j hj
        simp only [Bool.or_eq_true, decide_eq_true_eq] at hx2
        omega)]
      have hf := flatten_eq (nx := nx) (f := pin k) hy
      have hlen := tableOf_length nx ny (pin k)
      obtain ⟨row0, rows, e1, e2, e3⟩ := table_cons (nx := nx) (f := pin k) hy
      rw [e1] at hf hlen ⊢
      cases hrt : s.rtms with
      | nil => rw [hrt] at hr0; simp at hr0
      | cons r rest =>
        rw [hrt] at hr0
        simp only [List.head?_cons, Option.map_some, Option.some.injEq, Prod.mk.injEq] at hr0
        simp only [extents, hr0.1, hr0.2, List.head?_cons, List.getLast?_cons_cons, List.getLast?_singleton, sub_zero, Option.bind_some]
        rw [if_neg (by
          intro hany
          obtain ⟨q, q1, q2⟩ := List.any_eq_true.1 hany
          rw [decide_eq_true_eq, e2, e3 q q1] at q2
          exact q2 rfl), hf, Option.bind_some, hlen, e2]
    rw [h1, Option.bind_some]
    have := ih (fun k' hk' => hp k' (by simp [hk'])) { s with lattices := s.lattices ++ [⟨(w, h), nx, ny, flat nx ny (pin k)⟩] } hr hr0
    rw [this]
    simp [List.append_assoc]

/-- The heights of an assembly are accepted: they ascend, one more than lattices, and the ends are those of the two-dimensional model or
the bottom is zero. -/
structure Heights (eps : K) (L : Nat) (lo hi : K) (a : Assembly K) : Prop where
  ne : a.children ≠ []
  ids : ∀ i ∈ a.children, 0 ≤ i ∧ i < L
  len : a.children.length + 1 = a.zs.length
  sorted : isSorted a.zs = true
  first : a.zs.head? = some lo
  last : a.zs.getLast? = some hi

theorem addAssemblies_eq {eps lo hi : K} (he : 0 ≤ eps) (hends : ¬ ((eps < |lo + 1 / 2| ∨ eps < |hi - 1 / 2|) ∧ eps < |lo|)) (nx ny L : Nat)
    (as : List (Assembly K)) (has : ∀ a ∈ as, Heights eps L lo hi a) : ∀ s : Model K M, s.lattices.length = L →
    (∀ l ∈ s.lattices, l.nx = nx ∧ l.ny = ny) → (∀ a ∈ s.assemblies, a.zs.head? = some lo ∧ a.zs.getLast? = some hi) →
    addAssemblies eps as s = some { s with assemblies := s.assemblies ++ as } := by
  induction as with
  | nil => intro s _ _ _; simp [addAssemblies]
  | cons a as ih =>
    intro s hL hl hz
    have ha := has a (by simp)
    have hput : placeAssembly s a.children a.zs = some ({ s with assemblies := s.assemblies ++ [a] }, (s.assemblies.length : ℤ)) := by
      unfold placeAssembly
      cases hc : a.children with
      | nil => exact absurd hc ha.ne
      | cons i0 rest =>
        have hat : ∀ i ∈ a.children, ∃ l, at? s.lattices i = some l ∧ l ∈ s.lattices := by
          intro i hi
          have := ha.ids i hi
          exact at?_of_lt this.1 (by rw [hL]; exact this.2)
        obtain ⟨l0, h0, hl0⟩ := hat i0 (by rw [hc]; simp)
        have hmap : ∀ is : List ℤ, (∀ i ∈ is, i ∈ a.children) → ∃ ls, is.mapM (at? s.lattices) = some ls ∧ ∀ l ∈ ls, l ∈ s.lattices := by
          intro is
          induction is with
          | nil => intro _; exact ⟨[], rfl, by simp⟩
          | cons i is ih' =>
            intro hm
            obtain ⟨l, g1, g2⟩ := hat i (hm i (by simp))
            obtain ⟨ls, g3, g4⟩ := ih' fun j hj => hm j (by simp [hj])
            refine ⟨l :: ls, by simp [g1, g3], ?_⟩
            intro x hx
            rcases List.mem_cons.1 hx with rfl | hx
            · exact g2
            · exact g4 x hx
        obtain ⟨ls, h1, h2⟩ := hmap (i0 :: rest) (by rw [hc]; exact fun _ h => h)
        dsimp only
        rw [h0, Option.bind_some, h1, Option.bind_some, if_neg]
        · rw [← hc]
        · intro hany
          obtain ⟨l, q1, q2⟩ := List.any_eq_true.1 hany
          have e1 := hl l (h2 l q1)
          have e2 := hl l0 hl0
          simp [e1, e2] at q2
    have h1 : addAssembly eps s a.children a.zs = some ({ s with assemblies := s.assemblies ++ [a] }, (s.assemblies.length : ℤ)) := by
      unfold addAssembly
      rw [if_neg (by
        intro hany
        obtain ⟨x, hx1, hx2⟩ := List.any_eq_true.1 hany
        have := ha.ids x hx1
        simp only [Bool.or_eq_true, decide_eq_true_eq] at hx2
        omega), if_neg (by rw [ha.len]; simp), if_neg (by rw [ha.sorted]; simp), ha.first, Option.bind_some, ha.last, Option.bind_some, if_neg hends]
      cases hs : s.assemblies with
      | nil =>
        dsimp only
        rw [hput, hs]
      | cons b bs =>
        have hb := hz b (by rw [hs]; simp)
        dsimp only
        rw [hb.1, Option.bind_some, hb.2, Option.bind_some, if_neg (by
          rw [sub_self, sub_self, abs_zero]
          rintro (h | h) <;> exact absurd h (not_lt.2 he)), hput, hs]
    rw [addAssemblies, h1, Option.bind_some, ih (fun b hb => has b (by simp [hb])) { s with assemblies := s.assemblies ++ [a] } hL hl (by
      intro b hb
      rcases List.mem_append.1 hb with h' | h'
      · exact hz b h'
      · rw [List.mem_singleton.1 h']; exact ⟨ha.first, ha.last⟩)]
    simp [List.append_assoc]

/-- The model that the calls make. -/
def hier (s : Model K M) (w h : K) (n nx ny A B L : Nat) (pin : Nat → Nat → Nat → Nat) (as : List (Assembly K)) (asy : Nat → Nat → Nat) : Model K M :=
  { s with
    rtms := (List.range n).map (single w h)
    lattices := (List.range L).map fun k => ⟨(w, h), nx, ny, flat nx ny (pin k)⟩
    assemblies := as
    core := ⟨divs A (w * nx), divs B (h * ny), flat A B asy⟩ }

theorem addRest_eq {sort : List K → List K} (hsort : ∀ l, IsStdSort (fun a b => decide (a < b)) l (sort l)) {eps w h lo hi : K} (he : 0 < eps)
    (hw : eps ≤ w) (hh : eps ≤ h) (hends : ¬ ((eps < |lo + 1 / 2| ∨ eps < |hi - 1 / 2|) ∧ eps < |lo|)) (n nx ny A B L : Nat) (hn : 0 < n)
    (hx : 0 < nx) (hy : 0 < ny) (hA : 0 < A) (hB : 0 < B) (pin : Nat → Nat → Nat → Nat) (hp : ∀ k < L, ∀ i < nx, ∀ j < ny, pin k i j < n)
    (as : List (Assembly K)) (has : ∀ a ∈ as, Heights eps L lo hi a) (asy : Nat → Nat → Nat) (hasy : ∀ i < A, ∀ j < B, asy i j < as.length)
    (s : Model K M) (hr : s.rtms = (List.range n).map (single w h)) (hl : s.lattices = []) (ha : s.assemblies = []) (hc : s.core.children = []) :
    addRest sort eps ((List.range L).map fun k => tableOf nx ny (pin k)) as (tableOf A B asy) s = some (hier s w h n nx ny A B L pin as asy) := by
  unfold addRest
  have hr0 : s.rtms.head?.map (fun r => (r.xs, r.ys)) = some ([0, w], [0, h]) := by
    obtain ⟨n, rfl⟩ : ∃ m, n = m + 1 := ⟨n - 1, by omega⟩
    rw [hr, List.range_succ_eq_map]
    rfl
  rw [addLattices_eq nx ny n hy pin (List.range L) (fun k hk => hp k (List.mem_range.1 hk)) s (by rw [hr]; simp) hr0, Option.bind_some]
  rw [addAssemblies_eq he.le hends nx ny L as has _ (by simp [hl]) (by
    intro l hlm
    simp only [hl, List.nil_append] at hlm
    obtain ⟨k, -, rfl⟩ := List.mem_map.1 hlm
    exact ⟨rfl, rfl⟩) (by simp [ha]), Option.bind_some]
  have hext : as.mapM (fun a : Assembly K => (a.children.head?).bind fun id =>
      (at? ((List.range L).map fun k => (⟨(w, h), nx, ny, flat nx ny (pin k)⟩ : Mpact.Lattice K)) id).map Lattice.extents) =
      some (List.replicate as.length (w * (nx : K), h * (ny : K))) := by
    clear hasy
    induction as with
    | nil => rfl
    | cons a as ih =>
      have h1 := has a (by simp)
      cases hch : a.children with
      | nil => exact absurd hch h1.ne
      | cons i0 rest =>
        have hi0 := h1.ids i0 (by rw [hch]; simp)
        have hi1 : i0.toNat < L := by omega
        have : at? ((List.range L).map fun k => (⟨(w, h), nx, ny, flat nx ny (pin k)⟩ : Mpact.Lattice K)) i0 =
            some ⟨(w, h), nx, ny, flat nx ny (pin i0.toNat)⟩ := by
          rw [at?_eq]
          refine ⟨hi0.1, ?_⟩
          rw [List.getElem?_map, List.getElem?_range hi1]
          rfl
        rw [List.mapM_cons, ih fun b hb => has b (by simp [hb])]
        simp [hch, this, Lattice.extents, List.replicate_succ]
  have hx1 : (1 : K) ≤ nx := by exact_mod_cast hx
  have hy1 : (1 : K) ≤ ny := by exact_mod_cast hy
  have hw0 := he.trans_le hw
  have hh0 := he.trans_le hh
  unfold Mpact.addCore
  rw [if_neg (by simpa using hc), if_neg (by
    intro hany
    obtain ⟨x, hx1, hx2⟩ := List.any_eq_true.1 hany
    obtain ⟨i, hi, j, hj, rfl⟩ := mem_table hx1
    have := hasy i hi j hj
    simp only [ha, List.nil_append, Bool.or_eq_true, decide_eq_true_eq] at hx2
    omega)]
  simp only [ha, hl, List.nil_append]
  rw [hext, Option.bind_some, mkGrid_equal hsort he (hw.trans (le_mul_of_one_le_right hw0.le hx1)) (hh.trans (le_mul_of_one_le_right hh0.le hy1))
    as.length A B hA hB asy hasy, Option.bind_some, flatten_eq hB, Option.bind_some, Option.bind_some]
  simp [hier, hr]

/-! ### What the model is -/

section
variable (s : Model K M) (w h : K) (n nx ny A B L : Nat) (pin : Nat → Nat → Nat → Nat) (as : List (Assembly K)) (asy : Nat → Nat → Nat)

theorem hier_rtm {r : Nat} (hr : r < n) : (hier s w h n nx ny A B L pin as asy).rtms[r]? = some (single w h r) := by
  simp only [hier]
  rw [List.getElem?_map, List.getElem?_range hr]
  rfl

theorem hier_lat {k : Nat} (hk : k < L) : (hier s w h n nx ny A B L pin as asy).lattices[k]? = some ⟨(w, h), nx, ny, flat nx ny (pin k)⟩ := by
  simp only [hier]
  rw [List.getElem?_map, List.getElem?_range hk]
  rfl

/-- The places of a coarse cell. -/
theorem hier_at (hp : ∀ k < L, ∀ i < nx, ∀ j < ny, pin k i j < n) (hids : ∀ a ∈ as, ∀ i ∈ a.children, 0 ≤ i ∧ i < L) (p : OverlaySpec.Path) (c : ℤ) (cut : Cut K) :
    At (hier s w h n nx ny A B L pin as asy) p c cut ↔
      p.ai < A ∧ p.aj < B ∧ p.li < nx ∧ p.lj < ny ∧ p.ci = 0 ∧ p.cj = 0 ∧ ∃ (a : Assembly K) (k : Nat) (lo hi : K),
        as[asy p.ai (B - 1 - p.aj)]? = some a ∧ a.children[p.k]? = some (k : ℤ) ∧ a.zs[p.k]? = some lo ∧ a.zs[p.k + 1]? = some hi ∧
        c = (pin k p.li (ny - 1 - p.lj) : Nat) ∧
        cut = ⟨(p.ai * (w * nx) + w * p.li, p.aj * (h * ny) + h * p.lj, (lo + hi) / 2), (w, h, (hi - lo) / 2)⟩ := by
  obtain ⟨ai, aj, k, li, lj, ci, cj⟩ := p
  constructor
  · rintro ⟨i, a, j, lat, r, rtm, ax, ay, lo, hi, x0, x1, y0, y1, ⟨a1, a2, a3, a4, a5, a6, a7⟩, ⟨b1, b2, b3, b4, b5⟩, ⟨c1, c2, c3, c4, c5⟩,
      ⟨d1, d2, d3, d4, d5, d6, d7⟩, rfl⟩
    simp only [hier, divs_length, Nat.add_sub_cancel] at a1 a2 a3 a4 a5 a7
    rw [flat_get _ a1 a2, Option.some.injEq] at a3
    rw [divs_get _ a1.le, Option.some.injEq] at a4
    rw [divs_get _ a2.le, Option.some.injEq] at a5
    subst a3 a4 a5
    rw [Int.toNat_natCast] at a7
    have hj := hids a (List.mem_of_getElem? a7) j (List.mem_of_getElem? b1)
    obtain ⟨j, rfl⟩ := Int.eq_ofNat_of_zero_le b4
    have hjL : j < L := by exact_mod_cast hj.2
    rw [Int.toNat_natCast, hier_lat s w h n nx ny A B L pin as asy hjL, Option.some.injEq] at b5
    subst b5
    dsimp only at c1 c2 c3
    rw [flat_get _ c1 c2, Option.some.injEq] at c3
    subst c3
    rw [Int.toNat_natCast, hier_rtm s w h n nx ny A B L pin as asy (hp _ hjL _ c1 _ (by omega)), Option.some.injEq] at c5
    subst c5
    simp only [single, List.length_cons, List.length_nil] at d1 d2 d3 d4 d5 d6 d7
    obtain rfl : ci = 0 := by omega
    obtain rfl : cj = 0 := by omega
    simp only [Nat.zero_mul, Nat.zero_add, List.getElem?_cons_zero, List.getElem?_cons_succ, Option.some.injEq] at d3 d4 d5 d6 d7
    subst d3 d4 d5 d6 d7
    exact ⟨a1, a2, c1, c2, rfl, rfl, a, j, lo, hi, a7, b1, b2, b3, rfl, by simp⟩
  · rintro ⟨a1, a2, c1, c2, rfl, rfl, a, j, lo, hi, a7, b1, b2, b3, rfl, rfl⟩
    dsimp only at a1 a2 c1 c2 a7 b1 b2 b3 ⊢
    have hjL : j < L := by exact_mod_cast (hids a (List.mem_of_getElem? a7) j (List.mem_of_getElem? b1)).2
    refine ⟨((asy ai (B - 1 - aj) : Nat) : ℤ), a, j, _, _, single w h (pin j li (ny - 1 - lj)), ai * (w * nx), aj * (h * ny), lo, hi, 0, w, 0, h, ⟨?_, ?_, ?_, ?_, ?_, Int.natCast_nonneg _, ?_⟩,
      ⟨b1, b2, b3, Int.natCast_nonneg _, by rw [Int.toNat_natCast, hier_lat s w h n nx ny A B L pin as asy hjL]⟩,
      ⟨c1, c2, flat_get _ c1 c2, Int.natCast_nonneg _, ?_⟩, by simp [single], by simp⟩
    · simpa [hier, divs_length] using a1
    · simpa [hier, divs_length] using a2
    · simp only [hier, divs_length, Nat.add_sub_cancel]; exact flat_get _ a1 a2
    · exact divs_get _ a1.le
    · exact divs_get _ a2.le
    · rw [Int.toNat_natCast]; exact a7
    · rw [Int.toNat_natCast, hier_rtm s w h n nx ny A B L pin as asy (hp _ hjL _ c1 _ (by omega))]

/-- The places of the coarse cells in the core. -/
theorem hier_tile (hp : ∀ k < L, ∀ i < nx, ∀ j < ny, pin k i j < n) (hids : ∀ a ∈ as, ∀ i ∈ a.children, 0 ≤ i ∧ i < L) (t : Tile K) :
    IsTile (hier s w h n nx ny A B L pin as asy) t ↔
      t.path.asy.1 < A ∧ t.path.asy.2 < B ∧ t.path.rtm.1 < nx ∧ t.path.rtm.2 < ny ∧ t.path.cell = (0, 0) ∧ ∃ (a : Assembly K) (k : Nat) (lo hi : K),
        as[asy t.path.asy.1 (B - 1 - t.path.asy.2)]? = some a ∧ a.children[t.path.lev]? = some (k : ℤ) ∧ a.zs[t.path.lev]? = some lo ∧
        a.zs[t.path.lev + 1]? = some hi ∧ t.id = pin k t.path.rtm.1 (ny - 1 - t.path.rtm.2) ∧
        t.lo = ((t.path.asy.1 * nx + t.path.rtm.1) * w, (t.path.asy.2 * ny + t.path.rtm.2) * h) ∧
        t.hi = ((t.path.asy.1 * nx + t.path.rtm.1 + 1) * w, (t.path.asy.2 * ny + t.path.rtm.2 + 1) * h) ∧ t.z = (lo + hi) / 2 := by
  obtain ⟨⟨⟨ai, aj⟩, lev, ⟨li, lj⟩, ⟨ci, cj⟩⟩, id, tlo, thi, z⟩ := t
  constructor
  · rintro ⟨i, j, r, a, lat, rtm, ax, ay, lo, hi, x0, x1, y0, y1, ⟨a1, a2, a3, a4, a5, a6⟩, ⟨b1, b2, b3, b4⟩, ⟨c1, c2, c3, c4⟩,
      ⟨d1, d2, d3, d4, d5⟩, e1, e2, e3⟩
    simp only [hier, divs_length, Nat.add_sub_cancel, Nat.add_lt_add_iff_right] at a1 a2 a3 a4 a5 a6
    rw [flat_get _ a1 a2, Option.some.injEq, Nat.cast_inj] at a3
    rw [divs_get _ a1.le, Option.some.injEq] at a5
    rw [divs_get _ a2.le, Option.some.injEq] at a6
    subst a3 a5 a6
    have hjL : j < L := by exact_mod_cast (hids a (List.mem_of_getElem? a4) j (List.mem_of_getElem? b1)).2
    rw [hier_lat s w h n nx ny A B L pin as asy hjL, Option.some.injEq] at b2
    subst b2
    dsimp only at c1 c2 c3 e1 e2 e3
    rw [flat_get _ c1 c2, Option.some.injEq, Nat.cast_inj] at c3
    subst c3
    rw [hier_rtm s w h n nx ny A B L pin as asy (hp _ hjL _ c1 _ (by omega)), Option.some.injEq] at c4
    subst c4
    simp only [single, List.length_cons, List.length_nil] at d1 d2 d3 d4 d5
    have hci : ci = 0 := by
      have := (List.getElem?_eq_some_iff.1 d3).1
      simp at this; omega
    have hcj : cj = 0 := by
      have := (List.getElem?_eq_some_iff.1 d5).1
      simp at this; omega
    subst hci hcj
    simp only [Nat.zero_mul, Nat.zero_add, List.getElem?_cons_zero, List.getElem?_cons_succ, Option.some.injEq, Nat.cast_inj] at d1 d2 d3 d4 d5
    subst d1 d2 d3 d4 d5
    refine ⟨a1, a2, c1, c2, rfl, a, j, lo, hi, a4, b1, b3, b4, rfl, ?_, ?_, e3⟩
    · rw [e1]; refine Prod.ext ?_ ?_ <;> dsimp only <;> ring
    · rw [e2]; refine Prod.ext ?_ ?_ <;> dsimp only <;> ring
  · rintro ⟨a1, a2, c1, c2, e, a, j, lo, hi, a7, b1, b2, b3, e1, e2, e3, e4⟩
    dsimp only at a1 a2 c1 c2 a7 b1 b2 b3 e e1 e2 e3 e4
    cases e
    subst e1 e2 e3 e4
    have hjL : j < L := by exact_mod_cast (hids a (List.mem_of_getElem? a7) j (List.mem_of_getElem? b1)).2
    refine ⟨asy ai (B - 1 - aj), j, _, a, _, single w h (pin j li (ny - 1 - lj)), ai * (w * nx), aj * (h * ny), lo, hi, 0, w, 0, h, ⟨?_, ?_, ?_, a7, ?_, ?_⟩,
      ⟨b1, hier_lat s w h n nx ny A B L pin as asy hjL, b2, b3⟩,
      ⟨c1, c2, flat_get _ c1 c2, ?_⟩, by simp [single], ?_, ?_, rfl⟩
    · simpa [hier, divs_length] using a1
    · simpa [hier, divs_length] using a2
    · simp only [hier, divs_length, Nat.add_sub_cancel]; exact flat_get _ a1 a2
    · exact divs_get _ a1.le
    · exact divs_get _ a2.le
    · exact hier_rtm s w h n nx ny A B L pin as asy (hp _ hjL _ c1 _ (by omega))
    · refine Prod.ext ?_ ?_ <;> dsimp only <;> ring
    · refine Prod.ext ?_ ?_ <;> dsimp only <;> ring

theorem hier_whole (hx : 0 < nx) (hy : 0 < ny) (hA : 0 < A) (hB : 0 < B) (hp : ∀ k < L, ∀ i < nx, ∀ j < ny, pin k i j < n)
    (has : ∀ a ∈ as, a.children ≠ [] ∧ a.children.length + 1 = a.zs.length ∧ ∀ i ∈ a.children, 0 ≤ i ∧ i < L)
    (hasy : ∀ i < A, ∀ j < B, asy i j < as.length) (hn : n ≤ s.cells.length) : Whole (hier s w h n nx ny A B L pin as asy) := by
  have hne : ∀ {a b : Nat} (f : Nat → Nat → Nat), 0 < a → 0 < b → flat a b f ≠ [] := by
    intro a b f ha hb h
    have := flat_length a b f
    rw [h] at this
    have := Nat.mul_pos ha hb
    simp at *
    omega
  refine ⟨⟨hne _ hA hB, ?_, ?_⟩, ?_, ?_, ?_⟩
  · simp only [hier, divs_length, Nat.add_sub_cancel, flat_length]
  · intro x hxm
    obtain ⟨i, hi, j, hj, rfl⟩ := mem_flat hxm
    exact ⟨Int.natCast_nonneg _, by exact_mod_cast hasy i hi j hj⟩
  · intro a ha
    obtain ⟨h1, h2, h3⟩ := has a ha
    refine ⟨h1, h2, fun i hi => ⟨(h3 i hi).1, ?_⟩⟩
    simpa [hier] using (h3 i hi).2
  · intro l hl
    obtain ⟨k, hk, rfl⟩ := List.mem_map.1 hl
    refine ⟨hne _ hx hy, flat_length _ _ _, ?_⟩
    intro x hxm
    obtain ⟨i, hi, j, hj, rfl⟩ := mem_flat hxm
    refine ⟨Int.natCast_nonneg _, ?_⟩
    have := hp k (List.mem_range.1 hk) i hi j hj
    simp [hier]
    exact this
  · intro r hr
    obtain ⟨k, hk, rfl⟩ := List.mem_map.1 hr
    rw [List.mem_range] at hk
    refine ⟨by simp [single], by simp [single], ?_⟩
    intro i hi
    simp only [single, List.mem_singleton] at hi
    subst hi
    refine ⟨Int.natCast_nonneg _, ?_⟩
    simp only [hier]
    omega

end

end Verif.ModularL
