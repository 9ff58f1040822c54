import Verif.Lemmas.OverlayGrid
import Mathlib.Data.List.Sort
import Mathlib.Tactic.NormNum

/-!
# C91 The rectangles of the coarse grid
-/

namespace Verif.OverlayGrid

open Verif.Mpact hiding Lattice
open Verif.XSLib (Res)
open Verif.Overlay Verif.OverlaySpec
open Verif.ModelXdmf (places childAt)

set_option linter.unusedSectionVars false
variable {K M : Type} [Field K] [LinearOrder K]

theorem boxAt_iff (xs ys : List K) (p : Nat × Nat) (b : (K × K) × (K × K)) : boxAt xs ys p = some b ↔
    ∃ x0 x1 y0 y1, xs[p.1]? = some x0 ∧ xs[p.1 + 1]? = some x1 ∧ ys[p.2]? = some y0 ∧ ys[p.2 + 1]? = some y1 ∧
      b = ((x0, y0), (x1 - x0, y1 - y0)) := by
  unfold boxAt
  simp only [Option.bind_eq_some_iff, Option.some.injEq]
  constructor
  · rintro ⟨x0, h1, x1, h2, y0, h3, y1, h4, h5⟩; exact ⟨x0, x1, y0, y1, h1, h2, h3, h4, h5.symm⟩
  · rintro ⟨x0, x1, y0, y1, h1, h2, h3, h4, h5⟩; exact ⟨x0, h1, x1, h2, y0, h3, y1, h4, h5.symm⟩

theorem mem_elim {α β : Type} (o : Option α) (f : α → List β) (x : β) : x ∈ o.elim [] f ↔ ∃ a, o = some a ∧ x ∈ f a := by
  cases o <;> simp

theorem at_iff {α : Type} (l : List α) (i : ℤ) (a : α) : at? l i = some a ↔ 0 ≤ i ∧ l[i.toNat]? = some a := by
  unfold at?
  split
  · simp; omega
  · simp; omega

/-- The list of places is the specification. -/
theorem mem_placements (s : Model K M) (p : Path) (c : ℤ) (cut : Cut K) : (p, c, cut) ∈ placements s ↔ At s p c cut := by
  unfold placements asyOf latsOf latOf rtmsOf cellsOf At
  simp only [List.mem_flatMap, mem_elim, List.mem_filterMap, Option.bind_eq_some_iff, Option.map_eq_some_iff, mem_places, List.mem_range,
    boxAt_iff, at_iff, childAt, Prod.mk.injEq]
  constructor
  · rintro ⟨pa, ha, asy, ⟨i, hi1, hi2, hi3⟩, b, ⟨ax, ax', ay, ay', hb1, -, hb3, -, rfl⟩, k, hk, lat, ⟨j, hj1, hj2, hj3⟩, lo, hlo, hi, hhi,
      pl, hpl, rtm, ⟨r, hr1, hr2, hr3⟩, pc, hpc, c', hc', b', ⟨x0, x1, y0, y1, h1, h2, h3, h4, rfl⟩, rfl, rfl, rfl⟩
    exact ⟨i, asy, j, lat, r, rtm, ax, ay, lo, hi, x0, x1, y0, y1, ⟨ha.1, ha.2, hi1, hb1, hb3, hi2, hi3⟩, ⟨hj1, hlo, hhi, hj2, hj3⟩,
      ⟨hpl.1, hpl.2, hr1, hr2, hr3⟩, ⟨hpc.1, hpc.2, hc', h1, h2, h3, h4⟩, rfl⟩
  · rintro ⟨i, asy, j, lat, r, rtm, ax, ay, lo, hi, x0, x1, y0, y1, ⟨ha1, ha2, hi1, hb1, hb3, hi2, hi3⟩, ⟨hj1, hlo, hhi, hj2, hj3⟩,
      ⟨hpl1, hpl2, hr1, hr2, hr3⟩, ⟨hpc1, hpc2, hc', h1, h2, h3, h4⟩, rfl⟩
    have hk : p.k < asy.zs.length - 1 := by
      have := (List.getElem?_eq_some_iff.1 hhi).1; omega
    exact ⟨(p.ai, p.aj), ⟨ha1, ha2⟩, asy, ⟨i, hi1, hi2, hi3⟩, _,
      ⟨ax, s.core.xs[p.ai + 1]'(by omega), ay, s.core.ys[p.aj + 1]'(by omega), hb1, List.getElem?_eq_getElem _, hb3, List.getElem?_eq_getElem _, rfl⟩,
      p.k, hk, lat, ⟨j, hj1, hj2, hj3⟩, lo, hlo, hi, hhi,
      (p.li, p.lj), ⟨hpl1, hpl2⟩, rtm, ⟨r, hr1, hr2, hr3⟩, (p.ci, p.cj), ⟨hpc1, hpc2⟩, c, hc', _, ⟨x0, x1, y0, y1, h1, h2, h3, h4, rfl⟩, rfl, rfl, rfl⟩

theorem places_before (nx ny : Nat) : (places nx ny).Pairwise fun p q => p.2 < q.2 ∨ (p.2 = q.2 ∧ p.1 < q.1) := by
  unfold places
  rw [List.pairwise_flatMap]
  constructor
  · intro j _
    rw [List.pairwise_map]
    exact List.pairwise_lt_range.imp fun h => Or.inr ⟨rfl, h⟩
  · refine List.pairwise_lt_range.imp ?_
    intro a b hab x hx y hy
    obtain ⟨_, _, rfl⟩ := List.mem_map.1 hx
    obtain ⟨_, _, rfl⟩ := List.mem_map.1 hy
    exact Or.inl hab

theorem before_iff (p q : Path) : p.before q ↔ p.aj < q.aj ∨ p.aj = q.aj ∧ (p.ai < q.ai ∨ p.ai = q.ai ∧ (p.k < q.k ∨ p.k = q.k ∧
    (p.lj < q.lj ∨ p.lj = q.lj ∧ (p.li < q.li ∨ p.li = q.li ∧ (p.cj < q.cj ∨ p.cj = q.cj ∧ p.ci < q.ci))))) := by
  unfold Path.before
  simp [List.cons_lt_cons_iff]

/-- The places are listed in the order of the visits. -/
theorem placements_sorted (s : Model K M) : (placements s).Pairwise fun x y => x.1.before y.1 := by
  unfold placements
  rw [List.pairwise_flatMap]
  have hpre : ∀ p x, x ∈ asyOf s p → x.1.ai = p.1 ∧ x.1.aj = p.2 := by
    intro p x hx
    unfold asyOf latsOf latOf rtmsOf cellsOf at hx
    simp only [List.mem_flatMap, mem_elim, List.mem_filterMap, Option.bind_eq_some_iff, Option.map_eq_some_iff] at hx
    obtain ⟨_, _, _, _, _, _, _, _, _, _, _, _, _, _, _, _, _, _, _, _, _, _, rfl⟩ := hx
    exact ⟨rfl, rfl⟩
  constructor
  · intro p _
    unfold asyOf
    cases ((childAt (s.core.xs.length - 1) s.core.children p).bind (at? s.assemblies)) with
    | none => exact List.Pairwise.nil
    | some a =>
      cases boxAt s.core.xs s.core.ys p with
      | none => exact List.Pairwise.nil
      | some b =>
        simp only [Option.elim_some]
        unfold latsOf
        rw [List.pairwise_flatMap]
        have hpre : ∀ k x, x ∈ latOf s a p.1 p.2 b.1 k → x.1.ai = p.1 ∧ x.1.aj = p.2 ∧ x.1.k = k := by
          intro k x hx
          unfold latOf rtmsOf cellsOf at hx
          simp only [List.mem_flatMap, mem_elim, List.mem_filterMap, Option.bind_eq_some_iff, Option.map_eq_some_iff] at hx
          obtain ⟨_, _, _, _, _, _, _, _, _, _, _, _, _, _, _, _, rfl⟩ := hx
          exact ⟨rfl, rfl, rfl⟩
        constructor
        · intro k _
          unfold latOf
          cases (a.children[k]?).bind (at? s.lattices) with
          | none => exact List.Pairwise.nil
          | some l =>
            cases a.zs[k]? with
            | none => exact List.Pairwise.nil
            | some lo =>
              cases a.zs[k + 1]? with
              | none => exact List.Pairwise.nil
              | some hi =>
                simp only [Option.elim_some]
                unfold rtmsOf
                rw [List.pairwise_flatMap]
                constructor
                · intro q _
                  cases (childAt l.nx l.children q).bind (at? s.rtms) with
                  | none => exact List.Pairwise.nil
                  | some r =>
                    simp only [Option.elim_some]
                    unfold cellsOf
                    rw [List.pairwise_filterMap]
                    refine (places_before _ _).imp ?_
                    intro u v huv x hx y hy
                    simp only [Option.bind_eq_some_iff, Option.map_eq_some_iff] at hx hy
                    obtain ⟨_, _, _, _, rfl⟩ := hx
                    obtain ⟨_, _, _, _, rfl⟩ := hy
                    rw [before_iff]
                    dsimp only
                    omega
                · refine (places_before _ _).imp ?_
                  intro u v huv x hx y hy
                  unfold cellsOf at hx hy
                  simp only [mem_elim, List.mem_filterMap, Option.bind_eq_some_iff, Option.map_eq_some_iff] at hx hy
                  obtain ⟨_, _, _, _, _, _, _, _, rfl⟩ := hx
                  obtain ⟨_, _, _, _, _, _, _, _, rfl⟩ := hy
                  rw [before_iff]
                  dsimp only
                  omega
        · refine List.pairwise_lt_range.imp ?_
          intro k k' hk x hx y hy
          have h1 := hpre k x hx
          have h2 := hpre k' y hy
          rw [before_iff]
          omega
  · refine (places_before _ _).imp ?_
    intro u v huv x hx y hy
    have h1 := hpre u x hx
    have h2 := hpre v y hy
    rw [before_iff]
    omega

theorem readAll_iff {α : Type} (l : List (Option α)) (r : List α) : readAll l = .ok r ↔ l = r.map some := by
  induction l generalizing r with
  | nil => cases r <;> simp [readAll]
  | cons a l ih =>
    cases a with
    | none =>
      simp only [readAll]
      constructor
      · intro h; cases h
      · cases r <;> simp
    | some a =>
      cases r with
      | nil =>
        simp only [readAll]
        cases h : readAll l <;> simp [Res.bind]
      | cons b r =>
        simp only [readAll, List.map_cons, List.cons.injEq, Option.some.injEq]
        rw [← ih]
        cases h : readAll l with
        | ok r' => simp [Res.bind]
        | undef => simp [Res.bind]
        | refused => simp [Res.bind]

theorem readAll_undef {α : Type} (l : List (Option α)) (h : none ∈ l) : readAll l = .undef := by
  induction l with
  | nil => cases h
  | cons a l ih =>
    cases a with
    | none => rfl
    | some a =>
      simp only [List.mem_cons, reduceCtorEq, false_or] at h
      rw [readAll, ih h]; rfl

theorem first_some (P : List (Item K)) (hP : P.Pairwise fun x y => x.1.before y.1) (c : ℤ) (cut : Cut K) (h : first P c = some cut) :
    ∃ p, (p, c, cut) ∈ P ∧ ∀ q cut', (q, c, cut') ∈ P → ¬ q.before p := by
  unfold first at h
  rw [Option.map_eq_some_iff] at h
  obtain ⟨⟨p, c', cut'⟩, h1, rfl⟩ := h
  obtain ⟨h2, as, bs, rfl, h3⟩ := List.find?_eq_some_iff_append.1 h1
  simp only [beq_iff_eq] at h2
  subst h2
  refine ⟨p, by simp, fun q cut'' hq hb => ?_⟩
  rw [List.mem_append, List.mem_cons] at hq
  rw [List.pairwise_append, List.pairwise_cons] at hP
  rcases hq with hq | hq | hq
  · have := h3 _ hq; simp at this
  · simp only [Prod.mk.injEq] at hq
    rw [hq.1, before_iff] at hb
    omega
  · have h4 := hP.2.1.1 _ hq
    rw [before_iff] at h4 hb
    dsimp only at h4
    omega

/-- If every coarse cell stands somewhere in the core, each gets a rectangle: the one at the first place where it stands. -/
theorem C91_first_partial (s : Model K M) (w : Whole s) (hu : ∀ c : Nat, c < s.cells.length → ∃ p cut, At s p (c : ℤ) cut) :
    ∃ l, cuts s = .ok l ∧ l.length = s.cells.length ∧ ∀ (c : Nat) cut, l[c]? = some cut →
      ∃ p, At s p (c : ℤ) cut ∧ ∀ q cut', At s q (c : ℤ) cut' → ¬ q.before p := by
  obtain ⟨st, h1, h2⟩ := search_spec s w
  obtain ⟨h3, h4⟩ := h2.1.1.1
  have hall : ∀ c : Nat, c < s.cells.length → ∃ cut, first (placements s) (c : ℤ) = some cut := by
    intro c hc
    cases hf : first (placements s) (c : ℤ) with
    | some cut => exact ⟨cut, rfl⟩
    | none =>
      exfalso
      obtain ⟨p, cut, h⟩ := hu c hc
      rw [← mem_placements] at h
      exact (first_none _ _).1 hf (List.mem_map.2 ⟨_, h, rfl⟩)
  have hex : ∃ l : List (Cut K), st.cells = l.map some := by
    have hno : ∀ o ∈ st.cells, ∃ x, o = some x := by
      intro o ho
      obtain ⟨c, hc, rfl⟩ := List.mem_iff_getElem.1 ho
      have := h4 c (by omega)
      rw [List.getElem?_eq_getElem hc] at this
      obtain ⟨cut, hcut⟩ := hall c (by omega)
      exact ⟨cut, by rw [Option.some.injEq] at this; rw [this, hcut]⟩
    clear h1 h2 h3 h4
    generalize st.cells = L at hno
    induction L with
    | nil => exact ⟨[], rfl⟩
    | cons o L ih =>
      obtain ⟨x, rfl⟩ := hno o (by simp)
      obtain ⟨l, rfl⟩ := ih fun o ho => hno o (by simp [ho])
      exact ⟨x :: l, rfl⟩
  obtain ⟨l, hl⟩ := hex
  refine ⟨l, ?_, ?_, fun c cut hc => ?_⟩
  · unfold cuts
    rw [h1]
    exact (readAll_iff _ _).2 hl
  · rw [← h3, hl, List.length_map]
  · have hcl : c < s.cells.length := by
      have := (List.getElem?_eq_some_iff.1 hc).1
      rw [← h3, hl, List.length_map]; exact this
    have := h4 c hcl
    rw [hl, List.getElem?_map, hc, Option.map_some, Option.some.injEq] at this
    obtain ⟨p, h5, h6⟩ := first_some _ (placements_sorted s) _ _ this.symm
    refine ⟨p, (mem_placements s p _ _).1 h5, fun q cut' hq => h6 q cut' ((mem_placements s q _ _).2 hq)⟩

/-- A coarse cell that stands nowhere has no rectangle: uninitialised numbers are read. -/
theorem C91_unplaced_fails (s : Model K M) (w : Whole s) (c : Nat) (hc : c < s.cells.length) (hn : ∀ p cut, ¬ At s p (c : ℤ) cut) :
    cuts s = .undef := by
  obtain ⟨st, h1, h2⟩ := search_spec s w
  obtain ⟨h3, h4⟩ := h2.1.1.1
  unfold cuts
  rw [h1]
  refine readAll_undef _ ?_
  have := h4 c hc
  have hf : first (placements s) (c : ℤ) = none := by
    rw [first_none]
    intro hk
    obtain ⟨⟨p, c', cut⟩, hm, rfl⟩ := List.mem_map.1 hk
    exact hn p cut ((mem_placements s p _ _).1 hm)
  rw [hf] at this
  exact List.mem_of_getElem? this

/-- At one place stands one coarse cell. -/
theorem at_unique (s : Model K M) (p : Path) (c c' : ℤ) (cut cut' : Cut K) (h : At s p c cut) (h' : At s p c' cut') : c = c' := by
  obtain ⟨i, asy, j, lat, r, rtm, ax, ay, lo, hi, x0, x1, y0, y1, ⟨-, -, a1, -, -, -, a2⟩, ⟨b1, -, -, -, b2⟩, ⟨-, -, c1, -, c2⟩, ⟨-, -, d1, -⟩, -⟩ := h
  obtain ⟨i', asy', j', lat', r', rtm', ax', ay', lo', hi', x0', x1', y0', y1', ⟨-, -, a1', -, -, -, a2'⟩, ⟨b1', -, -, -, b2'⟩, ⟨-, -, c1', -, c2'⟩,
    ⟨-, -, d1', -⟩, -⟩ := h'
  rw [a1] at a1'; cases a1'
  rw [a2] at a2'; cases a2'
  rw [b1] at b1'; cases b1'
  rw [b2] at b2'; cases b2'
  rw [c1] at c1'; cases c1'
  rw [c2] at c2'; cases c2'
  rw [d1] at d1'; cases d1'
  rfl

theorem mono {l : List K} (h : l.Pairwise (· ≤ ·)) {i j : Nat} {a b : K} (hij : i ≤ j) (ha : l[i]? = some a) (hb : l[j]? = some b) : a ≤ b := by
  obtain ⟨hi, rfl⟩ := List.getElem?_eq_some_iff.1 ha
  obtain ⟨hj, rfl⟩ := List.getElem?_eq_some_iff.1 hb
  rcases Nat.lt_or_eq_of_le hij with hlt | rfl
  · exact List.pairwise_iff_getElem.1 h i j hi hj hlt
  · exact le_refl _

section
variable [IsStrictOrderedRing K]

/-- One axis: a cell lies in its module, and in its assembly. -/
theorem axis_in (a s x0 x1 : K) (i n : Nat) (a' : K) (hi : i < n) (h0 : 0 ≤ x0) (h01 : x0 ≤ x1) (h1 : x1 ≤ s) (hn : s * (n : K) ≤ a' - a) :
    a ≤ a + s * (i : K) + x0 ∧ a + s * (i : K) ≤ a + s * (i : K) + x0 ∧ a + s * (i : K) + x0 + (x1 - x0) ≤ a + s * ((i : K) + 1) ∧
      a + s * (i : K) + x0 + (x1 - x0) ≤ a' := by
  have hs : 0 ≤ s := by linarith
  have h2 : 0 ≤ s * (i : K) := mul_nonneg hs (Nat.cast_nonneg i)
  have h3 : s * ((i : K) + 1) ≤ s * (n : K) := by
    refine mul_le_mul_of_nonneg_left ?_ hs
    exact_mod_cast hi
  refine ⟨by linarith, by linarith, by linarith [mul_add s (i : K) 1], by linarith [mul_add s (i : K) 1]⟩

/-- One axis: modules of different columns are apart. -/
theorem axis_apart (a s x0 x1 x0' : K) (i j : Nat) (hij : i < j) (h0 : 0 ≤ x0) (h01 : x0 ≤ x1) (h1 : x1 ≤ s) (h0' : 0 ≤ x0') :
    a + s * (i : K) + x0 + (x1 - x0) ≤ a + s * (j : K) + x0' := by
  have hs : 0 ≤ s := by linarith
  have h3 : s * ((i : K) + 1) ≤ s * (j : K) := by
    refine mul_le_mul_of_nonneg_left ?_ hs
    exact_mod_cast hij
  linarith [mul_add s (i : K) 1]

/-- What stands at different places of objects that fit has no common interior. -/
theorem apart_of_ne (s : Model K M) (f : Fits s) (p q : Path) (c c' : ℤ) (a b : Cut K) (ha : At s p c a) (hb : At s q c' b) (hne : p ≠ q) :
    Apart a b := by
  obtain ⟨i, asy, j, lat, r, rtm, ax, ay, lo, hi, x0, x1, y0, y1, ⟨pa1, pa2, a1, a3, a4, a5, a2⟩, ⟨b1, b3, b4, b5, b2⟩, ⟨pc1, pc2, c1, c3, c2⟩,
    ⟨pd1, pd2, d1, d2, d3, d4, d5⟩, rfl⟩ := ha
  obtain ⟨i', asy', j', lat', r', rtm', ax', ay', lo', hi', x0', x1', y0', y1', ⟨pa1', pa2', a1', a3', a4', a5', a2'⟩, ⟨b1', b3', b4', b5', b2'⟩,
    ⟨pc1', pc2', c1', c3', c2'⟩, ⟨pd1', pd2', d1', d2', d3', d4', d5'⟩, rfl⟩ := hb
  have inner : ∀ (ai aj li lj ci cj k : Nat) (i j r : ℤ) (asy : Assembly K) (lat : Mpact.Lattice K) (rtm : Rect K) (ax ay x0 x1 y0 y1 : K),
      ai < s.core.xs.length - 1 → aj < s.core.ys.length - 1 → s.core.children[ai + aj * (s.core.xs.length - 1)]? = some i →
      s.core.xs[ai]? = some ax → s.core.ys[aj]? = some ay → s.assemblies[i.toNat]? = some asy → asy.children[k]? = some j →
      s.lattices[j.toNat]? = some lat → li < lat.nx → lj < lat.ny → lat.children[li + lj * lat.nx]? = some r → s.rtms[r.toNat]? = some rtm →
      rtm.xs[ci]? = some x0 → rtm.xs[ci + 1]? = some x1 → rtm.ys[cj]? = some y0 → rtm.ys[cj + 1]? = some y1 →
      ∃ bx bY, s.core.xs[ai + 1]? = some bx ∧ s.core.ys[aj + 1]? = some bY ∧
        (0 ≤ x0 ∧ x0 ≤ x1 ∧ x1 ≤ lat.spacing.1 ∧ lat.spacing.1 * (lat.nx : K) ≤ bx - ax) ∧
        (0 ≤ y0 ∧ y0 ≤ y1 ∧ y1 ≤ lat.spacing.2 ∧ lat.spacing.2 * (lat.ny : K) ≤ bY - ay) := by
    intro ai aj li lj ci cj k i j r asy lat rtm ax ay x0 x1 y0 y1 h1 h2 h3 h4 h5 h6 h7 h8 h9 h10 h11 h12 h13 h14 h15 h16
    have hx : s.core.xs[ai + 1]? = some (s.core.xs[ai + 1]'(by omega)) := List.getElem?_eq_getElem _
    have hy : s.core.ys[aj + 1]? = some (s.core.ys[aj + 1]'(by omega)) := List.getElem?_eq_getElem _
    obtain ⟨f1, f2⟩ := f.inCore ai aj i j asy lat _ _ _ _ h3 h6 (List.mem_of_getElem? h7) h8 h4 hx h5 hy
    obtain ⟨f3, f4⟩ := f.inLat lat (List.mem_of_getElem? h8) r (List.mem_of_getElem? h11) rtm h12
    obtain ⟨f5, f6, f7, f8⟩ := f.rtm rtm (List.mem_of_getElem? h12)
    exact ⟨_, _, hx, hy, ⟨f7 _ (List.mem_of_getElem? h13), mono f5 (Nat.le_succ _) h13 h14, f3 _ (List.mem_of_getElem? h14), f1⟩,
      ⟨f8 _ (List.mem_of_getElem? h15), mono f6 (Nat.le_succ _) h15 h16, f4 _ (List.mem_of_getElem? h16), f2⟩⟩
  obtain ⟨bx, bY, e1, e2, X, Y⟩ := inner p.ai p.aj p.li p.lj p.ci p.cj p.k i j r asy lat rtm ax ay x0 x1 y0 y1 pa1 pa2 a1 a3 a4 a2 b1 b2 pc1 pc2 c1 c2
    d2 d3 d4 d5
  obtain ⟨bx', bY', e1', e2', X', Y'⟩ := inner q.ai q.aj q.li q.lj q.ci q.cj q.k i' j' r' asy' lat' rtm' ax' ay' x0' x1' y0' y1' pa1' pa2' a1' a3' a4' a2'
    b1' b2' pc1' pc2' c1' c2' d2' d3' d4' d5'
  have AX := axis_in ax lat.spacing.1 x0 x1 p.li lat.nx bx pc1 X.1 X.2.1 X.2.2.1 X.2.2.2
  have AY := axis_in ay lat.spacing.2 y0 y1 p.lj lat.ny bY pc2 Y.1 Y.2.1 Y.2.2.1 Y.2.2.2
  have AX' := axis_in ax' lat'.spacing.1 x0' x1' q.li lat'.nx bx' pc1' X'.1 X'.2.1 X'.2.2.1 X'.2.2.2
  have AY' := axis_in ay' lat'.spacing.2 y0' y1' q.lj lat'.ny bY' pc2' Y'.1 Y'.2.1 Y'.2.2.1 Y'.2.2.2
  rintro x y z ⟨⟨k1, k2, k3, k4, k5, k6⟩, l1, l2, l3, l4, l5, l6⟩
  dsimp only at k1 k2 k3 k4 k5 k6 l1 l2 l3 l4 l5 l6
  -- assemblies
  rcases Nat.lt_trichotomy p.ai q.ai with h | h | h
  · have := mono f.core.1 h e1 a3'; linarith [AX.2.2.2, AX'.1]
  rotate_left
  · have := mono f.core.1 h e1' a3; linarith [AX'.2.2.2, AX.1]
  have hai := h
  rcases Nat.lt_trichotomy p.aj q.aj with h | h | h
  · have := mono f.core.2 h e2 a4'; linarith [AY.2.2.2, AY'.1]
  rotate_left
  · have := mono f.core.2 h e2' a4; linarith [AY'.2.2.2, AY.1]
  have haj := h
  rw [← hai, ← haj] at a1'
  rw [← hai] at a3'
  rw [← haj] at a4'
  rw [a1] at a1'; cases a1'
  rw [a2] at a2'; cases a2'
  rw [a3] at a3'; cases a3'
  rw [a4] at a4'; cases a4'
  -- lattices
  have hz := f.asy asy (List.mem_of_getElem? a2)
  rcases Nat.lt_trichotomy p.k q.k with h | h | h
  · have h1 := mono hz h b4 b3'
    have h2 := mono hz (Nat.le_succ _) b3' b4'
    linarith
  rotate_left
  · have h1 := mono hz h b4' b3
    have h2 := mono hz (Nat.le_succ _) b3 b4
    linarith
  have hk := h
  rw [← hk] at b1'
  rw [b1] at b1'; cases b1'
  rw [b2] at b2'; cases b2'
  -- modules
  rcases Nat.lt_trichotomy p.li q.li with h | h | h
  · have := axis_apart ax lat.spacing.1 x0 x1 x0' p.li q.li h X.1 X.2.1 X.2.2.1 X'.1; linarith
  rotate_left
  · have := axis_apart ax lat.spacing.1 x0' x1' x0 q.li p.li h X'.1 X'.2.1 X'.2.2.1 X.1; linarith
  have hli := h
  rcases Nat.lt_trichotomy p.lj q.lj with h | h | h
  · have := axis_apart ay lat.spacing.2 y0 y1 y0' p.lj q.lj h Y.1 Y.2.1 Y.2.2.1 Y'.1; linarith
  rotate_left
  · have := axis_apart ay lat.spacing.2 y0' y1' y0 q.lj p.lj h Y'.1 Y'.2.1 Y'.2.2.1 Y.1; linarith
  have hlj := h
  rw [← hli, ← hlj] at c1'
  rw [c1] at c1'; cases c1'
  rw [c2] at c2'; cases c2'
  rw [← hli] at l1 l2
  rw [← hlj] at l3 l4
  -- cells
  obtain ⟨f5, f6, -⟩ := f.rtm rtm (List.mem_of_getElem? c2)
  rcases Nat.lt_trichotomy p.ci q.ci with h | h | h
  · have := mono f5 h d3 d2'; linarith
  rotate_left
  · have := mono f5 h d3' d2; linarith
  have hci := h
  rcases Nat.lt_trichotomy p.cj q.cj with h | h | h
  · have := mono f6 h d5 d4'; linarith
  rotate_left
  · have := mono f6 h d5' d4; linarith
  have hcj := h
  apply hne
  cases p; cases q
  simp only at hai haj hk hli hlj hci hcj
  subst hai haj hk hli hlj hci hcj
  rfl

/-- If the objects fit, the boxes of different coarse cells have no common interior. -/
theorem C91_apart (s : Model K M) (w : Whole s) (f : Fits s) (l : List (Cut K)) (h : cuts s = .ok l) (c c' : Nat) (a b : Cut K)
    (ha : l[c]? = some a) (hb : l[c']? = some b) (hne : c ≠ c') : Apart a b := by
  have hu : ∀ c : Nat, c < s.cells.length → ∃ p cut, At s p (c : ℤ) cut := by
    intro c hc
    by_contra hn
    have := C91_unplaced_fails s w c hc (fun p cut h => hn ⟨p, cut, h⟩)
    rw [h] at this; cases this
  obtain ⟨l', h1, _, h3⟩ := C91_first_partial s w hu
  rw [h] at h1; cases h1
  obtain ⟨p, hp, _⟩ := h3 c a ha
  obtain ⟨q, hq, _⟩ := h3 c' b hb
  refine apart_of_ne s f p q _ _ a b hp hq ?_
  rintro rfl
  exact hne (by exact_mod_cast at_unique s p _ _ a b hp hq)

end

/-! ## A concrete model -/

/-- Two modules, of one and of two cells, in a lattice of two columns; two assemblies of one lattice. -/
def exS : Model ℚ Unit where
  core := ⟨[0, 4, 8], [0, 2], [0, 0]⟩
  assemblies := [⟨[0, 1, 3], [0, 0]⟩]
  lattices := [⟨(2, 2), 2, 1, [1, 0]⟩]
  rtms := [⟨[0, 2], [0, 2], [0]⟩, ⟨[0, 1, 2], [0, 2], [1, 2]⟩]
  cells := [⟨(2, 2), .Invalid, -1, []⟩, ⟨(1, 2), .Invalid, -1, []⟩, ⟨(1, 2), .Invalid, -1, []⟩]
  materials := []
  tris := []
  quads := []
  tri6s := []
  quad8s := []

example : Whole exS := by
  refine ⟨by unfold exS; decide, by unfold exS; decide, by unfold exS; decide, by unfold exS; decide⟩

example : (match cuts exS with | .ok l => l | _ => []) =
    [⟨(2, 0, 1 / 2), (2, 2, 1 / 2)⟩, ⟨(0, 0, 1 / 2), (1, 2, 1 / 2)⟩, ⟨(1, 0, 1 / 2), (1, 2, 1 / 2)⟩] := by decide +kernel

example : Fits exS := by
  refine ⟨by unfold exS; decide +kernel, by unfold exS; decide +kernel, by unfold exS; decide +kernel, ?_, ?_⟩
  · intro l hl i hi r hr
    simp only [exS, List.mem_singleton] at hl
    subst hl
    simp only [List.mem_cons, List.not_mem_nil, or_false] at hi
    rcases hi with rfl | rfl <;> simp [exS] at hr <;> subst hr <;> decide +kernel
  · intro ai aj i j a l x0 x1 y0 y1 h1 h2 h3 h4 h5 h6 h7 h8
    have hi : i = 0 := by
      have := List.mem_of_getElem? h1
      simpa [exS] using this
    subst hi
    simp [exS] at h2
    subst h2
    have hj : j = 0 := by simpa using h3
    subst hj
    simp [exS] at h4
    subst h4
    match ai, aj, h5, h6, h7, h8 with
    | 0, 0, h5, h6, h7, h8 =>
      simp [exS] at h5 h6 h7 h8; subst h5 h6 h7 h8; decide +kernel
    | 1, 0, h5, h6, h7, h8 =>
      simp [exS] at h5 h6 h7 h8; subst h5 h6 h7 h8; decide +kernel
    | 0, aj + 1, h5, h6, h7, h8 => simp [exS] at h8
    | 1, aj + 1, h5, h6, h7, h8 => simp [exS] at h8
    | ai + 2, aj, h5, h6, h7, h8 => simp [exS] at h6

/-! ## Modules that fit up to the tolerance only -/

/-- Two modules whose widths differ by less than the tolerance 1/100, the wider one first in the lattice. -/
def exT : Option (Model ℚ Unit) :=
  (addCoarseCell (Model.empty ℚ Unit) (1, 1) .Invalid (-1) []).bind fun r =>
  (addCoarseCell r.1 (201 / 200, 1) .Invalid (-1) []).bind fun r =>
  (addRTM (List.insertionSort (· ≤ ·)) (1 / 100) r.1 [[0]]).bind fun r =>
  (addRTM (List.insertionSort (· ≤ ·)) (1 / 100) r.1 [[1]]).bind fun r =>
  (addLattice r.1 [[1, 0]]).bind fun r =>
  (addAssembly (1 / 100) r.1 [0] [-1 / 2, 1 / 2]).bind fun r =>
  (addCore (List.insertionSort (· ≤ ·)) (1 / 100) r.1 [[0]]).map fun r => r.1

/-- `Fits` is needed, and the modifiers do not guarantee it: the rectangles of two coarse cells overlap by a sliver. -/
theorem C91_tolerance_fails : ∃ s a b, exT = some s ∧ cuts s = .ok [a, b] ∧ ¬ Apart a b := by
  have h : (match exT with
    | some s => match cuts s with
      | .ok l => l
      | _ => []
    | none => []) = [⟨(1, 0, 0), (1, 1, 1 / 2)⟩, ⟨(0, 0, 0), (201 / 200, 1, 1 / 2)⟩] := by decide +kernel
  cases hs : exT with
  | none => rw [hs] at h; cases h
  | some s =>
    rw [hs] at h
    dsimp only at h
    cases hc : cuts s with
    | undef => rw [hc] at h; cases h
    | refused => rw [hc] at h; cases h
    | ok l =>
      rw [hc] at h
      dsimp only at h
      subst h
      refine ⟨s, _, _, rfl, hc, ?_⟩
      intro hap
      exact hap (401 / 400) (1 / 2) (1 / 4) (by norm_num)

end Verif.OverlayGrid
