import Verif.Lemmas.ModelSoupLoops

/-! Helper lemmas for the soup of a model: module, lattice, assembly, core. -/

set_option linter.unusedSectionVars false
set_option linter.unusedVariables false

namespace Verif.ModelSoup

open Verif.Mpact Verif.ModelXdmf Verif.Polytope Verif.Phys Verif.CmfdInfo
open Verif.Pin (Mesh)
open Verif.Str (Byte)
open Verif.XSLib (Res)

/-- The visits so far. -/
structure Vs where
  A : List (AsyAt × Nat)
  L : List (LatAt × Nat)
  R : List (RtmAt × Nat)
  C : List (CellAt × Nat)

def Vs.add (V W : Vs) : Vs := ⟨V.A ++ W.A, V.L ++ W.L, V.R ++ W.R, V.C ++ W.C⟩

/-- All visits of a loop. -/
def total {α : Type} (Δ : α → Vs) (l : List α) : Vs :=
  ⟨l.flatMap fun x => (Δ x).A, l.flatMap fun x => (Δ x).L, l.flatMap fun x => (Δ x).R, l.flatMap fun x => (Δ x).C⟩

section
variable {K M : Type} [Field K] [LinearOrder K]

/-- The names of a mark are those of its visits. -/
def Tag (V : Vs) (m : Mark K) : Prop :=
  (∃ id k : Nat, (asyAt m.tile.path, id, k) ∈ numbered V.A ∧ m.nA = visitName preAsy id k) ∧
  (∃ id k : Nat, (latAt m.tile.path, id, k) ∈ numbered V.L ∧ m.nL = visitName preLat id k) ∧
  (∃ id k : Nat, (rtmAt m.tile.path, id, k) ∈ numbered V.R ∧ m.nR = visitName preRtm id k) ∧
  (∃ k : Nat, (cellAt m.tile.path, m.tile.id, k) ∈ numbered V.C ∧ m.nC = visitName preCell m.tile.id k)

theorem Tag.add {V : Vs} {m : Mark K} (h : Tag V m) (W : Vs) : Tag (V.add W) m := by
  obtain ⟨⟨a, b, h1, h2⟩, ⟨c, d, h3, h4⟩, ⟨e, f, h5, h6⟩, ⟨g, h7, h8⟩⟩ := h
  exact ⟨⟨a, b, mem_numbered_append _ _ _ h1, h2⟩, ⟨c, d, mem_numbered_append _ _ _ h3, h4⟩,
    ⟨e, f, mem_numbered_append _ _ _ h5, h6⟩, ⟨g, mem_numbered_append _ _ _ h7, h8⟩⟩

/-- The counters. -/
structure Ctrs (s : Model K M) (fd : Found) (V : Vs) : Prop where
  a : Ctr fd.asy s.assemblies.length V.A
  l : Ctr fd.lat s.lattices.length V.L
  r : Ctr fd.rtm s.rtms.length V.R
  c : Ctr fd.cell s.cells.length V.C

/-- The state of a loop: the visits so far, and the marks of the soup of this loop. -/
structure Inv (E : Env K) (xsec : M → XSec K) (s : Model K M) (st : Found × CSoup K) (V : Vs) (ms : List (Mark K)) : Prop where
  ctrs : Ctrs s st.1 V
  made : Made IsData st.2 (ms.map (partOf E xsec s))
  tags : ∀ m ∈ ms, Tag V m

/-- Place and cell of a mark. -/
def Mark.visit (m : Mark K) : CellAt × Nat := (cellAt m.tile.path, m.tile.id)

theorem loop_ok {α : Type} (E : Env K) (xsec : M → XSec K) (s : Model K M) (f : Found × CSoup K → α → Res (Found × CSoup K)) (Δ : α → Vs)
    (Q : α → Tile K → Prop) (P : Vs → Prop) (hP : ∀ V W, P V → P (V.add W)) :
    ∀ (l : List α) (st : Found × CSoup K) (V : Vs) (ms : List (Mark K)), Inv E xsec s st V ms → P V →
    (∀ x ∈ l, ∀ st V ms, Inv E xsec s st V ms → P V → ∃ st' new, f st x = .ok st' ∧ Inv E xsec s st' (V.add (Δ x)) (ms ++ new) ∧
      new ≠ [] ∧ new.map Mark.visit = (Δ x).C ∧ (∀ t, t ∈ new.map (·.tile) ↔ Q x t)) →
    ∃ st' new, loop f st l = .ok st' ∧ Inv E xsec s st' (V.add (total Δ l)) (ms ++ new) ∧ (l ≠ [] → new ≠ []) ∧
      new.map Mark.visit = (total Δ l).C ∧ (∀ t, t ∈ new.map (·.tile) ↔ ∃ x ∈ l, Q x t) := by
  intro l
  induction l with
  | nil =>
    intro st V ms h _ _
    refine ⟨st, [], rfl, ?_, by simp, rfl, by simp⟩
    have : V.add (total Δ []) = V := by simp [Vs.add, total]
    rw [this, List.append_nil]
    exact h
  | cons x l ih =>
    intro st V ms h hp hf
    obtain ⟨st1, new1, e1, i1, n1, c1, q1⟩ := hf x (by simp) st V ms h hp
    obtain ⟨st2, new2, e2, i2, n2, c2, q2⟩ := ih st1 _ _ i1 (hP _ _ hp) fun y hy => hf y (by simp [hy])
    refine ⟨st2, new1 ++ new2, by rw [loop, e1, ok_bind, e2], ?_, fun _ => by simp [n1], ?_, ?_⟩
    · have : (V.add (Δ x)).add (total Δ l) = V.add (total Δ (x :: l)) := by simp [Vs.add, total]
      rw [← this, ← List.append_assoc]
      exact i2
    · rw [List.map_append, c1, c2]; simp [total]
    · intro t
      rw [List.map_append, List.mem_append, q1, q2]
      simp

variable (E : Env K) (lt : Name → Name → Bool) (hE : Sorts E lt) (xsec : M → XSec K) (s : Model K M) (xs : List K)

include hE in
theorem plus_ok (a b : CSoup K) (ps qs : List (Part K)) (ha : Made IsData a ps) (hb : Made IsData b qs) (hne : qs ≠ []) :
    ∃ r, plus E a b = .ok r ∧ Made IsData r (ps ++ qs) := by
  obtain ⟨r, e, h⟩ := Made.plus IsData E lt hE.names a b ps qs ha hb hne
  exact ⟨r, by unfold plus; rw [e]; rfl, h⟩

theorem visit_head (pre : Name) (x : Byte) (h : pre.head? = some x) (id k : ℤ) : (visitName pre id k).head? = some x := by
  unfold visitName nodeName
  cases pre with
  | nil => cases h
  | cons b l => simpa using h

/-- The visits around a module. -/
def Around (pa : AsyAt) (k : Nat) (pr : Nat × Nat) (nR nL nA : Name) (V : Vs) : Prop :=
  (∃ id j : Nat, (pa, id, j) ∈ numbered V.A ∧ nA = visitName preAsy id j) ∧
  (∃ id j : Nat, ((pa, k), id, j) ∈ numbered V.L ∧ nL = visitName preLat id j) ∧
  (∃ id j : Nat, (((pa, k), pr), id, j) ∈ numbered V.R ∧ nR = visitName preRtm id j)

theorem Around.add {pa : AsyAt} {k : Nat} {pr : Nat × Nat} {nR nL nA : Name} {V : Vs} (h : Around pa k pr nR nL nA V) (W : Vs) :
    Around pa k pr nR nL nA (V.add W) := by
  obtain ⟨⟨a, b, h1, h2⟩, ⟨c, d, h3, h4⟩, ⟨e, f, h5, h6⟩⟩ := h
  exact ⟨⟨a, b, mem_numbered_append _ _ _ h1, h2⟩, ⟨c, d, mem_numbered_append _ _ _ h3, h4⟩, ⟨e, f, mem_numbered_append _ _ _ h5, h6⟩⟩

/-- The cells of a module as visits. -/
def dRtm (o : RtmAt) (r : Rect K) (p : Nat × Nat) : Vs := ⟨[], [], [], kid o (r.xs.length - 1) r.children p⟩

include hE in
theorem rtm_ok (hB : Built s s.cells.length) (hM : Meshed s) (hxs : Sections xsec s xs) (pa : AsyAt) (k : Nat) (pr : Nat × Nat)
    (nR nL nA : Name) (asy off : K × K) (z : K) (rid : Nat) (r : Rect K) (hr : s.rtms[rid]? = some r) (fd : Found) (V : Vs)
    (hc : Ctrs s fd V) (ha : Around pa k pr nR nL nA V) :
    ∃ st ms, rtmSoup E s xs nR nL nA asy off z fd (rid : ℤ) = .ok st ∧
      Inv E xsec s st (V.add ⟨[], [], [], cellKids s (((pa, k), pr), rid)⟩) ms ∧ ms ≠ [] ∧
      ms.map Mark.visit = cellKids s (((pa, k), pr), rid) ∧
      (∀ t, t ∈ ms.map (·.tile) ↔ ∃ p ∈ places (r.xs.length - 1) (r.ys.length - 1), QCell pa k pr r (asy.1 + off.1, asy.2 + off.2) z p t) := by
  obtain ⟨b1, b2, b3, -, -⟩ := hB.rtm r (List.mem_of_getElem? hr)
  unfold rtmSoup
  rw [at_nat, hr, of_some, ok_bind, if_neg b1]
  have key := loop_ok E xsec s (fun (st : Found × CSoup K) p =>
    (Res.ofOption (childAt (r.xs.length - 1) r.children p)).bind fun c =>
    (Res.ofOption (bump st.1.cell c)).bind fun b =>
    (Res.ofOption (corner r.xs r.ys p)).bind fun lo =>
    (cellSoup E s xs (visitName preCell c b.2) nR nL nA (lo.1 + off.1 + asy.1, lo.2 + off.2 + asy.2, z) c).bind fun cs =>
    (plus E st.2 cs).bind fun soup => .ok ({ st.1 with cell := b.1 }, soup)) (dRtm ((pa, k), pr) r)
    (QCell pa k pr r (asy.1 + off.1, asy.2 + off.2) z) (Around pa k pr nR nL nA) (fun V W h => h.add W)
    (places (r.xs.length - 1) (r.ys.length - 1)) (fd, empty) V [] ⟨hc, by simpa using made_empty IsData, by simp⟩ ha ?_
  · obtain ⟨st, ms, e, i, n, c, q⟩ := key
    have htot : total (dRtm ((pa, k), pr) r) (places (r.xs.length - 1) (r.ys.length - 1)) =
        ⟨[], [], [], cellKids s (((pa, k), pr), rid)⟩ := by
      unfold cellKids
      simp only [hr, kids_eq]
      simp [total, dRtm]
    rw [htot] at i c
    refine ⟨st, ms, e, by simpa using i, n ?_, c, q⟩
    intro hp
    have hz : r.children.length = 0 := by
      rw [b2]
      have hl := congrArg List.length hp
      simpa [places, Nat.mul_comm] using hl
    exact b1 (List.length_eq_zero_iff.1 hz)
  · intro p hp st V ms h hA
    rw [mem_places] at hp
    obtain ⟨c, hcl, e⟩ := child_some _ _ _ _ b2 b3 p hp.1 hp.2
    have hx0 : p.1 < r.xs.length := by omega
    have hx1 : p.1 + 1 < r.xs.length := by omega
    have hy0 : p.2 < r.ys.length := by omega
    have hy1 : p.2 + 1 < r.ys.length := by omega
    obtain ⟨fc, e2, hfc⟩ := bump_ok st.1.cell s.cells.length V.C h.ctrs.c (((pa, k), pr), p) c hcl
    rw [e, of_some, ok_bind, e2, of_some, ok_bind, corner_some _ _ _ hx0 hy0, of_some, ok_bind]
    dsimp only
    let m : Mark K := ⟨⟨⟨pa, k, pr, p⟩, c, (r.xs[p.1] + off.1 + asy.1, r.ys[p.2] + off.2 + asy.2),
      (r.xs[p.1 + 1] + off.1 + asy.1, r.ys[p.2 + 1] + off.2 + asy.2), z⟩,
      visitName preCell c (times V.C c), nR, nL, nA⟩
    have hheads : Heads m := by
      obtain ⟨⟨_, _, _, h2⟩, ⟨_, _, _, h4⟩, ⟨_, _, _, h6⟩⟩ := hA
      exact ⟨visit_head _ _ rfl _ _, by show nR.head? = _; rw [h6]; exact visit_head _ _ rfl _ _,
        by show nL.head? = _; rw [h4]; exact visit_head _ _ rfl _ _, by show nA.head? = _; rw [h2]; exact visit_head _ _ rfl _ _⟩
    obtain ⟨cs, e3, hcs⟩ := cellSoup_ok E lt hE.pairs hE.perm xsec s hM xs hxs m hheads hcl
    obtain ⟨soup, e4, hsoup⟩ := plus_ok E lt hE st.2 cs _ _ h.made hcs (by simp)
    have hkid : dRtm ((pa, k), pr) r p = ⟨[], [], [], [((((pa, k), pr), p), c)]⟩ := by
      unfold dRtm kid
      rw [e]
      simp
    refine ⟨({ st.1 with cell := fc }, soup), [m], ?_, ?_, by simp, ?_, ?_⟩
    · have e3' : cellSoup E s xs (visitName preCell c (times V.C c)) nR nL nA
          (r.xs[p.1] + off.1 + asy.1, r.ys[p.2] + off.2 + asy.2, z) c = .ok cs := e3
      rw [e3', ok_bind, e4, ok_bind]
    · rw [hkid]
      refine ⟨?_, by rw [List.map_append]; exact hsoup, ?_⟩
      · have hctr := h.ctrs
        exact ⟨by simpa [Vs.add] using hctr.a, by simpa [Vs.add] using hctr.l, by simpa [Vs.add] using hctr.r, hfc⟩
      · intro m' hm'
        rcases List.mem_append.1 hm' with hm' | hm'
        · exact (h.tags m' hm').add _
        · rw [List.mem_singleton] at hm'
          subst hm'
          obtain ⟨⟨a, b, h1, h2⟩, ⟨c', d, h3, h4⟩, ⟨e', f, h5, h6⟩⟩ := hA.add ⟨[], [], [], [((((pa, k), pr), p), c)]⟩
          refine ⟨⟨a, b, h1, h2⟩, ⟨c', d, h3, h4⟩, ⟨e', f, h5, h6⟩, times V.C c, ?_, rfl⟩
          simp only [Vs.add]
          rw [numbered_snoc]
          exact List.mem_append_right _ (by simp [m, cellAt])
    · rw [hkid]
      rfl
    · intro t
      simp only [List.map_cons, List.map_nil, List.mem_singleton]
      unfold childAt at e
      constructor
      · rintro rfl
        refine ⟨rfl, _, _, _, _, e, List.getElem?_eq_getElem hx0, List.getElem?_eq_getElem hx1, List.getElem?_eq_getElem hy0,
          List.getElem?_eq_getElem hy1, ?_, ?_, rfl⟩
        · dsimp only [m]; congr 1 <;> ring
        · dsimp only [m]; congr 1 <;> ring
      · rintro ⟨g1, x0, x1, y0, y1, g2, g3, g4, g5, g6, g7, g8, g9⟩
        rw [List.getElem?_eq_getElem hx0, Option.some.injEq] at g3
        rw [List.getElem?_eq_getElem hx1, Option.some.injEq] at g4
        rw [List.getElem?_eq_getElem hy0, Option.some.injEq] at g5
        rw [List.getElem?_eq_getElem hy1, Option.some.injEq] at g6
        rw [e, Option.some.injEq, Int.natCast_inj] at g2
        obtain ⟨tp, ti, tl, th, tz⟩ := t
        simp only at g1 g2 g7 g8 g9
        subst g1 g2 g3 g4 g5 g6 g7 g8 g9
        simp only [m, Tile.mk.injEq, Prod.mk.injEq, true_and, and_true]
        refine ⟨⟨?_, ?_⟩, ?_, ?_⟩ <;> ring

/-- The modules of a lattice as visits. -/
def dLat (s : Model K M) (o : LatAt) (l : Mpact.Lattice K) (p : Nat × Nat) : Vs :=
  ⟨[], [], kid o l.nx l.children p, (kid o l.nx l.children p).flatMap (cellKids s)⟩

def AroundL (pa : AsyAt) (k : Nat) (nL nA : Name) (V : Vs) : Prop :=
  (∃ id j : Nat, (pa, id, j) ∈ numbered V.A ∧ nA = visitName preAsy id j) ∧
  (∃ id j : Nat, ((pa, k), id, j) ∈ numbered V.L ∧ nL = visitName preLat id j)

theorem AroundL.add {pa : AsyAt} {k : Nat} {nL nA : Name} {V : Vs} (h : AroundL pa k nL nA V) (W : Vs) : AroundL pa k nL nA (V.add W) := by
  obtain ⟨⟨a, b, h1, h2⟩, ⟨c, d, h3, h4⟩⟩ := h
  exact ⟨⟨a, b, mem_numbered_append _ _ _ h1, h2⟩, ⟨c, d, mem_numbered_append _ _ _ h3, h4⟩⟩

include hE in
theorem lat_ok (hB : Built s s.cells.length) (hM : Meshed s) (hxs : Sections xsec s xs) (pa : AsyAt) (k : Nat)
    (nL nA : Name) (asy : K × K) (z : K) (lid : Nat) (l : Mpact.Lattice K) (hl : s.lattices[lid]? = some l) (fd : Found) (V : Vs)
    (hc : Ctrs s fd V) (ha : AroundL pa k nL nA V) :
    ∃ st ms, latSoup E s xs nL nA asy z fd (lid : ℤ) = .ok st ∧
      Inv E xsec s st (V.add ⟨[], [], rtmKids s ((pa, k), lid), (rtmKids s ((pa, k), lid)).flatMap (cellKids s)⟩) ms ∧ ms ≠ [] ∧
      ms.map Mark.visit = (rtmKids s ((pa, k), lid)).flatMap (cellKids s) ∧
      (∀ t, t ∈ ms.map (·.tile) ↔ ∃ pr ∈ places l.nx l.ny, QRtm s pa k l asy z pr t) := by
  obtain ⟨b1, b2, b3, -, -⟩ := hB.lat l (List.mem_of_getElem? hl)
  unfold latSoup
  rw [at_nat, hl, of_some, ok_bind, if_neg b1]
  have key := loop_ok E xsec s (fun (st : Found × CSoup K) p =>
    (Res.ofOption (childAt l.nx l.children p)).bind fun c =>
    (Res.ofOption (bump st.1.rtm c)).bind fun b =>
    (rtmSoup E s xs (visitName preRtm c b.2) nL nA asy ((p.1 : K) * l.spacing.1, (p.2 : K) * l.spacing.2) z
      { st.1 with rtm := b.1 } c).bind fun rs =>
    (plus E st.2 rs.2).bind fun soup => .ok (rs.1, soup)) (dLat s (pa, k) l)
    (QRtm s pa k l asy z) (AroundL pa k nL nA) (fun V W h => h.add W)
    (places l.nx l.ny) (fd, empty) V [] ⟨hc, by simpa using made_empty IsData, by simp⟩ ha ?_
  · obtain ⟨st, ms, e, i, n, c, q⟩ := key
    have htot : total (dLat s (pa, k) l) (places l.nx l.ny) =
        ⟨[], [], rtmKids s ((pa, k), lid), (rtmKids s ((pa, k), lid)).flatMap (cellKids s)⟩ := by
      have : rtmKids s ((pa, k), lid) = (places l.nx l.ny).flatMap (kid (pa, k) l.nx l.children) := by
        unfold rtmKids
        simp only [hl, kids_eq]
      rw [this, List.flatMap_assoc]
      simp [total, dLat]
    rw [htot] at i c
    refine ⟨st, ms, e, by simpa using i, n ?_, c, q⟩
    intro hp
    have hz : l.children.length = 0 := by
      rw [b2]
      have hl := congrArg List.length hp
      simpa [places, Nat.mul_comm] using hl
    exact b1 (List.length_eq_zero_iff.1 hz)
  · intro p hp st V ms h hA
    rw [mem_places] at hp
    obtain ⟨c, hcl, e⟩ := child_some _ _ _ _ b2 b3 p hp.1 hp.2
    obtain ⟨r, hr⟩ := get_of_lt s.rtms c hcl
    obtain ⟨fc, e2, hfc⟩ := bump_ok st.1.rtm s.rtms.length V.R h.ctrs.r ((pa, k), p) c hcl
    rw [e, of_some, ok_bind, e2, of_some, ok_bind]
    dsimp only
    have hctr : Ctrs s { st.1 with rtm := fc } (V.add ⟨[], [], [(((pa, k), p), c)], []⟩) :=
      ⟨by simpa [Vs.add] using h.ctrs.a, by simpa [Vs.add] using h.ctrs.l, hfc, by simpa [Vs.add] using h.ctrs.c⟩
    have haround : Around pa k p (visitName preRtm c (times V.R c)) nL nA (V.add ⟨[], [], [(((pa, k), p), c)], []⟩) := by
      obtain ⟨h1, h2⟩ := hA.add ⟨[], [], [(((pa, k), p), c)], []⟩
      refine ⟨h1, h2, c, times V.R c, ?_, rfl⟩
      simp only [Vs.add]
      rw [numbered_snoc]
      exact List.mem_append_right _ (by simp)
    obtain ⟨rs, new, e3, i3, n3, c3, q3⟩ := rtm_ok E lt hE xsec s xs hB hM hxs pa k p _ nL nA asy
      ((p.1 : K) * l.spacing.1, (p.2 : K) * l.spacing.2) z c r hr _ _ hctr haround
    obtain ⟨soup, e4, hsoup⟩ := plus_ok E lt hE st.2 rs.2 _ _ h.made i3.made (by simpa using n3)
    have hkid : dLat s (pa, k) l p = ⟨[], [], [(((pa, k), p), c)], cellKids s (((pa, k), p), c)⟩ := by
      unfold dLat kid
      rw [e]
      simp
    refine ⟨(rs.1, soup), new, ?_, ?_, n3, ?_, ?_⟩
    · rw [e3, ok_bind, e4, ok_bind]
    · rw [hkid]
      have hV : (V.add ⟨[], [], [(((pa, k), p), c)], []⟩).add ⟨[], [], [], cellKids s (((pa, k), p), c)⟩ =
          V.add ⟨[], [], [(((pa, k), p), c)], cellKids s (((pa, k), p), c)⟩ := by simp [Vs.add]
      rw [hV] at i3
      refine ⟨i3.ctrs, by rw [List.map_append]; exact hsoup, ?_⟩
      intro m' hm'
      rcases List.mem_append.1 hm' with hm' | hm'
      · exact (h.tags m' hm').add _
      · exact i3.tags m' hm'
    · rw [hkid]
      exact c3
    · intro t
      rw [q3]
      unfold childAt at e
      constructor
      · intro ht
        exact ⟨c, r, e, hr, ht⟩
      · rintro ⟨c', r', g1, g2, ht⟩
        rw [e, Option.some.injEq, Int.natCast_inj] at g1
        subst g1
        rw [hr, Option.some.injEq] at g2
        subst g2
        exact ht

/-- The lattices of an assembly as visits. -/
def latKid (o : AsyAt) (a : Assembly K) (k : Nat) : List (LatAt × Nat) := ((a.children[k]?).map fun c => ((o, k), c.toNat)).toList

def dAsy (s : Model K M) (o : AsyAt) (a : Assembly K) (k : Nat) : Vs :=
  ⟨[], latKid o a k, (latKid o a k).flatMap (rtmKids s), ((latKid o a k).flatMap (rtmKids s)).flatMap (cellKids s)⟩

def AroundA (pa : AsyAt) (nA : Name) (V : Vs) : Prop := ∃ id j : Nat, (pa, id, j) ∈ numbered V.A ∧ nA = visitName preAsy id j

theorem AroundA.add {pa : AsyAt} {nA : Name} {V : Vs} (h : AroundA pa nA V) (W : Vs) : AroundA pa nA (V.add W) := by
  obtain ⟨a, b, h1, h2⟩ := h
  exact ⟨a, b, mem_numbered_append _ _ _ h1, h2⟩

include hE in
theorem asy_ok (hB : Built s s.cells.length) (hM : Meshed s) (hxs : Sections xsec s xs) (pa : AsyAt)
    (nA : Name) (asy : K × K) (aid : Nat) (a : Assembly K) (haid : s.assemblies[aid]? = some a) (fd : Found) (V : Vs)
    (hc : Ctrs s fd V) (ha : AroundA pa nA V) :
    ∃ st ms, asySoup E s xs nA asy fd (aid : ℤ) = .ok st ∧
      Inv E xsec s st (V.add ⟨[], latKids s (pa, aid), (latKids s (pa, aid)).flatMap (rtmKids s),
        ((latKids s (pa, aid)).flatMap (rtmKids s)).flatMap (cellKids s)⟩) ms ∧ ms ≠ [] ∧
      ms.map Mark.visit = ((latKids s (pa, aid)).flatMap (rtmKids s)).flatMap (cellKids s) ∧
      (∀ t, t ∈ ms.map (·.tile) ↔ ∃ k ∈ List.range (a.zs.length - 1), QLat s pa a asy k t) := by
  obtain ⟨b1, b2, b3, -⟩ := hB.asy a (List.mem_of_getElem? haid)
  unfold asySoup
  rw [at_nat, haid, of_some, ok_bind, if_neg b1]
  have key := loop_ok E xsec s (fun (st : Found × CSoup K) k =>
    (Res.ofOption (a.children[k]?)).bind fun c =>
    (Res.ofOption (bump st.1.lat c)).bind fun b =>
    (Res.ofOption (a.zs[k]?)).bind fun lo =>
    (Res.ofOption (a.zs[k + 1]?)).bind fun hi =>
    (latSoup E s xs (visitName preLat c b.2) nA asy ((lo + hi) / 2) { st.1 with lat := b.1 } c).bind fun ls =>
    (plus E st.2 ls.2).bind fun soup => .ok (ls.1, soup)) (dAsy s pa a)
    (QLat s pa a asy) (AroundA pa nA) (fun V W h => h.add W)
    (List.range (a.zs.length - 1)) (fd, empty) V [] ⟨hc, by simpa using made_empty IsData, by simp⟩ ha ?_
  · obtain ⟨st, ms, e, i, n, c, q⟩ := key
    have htot : total (dAsy s pa a) (List.range (a.zs.length - 1)) =
        ⟨[], latKids s (pa, aid), (latKids s (pa, aid)).flatMap (rtmKids s),
        ((latKids s (pa, aid)).flatMap (rtmKids s)).flatMap (cellKids s)⟩ := by
      have hn : a.zs.length - 1 = a.children.length := by omega
      have : latKids s (pa, aid) = (List.range (a.zs.length - 1)).flatMap (latKid pa a) := by
        rw [latKids_eq s pa aid a haid, hn]
        rfl
      rw [this, List.flatMap_assoc, List.flatMap_assoc]
      simp [total, dAsy]
    rw [htot] at i c
    refine ⟨st, ms, e, by simpa using i, n ?_, c, q⟩
    rw [Ne, List.range_eq_nil]
    intro hz
    exact b1 (List.length_eq_zero_iff.1 (by omega))
  · intro k hk st V ms h hA
    rw [List.mem_range] at hk
    obtain ⟨zlo, hz0⟩ := get_of_lt a.zs k (by omega)
    obtain ⟨zhi, hz1⟩ := get_of_lt a.zs (k + 1) (by omega)
    obtain ⟨c0, hc0⟩ := get_of_lt a.children k (by omega)
    obtain ⟨g1, g2⟩ := b3 c0 (List.mem_of_getElem? hc0)
    obtain ⟨c, rfl⟩ := Int.eq_ofNat_of_zero_le g1
    have hcl : c < s.lattices.length := by omega
    obtain ⟨l, hl⟩ := get_of_lt s.lattices c hcl
    obtain ⟨fc, e2, hfc⟩ := bump_ok st.1.lat s.lattices.length V.L h.ctrs.l (pa, k) c hcl
    rw [hc0, of_some, ok_bind, e2, of_some, ok_bind, hz0, of_some, ok_bind, hz1, of_some, ok_bind]
    dsimp only
    have hctr : Ctrs s { st.1 with lat := fc } (V.add ⟨[], [((pa, k), c)], [], []⟩) :=
      ⟨by simpa [Vs.add] using h.ctrs.a, hfc, by simpa [Vs.add] using h.ctrs.r, by simpa [Vs.add] using h.ctrs.c⟩
    have haround : AroundL pa k (visitName preLat c (times V.L c)) nA (V.add ⟨[], [((pa, k), c)], [], []⟩) := by
      refine ⟨hA.add _, c, times V.L c, ?_, rfl⟩
      simp only [Vs.add]
      rw [numbered_snoc]
      exact List.mem_append_right _ (by simp)
    obtain ⟨rs, new, e3, i3, n3, c3, q3⟩ := lat_ok E lt hE xsec s xs hB hM hxs pa k _ nA asy
      ((zlo + zhi) / 2) c l hl _ _ hctr haround
    obtain ⟨soup, e4, hsoup⟩ := plus_ok E lt hE st.2 rs.2 _ _ h.made i3.made (by simpa using n3)
    have hkid : dAsy s pa a k = ⟨[], [((pa, k), c)], rtmKids s ((pa, k), c), (rtmKids s ((pa, k), c)).flatMap (cellKids s)⟩ := by
      unfold dAsy latKid
      rw [hc0]
      simp
    refine ⟨(rs.1, soup), new, ?_, ?_, n3, ?_, ?_⟩
    · rw [e3, ok_bind, e4, ok_bind]
    · rw [hkid]
      have hV : (V.add ⟨[], [((pa, k), c)], [], []⟩).add ⟨[], [], rtmKids s ((pa, k), c), (rtmKids s ((pa, k), c)).flatMap (cellKids s)⟩ =
          V.add ⟨[], [((pa, k), c)], rtmKids s ((pa, k), c), (rtmKids s ((pa, k), c)).flatMap (cellKids s)⟩ := by simp [Vs.add]
      rw [hV] at i3
      refine ⟨i3.ctrs, by rw [List.map_append]; exact hsoup, ?_⟩
      intro m' hm'
      rcases List.mem_append.1 hm' with hm' | hm'
      · exact (h.tags m' hm').add _
      · exact i3.tags m' hm'
    · rw [hkid]
      exact c3
    · intro t
      rw [q3]
      constructor
      · intro ht
        exact ⟨c, l, zlo, zhi, hc0, hl, hz0, hz1, ht⟩
      · rintro ⟨c', l', zlo', zhi', g1, g2, g3, g4, ht⟩
        rw [hc0, Option.some.injEq] at g1
        have g1 : c = c' := by exact_mod_cast g1
        subst g1
        rw [hl, Option.some.injEq] at g2
        rw [hz0, Option.some.injEq] at g3
        rw [hz1, Option.some.injEq] at g4
        subst g2 g3 g4
        exact ht

def asyKid (s : Model K M) (p : Nat × Nat) : List (AsyAt × Nat) :=
  ((childAt (s.core.xs.length - 1) s.core.children p).map fun c => (p, c.toNat)).toList

def dCore (s : Model K M) (p : Nat × Nat) : Vs :=
  ⟨asyKid s p, (asyKid s p).flatMap (latKids s), ((asyKid s p).flatMap (latKids s)).flatMap (rtmKids s),
    (((asyKid s p).flatMap (latKids s)).flatMap (rtmKids s)).flatMap (cellKids s)⟩

theorem asyVisits_eq (s : Model K M) :
    asyVisits s = (places (s.core.xs.length - 1) (s.core.ys.length - 1)).flatMap (asyKid s) := by
  unfold asyVisits
  rw [kids_eq, List.map_flatMap]
  apply List.flatMap_congr
  intro p _
  unfold kid asyKid
  cases childAt (s.core.xs.length - 1) s.core.children p <;> rfl

include hE in
theorem core_ok (hB : Built s s.cells.length) (hM : Meshed s) (hxs : Sections xsec s xs) :
    ∃ st ms, coreSoup E s xs = .ok st ∧ Inv E xsec s st ⟨asyVisits s, latVisits s, rtmVisits s, cellVisits s⟩ ms ∧ ms ≠ [] ∧
      ms.map Mark.visit = cellVisits s ∧ (∀ t, t ∈ ms.map (·.tile) ↔ IsTile s t) := by
  obtain ⟨b1, b2, b3, -, -⟩ := hB.core
  unfold coreSoup
  have key := loop_ok E xsec s (fun (st : Found × CSoup K) p =>
    (Res.ofOption (childAt (s.core.xs.length - 1) s.core.children p)).bind fun c =>
    (Res.ofOption (bump st.1.asy c)).bind fun b =>
    (Res.ofOption (corner s.core.xs s.core.ys p)).bind fun ll =>
    (asySoup E s xs (visitName preAsy c b.2) ll { st.1 with asy := b.1 } c).bind fun as =>
    (plus E st.2 as.2).bind fun soup => .ok (as.1, soup)) (dCore s) (QAsy s) (fun _ => True) (fun _ _ _ => trivial)
    (places (s.core.xs.length - 1) (s.core.ys.length - 1))
    (⟨List.replicate s.assemblies.length (-1), List.replicate s.lattices.length (-1), List.replicate s.rtms.length (-1),
      List.replicate s.cells.length (-1)⟩, empty) ⟨[], [], [], []⟩ []
    ⟨⟨ctr_init _, ctr_init _, ctr_init _, ctr_init _⟩, by simpa using made_empty IsData, by simp⟩ trivial ?_
  · obtain ⟨st, ms, e, i, n, c, q⟩ := key
    have htot : total (dCore s) (places (s.core.xs.length - 1) (s.core.ys.length - 1)) =
        ⟨asyVisits s, latVisits s, rtmVisits s, cellVisits s⟩ := by
      unfold cellVisits rtmVisits latVisits
      rw [asyVisits_eq]
      simp only [List.flatMap_assoc]
      simp [total, dCore, List.flatMap_assoc]
    rw [htot] at i c
    refine ⟨st, ms, e, by simpa [Vs.add] using i, n ?_, c, ?_⟩
    · intro hp
      have hz : s.core.children.length = 0 := by
        rw [b2]
        have hl := congrArg List.length hp
        simpa [places, Nat.mul_comm] using hl
      exact b1 (List.length_eq_zero_iff.1 hz)
    · intro t
      rw [q, isTile_iff]
  · intro p hp st V ms h hA
    rw [mem_places] at hp
    obtain ⟨c, hcl, e⟩ := child_some _ _ _ _ b2 b3 p hp.1 hp.2
    obtain ⟨a, ha⟩ := get_of_lt s.assemblies c hcl
    have hx0 : p.1 < s.core.xs.length := by omega
    have hy0 : p.2 < s.core.ys.length := by omega
    obtain ⟨fc, e2, hfc⟩ := bump_ok st.1.asy s.assemblies.length V.A h.ctrs.a p c hcl
    rw [e, of_some, ok_bind, e2, of_some, ok_bind, corner_some _ _ _ hx0 hy0, of_some, ok_bind]
    dsimp only
    have hctr : Ctrs s { st.1 with asy := fc } (V.add ⟨[(p, c)], [], [], []⟩) :=
      ⟨hfc, by simpa [Vs.add] using h.ctrs.l, by simpa [Vs.add] using h.ctrs.r, by simpa [Vs.add] using h.ctrs.c⟩
    have haround : AroundA p (visitName preAsy c (times V.A c)) (V.add ⟨[(p, c)], [], [], []⟩) := by
      refine ⟨c, times V.A c, ?_, rfl⟩
      simp only [Vs.add]
      rw [numbered_snoc]
      exact List.mem_append_right _ (by simp)
    obtain ⟨rs, new, e3, i3, n3, c3, q3⟩ := asy_ok E lt hE xsec s xs hB hM hxs p _ (s.core.xs[p.1], s.core.ys[p.2]) c a ha _ _ hctr haround
    obtain ⟨soup, e4, hsoup⟩ := plus_ok E lt hE st.2 rs.2 _ _ h.made i3.made (by simpa using n3)
    have hkid : dCore s p = ⟨[(p, c)], latKids s (p, c), (latKids s (p, c)).flatMap (rtmKids s),
        ((latKids s (p, c)).flatMap (rtmKids s)).flatMap (cellKids s)⟩ := by
      unfold dCore asyKid
      rw [e]
      simp
    refine ⟨(rs.1, soup), new, ?_, ?_, n3, ?_, ?_⟩
    · rw [e3, ok_bind, e4, ok_bind]
    · rw [hkid]
      have hV : (V.add ⟨[(p, c)], [], [], []⟩).add ⟨[], latKids s (p, c), (latKids s (p, c)).flatMap (rtmKids s),
          ((latKids s (p, c)).flatMap (rtmKids s)).flatMap (cellKids s)⟩ =
          V.add ⟨[(p, c)], latKids s (p, c), (latKids s (p, c)).flatMap (rtmKids s),
          ((latKids s (p, c)).flatMap (rtmKids s)).flatMap (cellKids s)⟩ := by simp [Vs.add]
      rw [hV] at i3
      refine ⟨i3.ctrs, by rw [List.map_append]; exact hsoup, ?_⟩
      intro m' hm'
      rcases List.mem_append.1 hm' with hm' | hm'
      · exact (h.tags m' hm').add _
      · exact i3.tags m' hm'
    · rw [hkid]
      exact c3
    · intro t
      rw [q3]
      unfold childAt at e
      constructor
      · intro ht
        exact ⟨c, a, _, _, e, ha, List.getElem?_eq_getElem hx0, List.getElem?_eq_getElem hy0, ht⟩
      · rintro ⟨c', a', ox, oy, g1, g2, g3, g4, ht⟩
        rw [e, Option.some.injEq, Int.natCast_inj] at g1
        subst g1
        rw [ha, Option.some.injEq] at g2
        rw [List.getElem?_eq_getElem hx0, Option.some.injEq] at g3
        rw [List.getElem?_eq_getElem hy0, Option.some.injEq] at g4
        subst g2 g3 g4
        exact ht

end

end Verif.ModelSoup
