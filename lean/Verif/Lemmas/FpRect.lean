import Verif.Model.FpRect
import Verif.Lemmas.FpTurn
import Mathlib.Data.List.Nodup
import Mathlib.Data.List.Perm.Basic

/-! Helper lemmas for rectilinear grids in floating-point arithmetic. -/

set_option linter.unusedSectionVars false

namespace Verif.Fp

variable {K : Type} [Field K] [LinearOrder K] [IsStrictOrderedRing K] [FloorRing K] {p : ℕ} (R : Rounding K p)

/-- `N i v`: the value `v` belongs to place `i`.  Values of one place are merged, values of different places are not. -/
structure Places (eps : K) (n : ℕ) (N : ℕ → K → Prop) : Prop where
  same : ∀ i ≤ n, ∀ v w, N i v → N i w → |R.rnd (v - w)| < eps
  diff : ∀ i j, i < j → j ≤ n → ∀ v w, N i v → N j w → v < w ∧ eps ≤ |R.rnd (v - w)| ∧ eps ≤ |R.rnd (w - v)|

variable {R} {eps : K} {n : ℕ} {N : ℕ → K → Prop}

theorem Places.inj (h : Places R eps n N) {i j : ℕ} (hi : i ≤ n) (hj : j ≤ n) {v : K} (h1 : N i v) (h2 : N j v) : i = j := by
  rcases lt_trichotomy i j with c | c | c
  · exact absurd (h.diff i j c hj v v h1 h2).1 (lt_irrefl _)
  · exact c
  · exact absurd (h.diff j i c hi v v h2 h1).1 (lt_irrefl _)

/-- The divisions found so far. -/
structure Found (n : ℕ) (N : ℕ → K → Prop) (seen ds : List K) : Prop where
  sub : ∀ d ∈ ds, d ∈ seen
  rep : ∀ v ∈ seen, ∀ i ≤ n, N i v → ∃ d ∈ ds, N i d
  apart : ds.Pairwise fun a b => ∀ i ≤ n, N i a → ¬ N i b

theorem Found.add (h : Places R eps n N) {seen ds : List K} (f : Found n N seen ds) (hs : ∀ v ∈ seen, ∃ i ≤ n, N i v) {x : K} (hx : ∃ i ≤ n, N i x) :
    Found n N (seen ++ [x]) (addDiv R eps ds x) := by
  obtain ⟨i, hi, hN⟩ := hx
  unfold addDiv
  split_ifs with c
  · refine ⟨fun d hd => List.mem_append_left _ (f.sub d hd), ?_, f.apart⟩
    intro v hv j hj hvj
    rcases List.mem_append.1 hv with hv | hv
    · exact f.rep v hv j hj hvj
    · rw [List.mem_singleton] at hv
      subst hv
      obtain rfl := h.inj hi hj hN hvj
      rw [List.any_eq_true] at c
      obtain ⟨d, hd, hlt⟩ := c
      have hlt := of_decide_eq_true hlt
      obtain ⟨k, hk, hdk⟩ := hs d (f.sub d hd)
      refine ⟨d, hd, ?_⟩
      rcases lt_trichotomy k i with e | e | e
      · exact absurd hlt (not_lt.2 (h.diff k i e hi d v hdk hN).2.1)
      · rwa [← e]
      · exact absurd hlt (not_lt.2 (h.diff i k e hk v d hN hdk).2.2)
  · refine ⟨?_, ?_, ?_⟩
    · intro d hd
      rcases List.mem_append.1 hd with hd | hd
      · exact List.mem_append_left _ (f.sub d hd)
      · exact List.mem_append_right _ hd
    · intro v hv j hj hvj
      rcases List.mem_append.1 hv with hv | hv
      · obtain ⟨d, hd, h1⟩ := f.rep v hv j hj hvj
        exact ⟨d, List.mem_append_left _ hd, h1⟩
      · exact ⟨v, List.mem_append_right _ hv, hvj⟩
    · rw [List.pairwise_append]
      refine ⟨f.apart, List.pairwise_singleton _ _, ?_⟩
      intro a ha b hb j hj h1 h2
      rw [List.mem_singleton] at hb
      subst hb
      exact c (List.any_eq_true.2 ⟨a, ha, decide_eq_true (h.same j hj a b h1 h2)⟩)

theorem Found.fold (h : Places R eps n N) (boxes : List (K × K)) : ∀ {seen ds : List K}, Found n N seen ds → (∀ v ∈ seen, ∃ i ≤ n, N i v) →
    (∀ b ∈ boxes, (∃ i ≤ n, N i b.1) ∧ ∃ i ≤ n, N i b.2) →
    ∃ seen', Found n N seen' (boxes.foldl (fun ds b => addDiv R eps (addDiv R eps ds b.1) b.2) ds) ∧
      (∀ v ∈ seen', ∃ i ≤ n, N i v) ∧ (∀ v ∈ seen, v ∈ seen') ∧ (∀ b ∈ boxes, b.1 ∈ seen' ∧ b.2 ∈ seen') ∧
      ∀ v ∈ seen', v ∈ seen ∨ ∃ b ∈ boxes, v = b.1 ∨ v = b.2 := by
  induction boxes with
  | nil => intro seen ds f hs _; exact ⟨seen, f, hs, fun v hv => hv, by simp, fun v hv => Or.inl hv⟩
  | cons b bs ih =>
    intro seen ds f hs hb
    obtain ⟨h1, h2⟩ := hb b (by simp)
    have f1 := f.add h hs h1
    have s1 : ∀ v ∈ seen ++ [b.1], ∃ i ≤ n, N i v := by
      intro v hv
      rcases List.mem_append.1 hv with hv | hv
      · exact hs v hv
      · rw [List.mem_singleton] at hv; rwa [hv]
    have f2 := f1.add h s1 h2
    have s2 : ∀ v ∈ seen ++ [b.1] ++ [b.2], ∃ i ≤ n, N i v := by
      intro v hv
      rcases List.mem_append.1 hv with hv | hv
      · exact s1 v hv
      · rw [List.mem_singleton] at hv; rwa [hv]
    obtain ⟨seen', g1, g2, g3, g4, g5⟩ := ih f2 s2 fun c hc => hb c (by simp [hc])
    refine ⟨seen', g1, g2, fun v hv => g3 v (by simp [hv]), ?_, ?_⟩
    · intro c hc
      rcases List.mem_cons.1 hc with rfl | hc
      · exact ⟨g3 _ (by simp), g3 _ (by simp)⟩
      · exact g4 c hc
    · intro v hv
      rcases g5 v hv with h | ⟨c, hc, h⟩
      · simp only [List.mem_append, List.mem_singleton] at h
        rcases h with (h | h) | h
        · exact Or.inl h
        · exact Or.inr ⟨b, by simp, Or.inl h⟩
        · exact Or.inr ⟨b, by simp, Or.inr h⟩
      · exact Or.inr ⟨c, by simp [hc], h⟩

/-- A strictly increasing list of all numbers below `m`. -/
theorem eq_range {l : List ℕ} {m : ℕ} (hs : l.Pairwise (· < ·)) (hm : ∀ i, i ∈ l ↔ i < m) : l = List.range m := by
  have nd : l.Nodup := hs.imp fun h => h.ne
  have pm : l.Perm (List.range m) := (List.perm_ext_iff_of_nodup nd List.nodup_range).2 fun i => by rw [hm, List.mem_range]
  refine List.Perm.eq_of_pairwise (le := (· ≤ ·)) ?_ (hs.imp fun h => h.le) ?_ pm
  · intro a b _ _ h1 h2; exact le_antisymm h1 h2
  · exact List.pairwise_lt_range.imp fun h => h.le

/-- One division for each place, in order. -/
theorem axis_places (h : Places R eps n N) {boxes : List (K × K)} {divs : List K} (hb : ∀ b ∈ boxes, (∃ i ≤ n, N i b.1) ∧ ∃ i ≤ n, N i b.2)
    (hc : ∀ i ≤ n, ∃ b ∈ boxes, N i b.1 ∨ N i b.2) (hd : IsRectAxis R eps boxes divs) :
    divs.length = n + 1 ∧ (∀ i d, divs[i]? = some d → i ≤ n ∧ N i d) ∧ divs.Pairwise (· < ·) ∧ ∀ d ∈ divs, ∃ b ∈ boxes, d = b.1 ∨ d = b.2 := by
  obtain ⟨hp, hs⟩ := hd
  obtain ⟨seen, g1, g2, -, g4, g5⟩ := Found.fold h boxes (seen := []) (ds := []) ⟨by simp, by simp, List.Pairwise.nil⟩ (by simp) hb
  change Found n N seen (boxDivs R eps boxes) at g1
  have cls : ∀ d ∈ divs, ∃ i ≤ n, N i d := fun d hd => g2 d (g1.sub d (hp.mem_iff.1 hd))
  classical
  let f : K → ℕ := fun d => if c : ∃ i, i ≤ n ∧ N i d then c.choose else 0
  have hf : ∀ d ∈ divs, f d ≤ n ∧ N (f d) d := by
    intro d hd
    have c := cls d hd
    show (if c : ∃ i, i ≤ n ∧ N i d then c.choose else 0) ≤ n ∧ N (if c : ∃ i, i ≤ n ∧ N i d then c.choose else 0) d
    rw [dif_pos c]
    exact c.choose_spec
  have apart : divs.Pairwise fun a b => ∀ i ≤ n, N i a → ¬ N i b :=
    (List.Perm.pairwise_iff (fun {a b} hab i hi h1 h2 => hab i hi h2 h1) hp).2 g1.apart
  have lt : divs.Pairwise fun a b => f a < f b := by
    rw [List.pairwise_iff_getElem] at apart hs ⊢
    intro i j hi hj hij
    have a := apart i j hi hj hij
    have s := hs i j hi hj hij
    have s' : ¬ divs[j] < divs[i] := of_decide_eq_false s
    obtain ⟨a1, a2⟩ := hf _ (List.getElem_mem hi)
    obtain ⟨b1, b2⟩ := hf _ (List.getElem_mem hj)
    rcases lt_trichotomy (f divs[i]) (f divs[j]) with c | c | c
    · exact c
    · rw [c] at a2
      exact absurd b2 (a _ b1 a2)
    · exact absurd (h.diff _ _ c a1 _ _ b2 a2).1 s'
  have hr : divs.map f = List.range (n + 1) := by
    refine eq_range (List.pairwise_map.2 lt) fun i => ?_
    rw [List.mem_map]
    constructor
    · rintro ⟨d, hd, rfl⟩
      have := (hf d hd).1
      omega
    · intro hi
      obtain ⟨b, hbm, hN⟩ := hc i (by omega)
      have : ∃ d ∈ boxDivs R eps boxes, N i d := by
        rcases hN with hN | hN
        · exact g1.rep _ (g4 b hbm).1 i (by omega) hN
        · exact g1.rep _ (g4 b hbm).2 i (by omega) hN
      obtain ⟨d, hd, hdi⟩ := this
      have hd' := hp.mem_iff.2 hd
      exact ⟨d, hd', h.inj (hf d hd').1 (by omega) (hf d hd').2 hdi⟩
  refine ⟨?_, ?_, ?_, ?_⟩
  · have := congrArg List.length hr
    simpa using this
  · intro i d hid
    have e : (divs.map f)[i]? = some (f d) := by rw [List.getElem?_map, hid]; rfl
    rw [hr] at e
    obtain ⟨hi, e⟩ := List.getElem?_eq_some_iff.1 e
    rw [List.getElem_range] at e
    rw [List.length_range] at hi
    obtain ⟨a1, a2⟩ := hf d (List.mem_of_getElem? hid)
    rw [← e] at a2
    exact ⟨by omega, a2⟩
  · rw [List.pairwise_iff_getElem] at lt ⊢
    intro i j hi hj hij
    exact (h.diff _ _ (lt i j hi hj hij) (hf _ (List.getElem_mem hj)).1 _ _ (hf _ (List.getElem_mem hi)).2 (hf _ (List.getElem_mem hj)).2).1
  · intro d hd
    rcases g5 d (g1.sub d (hp.mem_iff.1 hd)) with h | h
    · simp at h
    · exact h

/-! ### The boxes of the lattice -/

theorem rowBoxes_places {dxdy : List (K × K)} {NX : ℕ → K → Prop} {Q : K → K → Prop} {y : K} : ∀ (row : List ℕ) (i : ℕ) (x : K), NX i x →
    (∀ k id, row[k]? = some id → ∃ d, dxdy[id]? = some d ∧ (∀ x, NX (i + k) x → NX (i + k + 1) (R.rnd (x + d.1))) ∧ Q y (R.rnd (y + d.2))) →
    ∃ b, rowBoxes R dxdy y x row = some b ∧
      (∀ c ∈ b, (∃ k < row.length, NX (i + k) c.1.1 ∧ NX (i + k + 1) c.1.2) ∧ c.2.1 = y ∧ Q y c.2.2) ∧
      ∀ k < row.length, ∃ c ∈ b, NX (i + k) c.1.1 ∧ NX (i + k + 1) c.1.2
  | [], _, _, _, _ => ⟨[], rfl, by simp, by simp⟩
  | id :: row, i, x, hx, h => by
    obtain ⟨d, h1, h2, h3⟩ := h 0 id rfl
    obtain ⟨b, g1, g2, g3⟩ := rowBoxes_places row (i + 1) (R.rnd (x + d.1)) (h2 x hx) (by
      intro k id' hk
      obtain ⟨d', e1, e2, e3⟩ := h (k + 1) id' (by simpa using hk)
      exact ⟨d', e1, by rw [show i + 1 + k = i + (k + 1) by ring]; exact e2, e3⟩)
    refine ⟨((x, R.rnd (x + d.1)), (y, R.rnd (y + d.2))) :: b, ?_, ?_, ?_⟩
    · rw [rowBoxes, h1, Option.bind_some, g1]
      rfl
    · intro c hc
      rcases List.mem_cons.1 hc with rfl | hc
      · exact ⟨⟨0, by simp, hx, h2 x hx⟩, rfl, h3⟩
      · obtain ⟨⟨k, hk, e1, e2⟩, e3⟩ := g2 c hc
        refine ⟨⟨k + 1, by simpa using hk, ?_, ?_⟩, e3⟩
        · rw [show i + (k + 1) = i + 1 + k by ring]; exact e1
        · rw [show i + (k + 1) + 1 = i + 1 + k + 1 by ring]; exact e2
    · intro k hk
      cases k with
      | zero => exact ⟨_, List.mem_cons_self .., hx, h2 x hx⟩
      | succ k =>
        obtain ⟨c, hc, e1, e2⟩ := g3 k (by simpa using hk)
        refine ⟨c, List.mem_cons_of_mem _ hc, ?_, ?_⟩
        · rw [show i + (k + 1) = i + 1 + k by ring]; exact e1
        · rw [show i + (k + 1) + 1 = i + 1 + k + 1 by ring]; exact e2

theorem idBoxes_places {dxdy : List (K × K)} {NX NY : ℕ → K → Prop} {n : ℕ} (hn : 0 < n) (h0 : NX 0 0) : ∀ (rows : List (List ℕ)) (j : ℕ) (y : K), NY j y →
    (∀ row ∈ rows, row.length = n) →
    (∀ l row, rows[l]? = some row → ∀ k id, row[k]? = some id → ∃ d, dxdy[id]? = some d ∧ (∀ x, NX k x → NX (k + 1) (R.rnd (x + d.1))) ∧
      ∀ y, NY (j + l) y → NY (j + l + 1) (R.rnd (y + d.2))) →
    ∃ b, idBoxes R dxdy n y rows = some b ∧
      (∀ c ∈ b, (∃ k < n, NX k c.1.1 ∧ NX (k + 1) c.1.2) ∧ ∃ l < rows.length, NY (j + l) c.2.1 ∧ NY (j + l + 1) c.2.2) ∧
      (∀ l < rows.length, ∀ k < n, ∃ c ∈ b, NX k c.1.1 ∧ NX (k + 1) c.1.2 ∧ NY (j + l) c.2.1 ∧ NY (j + l + 1) c.2.2)
  | [], _, _, _, _, _ => ⟨[], rfl, by simp, by simp⟩
  | row :: rows, j, y, hy, hl, h => by
    have hr := hl row (by simp)
    obtain ⟨b, b1, b2, b3⟩ := rowBoxes_places (R := R) (dxdy := dxdy) (NX := NX) (Q := fun _ z => NY (j + 1) z) (y := y) row 0 0 h0 (by
      intro k id hk
      obtain ⟨d, e1, e2, e3⟩ := h 0 row rfl k id hk
      refine ⟨d, e1, ?_, ?_⟩
      · rw [zero_add]; exact e2
      · exact e3 y hy)
    have hid : row[0]? = some (row[0]'(by omega)) := List.getElem?_eq_getElem _
    obtain ⟨d0, e1, -, e3⟩ := h 0 row rfl 0 _ hid
    obtain ⟨r, r1, r2, r3⟩ := idBoxes_places hn h0 rows (j + 1) (R.rnd (y + d0.2)) (e3 y hy) (fun x hx => hl x (by simp [hx])) (by
      intro l row' hrow k id hk
      obtain ⟨d, f1, f2, f3⟩ := h (l + 1) row' (by simpa using hrow) k id hk
      exact ⟨d, f1, f2, by rw [show j + 1 + l = j + (l + 1) by ring]; exact f3⟩)
    refine ⟨b ++ r, ?_, ?_, ?_⟩
    · rw [idBoxes, if_neg (by omega), ← hr, List.take_length, b1, Option.bind_some, hid, Option.bind_some, e1, Option.bind_some, hr, r1]
      rfl
    · intro c hc
      rcases List.mem_append.1 hc with hc | hc
      · obtain ⟨⟨k, hk, f1, f2⟩, f3, f4⟩ := b2 c hc
        rw [zero_add] at f1 f2
        exact ⟨⟨k, by omega, f1, f2⟩, 0, by simp, by rw [f3]; exact hy, f4⟩
      · obtain ⟨f1, l, hl', f2, f3⟩ := r2 c hc
        refine ⟨f1, l + 1, by simpa using hl', ?_, ?_⟩
        · rw [show j + (l + 1) = j + 1 + l by ring]; exact f2
        · rw [show j + (l + 1) + 1 = j + 1 + l + 1 by ring]; exact f3
    · intro l hl' k hk
      cases l with
      | zero =>
        obtain ⟨c, hc, f1, f2⟩ := b3 k (by omega)
        rw [zero_add] at f1 f2
        obtain ⟨-, f3, f4⟩ := b2 c hc
        exact ⟨c, List.mem_append_left _ hc, f1, f2, by rw [f3]; exact hy, f4⟩
      | succ l =>
        obtain ⟨c, hc, f1, f2, f3, f4⟩ := r3 l (by simpa using hl') k hk
        refine ⟨c, List.mem_append_right _ hc, f1, f2, ?_, ?_⟩
        · rw [show j + (l + 1) = j + 1 + l by ring]; exact f3
        · rw [show j + (l + 1) + 1 = j + 1 + l + 1 by ring]; exact f4

/-- The grid of a lattice whose columns and rows belong to places. -/
theorem grid_places {dxdy : List (K × K)} {ids : List (List ℕ)} {NX NY : ℕ → K → Prop} {n m : ℕ} (hn : 0 < n) (hm : 0 < m) (hrows : ids.length = m)
    (hcols : ∀ row ∈ ids, row.length = n) (PX : Places R eps n NX) (PY : Places R eps m NY) (x0 : NX 0 0) (y0 : NY 0 0)
    (h : ∀ j row, ids.reverse[j]? = some row → ∀ i id, row[i]? = some id → ∃ d, dxdy[id]? = some d ∧ (∀ x, NX i x → NX (i + 1) (R.rnd (x + d.1))) ∧
      ∀ y, NY j y → NY (j + 1) (R.rnd (y + d.2))) :
    (∃ xs ys, IsIdGrid R eps dxdy ids xs ys) ∧ ∀ xs ys, IsIdGrid R eps dxdy ids xs ys →
      xs.length = n + 1 ∧ ys.length = m + 1 ∧ xs.Pairwise (· < ·) ∧ ys.Pairwise (· < ·) ∧
      (∀ i d, xs[i]? = some d → NX i d) ∧ (∀ i d, ys[i]? = some d → NY i d) := by
  obtain ⟨b, b1, b2, b3⟩ := idBoxes_places (R := R) (dxdy := dxdy) (NX := NX) (NY := NY) hn x0 ids.reverse 0 0 y0 (fun row hr => hcols row (List.mem_reverse.1 hr))
    (by
      intro l row hrow k id hk
      obtain ⟨d, e1, e2, e3⟩ := h l row hrow k id hk
      exact ⟨d, e1, e2, by rw [zero_add]; exact e3⟩)
  simp only [zero_add, List.length_reverse, hrows] at b2 b3
  have hb : gridBoxes R dxdy ids = some b := by
    unfold gridBoxes
    cases ids with
    | nil => simp at hrows; omega
    | cons row0 rows =>
      dsimp only
      rw [hcols row0 (by simp)]
      exact b1
  have hxb : ∀ c ∈ b.map (·.1), (∃ i ≤ n, NX i c.1) ∧ ∃ i ≤ n, NX i c.2 := by
    intro c hc
    obtain ⟨e, he, rfl⟩ := List.mem_map.1 hc
    obtain ⟨⟨k, hk, f1, f2⟩, -⟩ := b2 e he
    exact ⟨⟨k, by omega, f1⟩, k + 1, by omega, f2⟩
  have hyb : ∀ c ∈ b.map (·.2), (∃ i ≤ m, NY i c.1) ∧ ∃ i ≤ m, NY i c.2 := by
    intro c hc
    obtain ⟨e, he, rfl⟩ := List.mem_map.1 hc
    obtain ⟨-, k, hk, f1, f2⟩ := b2 e he
    exact ⟨⟨k, by omega, f1⟩, k + 1, by omega, f2⟩
  have hxc : ∀ i ≤ n, ∃ c ∈ b.map (·.1), NX i c.1 ∨ NX i c.2 := by
    intro i hi
    rcases Nat.lt_or_ge i n with c | c
    · obtain ⟨e, he, f1, -⟩ := b3 0 hm i c
      exact ⟨e.1, List.mem_map.2 ⟨e, he, rfl⟩, Or.inl f1⟩
    · obtain ⟨e, he, -, f2, -⟩ := b3 0 hm (n - 1) (by omega)
      rw [show n - 1 + 1 = i by omega] at f2
      exact ⟨e.1, List.mem_map.2 ⟨e, he, rfl⟩, Or.inr f2⟩
  have hyc : ∀ i ≤ m, ∃ c ∈ b.map (·.2), NY i c.1 ∨ NY i c.2 := by
    intro i hi
    rcases Nat.lt_or_ge i m with c | c
    · obtain ⟨e, he, -, -, f1, -⟩ := b3 i c 0 hn
      exact ⟨e.2, List.mem_map.2 ⟨e, he, rfl⟩, Or.inl f1⟩
    · obtain ⟨e, he, -, -, -, f2⟩ := b3 (m - 1) (by omega) 0 hn
      rw [show m - 1 + 1 = i by omega] at f2
      exact ⟨e.2, List.mem_map.2 ⟨e, he, rfl⟩, Or.inr f2⟩
  constructor
  · have srt : ∀ l : List K, ∃ o, IsStdSort (fun a b => decide (a < b)) l o := by
      intro l
      refine ⟨l.mergeSort (fun a b => decide (a ≤ b)), List.mergeSort_perm _ _, ?_⟩
      have := List.pairwise_mergeSort (le := fun a b : K => decide (a ≤ b)) (fun a b c h1 h2 => decide_eq_true ((of_decide_eq_true h1).trans (of_decide_eq_true h2)))
        (fun a b => by rcases le_total a b with h | h <;> simp [h]) l
      exact this.imp fun h => decide_eq_false (not_lt.2 (of_decide_eq_true h))
    obtain ⟨xs, hx⟩ := srt (boxDivs R eps (b.map (·.1)))
    obtain ⟨ys, hy⟩ := srt (boxDivs R eps (b.map (·.2)))
    exact ⟨xs, ys, b, hb, hx, hy⟩
  · rintro xs ys ⟨b', hb', hx, hy⟩
    rw [hb, Option.some.injEq] at hb'
    subst hb'
    obtain ⟨x1, x2, x3, -⟩ := axis_places PX hxb hxc hx
    obtain ⟨y1, y2, y3, -⟩ := axis_places PY hyb hyc hy
    exact ⟨x1, y1, x3, y3, fun i d h => (x2 i d h).2, fun i d h => (y2 i d h).2⟩

/-! ### Places with a tolerance -/

/-- The exact place `i` of a list of widths. -/
def place (W : List K) (i : ℕ) : K := (W.take i).sum

theorem place_zero (W : List K) : place W 0 = 0 := rfl

theorem place_succ {W : List K} {i : ℕ} {w : K} (h : W[i]? = some w) : place W (i + 1) = place W i + w := by
  unfold place
  rw [List.take_add_one, h, Option.toList_some, List.sum_append, List.sum_singleton]

theorem place_gap {W : List K} {g : K} (g0 : 0 ≤ g) (hW : ∀ w ∈ W, g ≤ w) {i j : ℕ} (hij : i < j) (hj : j ≤ W.length) : place W i + g ≤ place W j := by
  induction j with
  | zero => omega
  | succ j ih =>
    have e := place_succ (W := W) (List.getElem?_eq_getElem (by omega : j < W.length))
    have := hW _ (List.getElem_mem (by omega : j < W.length))
    rcases Nat.lt_or_ge i j with c | c
    · have := ih c (by omega)
      linarith
    · obtain rfl : i = j := by omega
      linarith

theorem place_nonneg {W : List K} (hW : ∀ w ∈ W, 0 ≤ w) (i : ℕ) : 0 ≤ place W i :=
  List.sum_nonneg fun w hw => hW w (List.mem_of_mem_take hw)

theorem place_le {W : List K} (hW : ∀ w ∈ W, 0 ≤ w) (i : ℕ) : place W i ≤ W.sum := by
  unfold place
  conv_rhs => rw [← List.take_append_drop i W]
  rw [List.sum_append]
  have : 0 ≤ (W.drop i).sum := List.sum_nonneg fun w hw => hW w (List.mem_of_mem_drop hw)
  linarith

/-- One more width: the errors add up. -/
theorem place_step (hp : 1 ≤ p) {x X d w e δ T : K} (hx : |x - X| ≤ e) (hd : |d - w| ≤ δ) (X0 : 0 ≤ X + w) (hT : X + w ≤ T) (he : e + δ ≤ T) :
    |R.rnd (x + d) - (X + w)| ≤ e + (δ + 2 / 2 ^ p * T) := by
  have r := rel_u R hp (x + d)
  have h1 : |x + d - (X + w)| ≤ e + δ := by
    rw [show x + d - (X + w) = (x - X) + (d - w) by ring]
    exact (abs_add_le _ _).trans (add_le_add hx hd)
  have h2 : |x + d| ≤ 2 * T := by
    have := abs_add_le (x + d - (X + w)) (X + w)
    rw [sub_add_cancel, abs_of_nonneg X0] at this
    linarith
  have h3 := mul_le_mul_of_nonneg_left h2 (by positivity : (0 : K) ≤ 1 / 2 ^ p)
  have h4 : |R.rnd (x + d) - (X + w)| ≤ |R.rnd (x + d) - (x + d)| + |x + d - (X + w)| := by
    have := abs_add_le (R.rnd (x + d) - (x + d)) (x + d - (X + w))
    rwa [sub_add_sub_cancel] at this
  have e : (1 : K) / 2 ^ p * (2 * T) = 2 / 2 ^ p * T := by ring
  linarith

/-- Places within `i s` of the exact ones. -/
theorem places_near (fe : IsFp p eps) (e0 : 0 < eps) {W : List K} {s : K} (s0 : 0 ≤ s) (hs : 4 * (W.length * s) ≤ eps) (hW : ∀ w ∈ W, 3 / 2 * eps ≤ w) :
    Places R eps W.length fun i v => |v - place W i| ≤ i * s := by
  have mono : ∀ i ≤ W.length, (i : K) * s ≤ W.length * s := fun i hi => mul_le_mul_of_nonneg_right (by exact_mod_cast hi) s0
  refine ⟨?_, ?_⟩
  · intro i hi v w h1 h2
    have m := mono i hi
    have : |v - w| ≤ eps / 2 := by
      rw [show v - w = (v - place W i) - (w - place W i) by ring]
      exact (abs_sub _ _).trans (by linarith)
    have := R.abs_le_of this fe.half
    linarith
  · intro i j hij hj v w h1 h2
    have m1 := mono i (by omega)
    have m2 := mono j hj
    have g := place_gap (by linarith : (0 : K) ≤ 3 / 2 * eps) hW hij hj
    obtain ⟨a1, a2⟩ := abs_le.1 h1
    obtain ⟨b1, b2⟩ := abs_le.1 h2
    have d : eps ≤ w - v := by linarith
    refine ⟨by linarith, ?_, ?_⟩
    · refine R.abs_ge_of ?_ fe
      rw [abs_sub_comm, abs_of_pos (by linarith)]
      exact d
    · refine R.abs_ge_of ?_ fe
      rw [abs_of_pos (by linarith)]
      exact d

end Verif.Fp
