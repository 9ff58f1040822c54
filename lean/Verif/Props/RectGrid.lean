import Verif.Model.Grid
import Mathlib.Data.List.Perm.Basic
import Mathlib.Order.Basic
import Mathlib.Tactic.Linarith
import Mathlib.Tactic.Ring
import Mathlib.Tactic.NormNum
import Mathlib.Tactic.SplitIfs

/-!
# C38: construction of RectilinearGrid
-/

namespace Verif.Grid

set_option linter.unusedSectionVars false
variable {K : Type} [Field K] [LinearOrder K] [IsStrictOrderedRing K]

theorem mem_addDiv {eps : K} {ds : List K} {x d : K} (h : d ∈ addDiv eps ds x) : d ∈ ds ∨ d = x := by
  unfold addDiv at h
  split_ifs at h
  · exact Or.inl h
  · simpa using h

theorem addDiv_sub {eps : K} {ds : List K} {x d : K} (h : d ∈ ds) : d ∈ addDiv eps ds x := by
  unfold addDiv
  split_ifs
  · exact h
  · exact List.mem_append_left _ h

theorem addDiv_near {eps : K} (he : 0 < eps) (ds : List K) (x : K) :
    ∃ d ∈ addDiv eps ds x, |d - x| < eps := by
  unfold addDiv
  split_ifs with h
  · rw [List.any_eq_true] at h
    obtain ⟨d, hd, h⟩ := h
    exact ⟨d, hd, of_decide_eq_true h⟩
  · exact ⟨x, by simp, by simpa using he⟩

theorem addDiv_sep {eps : K} {ds : List K} {x : K}
    (h : ds.Pairwise fun a b => eps ≤ |a - b|) : (addDiv eps ds x).Pairwise fun a b => eps ≤ |a - b| := by
  unfold addDiv
  split_ifs with hx
  · exact h
  · rw [List.pairwise_append]
    refine ⟨h, List.pairwise_singleton _ _, ?_⟩
    intro a ha b hb
    rw [List.mem_singleton] at hb
    subst hb
    by_contra hc
    exact hx (List.any_eq_true.2 ⟨a, ha, decide_eq_true (not_le.1 hc)⟩)

theorem foldl_divs {eps : K} (he : 0 < eps) (boxes : List (K × K)) : ∀ ds : List K,
    (ds.Pairwise fun a b => eps ≤ |a - b|) →
    ((boxes.foldl (fun ds b => addDiv eps (addDiv eps ds b.1) b.2) ds).Pairwise fun a b => eps ≤ |a - b|) ∧
    (∀ d ∈ ds, d ∈ boxes.foldl (fun ds b => addDiv eps (addDiv eps ds b.1) b.2) ds) ∧
    (∀ d ∈ boxes.foldl (fun ds b => addDiv eps (addDiv eps ds b.1) b.2) ds,
      d ∈ ds ∨ ∃ b ∈ boxes, d = b.1 ∨ d = b.2) ∧
    (∀ b ∈ boxes, (∃ d ∈ boxes.foldl (fun ds b => addDiv eps (addDiv eps ds b.1) b.2) ds, |d - b.1| < eps) ∧
      ∃ d ∈ boxes.foldl (fun ds b => addDiv eps (addDiv eps ds b.1) b.2) ds, |d - b.2| < eps) := by
  induction boxes with
  | nil => intro ds h; simpa using h
  | cons b bs ih =>
    intro ds h
    rw [List.foldl_cons]
    obtain ⟨i1, i2, i3, i4⟩ := ih (addDiv eps (addDiv eps ds b.1) b.2) (addDiv_sep (addDiv_sep h))
    refine ⟨i1, fun d hd => i2 d (addDiv_sub (addDiv_sub hd)), ?_, ?_⟩
    · intro d hd
      rcases i3 d hd with h | ⟨c, hc, h⟩
      · rcases mem_addDiv h with h | h
        · rcases mem_addDiv h with h | h
          · exact Or.inl h
          · exact Or.inr ⟨b, List.mem_cons_self .., Or.inl h⟩
        · exact Or.inr ⟨b, List.mem_cons_self .., Or.inr h⟩
      · exact Or.inr ⟨c, List.mem_cons_of_mem _ hc, h⟩
    · intro c hc
      rcases List.mem_cons.1 hc with rfl | hc
      · obtain ⟨d, hd, h1⟩ := addDiv_near he ds c.1
        obtain ⟨d', hd', h2⟩ := addDiv_near he (addDiv eps ds c.1) c.2
        exact ⟨⟨d, i2 d (addDiv_sub hd), h1⟩, d', i2 d' hd', h2⟩
      · exact i4 c hc

/-- Built from boxes, the divisions along an axis are increasing and at least `eps` apart, every
division is an end of a box, and every end of a box is closer than `eps` to a division. -/
theorem C38_boxes {eps : K} (he : 0 < eps) (boxes : List (K × K)) (divs : List K)
    (h : IsRectAxis eps boxes divs) :
    (divs.Pairwise fun a b => a + eps ≤ b) ∧
    (∀ d ∈ divs, ∃ b ∈ boxes, d = b.1 ∨ d = b.2) ∧
    (∀ b ∈ boxes, (∃ d ∈ divs, |d - b.1| < eps) ∧ ∃ d ∈ divs, |d - b.2| < eps) := by
  obtain ⟨hp, hs⟩ := h
  obtain ⟨s, -, m, n⟩ := foldl_divs he boxes [] List.Pairwise.nil
  change (boxDivs eps boxes).Pairwise _ at s
  refine ⟨?_, ?_, ?_⟩
  · have s' : divs.Pairwise fun a b => eps ≤ |a - b| :=
      (List.Perm.pairwise_iff (fun {a b} hab => by rwa [abs_sub_comm]) hp).2 s
    refine List.Pairwise.imp₂ ?_ hs s'
    intro a b h1 h2
    have hab : a ≤ b := not_lt.1 (of_decide_eq_false h1)
    rw [abs_sub_comm, abs_of_nonneg (by linarith)] at h2
    linarith
  · intro d hd
    rcases m d (hp.mem_iff.1 hd) with h | h
    · simp at h
    · exact h
  · intro b hb
    obtain ⟨⟨d, hd, h1⟩, d', hd', h2⟩ := n b hb
    exact ⟨⟨d, hp.mem_iff.2 hd, h1⟩, d', hp.mem_iff.2 hd', h2⟩

/-- If the box ends are equal or at least `eps` apart, the divisions are exactly the box ends. -/
theorem C38_exact {eps : K} (he : 0 < eps) (boxes : List (K × K)) (divs : List K)
    (h : IsRectAxis eps boxes divs)
    (hc : ∀ b ∈ boxes, ∀ c ∈ boxes, ∀ x ∈ [b.1, b.2], ∀ y ∈ [c.1, c.2], x = y ∨ eps ≤ |x - y|) (x : K) :
    x ∈ divs ↔ ∃ b ∈ boxes, x = b.1 ∨ x = b.2 := by
  obtain ⟨-, m, n⟩ := C38_boxes he boxes divs h
  refine ⟨m x, ?_⟩
  rintro ⟨b, hb, hx⟩
  have key : ∀ y, y ∈ [b.1, b.2] → (∃ d ∈ divs, |d - y| < eps) → y ∈ divs := by
    rintro y hy ⟨d, hd, hlt⟩
    obtain ⟨c, hcm, hdc⟩ := m d hd
    rcases hc c hcm b hb d (by simpa using hdc) y hy with e | e
    · rwa [← e]
    · exact absurd hlt (not_lt.2 e)
  rcases hx with rfl | rfl
  · exact key _ (by simp) (n b hb).1
  · exact key _ (by simp) (n b hb).2

/-- The cells of strictly increasing divisions tile the interval from the first to the last: each ends
where the next starts, every point of the half-open interval is in exactly one cell, and no cell reaches
outside. -/
theorem C38_tiling (divs : List K) (hs : divs.Pairwise (· < ·)) (lo hi : K) (h0 : divs.head? = some lo)
    (h1 : divs.getLast? = some hi) :
    (∀ i c c', rectCell divs i = some c → rectCell divs (i + 1) = some c' → c.2 = c'.1) ∧
    (∀ i, (rectCell divs i).isSome ↔ i + 1 < divs.length) ∧
    (∀ x, lo ≤ x → x < hi → ∃! i, ∃ c, rectCell divs i = some c ∧ c.1 ≤ x ∧ x < c.2) ∧
    (∀ i c, rectCell divs i = some c → lo ≤ c.1 ∧ c.1 < c.2 ∧ c.2 ≤ hi) := by
  have cell : ∀ i c, rectCell divs i = some c ↔ divs[i]? = some c.1 ∧ divs[i + 1]? = some c.2 := by
    intro i c
    unfold rectCell
    constructor
    · intro h
      obtain ⟨a, ha, h⟩ := Option.bind_eq_some_iff.1 h
      obtain ⟨b, hb, h⟩ := Option.bind_eq_some_iff.1 h
      rw [Option.some.injEq] at h
      subst h
      exact ⟨ha, hb⟩
    · rintro ⟨ha, hb⟩
      rw [ha, Option.bind_some, hb, Option.bind_some]
  have mono : ∀ (i j : Nat) (a b : K), i < j → divs[i]? = some a → divs[j]? = some b → a < b := by
    intro i j a b hij ha hb
    obtain ⟨hi', ha⟩ := List.getElem?_eq_some_iff.1 ha
    obtain ⟨hj', hb⟩ := List.getElem?_eq_some_iff.1 hb
    rw [← ha, ← hb]
    exact List.pairwise_iff_getElem.1 hs i j hi' hj' hij
  have h0' : divs[0]? = some lo := by rw [← List.head?_eq_getElem?]; exact h0
  have h1' : divs[divs.length - 1]? = some hi := by rw [← List.getLast?_eq_getElem?]; exact h1
  refine ⟨?_, ?_, ?_, ?_⟩
  · intro i c c' hc hc'
    have := ((cell i c).1 hc).2
    rw [((cell _ c').1 hc').1] at this
    exact (Option.some.inj this).symm
  · intro i
    constructor
    · intro h
      obtain ⟨c, hc⟩ := Option.isSome_iff_exists.1 h
      exact (List.getElem?_eq_some_iff.1 ((cell i c).1 hc).2).1
    · intro h
      exact Option.isSome_iff_exists.2 ⟨(divs[i], divs[i + 1]), (cell _ _).2
        ⟨List.getElem?_eq_getElem (by omega), List.getElem?_eq_getElem h⟩⟩
  · intro x hx0 hx1
    have ex : ∀ (n : Nat) (b : K), divs[n]? = some b → x < b →
        ∃ i, ∃ c, rectCell divs i = some c ∧ c.1 ≤ x ∧ x < c.2 := by
      intro n
      induction n with
      | zero =>
        intro b hb hxb
        rw [h0', Option.some.injEq] at hb
        subst hb
        exact absurd hxb (not_lt.2 hx0)
      | succ n ih =>
        intro b hb hxb
        have hn : n < divs.length := by have := (List.getElem?_eq_some_iff.1 hb).1; omega
        by_cases hxn : x < divs[n]
        · exact ih _ (List.getElem?_eq_getElem hn) hxn
        · exact ⟨n, (divs[n], b), (cell _ _).2 ⟨List.getElem?_eq_getElem hn, hb⟩, not_lt.1 hxn, hxb⟩
    obtain ⟨i, c, hc, hx⟩ := ex _ _ h1' hx1
    refine ⟨i, ⟨c, hc, hx⟩, ?_⟩
    rintro j ⟨c', hc', hx'⟩
    rw [cell] at hc hc'
    by_contra hne
    rcases Nat.lt_or_gt_of_ne hne with h | h
    · have : c'.2 ≤ c.1 := by
        rcases Nat.lt_or_ge (j + 1) i with h' | h'
        · exact (mono _ _ _ _ h' hc'.2 hc.1).le
        · have : j + 1 = i := by omega
          subst this
          rw [hc'.2] at hc
          exact (Option.some.inj hc.1).le
      linarith [hx.1, hx'.2]
    · have : c.2 ≤ c'.1 := by
        rcases Nat.lt_or_ge (i + 1) j with h' | h'
        · exact (mono _ _ _ _ h' hc.2 hc'.1).le
        · have : i + 1 = j := by omega
          subst this
          rw [hc.2] at hc'
          exact (Option.some.inj hc'.1).le
      linarith [hx.2, hx'.1]
  · intro i c hc
    rw [cell] at hc
    refine ⟨?_, mono _ _ _ _ (Nat.lt_succ_self i) hc.1 hc.2, ?_⟩
    · rcases Nat.eq_zero_or_pos i with rfl | h
      · rw [h0'] at hc; exact (Option.some.inj hc.1).le
      · exact (mono _ _ _ _ h h0' hc.1).le
    · have hl := (List.getElem?_eq_some_iff.1 hc.2).1
      rcases Nat.lt_or_ge (i + 1) (divs.length - 1) with h | h
      · exact (mono _ _ _ _ h hc.2 h1').le
      · have : i + 1 = divs.length - 1 := by omega
        rw [← this, hc.2] at h1'
        exact (Option.some.inj h1').le

/-! ## The constructor from an id lattice -/

/-- Specification: the division points `x, x + w₀, x + w₀ + w₁, …`. -/
def sums (x : K) : List K → List K
  | [] => [x]
  | w :: ws => x :: sums (x + w) ws

/-- The intervals between them. -/
def cuts (x : K) : List K → List (K × K)
  | [] => []
  | w :: ws => (x, x + w) :: cuts (x + w) ws

theorem rowBoxes_eq {dxdy : List (K × K)} {y h : K} {row : List Nat} {W : List K}
    (hr : List.Forall₂ (fun id w => dxdy[id]? = some (w, h)) row W) : ∀ x : K,
    rowBoxes dxdy y x row = some ((cuts x W).map fun c => (c, (y, y + h))) := by
  induction hr with
  | nil => intro x; rfl
  | cons e _ ih =>
    intro x
    rw [rowBoxes, e, Option.bind_some]
    dsimp only
    rw [ih]
    rfl

theorem idBoxes_eq {dxdy : List (K × K)} {W : List K} (hW : W ≠ []) {rows : List (List Nat)} {H : List K}
    (hr : List.Forall₂ (fun row h => List.Forall₂ (fun id w => dxdy[id]? = some (w, h)) row W) rows H) :
    ∀ y : K, idBoxes dxdy W.length y rows =
      some ((cuts y H).flatMap fun cy => (cuts 0 W).map fun cx => (cx, cy)) := by
  induction hr with
  | nil => intro y; rfl
  | @cons row h rows H hrow hrows ih =>
    intro y
    have hl : row.length = W.length := hrow.length_eq
    rw [idBoxes, if_neg (by omega), ← hl, List.take_length, rowBoxes_eq hrow, Option.bind_some]
    cases hrow with
    | nil => exact absurd rfl hW
    | @cons id w row W e hrow' =>
      simp only [List.getElem?_cons_zero, Option.bind_some, e]
      rw [hl, ih, Option.bind_some, show cuts y (h :: H) = (y, y + h) :: cuts (y + h) H from rfl, List.flatMap_cons]

theorem addDiv_mem {eps : K} (he : 0 < eps) {ds : List K} {x : K} (h : x ∈ ds) : addDiv eps ds x = ds := by
  unfold addDiv
  rw [if_pos]
  rw [List.any_eq_true]
  exact ⟨x, h, by simpa using he⟩

theorem addDiv_far {eps : K} {ds : List K} {x : K} (h : ∀ d ∈ ds, d + eps ≤ x) :
    addDiv eps ds x = ds ++ [x] := by
  unfold addDiv
  rw [if_neg]
  rw [List.any_eq_true]
  rintro ⟨d, hd, h'⟩
  have := h d hd
  have h'' := of_decide_eq_true h'
  rw [abs_sub_comm] at h''
  have := le_abs_self (x - d)
  linarith

/-- Both ends of every box are already divisions: nothing is added. -/
theorem foldl_mem {eps : K} (he : 0 < eps) (boxes : List (K × K)) (ds : List K)
    (h : ∀ b ∈ boxes, b.1 ∈ ds ∧ b.2 ∈ ds) :
    boxes.foldl (fun ds b => addDiv eps (addDiv eps ds b.1) b.2) ds = ds := by
  induction boxes with
  | nil => rfl
  | cons b bs ih =>
    rw [List.foldl_cons, addDiv_mem he (h b (List.mem_cons_self ..)).1,
      addDiv_mem he (h b (List.mem_cons_self ..)).2]
    exact ih fun c hc => h c (List.mem_cons_of_mem _ hc)

theorem foldl_cuts {eps : K} (he : 0 < eps) (W : List K) (hW : ∀ w ∈ W, eps ≤ w) : ∀ (x : K) (ds : List K),
    (∀ d ∈ ds, d ≤ x) → x ∈ ds →
    (cuts x W).foldl (fun ds b => addDiv eps (addDiv eps ds b.1) b.2) ds = ds ++ (sums x W).tail := by
  induction W with
  | nil => intro x ds _ _; simp [cuts, sums]
  | cons w W ih =>
    intro x ds hd hx
    have hw := hW w (List.mem_cons_self ..)
    rw [cuts, List.foldl_cons, addDiv_mem he hx,
      addDiv_far (x := x + w) (fun d hdm => by have := hd d hdm; linarith),
      ih (fun v hv => hW v (List.mem_cons_of_mem _ hv)) (x + w) _ ?_ (by simp)]
    · rw [sums, List.tail_cons, List.append_assoc]
      congr 1
      cases W <;> simp [sums]
    · intro d hdm
      rcases List.mem_append.1 hdm with h | h
      · have := hd d h; linarith
      · rw [List.mem_singleton] at h; exact h.le

theorem mem_sums_self (x : K) (W : List K) : x ∈ sums x W := by cases W <;> simp [sums]

theorem sums_cons_tail (x : K) (W : List K) : x :: (sums x W).tail = sums x W := by cases W <;> simp [sums]

theorem cuts_mem (W : List K) : ∀ (x : K), ∀ b ∈ cuts x W, b.1 ∈ sums x W ∧ b.2 ∈ sums x W := by
  induction W with
  | nil => intro x b hb; simp [cuts] at hb
  | cons w W ih =>
    intro x b hb
    rw [cuts, List.mem_cons] at hb
    rw [sums]
    rcases hb with rfl | hb
    · exact ⟨List.mem_cons_self .., List.mem_cons_of_mem _ (mem_sums_self _ _)⟩
    · exact ⟨List.mem_cons_of_mem _ (ih _ b hb).1, List.mem_cons_of_mem _ (ih _ b hb).2⟩

theorem sums_ge (W : List K) (hW : ∀ w ∈ W, 0 < w) : ∀ x, ∀ d ∈ sums x W, x ≤ d := by
  induction W with
  | nil => intro x d hd; rw [sums, List.mem_singleton] at hd; exact hd.ge
  | cons w W ih =>
    intro x d hd
    rw [sums, List.mem_cons] at hd
    rcases hd with rfl | hd
    · exact le_rfl
    · have := ih (fun v hv => hW v (List.mem_cons_of_mem _ hv)) _ d hd
      linarith [hW w (List.mem_cons_self ..)]

theorem sums_sorted (W : List K) (hW : ∀ w ∈ W, 0 < w) : ∀ x, (sums x W).Pairwise (· < ·) := by
  induction W with
  | nil => intro x; exact List.pairwise_singleton _ _
  | cons w W ih =>
    intro x
    rw [sums, List.pairwise_cons]
    refine ⟨?_, ih (fun v hv => hW v (List.mem_cons_of_mem _ hv)) _⟩
    intro d hd
    have := sums_ge W (fun v hv => hW v (List.mem_cons_of_mem _ hv)) _ d hd
    linarith [hW w (List.mem_cons_self ..)]

theorem boxDivs_x {eps : K} (he : 0 < eps) (W : List K) (hne : W ≠ []) (hW : ∀ w ∈ W, eps ≤ w)
    (rest : List (K × K)) (hrest : ∀ b ∈ rest, b ∈ cuts 0 W) :
    boxDivs eps (cuts 0 W ++ rest) = sums 0 W := by
  unfold boxDivs
  rw [List.foldl_append]
  have : (cuts 0 W).foldl (fun ds b => addDiv eps (addDiv eps ds b.1) b.2) [] =
      (cuts 0 W).foldl (fun ds b => addDiv eps (addDiv eps ds b.1) b.2) [0] := by
    cases W with
    | nil => exact absurd rfl hne
    | cons w W =>
      rw [cuts, List.foldl_cons, List.foldl_cons]
      congr 2
      rw [addDiv_mem he (List.mem_singleton_self 0)]
      simp [addDiv]
  rw [this, foldl_cuts he W hW 0 [0] (by simp) (by simp), List.singleton_append, sums_cons_tail]
  exact foldl_mem he _ _ fun b hb => cuts_mem W 0 b (hrest b hb)

theorem foldl_rows {eps : K} (he : 0 < eps) (n : Nat) (H : List K) (hH : ∀ w ∈ H, eps ≤ w) :
    ∀ (y : K) (ds : List K), (∀ d ∈ ds, d ≤ y) → y ∈ ds →
    ((cuts y H).flatMap fun c => List.replicate (n + 1) c).foldl
      (fun ds b => addDiv eps (addDiv eps ds b.1) b.2) ds = ds ++ (sums y H).tail := by
  induction H with
  | nil => intro y ds _ _; simp [cuts, sums]
  | cons h H ih =>
    intro y ds hd hy
    have hh := hH h (List.mem_cons_self ..)
    rw [cuts, List.flatMap_cons, List.foldl_append, List.replicate_succ, List.foldl_cons, addDiv_mem he hy,
      addDiv_far (x := y + h) (fun d hdm => by have := hd d hdm; linarith),
      foldl_mem he (List.replicate n (y, y + h)) (ds ++ [y + h]) ?_,
      ih (fun v hv => hH v (List.mem_cons_of_mem _ hv)) (y + h) _ ?_ (by simp)]
    · rw [sums, List.tail_cons, List.append_assoc]
      congr 1
      cases H <;> simp [sums]
    · intro d hdm
      rcases List.mem_append.1 hdm with h' | h'
      · have := hd d h'; linarith
      · rw [List.mem_singleton] at h'; exact h'.le
    · intro b hb
      rw [List.eq_of_mem_replicate hb]
      exact ⟨List.mem_append_left _ hy, by simp⟩

theorem sorted_unique {l out : List K} (hl : l.Pairwise (· < ·))
    (h : IsStdSort (fun a b => decide (a < b)) l out) : out = l := by
  obtain ⟨hp, hs⟩ := h
  refine List.Perm.eq_of_pairwise (le := (· ≤ ·)) ?_ ?_ ?_ hp
  · intro a b _ _ h1 h2; exact le_antisymm h1 h2
  · exact hs.imp fun h => not_lt.1 (of_decide_eq_false h)
  · exact hl.imp fun h => h.le

theorem rectCell_sums (W : List K) : ∀ (x : K) (i : Nat) (w : K), W[i]? = some w →
    ∃ c, rectCell (sums x W) i = some c ∧ c.2 - c.1 = w := by
  induction W with
  | nil => intro x i w h; simp at h
  | cons v W ih =>
    intro x i w h
    cases i with
    | zero =>
      simp only [List.getElem?_cons_zero, Option.some.injEq] at h
      subst h
      refine ⟨(x, x + v), ?_, by simp⟩
      cases W <;> simp [rectCell, sums]
    | succ i =>
      obtain ⟨c, hc, e⟩ := ih (x + v) i w (by simpa using h)
      refine ⟨c, ?_, e⟩
      unfold rectCell at hc ⊢
      rw [sums]
      simpa using hc

theorem sums_length (W : List K) : ∀ x : K, (sums x W).length = W.length + 1 := by
  induction W with
  | nil => intro x; rfl
  | cons w W ih => intro x; simp [sums, ih]

/-- The constructor from ids.  Suppose the columns of the lattice have widths `W` and its rows, from the
bottom, heights `H` (each entry of `dxdy` used has the width of its column and the height of its row), all
at least `eps`.  Then the constructor succeeds, whichever way `std::sort` behaves there is one result, the
grid starts at the origin and has one column per width and one row per height, and cell `(i, j)` has
the extents of the id in column `i` of the `j`-th row from the bottom. -/
theorem C38_ids {eps : K} (he : 0 < eps) (dxdy : List (K × K)) (ids : List (List Nat)) (W H : List K)
    (hW : W ≠ []) (hH : H ≠ []) (hWe : ∀ w ∈ W, eps ≤ w) (hHe : ∀ h ∈ H, eps ≤ h)
    (hl : List.Forall₂ (fun row h => List.Forall₂ (fun id w => dxdy[id]? = some (w, h)) row W)
      ids.reverse H) :
    (∃ xs ys, IsIdGrid eps dxdy ids xs ys) ∧
    ∀ xs ys, IsIdGrid eps dxdy ids xs ys →
      xs = sums 0 W ∧ ys = sums 0 H ∧ rectNumCells [xs, ys] = [(W.length : ℤ), (H.length : ℤ)] ∧
      ∀ i j row id d, ids.reverse[j]? = some row → row[i]? = some id → dxdy[id]? = some d →
        ∃ cx cy, rectCell xs i = some cx ∧ rectCell ys j = some cy ∧
          cx.2 - cx.1 = d.1 ∧ cy.2 - cy.1 = d.2 := by
  -- the boxes
  have hb : gridBoxes dxdy ids =
      some ((cuts 0 H).flatMap fun cy => (cuts 0 W).map fun cx => (cx, cy)) := by
    unfold gridBoxes
    cases ids with
    | nil =>
      rw [List.reverse_nil] at hl
      cases hl
      exact absurd rfl hH
    | cons row0 rows =>
      have hr0 : row0.length = W.length := by
        have : row0 ∈ (row0 :: rows).reverse := by simp
        obtain ⟨n, hn, e⟩ := List.getElem_of_mem this
        have hn' : n < H.length := by rw [← hl.length_eq]; exact hn
        have := List.Forall₂.get hl hn hn'
        simp only [List.get_eq_getElem] at this
        rw [e] at this
        exact this.length_eq
      dsimp only
      rw [hr0]
      exact idBoxes_eq hW hl 0
  have hx : boxDivs eps (((cuts 0 H).flatMap fun cy => (cuts 0 W).map fun cx => (cx, cy)).map (·.1)) =
      sums 0 W := by
    rw [List.map_flatMap]
    simp only [List.map_map, Function.comp_def, List.map_id']
    cases H with
    | nil => exact absurd rfl hH
    | cons h H =>
      rw [cuts, List.flatMap_cons]
      exact boxDivs_x he W hW hWe _ fun b hbm => by
        obtain ⟨_, _, h⟩ := List.mem_flatMap.1 hbm; exact h
  have hy : boxDivs eps (((cuts 0 H).flatMap fun cy => (cuts 0 W).map fun cx => (cx, cy)).map (·.2)) =
      sums 0 H := by
    have cl : (cuts (0 : K) W).length = W.length := by
      have : ∀ (W : List K) (x : K), (cuts x W).length = W.length := by
        intro W
        induction W with
        | nil => intro x; rfl
        | cons w W ih => intro x; simp [cuts, ih]
      exact this W 0
    obtain ⟨n, hn⟩ : ∃ n, W.length = n + 1 := by
      cases W with
      | nil => exact absurd rfl hW
      | cons w W => exact ⟨W.length, rfl⟩
    rw [List.map_flatMap]
    simp only [List.map_map, Function.comp_def, List.map_const', cl, hn]
    unfold boxDivs
    have e0 : ((cuts 0 H).flatMap fun c => List.replicate (n + 1) c).foldl
        (fun ds b => addDiv eps (addDiv eps ds b.1) b.2) [] =
        ((cuts 0 H).flatMap fun c => List.replicate (n + 1) c).foldl
        (fun ds b => addDiv eps (addDiv eps ds b.1) b.2) [0] := by
      cases H with
      | nil => exact absurd rfl hH
      | cons h H =>
        rw [cuts, List.flatMap_cons, List.replicate_succ, List.cons_append, List.foldl_cons, List.foldl_cons]
        congr 2
        rw [addDiv_mem he (List.mem_singleton_self 0)]
        simp [addDiv]
    rw [e0, foldl_rows he n H hHe 0 [0] (by simp) (by simp), List.singleton_append, sums_cons_tail]
  have sW := sums_sorted W (fun w hw => lt_of_lt_of_le he (hWe w hw)) 0
  have sH := sums_sorted H (fun w hw => lt_of_lt_of_le he (hHe w hw)) 0
  have self : ∀ l : List K, l.Pairwise (· < ·) → IsStdSort (fun a b => decide (a < b)) l l := by
    intro l hl
    exact ⟨List.Perm.refl _, hl.imp fun h => decide_eq_false (not_lt.2 h.le)⟩
  refine ⟨⟨sums 0 W, sums 0 H, _, hb, ?_, ?_⟩, ?_⟩
  · unfold IsRectAxis; rw [hx]; exact self _ sW
  · unfold IsRectAxis; rw [hy]; exact self _ sH
  · rintro xs ys ⟨b, hb', hxs, hys⟩
    rw [hb, Option.some.injEq] at hb'
    subst hb'
    unfold IsRectAxis at hxs hys
    rw [hx] at hxs
    rw [hy] at hys
    have ex := sorted_unique sW hxs
    have ey := sorted_unique sH hys
    subst ex ey
    refine ⟨rfl, rfl, by simp [rectNumCells, sums_length], ?_⟩
    intro i j row id d hj hi hd
    obtain ⟨hjl, hj⟩ := List.getElem?_eq_some_iff.1 hj
    have hjH : j < H.length := by rw [← hl.length_eq]; exact hjl
    have hrow := List.Forall₂.get hl hjl hjH
    simp only [List.get_eq_getElem] at hrow
    rw [hj] at hrow
    obtain ⟨hil, hi⟩ := List.getElem?_eq_some_iff.1 hi
    have hiW : i < W.length := by rw [← hrow.length_eq]; exact hil
    have hcell := List.Forall₂.get hrow hil hiW
    simp only [List.get_eq_getElem] at hcell
    rw [hi, hd, Option.some.injEq] at hcell
    obtain ⟨cx, hcx, ecx⟩ := rectCell_sums W 0 i _ (List.getElem?_eq_getElem hiW)
    obtain ⟨cy, hcy, ecy⟩ := rectCell_sums H 0 j _ (List.getElem?_eq_getElem hjH)
    exact ⟨cx, cy, hcx, hcy, by rw [ecx, hcell], by rw [ecy, hcell]⟩

/-- Two columns of widths 1 and 2, two rows of heights 3 (bottom) and 4. -/
example : List.Forall₂ (fun row h => List.Forall₂ (fun id w =>
    ([(1, 3), (2, 3), (1, 4), (2, 4)] : List (ℚ × ℚ))[id]? = some (w, h)) row [1, 2])
      ([[2, 3], [0, 1]] : List (List Nat)).reverse [3, 4] := by simp

/-- Without an index into `dxdy`, or with an empty lattice, the constructor reads out of bounds. -/
theorem C38_undefined (dxdy : List (K × K)) : gridBoxes dxdy [] = none ∧ gridBoxes dxdy [[]] = none ∧
    ∀ id, dxdy.length ≤ id → gridBoxes dxdy [[id]] = none := by
  refine ⟨rfl, rfl, ?_⟩
  intro id h
  simp [gridBoxes, idBoxes, rowBoxes, List.getElem?_eq_none h]

end Verif.Grid
