import Verif.Model.Compare
import Verif.Props.Soup
import Mathlib.Algebra.Order.Field.Basic
import Mathlib.Algebra.Order.Ring.Abs
import Mathlib.Data.List.Forall2
import Mathlib.Tactic.Ring
import Mathlib.Tactic.Linarith
import Mathlib.Tactic.NormNum

/-!
# C85 Comparison of soups
-/

namespace Verif.Polytope

variable {K T N : Type} [Field K] [LinearOrder K] [IsStrictOrderedRing K]

/-! ### Specification -/

/-- Two points are at a distance below `eps`. -/
def Near (eps : K) (a b : K × K × K) : Prop := (a.1 - b.1) ^ 2 + (a.2.1 - b.2.1) ^ 2 + (a.2.2 - b.2.2) ^ 2 < eps ^ 2

/-- Two arrays of values: of the same length, and nowhere further apart than `eps`. -/
def Close (eps : K) (a b : List K) : Prop := List.Forall₂ (fun x y => |x - y| ≤ eps) a b

/-- Two element sets: same name, same ids, close data. -/
def SameSet (eps : K) (e f : ElSet N K) : Prop := e.name = f.name ∧ e.ids = f.ids ∧ Close eps e.data f.data

/-! ### Lemmas -/

omit [IsStrictOrderedRing K] in
theorem isApprox_iff (eps : K) (a b : K × K × K) : isApprox (eps * eps) a b = true ↔ Near eps a b := by
  unfold isApprox sqDist Near
  rw [decide_eq_true_eq]
  constructor <;> intro h
  · calc _ = _ := by ring
      _ < eps * eps := h
      _ = _ := by ring
  · calc _ = _ := by ring
      _ < eps ^ 2 := h
      _ = _ := by ring

theorem abs_code (x : K) : (if x < 0 then -x else x) = |x| := by
  split_ifs with h
  · exact (abs_of_neg h).symm
  · exact (abs_of_nonneg (not_lt.1 h)).symm

theorem any_false_iff {α : Type} (p : α → α → Bool) (a b : List α) (h : a.length = b.length) :
    ((a.zip b).any fun x => p x.1 x.2) = false ↔ List.Forall₂ (fun x y => p x y = false) a b := by
  induction a generalizing b with
  | nil =>
    cases b with
    | nil => simp
    | cons y b => simp at h
  | cons x a ih =>
    cases b with
    | nil => simp at h
    | cons y b =>
      simp only [List.length_cons, add_left_inj] at h
      rw [List.zip_cons_cons, List.any_cons, Bool.or_eq_false_iff, ih b h, List.forall₂_cons]

theorem compareData_spec (eps : K) (a b : List (List K)) (h : a.length = b.length) :
    (compareData eps a b = 0 ↔ List.Forall₂ (Close eps) a b) ∧ 0 ≤ compareData eps a b ∧
    (compareData eps a b ≠ 0 → ∃ (i : Nat) (x y : List K), a[i]? = some x ∧ b[i]? = some y ∧
      (compareData eps a b = 10 ∧ x.length ≠ y.length ∨ compareData eps a b = 11 ∧ x.length = y.length ∧ ¬ Close eps x y)) := by
  induction a generalizing b with
  | nil =>
    cases b with
    | nil => simp [compareData]
    | cons y b => simp at h
  | cons x a ih =>
    cases b with
    | nil => simp at h
    | cons y b =>
      simp only [List.length_cons, add_left_inj] at h
      obtain ⟨ih1, ih2, ih3⟩ := ih b h
      rw [compareData]
      by_cases hl : x.length = y.length
      · rw [if_neg (by simpa using hl)]
        have key : ((x.zip y).any fun p => decide (eps < if p.1 - p.2 < 0 then -(p.1 - p.2) else p.1 - p.2)) = false ↔
            Close eps x y := by
          rw [any_false_iff (fun u v => decide (eps < if u - v < 0 then -(u - v) else u - v)) x y hl]
          unfold Close
          simp only [abs_code, decide_eq_false_iff_not, not_lt]
        by_cases hc : Close eps x y
        · rw [key.2 hc, if_neg (by simp)]
          refine ⟨by rw [ih1, List.forall₂_cons]; simp [hc], ih2, fun h0 => ?_⟩
          obtain ⟨i, u, v, h1, h2, h3⟩ := ih3 h0
          exact ⟨i + 1, u, v, by simpa using h1, by simpa using h2, h3⟩
        · rw [if_pos (by rw [← Bool.not_eq_false]; exact fun h => hc (key.1 h))]
          refine ⟨by simp [List.forall₂_cons, hc], by norm_num, fun _ => ⟨0, x, y, rfl, rfl, .inr ⟨rfl, hl, hc⟩⟩⟩
      · rw [if_pos hl]
        refine ⟨?_, by norm_num, fun _ => ⟨0, x, y, rfl, rfl, .inl ⟨rfl, hl⟩⟩⟩
        simp only [List.forall₂_cons]
        constructor
        · intro h
          norm_num at h
        · rintro ⟨h, -⟩
          exact absurd h.length_eq hl

/-! ### Theorems -/

/-- What the numbers mean: the first difference in this order. `eps2` is the square of `eps`. -/
theorem C85_code [DecidableEq T] [DecidableEq N] (eps : K) (s t : Soup (K × K × K) T N K) :
    (s.verts.length ≠ t.verts.length → compare eps (eps * eps) s t = 1) ∧
    (s.verts.length = t.verts.length → ¬ List.Forall₂ (Near eps) s.verts t.verts → compare eps (eps * eps) s t = 2) ∧
    (List.Forall₂ (Near eps) s.verts t.verts →
      (s.types ≠ t.types → compare eps (eps * eps) s t = 3) ∧ (s.types = t.types →
      (s.eoffs ≠ t.eoffs → compare eps (eps * eps) s t = 4) ∧ (s.eoffs = t.eoffs →
      (s.conn ≠ t.conn → compare eps (eps * eps) s t = 5) ∧ (s.conn = t.conn →
      (s.names ≠ t.names → compare eps (eps * eps) s t = 6) ∧ (s.names = t.names →
      (s.soffs ≠ t.soffs → compare eps (eps * eps) s t = 7) ∧ (s.soffs = t.soffs →
      (s.sids ≠ t.sids → compare eps (eps * eps) s t = 8) ∧ (s.sids = t.sids →
      (s.sdata.length ≠ t.sdata.length → compare eps (eps * eps) s t = 9) ∧ (s.sdata.length = t.sdata.length →
      (List.Forall₂ (Close eps) s.sdata t.sdata → compare eps (eps * eps) s t = 0) ∧
      (¬ List.Forall₂ (Close eps) s.sdata t.sdata → ∃ (i : Nat) (x y : List K), s.sdata[i]? = some x ∧ t.sdata[i]? = some y ∧
        (compare eps (eps * eps) s t = 10 ∧ x.length ≠ y.length ∨
          compare eps (eps * eps) s t = 11 ∧ x.length = y.length ∧ ¬ Close eps x y)))))))))) := by
  have hv : s.verts.length = t.verts.length →
      (((s.verts.zip t.verts).any fun p => !isApprox (eps * eps) p.1 p.2) = false ↔ List.Forall₂ (Near eps) s.verts t.verts) := by
    intro h
    rw [any_false_iff (fun u v => !isApprox (eps * eps) u v) _ _ h]
    simp only [Bool.not_eq_false', isApprox_iff]
  unfold compare
  refine ⟨fun h => by rw [if_pos h], fun h h' => ?_, fun h => ?_⟩
  · rw [if_neg (by simpa using h), if_pos]
    rw [← Bool.not_eq_false]
    exact fun hh => h' ((hv h).1 hh)
  · rw [if_neg (by simpa using h.length_eq), if_neg (by rw [Bool.not_eq_true]; exact (hv h.length_eq).2 h)]
    refine ⟨fun h => by rw [if_pos h], fun h => ?_⟩
    rw [if_neg (by simpa using h)]
    refine ⟨fun h => by rw [if_pos h], fun h => ?_⟩
    rw [if_neg (by simpa using h)]
    refine ⟨fun h => by rw [if_pos h], fun h => ?_⟩
    rw [if_neg (by simpa using h)]
    refine ⟨fun h => by rw [if_pos h], fun h => ?_⟩
    rw [if_neg (by simpa using h)]
    refine ⟨fun h => by rw [if_pos h], fun h => ?_⟩
    rw [if_neg (by simpa using h)]
    refine ⟨fun h => by rw [if_pos h], fun h => ?_⟩
    rw [if_neg (by simpa using h)]
    refine ⟨fun h => by rw [if_pos h], fun h => ?_⟩
    rw [if_neg (by simpa using h)]
    obtain ⟨h1, -, h3⟩ := compareData_spec eps s.sdata t.sdata h
    exact ⟨h1.2, fun hn => h3 fun h0 => hn (h1.1 h0)⟩

theorem compare_zero [DecidableEq T] [DecidableEq N] (eps : K) (s t : Soup (K × K × K) T N K) :
    compare eps (eps * eps) s t = 0 ↔ List.Forall₂ (Near eps) s.verts t.verts ∧ s.types = t.types ∧ s.eoffs = t.eoffs ∧
      s.conn = t.conn ∧ s.names = t.names ∧ s.soffs = t.soffs ∧ s.sids = t.sids ∧
      List.Forall₂ (Close eps) s.sdata t.sdata := by
  obtain ⟨h1, h2, h3⟩ := C85_code eps s t
  constructor
  · intro h
    by_cases e1 : s.verts.length = t.verts.length
    · by_cases e2 : List.Forall₂ (Near eps) s.verts t.verts
      · obtain ⟨g3, h4⟩ := h3 e2
        by_cases e3 : s.types = t.types
        · obtain ⟨g4, h5⟩ := h4 e3
          by_cases e4 : s.eoffs = t.eoffs
          · obtain ⟨g5, h6⟩ := h5 e4
            by_cases e5 : s.conn = t.conn
            · obtain ⟨g6, h7⟩ := h6 e5
              by_cases e6 : s.names = t.names
              · obtain ⟨g7, h8⟩ := h7 e6
                by_cases e7 : s.soffs = t.soffs
                · obtain ⟨g8, h9⟩ := h8 e7
                  by_cases e8 : s.sids = t.sids
                  · obtain ⟨g9, h10⟩ := h9 e8
                    by_cases e9 : s.sdata.length = t.sdata.length
                    · by_cases e10 : List.Forall₂ (Close eps) s.sdata t.sdata
                      · exact ⟨e2, e3, e4, e5, e6, e7, e8, e10⟩
                      · obtain ⟨i, x, y, -, -, hh | hh⟩ := (h10 e9).2 e10
                        · rw [h] at hh; exact absurd hh.1 (by norm_num)
                        · rw [h] at hh; exact absurd hh.1 (by norm_num)
                    · rw [g9 e9] at h; exact absurd h (by norm_num)
                  · rw [g8 e8] at h; exact absurd h (by norm_num)
                · rw [g7 e7] at h; exact absurd h (by norm_num)
              · rw [g6 e6] at h; exact absurd h (by norm_num)
            · rw [g5 e5] at h; exact absurd h (by norm_num)
          · rw [g4 e4] at h; exact absurd h (by norm_num)
        · rw [g3 e3] at h; exact absurd h (by norm_num)
      · rw [h2 e1 e2] at h; exact absurd h (by norm_num)
    · rw [h1 e1] at h; exact absurd h (by norm_num)
  · rintro ⟨e2, e3, e4, e5, e6, e7, e8, e10⟩
    exact (((((((((h3 e2).2 e3).2 e4).2 e5).2 e6).2 e7).2 e8).2 e10.length_eq).1 e10)

/-- Two soups compare equal exactly if they have the same elements, vertices at most `eps` apart, and the same element sets with
data at most `eps` apart, in the same order. -/
theorem C85_equal [DecidableEq T] [DecidableEq N] (eps : K) (s t : Soup (K × K × K) T N K)
    (els els' : List (T × List Nat)) (sets sets' : List (ElSet N K)) (hs : Rep s els sets) (ht : Rep t els' sets') :
    compare eps (eps * eps) s t = 0 ↔
      List.Forall₂ (Near eps) s.verts t.verts ∧ els = els' ∧ List.Forall₂ (SameSet eps) sets sets' := by
  rw [compare_zero]
  constructor
  · rintro ⟨h1, h2, h3, h4, h5, h6, h7, h8⟩
    have he : els = els' := by
      refine List.ext_getElem? fun k => ?_
      rw [← C46_getElement s els sets hs k, ← C46_getElement t els' sets' ht k]
      unfold getElement
      rw [h2, h3, h4]
    refine ⟨h1, he, ?_⟩
    rw [hs.sdata, ht.sdata] at h8
    have hl : sets.length = sets'.length := by simpa using h8.length_eq
    rw [List.forall₂_iff_get]
    refine ⟨hl, fun i hi hi' => ?_⟩
    have hget : ∀ old, getElset s i old = getElset ({ t with sdata := s.sdata } : Soup (K × K × K) T N K) i old := by
      intro old
      unfold getElset
      rw [h5, h6, h7]
    have hrep : Rep ({ t with sdata := s.sdata } : Soup (K × K × K) T N K) els'
        ((sets'.zip sets).map fun p => ⟨p.1.name, p.1.ids, p.2.data⟩) := by
      refine ⟨ht.types, ht.conn, ht.eoffs, ?_, ?_, ?_, ?_⟩
      · show t.names = _
        rw [ht.names, List.map_map]
        show _ = (sets'.zip sets).map ((fun e => e.name) ∘ Prod.fst)
        rw [← List.map_map, List.map_fst_zip (by omega)]
      · show t.sids = _
        rw [ht.sids, List.map_map]
        show _ = ((sets'.zip sets).map ((fun e => e.ids) ∘ Prod.fst)).flatten
        rw [← List.map_map, List.map_fst_zip (by omega)]
      · show t.soffs = _
        rw [ht.soffs, List.map_map]
        show _ = offsOf ((sets'.zip sets).map ((fun e => e.ids) ∘ Prod.fst))
        rw [← List.map_map, List.map_fst_zip (by omega)]
      · show s.sdata = _
        rw [hs.sdata, List.map_map]
        show _ = (sets'.zip sets).map ((fun e => e.data) ∘ Prod.snd)
        rw [← List.map_map, List.map_snd_zip (by omega)]
    have g1 := C46_getElset s els sets hs i []
    have g2 := C46_getElset _ els' _ hrep i []
    rw [hget, g2] at g1
    have hi1 : sets[i]? = some (sets.get ⟨i, hi⟩) := by simp
    have hi2 : ((sets'.zip sets).map fun p => (⟨p.1.name, p.1.ids, p.2.data⟩ : ElSet N K))[i]? =
        some ⟨(sets'.get ⟨i, hi'⟩).name, (sets'.get ⟨i, hi'⟩).ids, (sets.get ⟨i, hi⟩).data⟩ := by
      have : (sets'.zip sets)[i]? = some (sets'.get ⟨i, hi'⟩, sets.get ⟨i, hi⟩) :=
        List.getElem?_zip_eq_some.2 ⟨by simp, by simp⟩
      rw [List.getElem?_map, this]
      rfl
    rw [hi1, hi2] at g1
    simp only [Option.map_some, Option.some.injEq, Prod.mk.injEq] at g1
    refine ⟨g1.1.symm, g1.2.1.symm, ?_⟩
    rw [List.forall₂_iff_get] at h8
    have := h8.2 i (by simpa using hi) (by simpa using hi')
    simpa using this
  · rintro ⟨h1, rfl, h3⟩
    have hm : ∀ {γ : Type} (f : ElSet N K → γ), (∀ e e', SameSet eps e e' → f e = f e') → sets.map f = sets'.map f := by
      intro γ f hf
      clear hs ht
      induction h3 with
      | nil => rfl
      | cons h _ ih => rw [List.map_cons, List.map_cons, hf _ _ h, ih]
    refine ⟨h1, by rw [hs.types, ht.types], by rw [hs.eoffs, ht.eoffs], by rw [hs.conn, ht.conn],
      by rw [hs.names, ht.names, hm _ fun e e' h => h.1],
      by rw [hs.soffs, ht.soffs, hm (·.ids) fun e e' h => h.2.1],
      by rw [hs.sids, ht.sids, hm (·.ids) fun e e' h => h.2.1], ?_⟩
    rw [hs.sdata, ht.sdata, List.forall₂_map_left_iff, List.forall₂_map_right_iff]
    exact h3.imp fun e e' h => h.2.2

/-- A soup compares equal to itself; the order of the two soups does not matter for equality. -/
theorem C85_symm [DecidableEq T] [DecidableEq N] (eps : K) (heps : 0 < eps) (s t : Soup (K × K × K) T N K) :
    compare eps (eps * eps) s s = 0 ∧ (compare eps (eps * eps) s t = 0 ↔ compare eps (eps * eps) t s = 0) := by
  have hn : ∀ a b : K × K × K, Near eps a b → Near eps b a := by
    intro a b h
    unfold Near at *
    calc _ = _ := by ring
      _ < _ := h
  have hcl : ∀ a b : List K, Close eps a b → Close eps b a := by
    intro a b h
    exact h.flip.imp fun x y h => by rw [abs_sub_comm]; exact h
  have hsym : ∀ s t : Soup (K × K × K) T N K, compare eps (eps * eps) s t = 0 → compare eps (eps * eps) t s = 0 := by
    intro s t h
    rw [compare_zero] at h ⊢
    obtain ⟨h1, h2, h3, h4, h5, h6, h7, h8⟩ := h
    exact ⟨h1.flip.imp fun a b h => hn b a h, h2.symm, h3.symm, h4.symm, h5.symm, h6.symm, h7.symm,
      h8.flip.imp fun a b h => hcl b a h⟩
  refine ⟨?_, hsym s t, hsym t s⟩
  rw [compare_zero]
  refine ⟨List.forall₂_same.2 fun a _ => ?_, rfl, rfl, rfl, rfl, rfl, rfl,
    List.forall₂_same.2 fun a _ => List.forall₂_same.2 fun x _ => ?_⟩
  · unfold Near
    have := pow_pos heps 2
    simpa using this
  · simpa using heps.le

/-- Equality up to a tolerance is not transitive. -/
theorem C85_not_transitive (eps : ℚ) (heps : 0 < eps) : ∃ s t u : Soup (ℚ × ℚ × ℚ) ℤ ℤ ℚ,
    compare eps (eps * eps) s t = 0 ∧ compare eps (eps * eps) t u = 0 ∧ compare eps (eps * eps) s u = 2 := by
  refine ⟨(addVertex empty (0, 0, 0)).1, (addVertex empty (eps * 2 / 3, 0, 0)).1, (addVertex empty (eps * 4 / 3, 0, 0)).1,
    ?_, ?_, ?_⟩
  · rw [compare_zero]
    refine ⟨.cons ?_ .nil, rfl, rfl, rfl, rfl, rfl, rfl, .nil⟩
    unfold Near
    nlinarith
  · rw [compare_zero]
    refine ⟨.cons ?_ .nil, rfl, rfl, rfl, rfl, rfl, rfl, .nil⟩
    unfold Near
    nlinarith
  · refine (C85_code eps _ _).2.1 rfl ?_
    rintro (_ | ⟨h, -⟩)
    unfold Near at h
    nlinarith

/-- The order of the element sets matters: the same sets, added in another order, compare different. -/
theorem C85_order (eps : ℚ) : ∃ ops ops' : List (Op (ℚ × ℚ × ℚ) ℤ ℤ ℚ), ops.Perm ops' ∧
    compare eps (eps * eps) (ops.foldl (fun s op => (step s op).1) empty) (ops'.foldl (fun s op => (step s op).1) empty) = 6 := by
  refine ⟨[.addElset 1 [0] [], .addElset 2 [0] []], [.addElset 2 [0] [], .addElset 1 [0] []], .swap _ _ _, ?_⟩
  refine ((((C85_code eps (List.foldl (fun s op => (step s op).1) empty [.addElset 1 [0] [], .addElset 2 [0] []])
    (List.foldl (fun s op => (step s op).1) empty [.addElset 2 [0] [], .addElset 1 [0] []])).2.2 .nil).2 rfl).2 rfl |>.2 rfl).1 ?_
  decide

example : Rep (addElset (addElement (addVertex (empty : Soup (ℚ × ℚ × ℚ) ℤ ℤ ℚ) (0, 0, 0)).1 1 [0]).1 7 [0] [5]).1
    [(1, [0])] [⟨7, [0], [5]⟩] := ⟨rfl, rfl, rfl, rfl, rfl, rfl, rfl⟩

end Verif.Polytope
