import Verif.Model.RaySort
import Verif.Props.Algorithm
import Mathlib.Tactic.Linarith
import Mathlib.Data.List.Range
import Mathlib.Tactic.NormNum
import Mathlib.Data.Rat.Defs
import Mathlib.Algebra.Order.Ring.Rat

/-!
# C45 Ray-mesh intersections are ordered along the ray
-/

set_option linter.unusedSectionVars false

namespace Verif.RaySort

variable {R : Type} [Field R] [LinearOrder R] [IsStrictOrderedRing R]

/-- The flat arrays hold the given blocks: block `i` occupies the positions from the total length of
the blocks before it. -/
structure Layout (coords : List R) (offsets : List Nat) (blocks : List (List R)) : Prop where
  prefix_ : blocks.flatten <+: coords
  offset : ∀ i, i ≤ blocks.length → offsets[i]? = some (blocks.take i).flatten.length

/-- The face with parameters `x` lies before the face with parameters `y` on the ray: no parameter of
`x` exceeds one of `y`, and `x` is entered strictly before `y` is. -/
def Precedes (x y : List R) : Prop :=
  (∀ a ∈ x, ∀ b ∈ y, a ≤ b) ∧ ∃ a ∈ x, ∀ b ∈ y, a < b

/-- The key of a block. -/
def blockKey : List R → R
  | [] => 0
  | c :: l => ((l.foldl keyStep (c, c)).1 + (l.foldl keyStep (c, c)).2) / 2

theorem fold_read {α β : Type} (f : β → α → β) (l : List α) (pre post : List α) (s : β) :
    (List.range' pre.length l.length).foldlM
      (fun (s : β) j => ((pre ++ l ++ post)[j]?).map fun r => f s r) s = some (l.foldl f s) := by
  induction l generalizing pre s with
  | nil => rfl
  | cons a l ih =>
    rw [List.length_cons, List.range'_succ, List.foldlM_cons, List.foldl_cons]
    have h : (pre ++ a :: l ++ post)[pre.length]? = some a := by simp
    rw [h]
    have := ih (pre ++ [a]) (f s a)
    simp only [List.length_append, List.length_singleton, List.append_assoc, List.singleton_append] at this
    simpa using this

theorem Layout.split {coords : List R} {offsets : List Nat} {blocks : List (List R)}
    (h : Layout coords offsets blocks) {i : Nat} {b : List R} (hb : blocks[i]? = some b) :
    ∃ pre post, coords = pre ++ b ++ post ∧ pre.length = (blocks.take i).flatten.length ∧
      offsets[i]? = some pre.length ∧ offsets[i + 1]? = some (pre.length + b.length) := by
  obtain ⟨t, ht⟩ := h.prefix_
  have hi : i < blocks.length := (List.getElem?_eq_some_iff.1 hb).1
  have hd : blocks = blocks.take i ++ b :: blocks.drop (i + 1) := by
    conv_lhs => rw [← List.take_append_drop i blocks]
    rw [List.drop_eq_getElem_cons hi]
    rw [(List.getElem?_eq_some_iff.1 hb).2]
  refine ⟨(blocks.take i).flatten, (blocks.drop (i + 1)).flatten ++ t, ?_, rfl, h.offset i (by omega), ?_⟩
  · rw [← ht]
    conv_lhs => rw [hd]
    simp
  · rw [h.offset (i + 1) (by omega), List.take_add_one, hb]
    simp

theorem keyOf_layout {coords : List R} {offsets : List Nat} {blocks : List (List R)}
    (h : Layout coords offsets blocks) {i : Nat} {b : List R} (hb : blocks[i]? = some b) (hne : b ≠ []) :
    keyOf coords offsets i = some (blockKey b) := by
  obtain ⟨pre, post, h1, -, h3, h4⟩ := h.split hb
  cases b with
  | nil => exact absurd rfl hne
  | cons c l =>
    unfold keyOf
    rw [h3, h4]
    simp only [Option.bind_some]
    have hc : coords[pre.length]? = some c := by rw [h1]; simp
    rw [hc]
    simp only [Option.bind_some, List.length_cons]
    have hsz : pre.length + (l.length + 1) - (pre.length + 1) = l.length := by omega
    rw [hsz]
    have := fold_read keyStep l (pre ++ [c]) post (c, c)
    simp only [List.length_append, List.length_singleton] at this
    rw [h1]
    have e : pre ++ c :: l ++ post = pre ++ [c] ++ l ++ post := by simp
    rw [e, this]
    rfl

theorem keyPass_layout {coords : List R} {offsets : List Nat} {blocks : List (List R)}
    (h : Layout coords offsets blocks) (hne : ∀ b ∈ blocks, b ≠ []) (buf : List R) :
    ∀ k, k ≤ blocks.length → k ≤ buf.length →
      keyPass coords offsets k buf = some ((blocks.take k).map blockKey ++ buf.drop k) := by
  intro k
  induction k with
  | zero => intro _ _; rfl
  | succ k ih =>
    intro hk hb
    unfold keyPass at ih ⊢
    rw [List.range_succ, List.foldlM_append, ih (by omega) (by omega)]
    have hk' : blocks[k]? = some blocks[k] := List.getElem?_eq_getElem (by omega)
    simp only [Option.bind_eq_bind, Option.bind_some, List.foldlM_cons, List.foldlM_nil]
    rw [keyOf_layout h hk' (hne _ (List.getElem_mem _))]
    have hl : ((blocks.take k).map blockKey).length = k := by simp; omega
    have : k < ((blocks.take k).map blockKey ++ buf.drop k).length := by
      rw [List.length_append, hl, List.length_drop]; omega
    simp only [put, Option.bind_some, if_pos this]
    rw [List.set_append_right _ _ (by omega), hl, Nat.sub_self, List.drop_eq_getElem_cons (by omega),
      List.set_cons_zero, List.take_add_one, hk']
    simp only [List.map_append, Option.toList_some, List.map_cons, List.map_nil, List.append_assoc,
      List.cons_append, List.nil_append]
    rfl

theorem copyBlock_eq (b pre post : List R) (a : Nat) (buf : List R) :
    ∀ k, k ≤ b.length → a + k ≤ buf.length →
      copyBlock (pre ++ b ++ post) pre.length a k buf =
        some (buf.take a ++ b.take k ++ buf.drop (a + k)) := by
  intro k
  induction k with
  | zero => intro _ _; simp [copyBlock]
  | succ k ih =>
    intro hk hb
    unfold copyBlock at ih ⊢
    rw [List.range_succ, List.foldlM_append, ih (by omega) (by omega)]
    simp only [Option.bind_eq_bind, Option.bind_some, List.foldlM_cons, List.foldlM_nil]
    have hc : (pre ++ b ++ post)[pre.length + k]? = some b[k] := by
      rw [List.append_assoc, List.getElem?_append_right (by omega), Nat.add_sub_cancel_left,
        List.getElem?_append_left (by omega), List.getElem?_eq_getElem (by omega)]
    rw [hc]
    have hl : (buf.take a ++ b.take k).length = a + k := by
      rw [List.length_append, List.length_take, List.length_take]; omega
    have : a + k < (buf.take a ++ b.take k ++ buf.drop (a + k)).length := by
      rw [List.length_append, hl, List.length_drop]; omega
    simp only [put, Option.bind_some, if_pos this]
    rw [List.set_append_right _ _ (by omega), hl, Nat.sub_self, List.drop_eq_getElem_cons (by omega),
      List.set_cons_zero, List.take_add_one, List.getElem?_eq_getElem (by omega)]
    simp only [Option.toList_some, List.append_assoc, List.cons_append, List.nil_append, Nat.add_assoc]
    rfl

/-- State of the copy loop after `k` iterations. -/
structure CopyInv (nf : Nat) (out : List (List R)) (fs : List Nat) (tot : Nat) (st : Out R) : Prop where
  pre : ∃ rest, st.coords = out.flatten ++ rest
  len : tot ≤ st.coords.length
  offs : ∀ i, i ≤ out.length → st.offsets[i]? = some (out.take i).flatten.length
  olen : nf + 1 ≤ st.offsets.length
  faces : ∃ rest, st.faces = fs ++ rest
  flen : nf ≤ st.faces.length

theorem copyStep_inv {sorter : List R → List R} (hs : ∀ l, IsStdSort lessB l (sorter l))
    {coords : List R} {offsets faces p : List Nat} {blocks : List (List R)}
    (h : Layout coords offsets blocks) {nf tot k ind f : Nat} {b : List R} (hk : p[k]? = some ind) (hknf : k < nf)
    (hb : blocks[ind]? = some b) (hf : faces[ind]? = some f) {out : List (List R)} {fs : List Nat}
    (hout : out.length = k) (hfs : fs.length = k) (htot : out.flatten.length + b.length ≤ tot)
    {st : Out R} (hi : CopyInv nf out fs tot st) :
    ∃ st', copyStep sorter coords offsets faces p st k = some st' ∧
      CopyInv nf (out ++ [sorter b]) (fs ++ [f]) tot st' := by
  obtain ⟨pre, post, h1, h2, h3, h4⟩ := h.split hb
  obtain ⟨rest, hr⟩ := hi.pre
  obtain ⟨frest, hfr⟩ := hi.faces
  have hsl : (sorter b).length = b.length := (hs b).perm.length_eq
  have ho : st.offsets[k]? = some out.flatten.length := by
    have := hi.offs k (by omega)
    rw [← hout, List.take_length] at this
    rw [← hout]; exact this
  have hsz : pre.length + b.length - pre.length = b.length := by omega
  have hlen := hi.len
  have holen := hi.olen
  have hflen := hi.flen
  have hcb := copyBlock_eq b pre post out.flatten.length st.coords b.length le_rfl (by omega)
  rw [← h1] at hcb
  unfold copyStep
  rw [hk]
  simp only [Option.bind_some]
  rw [h3, h4]
  simp only [Option.bind_some]
  rw [if_neg (by omega), ho]
  simp only [Option.bind_some, put]
  rw [if_pos (by omega), hf]
  simp only [Option.bind_some]
  rw [if_pos (by omega), hsz, hcb]
  simp only [Option.bind_some, Option.map_some]
  refine ⟨_, rfl, ?_⟩
  have htk : st.coords.take out.flatten.length = out.flatten := by rw [hr]; simp
  have hrl : st.coords.length = out.flatten.length + rest.length := by rw [hr]; simp
  have hnew : ∀ D : List R,
      (out.flatten ++ b ++ D).take out.flatten.length ++
        sorter (((out.flatten ++ b ++ D).drop out.flatten.length).take b.length) ++
        (out.flatten ++ b ++ D).drop (out.flatten.length + b.length) = out.flatten ++ sorter b ++ D := by
    intro D
    rw [← List.length_append, List.drop_left, List.append_assoc out.flatten b D, List.take_left,
      List.drop_left, List.take_left]
  constructor
  · refine ⟨st.coords.drop (out.flatten.length + b.length), ?_⟩
    dsimp only
    rw [htk, List.take_length, hnew]
    simp
  · dsimp only
    rw [htk, List.take_length, hnew]
    simp only [List.length_append, List.length_drop, hsl]
    omega
  · intro i hi'
    dsimp only
    simp only [List.length_append, List.length_singleton] at hi'
    rcases Nat.lt_or_ge i (k + 1) with hlt | hge
    · rw [List.getElem?_set_ne (by omega), List.take_append_of_le_length (by omega)]
      exact hi.offs i (by omega)
    · have : i = k + 1 := by omega
      subst this
      rw [List.getElem?_set_self (by omega), List.take_of_length_le (by simp; omega)]
      simp [hsl]
  · simp; omega
  · dsimp only
    cases frest with
    | nil => rw [hfr] at hflen; simp at hflen; omega
    | cons y ys =>
      refine ⟨ys, ?_⟩
      rw [hfr, ← hfs, List.set_append_right _ _ (le_refl _), Nat.sub_self, List.set_cons_zero]
      simp
  · simpa using hflen

theorem key_state (l : List R) (s : R × R) (hs : s.1 ≤ s.2) :
    (l.foldl keyStep s).1 ≤ (l.foldl keyStep s).2 ∧ (l.foldl keyStep s).1 ≤ s.1 ∧
      (l.foldl keyStep s).2 ≤ s.2 ∧ (∀ x ∈ l, (l.foldl keyStep s).1 ≤ x) := by
  induction l generalizing s with
  | nil => simp [hs]
  | cons a l ih =>
    rw [List.foldl_cons]
    have h1 : (keyStep s a).1 ≤ (keyStep s a).2 ∧ (keyStep s a).1 ≤ s.1 ∧ (keyStep s a).2 ≤ s.2 ∧
        (keyStep s a).1 ≤ a := by
      unfold keyStep
      split_ifs with h1 h2
      · exact ⟨h1.le, h1.le, hs, le_refl _⟩
      · exact ⟨le_of_not_gt h1, le_refl _, h2.le, le_of_not_gt h1⟩
      · exact ⟨hs, le_refl _, le_refl _, le_of_not_gt h1⟩
    obtain ⟨a1, a2, a3, a4⟩ := h1
    obtain ⟨i1, i2, i3, i4⟩ := ih _ a1
    refine ⟨i1, i2.trans a2, i3.trans a3, ?_⟩
    intro x hx
    rcases List.mem_cons.1 hx with rfl | hx
    · exact i2.trans a4
    · exact i4 x hx

theorem key_mem (l : List R) (s : R × R) :
    ((l.foldl keyStep s).1 = s.1 ∨ (l.foldl keyStep s).1 ∈ l) ∧
      ((l.foldl keyStep s).2 = s.2 ∨ (l.foldl keyStep s).2 = s.1 ∨ (l.foldl keyStep s).2 ∈ l) := by
  induction l generalizing s with
  | nil => simp
  | cons a l ih =>
    rw [List.foldl_cons]
    obtain ⟨i1, i2⟩ := ih (keyStep s a)
    unfold keyStep at *
    split_ifs at i1 i2 ⊢ with h1 h2
    · simp only [List.mem_cons] at *; tauto
    · simp only [List.mem_cons] at *; tauto
    · simp only [List.mem_cons] at *; tauto

/-- The key of a non-empty block lies between its smallest parameter `m` and the mean of `m` and any
parameter. -/
theorem blockKey_mem (b : List R) (hb : b ≠ []) :
    ∃ m ∈ b, ∃ m' ∈ b, (∀ x ∈ b, m ≤ x) ∧ blockKey b = (m + m') / 2 := by
  cases b with
  | nil => exact absurd rfl hb
  | cons c l =>
    obtain ⟨h1, h2, h3, h4⟩ := key_state l (c, c) (le_refl _)
    obtain ⟨m1, m2⟩ := key_mem l (c, c)
    refine ⟨(l.foldl keyStep (c, c)).1, ?_, (l.foldl keyStep (c, c)).2, ?_, ?_, rfl⟩
    · rcases m1 with h | h
      · rw [h]; simp
      · exact List.mem_cons_of_mem _ h
    · rcases m2 with h | h | h
      · rw [h]; simp
      · rw [h]; simp
      · exact List.mem_cons_of_mem _ h
    · intro x hx
      rcases List.mem_cons.1 hx with rfl | hx
      · exact h2
      · exact h4 x hx

theorem key_of_precedes (x y : List R) (hx : x ≠ []) (hy : y ≠ []) (h : Precedes x y) :
    blockKey x < blockKey y := by
  obtain ⟨h1, a, ha, h2⟩ := h
  obtain ⟨m, hm, m', hm', hmin, hk⟩ := blockKey_mem x hx
  obtain ⟨n, hn, n', hn', hnmin, hk'⟩ := blockKey_mem y hy
  have e1 := h2 n hn
  have e2 := hmin a ha
  have e3 := h1 m' hm' n hn
  have e4 := hnmin n' hn'
  rw [hk, hk']
  linarith

/-- What comes out: the same faces, each with its own parameters in increasing order, no face before
one that precedes it on the ray; offsets delimit the blocks.  For every `std::sort`, any buffers of
the documented sizes, and any number of parameters per face. -/
theorem C45_sorted (sorter : List R → List R) (hs : ∀ l, IsStdSort lessB l (sorter l))
    (coords : List R) (offsets faces : List Nat) (blocks : List (List R)) (buf : Out R)
    (hlay : Layout coords offsets blocks) (hne : ∀ b ∈ blocks, b ≠ [])
    (hfaces : blocks.length ≤ faces.length)
    (h1 : blocks.flatten.length ≤ buf.coords.length) (h2 : blocks.length + 1 ≤ buf.offsets.length)
    (h3 : blocks.length ≤ buf.faces.length)
    (r : Option (Out R)) (hr : SortsTo sorter coords offsets faces blocks.length buf r) :
    ∃ (res : Out R) (fs : List Nat) (out : List (List R)), r = some res ∧
      Layout res.coords res.offsets out ∧ (∃ rest, res.faces = fs ++ rest) ∧
      fs.length = blocks.length ∧ out.length = blocks.length ∧
      (fs.zip out).Perm ((faces.take blocks.length).zip (blocks.map sorter)) ∧
      (∀ b ∈ out, b.Pairwise (· ≤ ·)) ∧
      out.Pairwise (fun x y => ¬ Precedes y x) := by
  have hnf : blocks.length ≤ buf.coords.length := by
    refine le_trans ?_ h1
    clear hlay h1 h2 h3 hfaces hr
    induction blocks with
    | nil => simp
    | cons b bs ih =>
      have : 0 < b.length := List.length_pos_iff.2 (hne b (by simp))
      have := ih (fun b hb => hne b (by simp [hb]))
      simp only [List.length_cons, List.flatten_cons, List.length_append]
      omega
  have hkp := keyPass_layout hlay hne buf.coords blocks.length le_rfl hnf
  unfold SortsTo at hr
  rw [hkp] at hr
  simp only [List.take_length] at hr
  obtain ⟨p, hp, rfl⟩ := hr
  have htake : (blocks.map blockKey ++ buf.coords.drop blocks.length).take blocks.length
      = blocks.map blockKey := by
    rw [List.take_append_of_le_length (by simp)]
    rw [List.take_of_length_le (by simp)]
  rw [htake] at hp
  have hperm : p.Perm (List.range blocks.length) := by
    have := hp.perm
    simpa [Alg.iota] using this
  have hpl : p.length = blocks.length := by simpa using hperm.length_eq
  have hpb : ∀ i ∈ p, i < blocks.length := fun i hi => by simpa using hperm.mem_iff.1 hi
  -- blocks and faces in the new order
  let outB : List (List R) := p.map fun i => sorter (blocks[i]?.getD [])
  let outF : List Nat := p.map fun i => faces[i]?.getD 0
  have hlenB : ∀ i ∈ p, (sorter (blocks[i]?.getD [])).length = (blocks[i]?.getD []).length :=
    fun i _ => (hs _).perm.length_eq
  have hpermB : (p.map fun i => blocks[i]?.getD []).Perm blocks := by
    refine (hperm.map _).trans (List.Perm.of_eq ?_)
    apply List.ext_getElem (by simp)
    intro i h1 h2
    simp [h2]
  have hkpos : (put buf.offsets 0 0) = some (buf.offsets.set 0 0) := by
    unfold put; rw [if_pos (by omega)]
  have hfold : ∀ k, k ≤ blocks.length →
      ∃ st, (List.range k).foldlM (copyStep sorter coords offsets faces p)
        { coords := blocks.map blockKey ++ buf.coords.drop blocks.length,
          offsets := buf.offsets.set 0 0, faces := buf.faces } = some st ∧
        CopyInv blocks.length (outB.take k) (outF.take k) blocks.flatten.length st := by
    intro k
    induction k with
    | zero =>
      intro _
      refine ⟨_, rfl, ?_, ?_, ?_, ?_, ?_, ?_⟩
      · exact ⟨_, rfl⟩
      · simp only [List.length_append, List.length_map, List.length_drop]
        simp only [List.length_flatten] at h1 ⊢
        omega
      · intro i hi
        simp only [List.take_zero, List.length_nil, Nat.le_zero] at hi
        subst hi
        simp only [List.take_zero, List.flatten_nil, List.length_nil]
        rw [List.getElem?_set_self (by omega)]
      · simpa using h2
      · exact ⟨_, rfl⟩
      · simpa using h3
    | succ k ih =>
      intro hk
      obtain ⟨st, e, inv⟩ := ih (by omega)
      have hkp' : p[k]? = some p[k] := List.getElem?_eq_getElem (by omega)
      have hindl := hpb p[k] (List.getElem_mem _)
      have hb' : blocks[p[k]]? = some blocks[p[k]] := List.getElem?_eq_getElem hindl
      have hf' : faces[p[k]]? = some (faces[p[k]]'(by omega)) := List.getElem?_eq_getElem (by omega)
      have hlen : (outB.take k).flatten.length + blocks[p[k]].length ≤ blocks.flatten.length := by
        have e1 : blocks.flatten.length = (p.map fun i => blocks[i]?.getD []).flatten.length :=
          (hpermB.flatten.length_eq).symm
        have e2 : outB.flatten.length = (p.map fun i => blocks[i]?.getD []).flatten.length := by
          simp only [List.length_flatten, outB, List.map_map]
          congr 1
          apply List.map_congr_left
          intro i hi
          exact hlenB i hi
        have e3 : outB.flatten.length = (outB.take (k + 1)).flatten.length + (outB.drop (k + 1)).flatten.length := by
          rw [← List.length_append, ← List.flatten_append, List.take_append_drop]
        have e4 : (outB.take (k + 1)).flatten.length = (outB.take k).flatten.length + blocks[p[k]].length := by
          rw [List.take_add_one]
          have : outB[k]? = some (sorter blocks[p[k]]) := by
            simp [outB, hkp', hb']
          rw [this]
          simp [(hs _).perm.length_eq]
        omega
      obtain ⟨st', e', inv'⟩ := copyStep_inv hs hlay hkp' (by omega) hb' hf'
        (out := outB.take k) (fs := outF.take k) (by simp [outB]; omega) (by simp [outF]; omega) hlen inv
      refine ⟨st', ?_, ?_⟩
      · rw [List.range_succ, List.foldlM_append, e]
        simp [e']
      · have e1 : outB.take (k + 1) = outB.take k ++ [sorter blocks[p[k]]] := by
          rw [List.take_add_one]
          have : outB[k]? = some (sorter blocks[p[k]]) := by simp [outB, hkp', hb']
          rw [this]; rfl
        have e2 : outF.take (k + 1) = outF.take k ++ [faces[p[k]]'(by omega)] := by
          rw [List.take_add_one]
          have : outF[k]? = some (faces[p[k]]'(by omega)) := by simp [outF, hkp', hf']
          rw [this]; rfl
        rw [e1, e2]
        exact inv'
  obtain ⟨st, e, inv⟩ := hfold blocks.length le_rfl
  have hBl : outB.length = blocks.length := by simp [outB, hpl]
  have hFl : outF.length = blocks.length := by simp [outF, hpl]
  rw [List.take_of_length_le (by omega), List.take_of_length_le (by omega)] at inv
  refine ⟨st, outF, outB, ?_, ⟨?_, inv.offs⟩, inv.faces, hFl, hBl, ?_, ?_, ?_⟩
  · rw [hkpos]
    simpa using e
  · obtain ⟨rest, hr⟩ := inv.pre
    exact ⟨rest, hr.symm⟩
  · have e1 : outF.zip outB = p.map fun i => (faces[i]?.getD 0, sorter (blocks[i]?.getD [])) := by
      simp [outF, outB, List.zip_map']
    rw [e1]
    refine (hperm.map _).trans (List.Perm.of_eq ?_)
    apply List.ext_getElem
    · simp; omega
    · intro i h1 h2
      simp only [List.length_map, List.length_range] at h1
      have h4 : i < faces.length := by omega
      simp [h1, h4]
  · intro b hb
    obtain ⟨i, -, rfl⟩ := List.mem_map.1 hb
    refine (hs _).sorted.imp ?_
    intro x y hxy
    unfold lessB at hxy
    exact le_of_not_gt (of_decide_eq_false hxy)
  · simp only [outB, List.pairwise_map]
    refine List.Pairwise.imp_of_mem ?_ hp.sorted
    intro i j hi hj hij hpre
    have hi' := hpb i hi
    have hj' := hpb j hj
    unfold Alg.permLess at hij
    simp only [List.getElem?_map, List.getElem?_eq_getElem hi', List.getElem?_eq_getElem hj', Option.map_some,
      lessB, Option.getD_some] at hij hpre
    have hpre' : Precedes blocks[j] blocks[i] := by
      obtain ⟨q1, a, ha, q2⟩ := hpre
      refine ⟨fun a ha b hb => q1 a ((hs _).perm.mem_iff.2 ha) b ((hs _).perm.mem_iff.2 hb), a,
        (hs _).perm.mem_iff.1 ha, fun b hb => q2 b ((hs _).perm.mem_iff.2 hb)⟩
    have := key_of_precedes _ _ (hne _ (List.getElem_mem hj')) (hne _ (List.getElem_mem hi')) hpre'
    exact (of_decide_eq_false hij) this

/-- `intersect` produces such arrays: the recorded faces are those with at least one parameter, in
order of their index, and each offset pair delimits the parameters of its face. -/
theorem C45_intersect (hits : List (List R)) :
    (intersect hits).coords = (hits.filter fun b => decide (0 < b.length)).flatten ∧
      Layout (intersect hits).coords (intersect hits).offsets
        (hits.filter fun b => decide (0 < b.length)) ∧
      (intersect hits).faces.length = (hits.filter fun b => decide (0 < b.length)).length ∧
      (intersect hits).faces.Pairwise (· < ·) ∧
      ((intersect hits).faces.map fun i => hits[i]?) =
        (hits.filter fun b => decide (0 < b.length)).map some := by
  have key : ∀ (l done : List (List R)) (st : Out R),
      st.coords = (done.filter fun b => decide (0 < b.length)).flatten →
      st.offsets.length = (done.filter fun b => decide (0 < b.length)).length + 1 →
      (∀ i, i ≤ (done.filter fun b => decide (0 < b.length)).length →
        st.offsets[i]? = some (((done.filter fun b => decide (0 < b.length)).take i).flatten.length)) →
      (∀ f ∈ st.faces, f < done.length) → st.faces.Pairwise (· < ·) →
      (st.faces.map fun i => (done ++ l)[i]?) = (done.filter fun b => decide (0 < b.length)).map some →
      ∃ st', (l.zipIdx done.length).foldl
        (fun (st : Out R) (h : List R × Nat) =>
          if 0 < h.1.length then
            { coords := st.coords ++ h.1
              offsets := st.offsets ++ [st.coords.length + h.1.length]
              faces := st.faces ++ [h.2] }
          else st) st = st' ∧
        st'.coords = ((done ++ l).filter fun b => decide (0 < b.length)).flatten ∧
        (∀ i, i ≤ ((done ++ l).filter fun b => decide (0 < b.length)).length →
          st'.offsets[i]? = some ((((done ++ l).filter fun b => decide (0 < b.length)).take i).flatten.length)) ∧
        st'.faces.Pairwise (· < ·) ∧
        (st'.faces.map fun i => (done ++ l)[i]?) = ((done ++ l).filter fun b => decide (0 < b.length)).map some := by
    intro l
    induction l with
    | nil =>
      intro done st c1 c2 c3 c4 c5 c6
      exact ⟨st, rfl, by simpa using c1, by simpa using c3, c5, by simpa using c6⟩
    | cons b l ih =>
      intro done st c1 c2 c3 c4 c5 c6
      rw [List.zipIdx_cons, List.foldl_cons]
      have happ : done ++ b :: l = (done ++ [b]) ++ l := by simp
      by_cases hb : 0 < b.length
      · simp only [if_pos hb]
        have hf : (done ++ [b]).filter (fun b => decide (0 < b.length))
            = done.filter (fun b => decide (0 < b.length)) ++ [b] := by
          rw [List.filter_append, List.filter_cons_of_pos (by simpa using hb)]; rfl
        have := ih (done ++ [b])
          { coords := st.coords ++ b, offsets := st.offsets ++ [st.coords.length + b.length],
            faces := st.faces ++ [done.length] } ?_ ?_ ?_ ?_ ?_ ?_
        · rw [happ]
          simpa using this
        · rw [hf]; simp [c1]
        · rw [hf]; simp [c2]
        · intro i hi
          rw [hf] at hi ⊢
          simp only [List.length_append, List.length_singleton] at hi
          rcases Nat.lt_or_ge i st.offsets.length with hlt | hge
          · rw [List.getElem?_append_left hlt, List.take_append_of_le_length (by omega)]
            exact c3 i (by omega)
          · have : i = st.offsets.length := by omega
            subst this
            rw [List.take_of_length_le (by simp; omega)]
            simp [c1]
        · intro f hf'
          rcases List.mem_append.1 hf' with h | h
          · have := c4 f h; simp; omega
          · simp at h; simp [h]
        · rw [List.pairwise_append]
          refine ⟨c5, List.pairwise_singleton _ _, ?_⟩
          intro a ha x hx
          simp at hx
          rw [hx]; exact c4 a ha
        · rw [hf, ← happ]
          simp [c6]
      · simp only [if_neg hb]
        have hf : (done ++ [b]).filter (fun b => decide (0 < b.length))
            = done.filter (fun b => decide (0 < b.length)) := by
          rw [List.filter_append, List.filter_cons_of_neg (by simpa using hb)]; simp
        have := ih (done ++ [b]) st (by rw [hf]; exact c1) (by rw [hf]; exact c2) (by rw [hf]; exact c3)
          (fun f h => by have := c4 f h; simp; omega) c5 (by rw [hf, ← happ]; exact c6)
        rw [happ]
        simpa using this
  obtain ⟨st', e, k1, k2, k3, k4⟩ := key hits [] { coords := [], offsets := [0], faces := [] } rfl rfl
    (by intro i hi; simp at hi; subst hi; rfl) (by simp) List.Pairwise.nil rfl
  have hst : intersect hits = st' := e
  rw [hst]
  simp only [List.nil_append] at k1 k2 k3 k4
  refine ⟨k1, ⟨⟨[], by rw [k1]; simp⟩, k2⟩, ?_, k3, k4⟩
  have := congrArg List.length k4
  simpa using this

/-- The key is not the documented mean of the two smallest parameters: when the first parameter is
the smallest, the second one is never recorded. -/
theorem C45_key_first_smallest (c : R) (l : List R) (h : ∀ x ∈ l, c ≤ x) : blockKey (c :: l) = c := by
  have : l.foldl keyStep (c, c) = (c, c) := by
    induction l with
    | nil => rfl
    | cons a l ih =>
      rw [List.foldl_cons]
      have h1 : keyStep (c, c) a = (c, c) := by
        have := h a (by simp)
        simp [keyStep, not_lt.2 this]
      rw [h1]
      exact ih fun x hx => h x (by simp [hx])
  show ((l.foldl keyStep (c, c)).1 + (l.foldl keyStep (c, c)).2) / 2 = c
  rw [this]
  simp

/-- So the documented key, here `1` for the parameters `0, 2`, is not what is computed. -/
theorem C45_key_fails : ∃ a b : ℚ, a < b ∧ blockKey [a, b] ≠ (a + b) / 2 :=
  ⟨0, 2, by norm_num, by rw [C45_key_first_smallest 0 [2] (by simp)]; norm_num⟩

/-- Two faces of a ray, listed in the wrong order. -/
example : Layout ([1, 2, 0, 1] : List ℚ) [0, 2, 4] [[1, 2], [0, 1]] := by
  refine ⟨⟨[], rfl⟩, ?_⟩
  intro i hi
  match i, hi with
  | 0, _ => rfl
  | 1, _ => rfl
  | 2, _ => rfl
example : Precedes ([0, 1] : List ℚ) [1, 2] := by
  refine ⟨?_, 0, by simp, ?_⟩
  · simp
  · simp

end Verif.RaySort
