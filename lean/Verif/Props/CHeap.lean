import Verif.Model.CHeap
import Mathlib.Data.List.Nodup
import Mathlib.Tactic.Ring
import Mathlib.Tactic.NormNum
import Mathlib.Tactic.Push

/-! C153: who may do what with the handles and arrays of the C interface. -/

namespace Verif.CHeapP

open Verif.CHeap
open Verif.XSLib (Res)

variable {M A : Type}

/-! ### The statement: only the calls and their answers are looked at -/

inductive Kind
  | model
  | array
  deriving DecidableEq

/-- The pointers that a call has given out. -/
def given : Call M A × Answer A → List (ℕ × Kind)
  | (.malloc _, .ptr (some i)) => [(i, .array)]
  | (.newModel, .ptr (some i)) => [(i, .model)]
  | (.readModel _, .ptr (some i)) => [(i, .model)]
  | (.arrays _ _, .two q r) => (q.toList ++ r.toList).map fun i => (i, .array)
  | _ => []

/-- The pointers that a call takes back. -/
def taken : Call M A → List (ℕ × Kind)
  | .free (some i) => [(i, .array)]
  | .deleteModel (some i) => [(i, .model)]
  | _ => []

/-- A pointer was given out for this kind of block and has not been taken back. -/
def Live (cs : List (Call M A)) (as : List (Answer A)) (i : ℕ) (k : Kind) : Prop :=
  (i, k) ∈ (cs.zip as).flatMap given ∧ (i, k) ∉ cs.flatMap taken

/-- The handle was given out for this model. -/
def Made (w : World M) (cs : List (Call M A)) (as : List (Answer A)) (i : ℕ) (m : M) : Prop :=
  ((Call.newModel, Answer.ptr (some i)) ∈ cs.zip as ∧ m = w.empty) ∨ ∃ path, (Call.readModel path, Answer.ptr (some i)) ∈ cs.zip as ∧ w.read path = .ok m

/-! ### The invariant -/

/-- The kind of a block. -/
def kind : Block M → Option Kind
  | .model _ => some .model
  | .bytes _ => some .array
  | .gone => none

/-- How the heap belongs to the pointers that were given out and taken back. -/
structure Good (h : List (Block M)) (G T : List (ℕ × Kind)) : Prop where
  live : ∀ i k, h[i]?.bind kind = some k ↔ (i, k) ∈ G ∧ (i, k) ∉ T
  old : ∀ x ∈ G, x.1 < h.length
  nodup : (G.map (·.1)).Nodup
  back : ∀ x ∈ T, x ∈ G
  count : (h.filterMap kind).length + T.length = G.length

theorem Good.nil : Good ([] : List (Block M)) [] [] := ⟨by simp, by simp, by simp, by simp, by simp⟩

theorem Good.add {h : List (Block M)} {G T : List (ℕ × Kind)} (g : Good h G T) {b : Block M} {k : Kind} (hb : kind b = some k) : Good (h ++ [b]) (G ++ [(h.length, k)]) T := by
  have new : ∀ k', (h.length, k') ∉ G := fun k' hx => absurd (g.old _ hx) (lt_irrefl _)
  refine ⟨?_, ?_, ?_, fun x hx => List.mem_append_left _ (g.back x hx), ?_⟩
  · intro i k'
    rcases Nat.lt_trichotomy i h.length with hi | rfl | hi
    · rw [List.getElem?_append_left hi, g.live i k']
      have : (i, k') ≠ (h.length, k) := fun e => by cases e; exact lt_irrefl _ hi
      simp [this]
    · simp only [List.getElem?_append_right le_rfl, Nat.sub_self, List.getElem?_cons_zero, Option.bind_some, hb, Option.some.injEq, List.mem_append, List.mem_singleton,
        Prod.mk.injEq, true_and]
      constructor
      · rintro rfl
        exact ⟨Or.inr rfl, fun ht => new _ (g.back _ ht)⟩
      · rintro ⟨h1 | h1, -⟩
        · exact absurd h1 (new k')
        · exact h1.symm
    · rw [List.getElem?_eq_none (by simp; omega)]
      constructor
      · intro e; cases e
      · rintro ⟨h1, -⟩
        rcases List.mem_append.1 h1 with h1 | h1
        · have := g.old _ h1; dsimp only at this; omega
        · cases List.mem_singleton.1 h1; omega
  · intro x hx
    rw [List.length_append, List.length_singleton]
    rcases List.mem_append.1 hx with hx | hx
    · have := g.old x hx; omega
    · cases List.mem_singleton.1 hx; exact Nat.lt_succ_self _
  · rw [List.map_append, List.nodup_append]
    refine ⟨g.nodup, by simp, ?_⟩
    intro a ha b hb
    obtain ⟨x, hx, rfl⟩ := List.mem_map.1 ha
    have := g.old x hx
    simp at hb
    omega
  · rw [List.filterMap_append, List.length_append, List.length_append, ← g.count]
    simp [hb]
    omega

theorem drop_count {h : List (Block M)} {i : ℕ} {k : Kind} (hi : h[i]?.bind kind = some k) :
    ((h.set i .gone).filterMap kind).length + 1 = (h.filterMap kind).length := by
  induction h generalizing i with
  | nil => simp at hi
  | cons b h ih =>
    cases i with
    | zero =>
      simp only [List.getElem?_cons_zero, Option.bind_some] at hi
      rw [List.set_cons_zero, List.filterMap_cons_none (by rfl), List.filterMap_cons_some hi, List.length_cons]
    | succ i =>
      have := ih (i := i) (by simpa using hi)
      cases hb : kind b <;> simp [hb, ← this]

theorem Good.drop {h : List (Block M)} {G T : List (ℕ × Kind)} (g : Good h G T) {i : ℕ} {k : Kind} (hi : h[i]?.bind kind = some k) :
    Good (h.set i .gone) G (T ++ [(i, k)]) := by
  have hin := (g.live i k).1 hi
  have one : ∀ k', (i, k') ∈ G → k' = k := by
    intro k' hk'
    have := List.inj_on_of_nodup_map g.nodup hk' hin.1 rfl
    exact (Prod.mk.inj this).2
  refine ⟨?_, ?_, g.nodup, ?_, ?_⟩
  · intro j k'
    by_cases hj : i = j
    · subst hj
      rw [List.getElem?_set]
      constructor
      · intro e
        rw [if_pos rfl] at e
        split_ifs at e <;> simp [kind] at e
      · rintro ⟨h1, h2⟩
        rw [one k' h1] at h2
        simp at h2
    · rw [List.getElem?_set_ne hj, g.live j k']
      have : (j, k') ≠ (i, k) := fun e => hj (Prod.mk.inj e).1.symm
      simp [this]
  · intro x hx; rw [List.length_set]; exact g.old x hx
  · intro x hx
    rcases List.mem_append.1 hx with hx | hx
    · exact g.back x hx
    · rw [List.mem_singleton.1 hx]; exact hin.1
  · have := drop_count hi
    rw [List.length_append, ← g.count, ← this]
    simp
    omega

/-- How the heap and the answers so far belong together. -/
structure Inv (w : World M) (h : List (Block M)) (cs : List (Call M A)) (as : List (Answer A)) : Prop where
  len : cs.length = as.length
  good : Good h ((cs.zip as).flatMap given) (cs.flatMap taken)
  made : ∀ i m, h[i]? = some (.model m) → Made w cs as i m

theorem Made.more {w : World M} {cs cs' : List (Call M A)} {as as' : List (Answer A)} (l : cs.length = as.length) {i : ℕ} {m : M} (h : Made w cs as i m) :
    Made w (cs ++ cs') (as ++ as') i m := by
  unfold Made at *
  rw [List.zip_append l]
  rcases h with ⟨h1, h2⟩ | ⟨path, h1, h2⟩
  · exact Or.inl ⟨List.mem_append_left _ h1, h2⟩
  · exact Or.inr ⟨path, List.mem_append_left _ h1, h2⟩

/-- What remains to be shown for one more call. -/
theorem Inv.one {w : World M} {h h' : List (Block M)} {cs : List (Call M A)} {as : List (Answer A)} (v : Inv w h cs as) {c : Call M A} {a : Answer A}
    (g : Good h' ((cs.zip as).flatMap given ++ given (c, a)) (cs.flatMap taken ++ taken c))
    (md : ∀ i m, h'[i]? = some (.model m) → h[i]? = some (.model m) ∨ Made w [c] [a] i m) : Inv w h' (cs ++ [c]) (as ++ [a]) := by
  refine ⟨by simp [v.len], ?_, ?_⟩
  · rw [List.zip_append v.len, List.flatMap_append, List.flatMap_append]
    simpa using g
  · intro i m hm
    rcases md i m hm with h1 | h1
    · exact (v.made i m h1).more v.len
    · unfold Made at *
      rw [List.zip_append v.len]
      rcases h1 with ⟨h1, h2⟩ | ⟨path, h1, h2⟩
      · exact Or.inl ⟨List.mem_append_right _ h1, h2⟩
      · exact Or.inr ⟨path, List.mem_append_right _ h1, h2⟩

theorem alloc_cases (w : World M) (h : List (Block M)) (n : ℕ) : alloc w h n = (h ++ [.bytes n], some h.length) ∨ alloc w h n = (h, none) := by
  unfold alloc
  split <;> simp

theorem append_old {h : List (Block M)} {b : Block M} {i : ℕ} {x : Block M} (e : (h ++ [b])[i]? = some x) : h[i]? = some x ∨ (i = h.length ∧ x = b) := by
  rcases Nat.lt_trichotomy i h.length with hi | rfl | hi
  · rw [List.getElem?_append_left hi] at e; exact Or.inl e
  · simp at e; exact Or.inr ⟨rfl, e.symm⟩
  · rw [List.getElem?_eq_none (by simp; omega)] at e; cases e

theorem set_old {h : List (Block M)} {i j : ℕ} {m : M} (e : (h.set i .gone)[j]? = some (.model m)) : h[j]? = some (.model m) := by
  rw [List.getElem?_set] at e
  split_ifs at e <;> simp_all

theorem Inv.step {w : World M} {h h' : List (Block M)} {cs : List (Call M A)} {as : List (Answer A)} (v : Inv w h cs as) {c : Call M A} {a : Answer A}
    (e : exec w h c = .ok (h', a)) : Inv w h' (cs ++ [c]) (as ++ [a]) := by
  cases c with
  | malloc size =>
    unfold exec at e
    dsimp only at e
    rcases alloc_cases w h (toSize size) with r | r <;> rw [r] at e <;> cases e
    · refine v.one (by simpa [given, taken] using v.good.add (b := .bytes (toSize size)) rfl) fun i m hm => ?_
      rcases append_old hm with h1 | ⟨-, h1⟩
      · exact Or.inl h1
      · cases h1
    · exact v.one (by simpa [given, taken] using v.good) fun i m hm => Or.inl hm
  | free q =>
    cases q with
    | none => unfold exec at e; cases e; exact v.one (by simpa [given, taken] using v.good) fun i m hm => Or.inl hm
    | some i =>
      unfold exec at e
      dsimp only at e
      split at e
      · rename_i n hn
        cases e
        exact v.one (by simpa [given, taken] using v.good.drop (i := i) (k := .array) (by rw [hn]; rfl)) fun i m hm => Or.inl (set_old hm)
      · cases e
  | newModel =>
    unfold exec at e
    cases e
    refine v.one (by simpa [given, taken] using v.good.add (b := .model w.empty) rfl) fun i m hm => ?_
    rcases append_old hm with h1 | ⟨rfl, h1⟩
    · exact Or.inl h1
    · cases h1
      exact Or.inr (Or.inl ⟨by simp, rfl⟩)
  | readModel path =>
    unfold exec at e
    dsimp only at e
    cases hr : w.read path with
    | undef => rw [hr] at e; cases e
    | refused => rw [hr] at e; cases e
    | ok m0 =>
      rw [hr] at e
      cases e
      refine v.one (by simpa [given, taken] using v.good.add (b := .model m0) rfl) fun i m hm => ?_
      rcases append_old hm with h1 | ⟨rfl, h1⟩
      · exact Or.inl h1
      · cases h1
        exact Or.inr (Or.inr ⟨path, by simp, hr⟩)
  | deleteModel q =>
    cases q with
    | none => unfold exec at e; cases e; exact v.one (by simpa [given, taken] using v.good) fun i m hm => Or.inl hm
    | some i =>
      unfold exec at e
      dsimp only at e
      split at e
      · rename_i n hn
        cases e
        exact v.one (by simpa [given, taken] using v.good.drop (i := i) (k := .model) (by rw [hn]; rfl)) fun i m hm => Or.inl (set_old hm)
      · cases e
  | query q f =>
    unfold exec at e
    dsimp only at e
    cases hd : deref h q with
    | undef => rw [hd] at e; cases e
    | refused => rw [hd] at e; cases e
    | ok m0 =>
      rw [hd] at e
      cases hf : f m0 with
      | undef => simp [Res.bind, hf] at e
      | refused => simp [Res.bind, hf] at e
      | ok a0 =>
        simp only [Res.bind, hf, Res.ok.injEq, Prod.mk.injEq] at e
        obtain ⟨rfl, rfl⟩ := e
        exact v.one (by simpa [given, taken] using v.good) fun i m hm => Or.inl hm
  | arrays q sizes =>
    unfold exec at e
    dsimp only at e
    cases hd : deref h q with
    | undef => rw [hd] at e; cases e
    | refused => rw [hd] at e; cases e
    | ok m0 =>
      rw [hd] at e
      cases hf : sizes m0 with
      | undef => simp [Res.bind, hf] at e
      | refused => simp [Res.bind, hf] at e
      | ok s =>
        simp only [Res.bind, hf] at e
        split at e
        · cases e
        · simp only [Res.ok.injEq, Prod.mk.injEq] at e
          obtain ⟨rfl, rfl⟩ := e
          rcases alloc_cases w h s.1 with r | r <;> rw [r] <;> dsimp only
          · rcases alloc_cases w (h ++ [.bytes s.1]) s.2 with r2 | r2 <;> rw [r2] <;> dsimp only
            · refine v.one ?_ fun i m hm => ?_
              · have := (v.good.add (b := .bytes s.1) rfl).add (b := .bytes s.2) rfl
                simpa [given, taken] using this
              · rcases append_old hm with h1 | ⟨-, h1⟩
                · rcases append_old h1 with h1 | ⟨-, h1⟩
                  · exact Or.inl h1
                  · cases h1
                · cases h1
            · refine v.one (by simpa [given, taken] using v.good.add (b := .bytes s.1) rfl) fun i m hm => ?_
              rcases append_old hm with h1 | ⟨-, h1⟩
              · exact Or.inl h1
              · cases h1
          · rcases alloc_cases w h s.2 with r2 | r2 <;> rw [r2] <;> dsimp only
            · refine v.one (by simpa [given, taken] using v.good.add (b := .bytes s.2) rfl) fun i m hm => ?_
              rcases append_old hm with h1 | ⟨-, h1⟩
              · exact Or.inl h1
              · cases h1
            · exact v.one (by simpa [given, taken] using v.good) fun i m hm => Or.inl hm

theorem run_inv {w : World M} {h h' : List (Block M)} {cs0 cs : List (Call M A)} {as0 as : List (Answer A)} (v : Inv w h cs0 as0) (e : run w h cs = .ok (h', as)) :
    Inv w h' (cs0 ++ cs) (as0 ++ as) := by
  induction cs generalizing h cs0 as0 as with
  | nil =>
    unfold run at e
    cases e
    simpa using v
  | cons c cs ih =>
    unfold run at e
    cases hx : exec w h c with
    | undef => rw [hx] at e; cases e
    | refused => rw [hx] at e; cases e
    | ok x =>
      rw [hx] at e
      simp only [Res.bind] at e
      cases hy : run w x.1 cs with
      | undef => simp [hy] at e
      | refused => simp [hy] at e
      | ok y =>
        simp only [hy, Res.ok.injEq, Prod.mk.injEq] at e
        obtain ⟨rfl, rfl⟩ := e
        have := ih (v.step (a := x.2) (h' := x.1) hx) hy
        simpa using this

theorem run_from {w : World M} {h : List (Block M)} {cs : List (Call M A)} {as : List (Answer A)} (e : run w [] cs = .ok (h, as)) : Inv w h cs as := by
  simpa using run_inv (cs0 := []) (as0 := []) ⟨rfl, by simpa using Good.nil, by simp⟩ e

theorem run_append {w : World M} (h : List (Block M)) (cs : List (Call M A)) (c : Call M A) :
    run w h (cs ++ [c]) = (run w h cs).bind fun x => (exec w x.1 c).bind fun y => .ok (y.1, x.2 ++ [y.2]) := by
  induction cs generalizing h with
  | nil =>
    simp only [List.nil_append, run, Res.bind]
  | cons d cs ih =>
    rw [List.cons_append]
    unfold run
    cases exec w h d with
    | undef => rfl
    | refused => rfl
    | ok x =>
      simp only [Res.bind]
      rw [ih]
      cases run w x.1 cs with
      | undef => rfl
      | refused => rfl
      | ok y =>
        simp only [Res.bind]
        cases exec w y.1 c <;> rfl

/-! ### The theorems -/

variable {w : World M} {h : List (Block M)} {cs : List (Call M A)} {as : List (Answer A)}

theorem bytes_live (v : Inv w h cs as) (i : ℕ) : (∃ n, h[i]? = some (.bytes n)) ↔ Live cs as i .array := by
  rw [show Live cs as i .array ↔ _ from (v.good.live i .array).symm]
  constructor
  · rintro ⟨n, hn⟩; rw [hn]; rfl
  · intro e
    cases hb : h[i]? with
    | none => rw [hb] at e; cases e
    | some b =>
      rw [hb] at e
      cases b with
      | model m => cases e
      | bytes n => exact ⟨n, rfl⟩
      | gone => cases e

theorem model_live (v : Inv w h cs as) (i : ℕ) : (∃ m, h[i]? = some (.model m)) ↔ Live cs as i .model := by
  rw [show Live cs as i .model ↔ _ from (v.good.live i .model).symm]
  constructor
  · rintro ⟨n, hn⟩; rw [hn]; rfl
  · intro e
    cases hb : h[i]? with
    | none => rw [hb] at e; cases e
    | some b =>
      rw [hb] at e
      cases b with
      | model m => exact ⟨m, rfl⟩
      | bytes n => cases e
      | gone => cases e

theorem free_undef {i : ℕ} (c : ¬∃ n, h[i]? = some (.bytes n)) : exec (A := A) w h (.free (some i)) = .undef := by
  unfold exec
  dsimp only
  split
  · rename_i n hn; exact absurd ⟨n, hn⟩ c
  · rfl

theorem delete_undef {i : ℕ} (c : ¬∃ n, h[i]? = some (.model n)) : exec (A := A) w h (.deleteModel (some i)) = .undef := by
  unfold exec
  dsimp only
  split
  · rename_i n hn; exact absurd ⟨n, hn⟩ c
  · rfl

theorem deref_undef {i : ℕ} (c : ¬∃ n, h[i]? = some (.model n)) : deref h (some i) = .undef := by
  unfold deref
  dsimp only
  split
  · rename_i n hn; exact absurd ⟨n, hn⟩ c
  · rfl

/-- **C153**: `um2Free` may be called for null and for arrays that were given out and not yet released; every other call is undefined, a second one for the same array for
example, or one for a model. -/
theorem C153_free (e : run w [] cs = .ok (h, as)) (q : Ptr) :
    ((q = none ∨ ∃ i, q = some i ∧ Live cs as i .array) → ∃ h', run w [] (cs ++ [.free q]) = .ok (h', as ++ [.nothing])) ∧
    (¬(q = none ∨ ∃ i, q = some i ∧ Live cs as i .array) → run w [] (cs ++ [.free q]) = .undef) := by
  have v := run_from e
  rw [run_append, e]
  simp only [Res.bind]
  cases q with
  | none => exact ⟨fun _ => ⟨h, rfl⟩, fun c => absurd (Or.inl rfl) c⟩
  | some i =>
    constructor
    · rintro (c | ⟨j, hj, c⟩)
      · cases c
      · cases hj
        obtain ⟨n, hn⟩ := (bytes_live v i).2 c
        exact ⟨h.set i .gone, by simp [exec, hn]⟩
    · intro c
      have : ¬∃ n, h[i]? = some (.bytes n) := fun hn => c (Or.inr ⟨i, rfl, (bytes_live v i).1 hn⟩)
      rw [free_undef this]

/-- **C153**: `um2DeleteMPACTModel` may be called for null and for models that were given out and not yet deleted; every other call is undefined. -/
theorem C153_delete (e : run w [] cs = .ok (h, as)) (q : Ptr) :
    ((q = none ∨ ∃ i, q = some i ∧ Live cs as i .model) → ∃ h', run w [] (cs ++ [.deleteModel q]) = .ok (h', as ++ [.nothing])) ∧
    (¬(q = none ∨ ∃ i, q = some i ∧ Live cs as i .model) → run w [] (cs ++ [.deleteModel q]) = .undef) := by
  have v := run_from e
  rw [run_append, e]
  simp only [Res.bind]
  cases q with
  | none => exact ⟨fun _ => ⟨h, rfl⟩, fun c => absurd (Or.inl rfl) c⟩
  | some i =>
    constructor
    · rintro (c | ⟨j, hj, c⟩)
      · cases c
      · cases hj
        obtain ⟨n, hn⟩ := (model_live v i).2 c
        exact ⟨h.set i .gone, by simp [exec, hn]⟩
    · intro c
      have : ¬∃ n, h[i]? = some (.model n) := fun hn => c (Or.inr ⟨i, rfl, (model_live v i).1 hn⟩)
      rw [delete_undef this]

/-- **C153**: a call that uses a model sees the model its handle was made for, whatever was called in between, and changes nothing; through null, through a deleted
model or through an array it is undefined. -/
theorem C153_query (e : run w [] cs = .ok (h, as)) (f : M → Res A) :
    (∀ i, Live cs as i .model → ∃ m, Made w cs as i m ∧
      run w [] (cs ++ [.query (some i) f]) = (f m).bind fun a => .ok (h, as ++ [.value a])) ∧
    (∀ i, ¬Live cs as i .model → run w [] (cs ++ [.query (some i) f]) = .undef) ∧
    run w [] (cs ++ [.query none f]) = .undef := by
  have v := run_from e
  refine ⟨fun i hl => ?_, fun i hl => ?_, ?_⟩
  · obtain ⟨m, hm⟩ := (model_live v i).2 hl
    refine ⟨m, v.made i m hm, ?_⟩
    rw [run_append, e]
    simp only [Res.bind, exec, deref, hm]
    cases f m <;> rfl
  · have : ¬∃ n, h[i]? = some (.model n) := fun hn => hl ((model_live v i).1 hn)
    rw [run_append, e]
    simp only [Res.bind, exec, deref_undef this]
  · rw [run_append, e]
    rfl

/-- **C153**: no two pointers given out in one program are equal, so a handle never comes to stand for another model. -/
theorem C153_distinct (e : run w [] cs = .ok (h, as)) : (((cs.zip as).flatMap given).map (·.1)).Nodup := (run_from e).good.nodup

/-- **C153**: the model of a handle is determined by the program. -/
theorem C153_made (e : run w [] cs = .ok (h, as)) {i : ℕ} {m m' : M} (hm : Made w cs as i m) (hm' : Made w cs as i m') : m = m' := by
  have nd := C153_distinct e
  have nd2 : ((cs.zip as).flatMap given).Nodup := List.Nodup.of_map _ nd
  have pw := (List.nodup_flatMap.1 nd2).2
  have key : ∀ x ∈ cs.zip as, ∀ y ∈ cs.zip as, (i, Kind.model) ∈ given x → (i, Kind.model) ∈ given y → x = y := by
    intro x hx y hy h1 h2
    by_contra hne
    have : Std.Symm (Function.onFun List.Disjoint (given (M := M) (A := A))) := ⟨fun a b hab => List.Disjoint.symm hab⟩
    have := pw.forall hx hy hne
    exact this h1 h2
  rcases hm with ⟨h1, h2⟩ | ⟨p, h1, h2⟩ <;> rcases hm' with ⟨h3, h4⟩ | ⟨p', h3, h4⟩
  · rw [h2, h4]
  · exact absurd (key _ h1 _ h3 (by simp [given]) (by simp [given])) (by simp)
  · exact absurd (key _ h1 _ h3 (by simp [given]) (by simp [given])) (by simp)
  · have := key _ h1 _ h3 (by simp [given]) (by simp [given])
    simp only [Prod.mk.injEq, Call.readModel.injEq, and_true] at this
    rw [this, h4] at h2
    cases h2
    rfl

/-- **C153**: releasing twice, deleting twice and using a deleted model are undefined. -/
theorem C153_double (i : ℕ) :
    (∀ h as, run w [] (cs ++ [.free (some i)]) = .ok (h, as) → run w [] (cs ++ [.free (some i)] ++ [.free (some i)]) = .undef) ∧
    (∀ h as, run w [] (cs ++ [.deleteModel (some i)]) = .ok (h, as) → run w [] (cs ++ [.deleteModel (some i)] ++ [.deleteModel (some i)]) = .undef) ∧
    (∀ h as, run w [] (cs ++ [.deleteModel (some i)]) = .ok (h, as) → ∀ f : M → Res A, run w [] (cs ++ [.deleteModel (some i)] ++ [.query (some i) f]) = .undef) := by
  refine ⟨fun h as e => (C153_free e _).2 ?_, fun h as e => (C153_delete e _).2 ?_, fun h as e f => (C153_query e f).2.1 i ?_⟩
  · rintro (c | ⟨j, hj, c⟩)
    · cases c
    · cases hj
      exact c.2 (by simp [taken])
  · rintro (c | ⟨j, hj, c⟩)
    · cases c
    · cases hj
      exact c.2 (by simp [taken])
  · intro c
    exact c.2 (by simp [taken])

/-- **C153**: a program that gives back everything it was given leaves nothing behind, and what is left is always what was given out less what was given back. -/
theorem C153_balance (e : run w [] cs = .ok (h, as)) :
    (h.filterMap kind).length + (cs.flatMap taken).length = ((cs.zip as).flatMap given).length ∧
    (∀ b ∈ h, b = .gone) = (∀ i k, ¬Live cs as i k) := by
  have v := run_from e
  refine ⟨v.good.count, propext ⟨fun hg i k hl => ?_, fun hn b hb => ?_⟩⟩
  · have := (v.good.live i k).2 hl
    cases hb : h[i]? with
    | none => rw [hb] at this; cases this
    | some b => rw [hb, hg b (List.mem_of_getElem? hb)] at this; cases this
  · obtain ⟨i, hi⟩ := List.mem_iff_getElem?.1 hb
    cases b with
    | gone => rfl
    | model m => exact absurd ((v.good.live i .model).1 (by rw [hi]; rfl)) (hn i .model)
    | bytes n => exact absurd ((v.good.live i .array).1 (by rw [hi]; rfl)) (hn i .array)

/-- **C153**: a negative number of bytes asks `um2Malloc` for 2⁶³ bytes or more, so that the answer is null as long as no such request can be met. -/
theorem C153_negative (e : run w [] cs = .ok (h, as)) {size : ℤ} (hs : size < 0) (lo : -2 ^ 63 ≤ size) (big : ∀ k n, 2 ^ 63 ≤ n → w.fits k n = false) :
    run w [] (cs ++ [.malloc size]) = .ok (h, as ++ [.ptr none]) := by
  have : 2 ^ 63 ≤ toSize size := by
    unfold toSize
    omega
  rw [run_append, e]
  simp only [Res.bind, exec, alloc, big _ _ this]
  rfl

/-- **C153**: for a size that is not negative `um2Malloc` gives an array that was not there before, or null when there is no memory. -/
theorem C153_malloc (e : run w [] cs = .ok (h, as)) {size : ℤ} (hs : 0 ≤ size) (hi : size < 2 ^ 63) :
    ∃ h' q, run w [] (cs ++ [.malloc size]) = .ok (h', as ++ [.ptr q]) ∧
      (q = none ↔ w.fits h.length size.toNat = false) ∧
      (∀ i, q = some i → Live (cs ++ [.malloc size]) (as ++ [.ptr q]) i .array ∧ ∀ k, ¬Live cs as i k) := by
  have ht : toSize size = size.toNat := by
    unfold toSize
    omega
  have v := run_from e
  have er : run w [] (cs ++ [.malloc size]) = .ok ((alloc w h (toSize size)).1, as ++ [.ptr (alloc w h (toSize size)).2]) := by
    rw [run_append, e]
    rfl
  refine ⟨_, _, er, ?_, ?_⟩
  · rw [ht]
    unfold alloc
    split <;> simp_all
  · intro i hq
    have v' := run_from er
    rcases alloc_cases w h (toSize size) with r | r
    · rw [r] at hq v'
      cases hq
      rw [r]
      refine ⟨(bytes_live v' _).1 ⟨toSize size, by simp⟩, fun k hk => ?_⟩
      exact absurd (v.good.old _ hk.1) (lt_irrefl _)
    · rw [r] at hq
      cases hq

/-- **C153**: a new model is empty and a model that was read is the one of the file; their handles are valid and were not in use. What `Model::read` refuses is refused. -/
theorem C153_new (e : run w [] cs = .ok (h, as)) :
    (∃ h' i, run w [] (cs ++ [.newModel]) = .ok (h', as ++ [.ptr (some i)]) ∧ Live (cs ++ [.newModel]) (as ++ [.ptr (some i)]) i .model ∧
      Made w (cs ++ [.newModel]) (as ++ [.ptr (some i)]) i w.empty ∧ ∀ k, ¬Live cs as i k) ∧
    (∀ path m, w.read path = .ok m → ∃ h' i, run w [] (cs ++ [.readModel path]) = .ok (h', as ++ [.ptr (some i)]) ∧
      Live (cs ++ [.readModel path]) (as ++ [.ptr (some i)]) i .model ∧ Made w (cs ++ [.readModel path]) (as ++ [.ptr (some i)]) i m ∧ ∀ k, ¬Live cs as i k) ∧
    (∀ path, w.read path = .refused → run w [] (cs ++ [.readModel path]) = .refused) := by
  have v := run_from e
  refine ⟨?_, fun path m hr => ?_, fun path hr => ?_⟩
  · have er : run w [] (cs ++ [.newModel]) = .ok (h ++ [.model w.empty], as ++ [.ptr (some h.length)]) := by
      rw [run_append, e]
      rfl
    refine ⟨_, _, er, (model_live (run_from er) _).1 ⟨w.empty, by simp⟩, (run_from er).made _ _ (by simp), fun k hk => ?_⟩
    exact absurd (v.good.old _ hk.1) (lt_irrefl _)
  · have er : run w [] (cs ++ [.readModel path]) = .ok (h ++ [.model m], as ++ [.ptr (some h.length)]) := by
      rw [run_append, e]
      simp only [Res.bind, exec, hr]
    refine ⟨_, _, er, (model_live (run_from er) _).1 ⟨m, by simp⟩, (run_from er).made _ _ (by simp), fun k hk => ?_⟩
    exact absurd (v.good.old _ hk.1) (lt_irrefl _)
  · rw [run_append, e]
    simp only [Res.bind, exec, hr]

/-- **C153**: as long as there is memory, a call that returns arrays gives two different arrays that belong to the client, of the sizes it asked for, and that were not
there before; all that was valid stays valid. -/
theorem C153_arrays_partial (e : run w [] cs = .ok (h, as)) (mem : ∀ k n, w.fits k n = true) {i : ℕ} (hl : Live cs as i .model) (f : M → Res (ℕ × ℕ)) {m : M}
    (hm : Made w cs as i m) {s : ℕ × ℕ} (hf : f m = .ok s) :
    ∃ h' a b, run w [] (cs ++ [.arrays (some i) f]) = .ok (h', as ++ [.two (some a) (some b)]) ∧ a ≠ b ∧ h'[a]? = some (.bytes s.1) ∧ h'[b]? = some (.bytes s.2) ∧
      Live (cs ++ [.arrays (some i) f]) (as ++ [.two (some a) (some b)]) a .array ∧ Live (cs ++ [.arrays (some i) f]) (as ++ [.two (some a) (some b)]) b .array ∧
      (∀ k, ¬Live cs as a k ∧ ¬Live cs as b k) ∧ ∀ j k, Live cs as j k → Live (cs ++ [.arrays (some i) f]) (as ++ [.two (some a) (some b)]) j k := by
  have v := run_from e
  obtain ⟨m', hm'⟩ := (model_live v i).2 hl
  have : m' = m := C153_made e (v.made _ _ hm') hm
  subst this
  have er : run w [] (cs ++ [.arrays (some i) f]) = .ok (h ++ [.bytes s.1] ++ [.bytes s.2], as ++ [.two (some h.length) (some (h.length + 1))]) := by
    rw [run_append, e]
    simp [Res.bind, exec, deref, hm', hf, alloc, mem]
  have v' := run_from er
  refine ⟨_, _, _, er, by omega, by simp, by simp, (bytes_live v' _).1 ⟨s.1, by simp⟩, (bytes_live v' _).1 ⟨s.2, by simp⟩, fun k => ⟨fun hk => ?_, fun hk => ?_⟩, fun j k hj => ?_⟩
  · exact absurd (v.good.old _ hk.1) (lt_irrefl _)
  · have := v.good.old _ hk.1
    dsimp only at this
    omega
  · refine (v'.good.live j k).1 ?_
    have lt := v.good.old _ hj.1
    rw [List.append_assoc, List.getElem?_append_left lt]
    exact (v.good.live j k).2 hj

/-- **C153**: exactly when a call that returns arrays is undefined for a valid handle: when there is no memory for one of them and it is not empty. -/
theorem C153_memory (e : run w [] cs = .ok (h, as)) {i : ℕ} (hl : Live cs as i .model) (f : M → Res (ℕ × ℕ)) {m : M}
    (hm : Made w cs as i m) {n1 n2 : ℕ} (hf : f m = .ok (n1, n2)) :
    (run w [] (cs ++ [.arrays (some i) f]) = .undef ↔
      (w.fits h.length n1 = false ∧ n1 ≠ 0) ∨ (w.fits (h.length + if w.fits h.length n1 = true then 1 else 0) n2 = false ∧ n2 ≠ 0)) ∧
    run w [] (cs ++ [.arrays (some i) f]) ≠ .refused := by
  have v := run_from e
  obtain ⟨m', hm'⟩ := (model_live v i).2 hl
  have : m' = m := C153_made e (v.made _ _ hm') hm
  subst this
  rw [run_append, e]
  simp only [Res.bind, exec, deref, hm', hf, alloc]
  rcases Bool.eq_false_or_eq_true (w.fits h.length n1) with h1 | h1 <;> simp only [h1, if_true, Bool.false_eq_true, if_false]
  · rcases Bool.eq_false_or_eq_true (w.fits (h.length + 1) n2) with h2 | h2
    · simp [h2]
    · rcases Nat.eq_zero_or_pos n2 with rfl | hp
      · simp [h2]
      · simp [h2, hp, hp.ne']
  · rcases Bool.eq_false_or_eq_true (w.fits h.length n2) with h2 | h2 <;> rcases Nat.eq_zero_or_pos n1 with rfl | hp <;> rcases Nat.eq_zero_or_pos n2 with rfl | hp2 <;>
      simp_all <;> omega

/-- A program: two models, the second one read from a file, an array, and everything given back. -/
def wEx : World ℕ := ⟨fun k _ => decide (k < 10), 7, fun p => if p.length = 3 then .ok 40 else .refused⟩

def progEx : List (Call ℕ ℕ) := [.newModel, .readModel [1, 2, 3], .arrays (some 1) (fun m => .ok (m, 2 * m)), .query (some 1) fun m => .ok (m + 1)]

theorem ex_run : run wEx [] progEx =
    .ok ([.model 7, .model 40, .bytes 40, .bytes 80], [.ptr (some 0), .ptr (some 1), .two (some 2) (some 3), .value 41]) := by rfl

example : Live progEx [.ptr (some 0), .ptr (some 1), .two (some 2) (some 3), .value 41] 2 .array := by
  unfold Live progEx
  simp [given, taken]

example : ∃ h', run wEx [] (progEx ++ [.free (some 2)]) = .ok (h', [.ptr (some 0), .ptr (some 1), .two (some 2) (some 3), .value 41] ++ [.nothing]) :=
  (C153_free ex_run (some 2)).1 (Or.inr ⟨2, rfl, by unfold Live progEx; simp [given, taken]⟩)

/-- Releasing a model with `um2Free`. -/
example : run wEx [] (progEx ++ [.free (some 1)]) = .undef :=
  (C153_free ex_run (some 1)).2 (by
    rintro (c | ⟨i, hi, c⟩)
    · cases c
    · cases hi
      unfold Live progEx at c
      simp [given] at c)

example : run wEx [] (progEx ++ [.malloc (-8)] ) = .ok ([.model 7, .model 40, .bytes 40, .bytes 80, .bytes (2 ^ 64 - 8)], [.ptr (some 0), .ptr (some 1), .two (some 2) (some 3), .value 41, .ptr (some 4)]) := by rfl

/-- **C153** fails without memory: the calls that return arrays write into them without asking whether there was memory, so that a call through a valid handle is
undefined. -/
theorem C153_memory_fails : ∃ (w : World ℕ) (cs : List (Call ℕ ℕ)) (h : List (Block ℕ)) (as : List (Answer ℕ)) (i : ℕ),
    run w [] cs = .ok (h, as) ∧ Live cs as i .model ∧ run w [] (cs ++ [.arrays (some i) fun m => .ok (m, 2 * m)]) = .undef := by
  refine ⟨⟨fun _ _ => false, 7, fun _ => .refused⟩, [.newModel], [.model 7], [.ptr (some 0)], 0, rfl, ?_, rfl⟩
  unfold Live
  simp [given, taken]

end Verif.CHeapP
