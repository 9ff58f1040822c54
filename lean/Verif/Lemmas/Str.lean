import Verif.Model.Str
import Mathlib.Data.List.Basic
import Mathlib.Tactic.Ring

/-! # Lemmas about the String model -/

namespace Verif.Str

/-! ## Buffers -/

theorem mapM_some_id (l : List Byte) : (l.map some).mapM (m := Option) id = some l := by
  induction l with
  | nil => rfl
  | cons x l ih => simp [ih]

theorem rdBytes_text (l : List Byte) (t : Buf) (off n : Nat) (h : off + n ≤ l.length) :
    rdBytes (l.map some ++ t) off n = some ((l.drop off).take n) := by
  unfold rdBytes
  rw [if_pos (by simp; omega)]
  have : ((l.map some ++ t).drop off).take n = ((l.drop off).take n).map some := by
    rw [List.drop_append_of_le_length (by simp; omega), List.take_append_of_le_length (by simp; omega)]
    simp
  rw [this, mapM_some_id]

theorem rdBytes_all (l : List Byte) (t : Buf) : rdBytes (l.map some ++ t) 0 l.length = some l := by
  rw [rdBytes_text l t 0 l.length (by omega)]; simp

/-- Writing `l` after the text `pre`, then the terminator. -/
theorem wr_text (pre l : List Byte) (rest : Buf) (h : l.length < rest.length) :
    ∃ b, wrBytes (pre.map some ++ rest) pre.length l = some b ∧
      wrBytes b (pre.length + l.length) [0] =
        some ((pre ++ l).map some ++ some 0 :: rest.drop (l.length + 1)) := by
  refine ⟨pre.map some ++ l.map some ++ rest.drop l.length, ?_, ?_⟩
  · unfold wrBytes
    rw [if_pos (by simp; omega)]
    congr 1
    have e1 : (pre.map some ++ rest).take pre.length = pre.map some := by
      rw [List.take_append_of_le_length (by simp), List.take_of_length_le (by simp)]
    have e2 : (pre.map some ++ rest).drop (pre.length + l.length) = rest.drop l.length := by
      rw [List.drop_append, List.drop_eq_nil_of_le (by simp), List.length_map, List.nil_append]
      congr 1; omega
    rw [e1, e2]
  · unfold wrBytes
    rw [if_pos (by simp; omega)]
    congr 1
    have e1 : (pre.map some ++ l.map some ++ rest.drop l.length).take (pre.length + l.length) =
        (pre ++ l).map some := by
      rw [List.take_append_of_le_length (by simp), List.take_of_length_le (by simp)]; simp
    have e2 : (pre.map some ++ l.map some ++ rest.drop l.length).drop
        (pre.length + l.length + ([0] : List Byte).length) = rest.drop (l.length + 1) := by
      rw [List.drop_append, List.drop_eq_nil_of_le (by simp)]
      simp only [List.length_append, List.length_map, List.length_singleton, List.nil_append,
        List.drop_drop]
      congr 1; omega
    rw [e1, e2]; simp

theorem wr_text0 (l : List Byte) (b : Buf) (h : l.length < b.length) :
    ∃ b', wrBytes b 0 l = some b' ∧
      wrBytes b' l.length [0] = some (l.map some ++ some 0 :: b.drop (l.length + 1)) := by
  have := wr_text [] l b h
  simpa using this

/-! ## Well-formed strings -/

/-- The object `r` holds the text `l`. -/
def RepOK (h : Heap) (r : Rep) (l : List Byte) : Prop :=
  match r with
  | .short d n => d.length = minCap ∧ n = l.length ∧ ∃ t, d = l.map some ++ some 0 :: t
  | .long p cap n => 24 ≤ cap ∧ cap ≤ intMax ∧ n = l.length ∧
      ∃ t, h[p]? = some (some (l.map some ++ some 0 :: t)) ∧ l.length + 1 + t.length = cap

/-- An operation on an object that owned `own` and owns `own'` afterwards touches nothing else,
frees what it drops and leaks nothing. -/
structure Frame (h : Heap) (own : Option Nat) (h' : Heap) (own' : Option Nat) : Prop where
  grow : h.length ≤ h'.length
  keep : ∀ q, q < h.length → own ≠ some q → h'[q]? = h[q]?
  drop : ∀ q, own = some q → own' ≠ some q → h'[q]? = some none
  fresh : ∀ q, h.length ≤ q → own' ≠ some q → ∀ b, h'[q]? ≠ some (some b)
  owned : ∀ q, own' = some q → own = some q ∨ h.length ≤ q

theorem Frame.refl (h : Heap) (own : Option Nat) : Frame h own h own where
  grow := le_refl _
  keep := fun _ _ _ => rfl
  drop := fun _ h1 h2 => absurd h1 h2
  fresh := fun q hq _ b hb => by
    have := (List.getElem?_eq_some_iff.1 hb).1
    omega
  owned := fun _ h => Or.inl h

/-- Rewriting the own block. -/
theorem Frame.set (h : Heap) (p : Nat) (b : Option Buf) : Frame h (some p) (h.set p b) (some p) where
  grow := by simp
  keep := fun q _ hq => by
    rw [List.getElem?_set_ne]; intro e; exact hq (by rw [e])
  drop := fun _ h1 h2 => absurd h1 h2
  fresh := fun q hq hne b hb => by
    have := (List.getElem?_eq_some_iff.1 hb).1
    simp at this; omega
  owned := fun _ h => Or.inl h

theorem Frame.alloc (h : Heap) (b : Buf) : Frame h none (h ++ [some b]) (some h.length) where
  grow := by simp
  keep := fun q hq _ => by rw [List.getElem?_append_left hq]
  drop := fun q h1 _ => by simp at h1
  fresh := fun q hq hne b hb => by
    have h1 := (List.getElem?_eq_some_iff.1 hb).1
    simp at h1
    exact hne (by rw [show h.length = q by omega])
  owned := fun q hq => by simp at hq; right; omega

theorem Frame.realloc (h : Heap) (p : Nat) (b : Buf) (hp : p < h.length) :
    Frame h (some p) ((h ++ [some b]).set p none) (some h.length) where
  grow := by simp
  keep := fun q hq hne => by
    have : p ≠ q := fun e => hne (by rw [e])
    rw [List.getElem?_set_ne this, List.getElem?_append_left hq]
  drop := fun q h1 _ => by
    simp only [Option.some.injEq] at h1; subst h1
    rw [List.getElem?_set_self (by simp; omega)]
  fresh := fun q hq hne b hb => by
    have h1 := (List.getElem?_eq_some_iff.1 hb).1
    simp at h1
    exact hne (by rw [show h.length = q by omega])
  owned := fun q hq => by simp at hq; right; omega

theorem Frame.free (h : Heap) (p : Nat) (hp : p < h.length) : Frame h (some p) (h.set p none) none where
  grow := by simp
  keep := fun q _ hne => by
    rw [List.getElem?_set_ne]; intro e; exact hne (by rw [e])
  drop := fun q h1 _ => by
    simp only [Option.some.injEq] at h1; subst h1
    rw [List.getElem?_set_self hp]
  fresh := fun q hq _ b hb => by
    have := (List.getElem?_eq_some_iff.1 hb).1
    simp at this; omega
  owned := fun q hq => by simp at hq

/-- A well-formed string is not affected by operations on other objects. -/
theorem RepOK.frame {h h' : Heap} {own own' : Option Nat} {r : Rep} {l : List Byte}
    (hr : RepOK h r l) (hf : Frame h own h' own') (hne : ∀ p, r.owned = some p → own ≠ some p) :
    RepOK h' r l := by
  cases r with
  | short d n => exact hr
  | long p cap n =>
    obtain ⟨h1, h2, h3, t, h4, h5⟩ := hr
    refine ⟨h1, h2, h3, t, ?_, h5⟩
    rw [hf.keep p (List.getElem?_eq_some_iff.1 h4).1 (hne p rfl)]; exact h4

theorem block_of {h : Heap} {p : Nat} {b : Buf} (hb : h[p]? = some (some b)) : block h p = some b := by
  simp [block, hb]

theorem free_of {h : Heap} {p : Nat} {b : Buf} (hb : h[p]? = some (some b)) :
    free h p = some (h.set p none) := by
  simp [free, hb]

theorem RepOK.dataBuf {h : Heap} {r : Rep} {l : List Byte} (hr : RepOK h r l) :
    ∃ t, dataBuf h r = some (l.map some ++ some 0 :: t) := by
  cases r with
  | short d n => obtain ⟨-, -, t, rfl⟩ := hr; exact ⟨t, rfl⟩
  | long p cap n => obtain ⟨-, -, -, t, h4, -⟩ := hr; exact ⟨t, block_of h4⟩

theorem RepOK.size {h : Heap} {r : Rep} {l : List Byte} (hr : RepOK h r l) : r.size = l.length := by
  cases r with
  | short d n => exact hr.2.1
  | long p cap n => exact hr.2.2.1

/-- The capacity is representable, at least the size, and tells the representations apart. -/
theorem RepOK.capacity {h : Heap} {r : Rep} {l : List Byte} (hr : RepOK h r l) :
    ∃ c, r.capacity = some c ∧ l.length ≤ c ∧ c < intMax ∧ (r.isLong = false → c = 22) ∧
      (r.isLong = true → 23 ≤ c) := by
  cases r with
  | short d n =>
    obtain ⟨h1, -, t, rfl⟩ := hr
    have : minCap = 23 := rfl
    have : intMax = 2147483647 := rfl
    simp at h1
    exact ⟨22, rfl, by omega, by omega, fun _ => rfl, fun h => by simp [Rep.isLong] at h⟩
  | long p cap n =>
    obtain ⟨h1, h2, -, t, -, h5⟩ := hr
    refine ⟨cap - 1, ?_, by omega, by omega, fun h => by simp [Rep.isLong] at h, fun _ => by omega⟩
    simp only [Rep.capacity]
    rw [if_pos ⟨by omega, h2⟩]

theorem RepOK.contents {h : Heap} {r : Rep} {l : List Byte} (hr : RepOK h r l) :
    contents h r = some l := by
  obtain ⟨t, ht⟩ := hr.dataBuf
  simp only [Str.contents, ht, hr.size, Option.bind_eq_bind, Option.bind_some]
  exact rdBytes_all l _

theorem repOK_zero (h : Heap) : RepOK h .zero [] := by
  refine ⟨by simp [minCap], rfl, List.replicate 22 (some 0), ?_⟩
  simp [minCap, List.replicate_succ]

/-! ## Operations on one string -/

theorem init_spec (h : Heap) (l : List Byte) (hl : l.length < intMax) :
    ∃ h' r, init h l = some (h', r) ∧ RepOK h' r l ∧ Frame h none h' r.owned ∧
      (r.isLong = true ↔ 23 ≤ l.length) := by
  have hm : minCap = 23 := rfl
  unfold init
  rw [if_pos hl]
  split_ifs with hs
  · obtain ⟨b, h1, h2⟩ := wr_text0 l (List.replicate minCap none) (by simpa using hs)
    refine ⟨h, .short (l.map some ++ some 0 :: (List.replicate minCap none).drop (l.length + 1))
      (l.length % 128), ?_, ?_, Frame.refl h none, ?_⟩
    · simp only [h1, h2, Option.bind_eq_bind, Option.bind_some]; rfl
    · refine ⟨by simp; omega, by omega, _, rfl⟩
    · simp [Rep.isLong]; omega
  · obtain ⟨b, h1, h2⟩ := wr_text0 l (List.replicate (l.length + 1) none) (by simp)
    have hb : block (h ++ [some (List.replicate (l.length + 1) none)]) h.length =
        some (List.replicate (l.length + 1) none) := by simp [block]
    refine ⟨h ++ [some (l.map some ++ some 0 ::
      (List.replicate (l.length + 1) none).drop (l.length + 1))],
      .long h.length (l.length + 1) l.length, ?_, ?_, Frame.alloc h _, ?_⟩
    · simp only [alloc, hb, h1, h2, Option.bind_eq_bind, Option.bind_some, Option.pure_def]
      simp
    · refine ⟨by omega, by omega, rfl, (List.replicate (l.length + 1) none).drop (l.length + 1), ?_, ?_⟩
      · simp
      · simp
    · simp [Rep.isLong]; omega

theorem write_long {h : Heap} {p cap : Nat} {b : Buf} (hb : h[p]? = some (some b))
    (hcap : b.length = cap) (h24 : 24 ≤ cap) (hmax : cap ≤ intMax) (l : List Byte)
    (hl : l.length < cap) :
    ∃ b1 b2, wrBytes b 0 l = some b1 ∧ wrBytes b1 l.length [0] = some b2 ∧
      RepOK (h.set p (some b2)) (.long p cap l.length) l := by
  obtain ⟨b1, h1, h2⟩ := wr_text0 l b (by omega)
  refine ⟨b1, _, h1, h2, h24, hmax, rfl, b.drop (l.length + 1), ?_, ?_⟩
  · rw [List.getElem?_set_self (List.getElem?_eq_some_iff.1 hb).1]
  · simp; omega

theorem assign_spec (h : Heap) (r : Rep) (l0 l : List Byte) (hr : RepOK h r l0)
    (hl : l.length < intMax) :
    ∃ h' r', assign h r l = some (h', r') ∧ RepOK h' r' l ∧ Frame h r.owned h' r'.owned := by
  have hm : minCap = 23 := rfl
  unfold assign
  split_ifs with hs
  · cases r with
    | short d n =>
      obtain ⟨h1, h2, t, rfl⟩ := hr
      obtain ⟨b, h3, h4⟩ := wr_text0 l (l0.map some ++ some 0 :: t) (by omega)
      refine ⟨h, .short (l.map some ++ some 0 :: (l0.map some ++ some 0 :: t).drop (l.length + 1))
          (l.length % 128), ?_, ?_, Frame.refl h none⟩
      · simp only [assignShort, h3, h4, Option.bind_eq_bind, Option.bind_some]; rfl
      · refine ⟨?_, by omega, _, rfl⟩
        simp at h1 ⊢; omega
    | long p cap n =>
      obtain ⟨h1, h2, h3, t, h4, h5⟩ := hr
      obtain ⟨b1, b2, h6, h7, h8⟩ := write_long h4 (by simp; omega) h1 h2 l (by omega)
      refine ⟨_, _, ?_, h8, Frame.set h p _⟩
      simp only [assignShort, block_of h4, h6, h7, Option.bind_eq_bind, Option.bind_some]; rfl
  · unfold assignLong
    obtain ⟨c, hc, hle, hlt, hshort, hlong⟩ := hr.capacity
    rw [hc]
    simp only [Option.bind_eq_bind, Option.bind_some]
    split_ifs with hcl
    · obtain ⟨b, h1, h2⟩ := wr_text0 l (List.replicate (l.length + 1) none) (by simp)
      have hb : block (h ++ [some (List.replicate (l.length + 1) none)]) h.length =
          some (List.replicate (l.length + 1) none) := by simp [block]
      cases r with
      | short d n =>
        refine ⟨h ++ [some (l.map some ++ some 0 ::
          (List.replicate (l.length + 1) none).drop (l.length + 1))],
          .long h.length (l.length + 1) l.length, ?_, ?_, Frame.alloc h _⟩
        · simp only [alloc, hb, h1, h2, Option.bind_some, Option.pure_def]
          simp
        · refine ⟨by omega, by omega, rfl, (List.replicate (l.length + 1) none).drop (l.length + 1), ?_, ?_⟩
          · simp
          · simp
      | long p cap n =>
        obtain ⟨h3, h4, h5, t, h6, h7⟩ := hr
        have hp := (List.getElem?_eq_some_iff.1 h6).1
        have hf : free (h ++ [some (List.replicate (l.length + 1) none)]) p =
            some ((h ++ [some (List.replicate (l.length + 1) none)]).set p none) :=
          free_of (by rw [List.getElem?_append_left hp]; exact h6)
        have e : ((h ++ [some (List.replicate (l.length + 1) none)]).set p none).set h.length
            (some (l.map some ++ some 0 ::
              (List.replicate (l.length + 1) none).drop (l.length + 1))) =
            (h ++ [some (l.map some ++ some 0 ::
              (List.replicate (l.length + 1) none).drop (l.length + 1))]).set p none := by
          rw [List.set_comm _ _ (by omega)]; simp
        refine ⟨_, .long h.length (l.length + 1) l.length, ?_, ?_, Frame.realloc h p
          (l.map some ++ some 0 :: (List.replicate (l.length + 1) none).drop (l.length + 1)) hp⟩
        · simp only [alloc, hb, h1, hf, h2, Option.bind_some, Option.pure_def, e]
        · refine ⟨by omega, by omega, rfl, (List.replicate (l.length + 1) none).drop (l.length + 1), ?_, ?_⟩
          · rw [List.getElem?_set_ne (by omega)]; simp
          · simp
    · cases r with
      | short d n => have := hshort rfl; omega
      | long p cap n =>
        obtain ⟨h3, h4, h5, t, h6, h7⟩ := hr
        simp only [Rep.capacity] at hc
        rw [if_pos ⟨by omega, h4⟩] at hc
        simp only [Option.some.injEq] at hc
        obtain ⟨b1, b2, h8, h9, h10⟩ := write_long h6 (by simp; omega) h3 h4 l (by omega)
        refine ⟨_, _, ?_, h10, Frame.set h p _⟩
        simp only [block_of h6, h8, h9, Option.bind_some]; rfl

/-- The source denotes the text `t`, before the call and after allocating a new block. -/
def SrcOK (h : Heap) (r : Rep) (s : Src) (t : List Byte) : Prop :=
  match s with
  | .ext l => l = t
  | .heap p => ∃ u, h[p]? = some (some (t.map some ++ u))
  | .inline => ∃ d n u, r = .short d n ∧ d = t.map some ++ u

theorem SrcOK.read {h : Heap} {r : Rep} {s : Src} {t : List Byte} (hs : SrcOK h r s t) :
    readSrc h r t.length s = some t := by
  cases s with
  | ext l => cases hs; simpa [readSrc] using rdBytes_all t []
  | heap p =>
    obtain ⟨u, hu⟩ := hs
    simp only [readSrc, block_of hu, Option.bind_eq_bind, Option.bind_some, rdBytes_all]
  | «inline» =>
    obtain ⟨d, n, u, rfl, rfl⟩ := hs
    simp only [readSrc, rdBytes_all]

theorem SrcOK.alloc {h : Heap} {r : Rep} {s : Src} {t : List Byte} (hs : SrcOK h r s t)
    (b : Option Buf) : SrcOK (h ++ [b]) r s t := by
  cases s with
  | ext l => exact hs
  | heap p =>
    obtain ⟨u, hu⟩ := hs
    exact ⟨u, by rw [List.getElem?_append_left (List.getElem?_eq_some_iff.1 hu).1]; exact hu⟩
  | «inline» => exact hs

theorem append_spec (h : Heap) (r : Rep) (l t : List Byte) (s : Src) (hr : RepOK h r l)
    (hs : SrcOK h r s t) (hlen : l.length + t.length < 2 ^ 30)
    (hself : ∀ p cap n, r = .long p cap n → s = .heap p → t.length ≤ l.length)
    (hself' : ∀ d n, r = .short d n → s = .inline → t.length ≤ l.length) :
    ∃ h' r', append h r s t.length = some (h', r') ∧ RepOK h' r' (l ++ t) ∧
      Frame h r.owned h' r'.owned := by
  have hm : minCap = 23 := rfl
  have hi : intMax = 2147483647 := rfl
  unfold append
  obtain ⟨c, hc, hle, hlt, hshort, hlong⟩ := hr.capacity
  rw [hc]
  simp only [Option.bind_eq_bind, Option.bind_some, hr.size]
  rw [if_pos hle]
  by_cases hroom : t.length ≤ c - l.length
  · rw [if_pos hroom, hs.read]
    simp only [Option.bind_some]
    cases r with
    | short d n =>
      have hc22 := hshort rfl
      obtain ⟨h1, h2, u, rfl⟩ := hr
      have hov : overlap (Rep.short (l.map some ++ some 0 :: u) n) s t.length = false := by
        cases s with
        | ext _ => rfl
        | heap _ => rfl
        | «inline» =>
          simp only [overlap, decide_eq_false_iff_not]; have := hself' _ _ rfl rfl; omega
      rw [hov]
      simp at h1
      obtain ⟨b, h3, h4⟩ := wr_text l t (some 0 :: u) (by simp; omega)
      refine ⟨h, .short ((l ++ t).map some ++ some 0 :: (some 0 :: u).drop (t.length + 1))
        ((l.length + t.length) % 128), ?_, ?_, Frame.refl h none⟩
      · simp only [h3, h4, Option.bind_some]; rfl
      · refine ⟨?_, by simp; omega, _, rfl⟩
        simp; omega
    | long p cap n =>
      obtain ⟨h1, h2, h3, u, h4, h5⟩ := hr
      simp only [Rep.capacity] at hc
      rw [if_pos ⟨by omega, h2⟩] at hc
      simp only [Option.some.injEq] at hc
      have hov : overlap (Rep.long p cap n) s t.length = false := by
        cases s with
        | ext _ => rfl
        | heap q =>
          simp only [overlap, decide_eq_false_iff_not, not_and, not_lt]
          rintro rfl
          rw [h3]
          exact hself _ _ _ rfl rfl
        | «inline» => rfl
      rw [hov]
      obtain ⟨b, h6, h7⟩ := wr_text l t (some 0 :: u) (by simp; omega)
      refine ⟨_, .long p cap (l.length + t.length), ?_, ?_, Frame.set h p
        (some ((l ++ t).map some ++ some 0 :: (some 0 :: u).drop (t.length + 1)))⟩
      · simp only [block_of h4, h6, h7, Option.bind_some]; rfl
      · refine ⟨h1, h2, by simp, (some 0 :: u).drop (t.length + 1), ?_, ?_⟩
        · rw [List.getElem?_set_self (List.getElem?_eq_some_iff.1 h4).1]
        · simp; omega
  · rw [if_neg hroom]
    unfold growByAndReplace
    obtain ⟨u, hu⟩ := hr.dataBuf
    rw [hu]
    simp only [Option.bind_eq_bind, Option.bind_some, alloc]
    set cap := max (c + (t.length - (c - l.length))) (2 * c) with hcap
    have hb : block (h ++ [some (List.replicate (cap + 1) none)]) h.length =
        some (List.replicate (cap + 1) none) := by simp [block]
    have hrd : rdBytes (l.map some ++ some 0 :: u) 0 l.length = some l := rdBytes_all l _
    have hrd0 : rdBytes (l.map some ++ some 0 :: u) (l.length + 0) 0 = some [] := by
      rw [rdBytes_text l _ _ _ (by omega)]; simp
    obtain ⟨b1, h1, -⟩ := wr_text0 l (List.replicate (cap + 1) none) (by simp; omega)
    have hb1 : b1 = l.map some ++ List.replicate (cap + 1 - l.length) none := by
      simp only [wrBytes] at h1
      rw [if_pos (by simp; omega)] at h1
      simp only [Option.some.injEq] at h1
      rw [← h1]; simp
    obtain ⟨b2, h2, h3⟩ := wr_text l t (List.replicate (cap + 1 - l.length) none) (by simp; omega)
    rw [← hb1] at h2
    have hwr0 : wrBytes b2 (l.length + t.length) [] = some b2 := by
      unfold wrBytes at h3 ⊢
      by_cases hx : l.length + t.length + ([0] : List Byte).length ≤ b2.length
      · rw [if_pos (by simp at hx ⊢; omega)]; simp
      · rw [if_neg hx] at h3; simp at h3
    have hsrc := (hs.alloc (some (List.replicate (cap + 1) none))).read
    simp only [hb, hrd, h1, hsrc, h2, Option.bind_some]
    rw [if_pos (by omega), show l.length - 0 - l.length = 0 by omega, hrd0]
    simp only [Option.bind_some, hwr0]
    cases r with
    | short d n =>
      have hc22 := hshort rfl
      rw [if_neg (by omega)]
      refine ⟨_, .long h.length (cap + 1) (l.length + t.length), ?_, ?_, Frame.alloc h
        ((l ++ t).map some ++ some 0 ::
          (List.replicate (cap + 1 - l.length) none).drop (t.length + 1))⟩
      · simp only [Option.bind_some, Nat.add_zero, h3]
        simp
      · refine ⟨by omega, by omega, by simp,
          (List.replicate (cap + 1 - l.length) none).drop (t.length + 1), ?_, ?_⟩
        · simp
        · simp; omega
    | long p cap0 n =>
      have hc23 := hlong rfl
      rw [if_pos (by omega)]
      obtain ⟨k1, k2, k3, v, k4, k5⟩ := hr
      have hp := (List.getElem?_eq_some_iff.1 k4).1
      have hf : free (h ++ [some (List.replicate (cap + 1) none)]) p =
          some ((h ++ [some (List.replicate (cap + 1) none)]).set p none) :=
        free_of (by rw [List.getElem?_append_left hp]; exact k4)
      refine ⟨_, .long h.length (cap + 1) (l.length + t.length), ?_, ?_, Frame.realloc h p
        ((l ++ t).map some ++ some 0 ::
          (List.replicate (cap + 1 - l.length) none).drop (t.length + 1)) hp⟩
      · simp only [hf, Option.bind_some, Nat.add_zero, h3]
        rw [List.set_comm _ _ (by omega)]; simp
      · refine ⟨by omega, by omega, by simp,
          (List.replicate (cap + 1 - l.length) none).drop (t.length + 1), ?_, ?_⟩
        · rw [List.getElem?_set_ne (by omega)]; simp
        · simp; omega

/-! ## Many strings -/

/-- The object holds the text, or both are gone. -/
def ObjOK (h : Heap) : Option Rep → Option (List Byte) → Prop
  | some r, some l => RepOK h r l
  | none, none => True
  | _, _ => False

/-- The block object `i` owns. -/
def owner (objs : List (Option Rep)) (i : Nat) : Option Nat :=
  match objs[i]? with
  | some (some r) => r.owned
  | _ => none

/-- The state represents the texts `A`; every allocated block has exactly one owner. -/
structure Inv (st : St) (A : List (Option (List Byte))) : Prop where
  len : st.objs.length = A.length
  ok : ∀ (i : Nat) (o : Option Rep) (a : Option (List Byte)), st.objs[i]? = some o → A[i]? = some a → ObjOK st.heap o a
  inj : ∀ i j p, owner st.objs i = some p → owner st.objs j = some p → i = j
  noLeak : ∀ (p : Nat) (b : Buf), st.heap[p]? = some (some b) → ∃ i, owner st.objs i = some p

theorem ObjOK.frame {h h' : Heap} {own own' : Option Nat} {o : Option Rep}
    {a : Option (List Byte)} (ho : ObjOK h o a) (hf : Frame h own h' own')
    (hne : ∀ p, o.bind Rep.owned = some p → own ≠ some p) : ObjOK h' o a := by
  cases o with
  | none => cases a <;> exact ho
  | some r =>
    cases a with
    | none => exact ho
    | some l => exact RepOK.frame ho hf hne

theorem owner_of {objs : List (Option Rep)} {i : Nat} {o : Option Rep} (h : objs[i]? = some o) :
    owner objs i = o.bind Rep.owned := by
  simp only [owner, h]; cases o <;> rfl

theorem ownsLt {h : Heap} {o : Option Rep} {a : Option (List Byte)} (ho : ObjOK h o a) {p : Nat}
    (hp : o.bind Rep.owned = some p) : ∃ b, h[p]? = some (some b) := by
  cases o with
  | none => simp at hp
  | some r =>
    cases a with
    | none => exact absurd ho (by simp [ObjOK])
    | some l =>
      cases r with
      | short d n => simp [Rep.owned] at hp
      | long q cap n =>
        simp only [Option.bind_some, Rep.owned, Option.some.injEq] at hp
        subst hp
        obtain ⟨-, -, -, t, h4, -⟩ := ho
        exact ⟨_, h4⟩

theorem inv_owner_lt {st : St} {A : List (Option (List Byte))} (hI : Inv st A) {i p : Nat}
    (hp : owner st.objs i = some p) : p < st.heap.length ∧ ∃ b, st.heap[p]? = some (some b) := by
  unfold owner at hp
  cases ho : st.objs[i]? with
  | none => simp [ho] at hp
  | some o =>
    have hi := (List.getElem?_eq_some_iff.1 ho).1
    have hiA : i < A.length := by rw [← hI.len]; exact hi
    have ha : A[i]? = some A[i] := List.getElem?_eq_getElem hiA
    have hob : o.bind Rep.owned = some p := by
      rw [ho] at hp; cases o <;> simpa using hp
    obtain ⟨b, hb⟩ := ownsLt (hI.ok i o _ ho ha) hob
    exact ⟨(List.getElem?_eq_some_iff.1 hb).1, b, hb⟩

theorem owner_set_self {objs : List (Option Rep)} {i : Nat} (hi : i < objs.length)
    (o : Option Rep) : owner (objs.set i o) i = o.bind Rep.owned :=
  owner_of (List.getElem?_set_self hi)

theorem owner_set_ne {objs : List (Option Rep)} {i j : Nat} (hij : i ≠ j) (o : Option Rep) :
    owner (objs.set i o) j = owner objs j := by
  simp only [owner, List.getElem?_set_ne hij]

theorem inv_set {st : St} {A : List (Option (List Byte))} (hI : Inv st A) {i : Nat}
    {o o' : Option Rep} {a' : Option (List Byte)} {h' : Heap} (ho : st.objs[i]? = some o)
    (hf : Frame st.heap (o.bind Rep.owned) h' (o'.bind Rep.owned)) (hok : ObjOK h' o' a') :
    Inv ⟨h', st.objs.set i o'⟩ (A.set i a') := by
  have hi := (List.getElem?_eq_some_iff.1 ho).1
  have hoi := owner_of ho
  have hother : ∀ j, i ≠ j → ∀ p, owner st.objs j = some p → o.bind Rep.owned ≠ some p := by
    intro j hij p hp hc
    exact hij (hI.inj i j p (by rw [hoi, hc]) hp)
  constructor
  · simp [hI.len]
  · intro j oj aj hoj haj
    simp only at hoj
    by_cases hij : i = j
    · subst hij
      rw [List.getElem?_set_self hi] at hoj
      rw [List.getElem?_set_self (by rw [← hI.len]; exact hi)] at haj
      cases hoj; cases haj; exact hok
    · rw [List.getElem?_set_ne hij] at hoj haj
      refine (hI.ok j oj aj hoj haj).frame hf ?_
      intro p hp
      exact hother j hij p (by rw [owner_of hoj, hp])
  · intro j k p hj hk
    simp only at hj hk
    have aux : ∀ j, i ≠ j → owner (st.objs.set i o') j = some p → o'.bind Rep.owned = some p →
        False := by
      intro j hij hj ho'
      rw [owner_set_ne hij] at hj
      rcases hf.owned p ho' with h1 | h1
      · exact hother j hij p hj h1
      · have := (inv_owner_lt hI hj).1; omega
    by_cases hij : i = j
    · by_cases hik : i = k
      · omega
      · subst hij
        rw [owner_set_self hi] at hj
        exact absurd (aux k hik hk hj) not_false
    · by_cases hik : i = k
      · subst hik
        rw [owner_set_self hi] at hk
        exact absurd (aux j hij hj hk) not_false
      · rw [owner_set_ne hij] at hj
        rw [owner_set_ne hik] at hk
        exact hI.inj j k p hj hk
  · intro p b hb
    simp only at hb ⊢
    by_cases hp' : o'.bind Rep.owned = some p
    · exact ⟨i, by rw [owner_set_self hi, hp']⟩
    · by_cases hlt : p < st.heap.length
      · by_cases hpo : o.bind Rep.owned = some p
        · have := hf.drop p hpo hp'
          rw [this] at hb; simp at hb
        · rw [hf.keep p hlt hpo] at hb
          obtain ⟨j, hj⟩ := hI.noLeak p b hb
          have hij : i ≠ j := by
            rintro rfl; rw [hoi] at hj; exact hpo hj
          exact ⟨j, by rw [owner_set_ne hij]; exact hj⟩
      · exact absurd hb (hf.fresh p (by omega) hp' b)

theorem inv_push {st : St} {A : List (Option (List Byte))} (hI : Inv st A) {o' : Option Rep}
    {a' : Option (List Byte)} {h' : Heap} (hf : Frame st.heap none h' (o'.bind Rep.owned))
    (hok : ObjOK h' o' a') : Inv ⟨h', st.objs ++ [o']⟩ (A ++ [a']) := by
  have h1 : Inv ⟨st.heap, st.objs ++ [none]⟩ (A ++ [none]) := by
    have hown : ∀ i p, owner (st.objs ++ [none]) i = some p ↔ owner st.objs i = some p := by
      intro i p
      unfold owner
      by_cases hi : i < st.objs.length
      · rw [List.getElem?_append_left hi]
      · rw [List.getElem?_append_right (by omega), List.getElem?_eq_none (l := st.objs) (by omega)]
        rcases hk : i - st.objs.length with _ | k <;> simp
    constructor
    · simp [hI.len]
    · intro i o a ho ha
      simp only at ho
      by_cases hi : i < st.objs.length
      · rw [List.getElem?_append_left hi] at ho
        rw [List.getElem?_append_left (by rw [← hI.len]; exact hi)] at ha
        exact hI.ok i o a ho ha
      · rw [List.getElem?_append_right (by omega)] at ho
        rw [List.getElem?_append_right (by rw [← hI.len]; omega), ← hI.len] at ha
        rcases hk : i - st.objs.length with _ | k
        · rw [hk] at ho ha; simp at ho ha; subst ho; subst ha; trivial
        · rw [hk] at ho; simp at ho
    · intro i j p hi hj
      exact hI.inj i j p ((hown i p).1 hi) ((hown j p).1 hj)
    · intro p b hb
      obtain ⟨i, hi⟩ := hI.noLeak p b hb
      exact ⟨i, (hown i p).2 hi⟩
  have h2 := inv_set h1 (i := st.objs.length) (o := none) (o' := o') (a' := a') (h' := h')
    (by simp) hf hok
  rw [List.set_append_right _ _ (le_refl _), List.set_append_right _ _ (by rw [hI.len])] at h2
  simpa [hI.len] using h2

theorem swap_get {β : Type} {l : List β} {i j : Nat} {x y : β} (hi : l[i]? = some x)
    (hj : l[j]? = some y) (k : Nat) :
    ((l.set i y).set j x)[k]? = l[if k = i then j else if k = j then i else k]? := by
  have hi' := (List.getElem?_eq_some_iff.1 hi).1
  have hj' := (List.getElem?_eq_some_iff.1 hj).1
  by_cases hkj : k = j
  · subst hkj
    rw [List.getElem?_set_self (by simpa using hj')]
    by_cases hki : k = i
    · subst hki; simp [← hi]
    · simp [hki, hi]
  · rw [List.getElem?_set_ne (Ne.symm hkj)]
    by_cases hki : k = i
    · subst hki
      rw [List.getElem?_set_self hi']; simp [hj]
    · rw [List.getElem?_set_ne (Ne.symm hki)]; simp [hki, hkj]

theorem inv_swap {st : St} {A : List (Option (List Byte))} (hI : Inv st A) {i j : Nat}
    {o o' : Option Rep} {a a' : Option (List Byte)} (ho : st.objs[i]? = some o)
    (ho' : st.objs[j]? = some o') (ha : A[i]? = some a) (ha' : A[j]? = some a') :
    Inv ⟨st.heap, (st.objs.set i o').set j o⟩ ((A.set i a').set j a) := by
  have hs : ∀ k, owner ((st.objs.set i o').set j o) k =
      owner st.objs (if k = i then j else if k = j then i else k) := by
    intro k; simp only [owner, swap_get ho ho']
  constructor
  · simp [hI.len]
  · intro k x y hx hy
    simp only at hx
    rw [swap_get ho ho'] at hx
    rw [swap_get ha ha'] at hy
    exact hI.ok _ x y hx hy
  · intro k m p hk hm
    simp only at hk hm
    rw [hs] at hk hm
    have := hI.inj _ _ p hk hm
    split_ifs at this <;> omega
  · intro p b hb
    obtain ⟨k, hk⟩ := hI.noLeak p b hb
    refine ⟨if k = i then j else if k = j then i else k, ?_⟩
    simp only [hs]
    rw [← hk]
    congr 1
    split_ifs <;> omega

end Verif.Str
