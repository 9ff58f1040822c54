import Verif.Model.GmshInfo
import Verif.Lemmas.Abaqus
import Verif.Lemmas.GmshGroups
import Verif.Props.GmshGroupsSpec
import Verif.Props.StrView
import Verif.Props.ModelText

/-! Auxiliary facts for the info file. -/

namespace Verif.InfoL

open Verif.Info
open Verif.XSLib (Res)
open Verif.Gmsh (Gm DimTag lowerBound)
open Verif.Overlay (Name)
open Verif.Str (Byte)
open Verif.StrView (digits digits_length)
open Verif.Abaqus (isSpace isDigit readDigits readDigits_digits digits_ne digits_digit)
open Verif.MFiles (str)
open Verif.GmshSpec (WF)

/-! ## Numbers -/

theorem digit_not {c : Byte} (h : 48 ≤ c.toNat ∧ c.toNat ≤ 57) : isSpace c = false ∧ isDigit c = true ∧ c ≠ 45 ∧ c ≠ 43 ∧ c ≠ 32 ∧ c ≠ 10 ∧ c ≠ 34 := by
  have hne : ∀ b : Byte, b.toNat < 48 → c ≠ b := by rintro b hb rfl; omega
  refine ⟨?_, by simp [isDigit, h], hne 45 (by decide), hne 43 (by decide), hne 32 (by decide), hne 10 (by decide), hne 34 (by decide)⟩
  have h32 := hne 32 (by decide)
  simp [isSpace, h32]
  omega

theorem digits_no (n : Nat) : (32 : Byte) ∉ digits n ∧ (10 : Byte) ∉ digits n ∧ (34 : Byte) ∉ digits n := by
  refine ⟨fun h => ?_, fun h => ?_, fun h => ?_⟩
  · exact (digit_not (digits_digit n _ h)).2.2.2.2.1 rfl
  · exact (digit_not (digits_digit n _ h)).2.2.2.2.2.1 rfl
  · exact (digit_not (digits_digit n _ h)).2.2.2.2.2.2 rfl

theorem number_digits (n : Nat) (r : List Byte) (hr : ∀ c ∈ r.head?, isDigit c = false) : number (digits n ++ r) = some (false, n) := by
  obtain ⟨c, t, hct⟩ := List.exists_cons_of_ne_nil (digits_ne n)
  have hc := digit_not (digits_digit n c (by rw [hct]; simp))
  have hval : readDigits 0 (digits n ++ r) = n := by
    rw [readDigits_digits]
    cases r with
    | nil => rfl
    | cons x r => rw [readDigits, hr x rfl]; rfl
  have hdw : (digits n ++ r).dropWhile isSpace = digits n ++ r := by
    rw [hct, List.cons_append, List.dropWhile_cons_of_neg (by rw [hc.1]; simp)]
  unfold number
  rw [hdw, hct, List.cons_append]
  simp only [hc.2.2.1, hc.2.2.2.1, or_self, if_false, List.head?_cons, Option.any_some, hc.2.1, if_true, decide_false]
  rw [← List.cons_append, ← hct, hval]

theorem stoi_digits (n : Nat) (h : n < 2 ^ 31) (r : List Byte) (hr : ∀ c ∈ r.head?, isDigit c = false) : stoi (digits n ++ r) = .ok (n : ℤ) := by
  unfold stoi
  rw [number_digits n r hr]
  simp only [Bool.false_eq_true, if_false]
  rw [if_pos (by omega)]

theorem stoul_digits (n : Nat) (h : n < 2 ^ 31) (r : List Byte) (hr : ∀ c ∈ r.head?, isDigit c = false) : stoul (digits n ++ r) = .ok n := by
  unfold stoul
  rw [number_digits n r hr]
  simp only [Bool.false_eq_true, if_false]
  rw [if_neg (by omega)]

theorem stoi_end (n : Nat) (h : n < 2 ^ 31) : stoi (digits n) = .ok (n : ℤ) := by
  have := stoi_digits n h [] (by simp); simpa using this

theorem stoul_end (n : Nat) (h : n < 2 ^ 31) : stoul (digits n) = .ok n := by
  have := stoul_digits n h [] (by simp); simpa using this

/-! ## Lines -/

theorem getline_line (l r x : List Byte) (h : (10 : Byte) ∉ l) : getline ⟨l ++ 10 :: r, true, x⟩ = ⟨r, true, l⟩ := by
  have h1 : ∀ c ∈ l, decide (c ≠ 10) = true := by
    intro c hc
    have : c ≠ 10 := fun he => h (he ▸ hc)
    simpa using this
  unfold getline
  simp only [Bool.not_true, Bool.false_eq_true, if_false]
  rw [List.dropWhile_append_of_pos h1, List.takeWhile_append_of_pos h1]
  simp

theorem find_at (pre w r : List Byte) (c : Byte) (h : c ∉ w) : find (pre ++ w ++ c :: r) c pre.length = pre.length + w.length := by
  unfold find
  rw [List.append_assoc, List.drop_left]
  have : (w ++ c :: r).idxOf? c = some w.length := by
    rw [List.idxOf?_eq_some_iff]
    refine ⟨by simp, by simp, ?_⟩
    intro j hj
    rw [List.getElem_append_left hj]
    intro he
    have he : w[j] = c := by simpa using he
    exact h (he ▸ List.getElem_mem hj)
  rw [this]

theorem sub64_len (a b : Nat) (h : a + b < 2 ^ 63) : sub64 (a + b) a = b := by
  unfold sub64
  have : a + b + (2 ^ 64 - a) = b + 2 ^ 64 := by omega
  rw [this, Nat.add_mod_right, Nat.mod_eq_of_lt (by omega)]

theorem add64_small (a b : Nat) (h : a + b < 2 ^ 63) : add64 a b = a + b := Nat.mod_eq_of_lt (by omega)

theorem substr_at (pre w r : List Byte) (n : Nat) (h : n = w.length) : substr (pre ++ w ++ r) pre.length n = .ok w := by
  unfold substr
  rw [if_neg (by simp), List.append_assoc, List.drop_left, h, List.take_left]

theorem substrFrom_at (pre w : List Byte) : substrFrom (pre ++ w) pre.length = .ok w := by
  unfold substrFrom
  rw [if_neg (by simp), List.drop_left]

/-- Numbers separated by blanks. -/
def joinSp : List Nat → List Byte
  | [] => []
  | [n] => digits n
  | n :: m :: l => digits n ++ 32 :: joinSp (m :: l)

theorem joinSp_no (l : List Nat) : (10 : Byte) ∉ joinSp l := by
  induction l with
  | nil => simp [joinSp]
  | cons n l ih =>
    cases l with
    | nil => exact (digits_no n).2.1
    | cons m l =>
      rw [joinSp, List.mem_append, List.mem_cons, not_or, not_or]
      exact ⟨(digits_no n).2.1, by decide, ih⟩

theorem joinSp_length (l : List Nat) (h : ∀ n ∈ l, n < 2 ^ 31) : (joinSp l).length ≤ 11 * l.length := by
  induction l with
  | nil => simp [joinSp]
  | cons n l ih =>
    have hn : (digits n).length ≤ 10 := digits_length n 10 (by omega) (by have := h n (by simp); omega)
    have := ih fun m hm => h m (by simp [hm])
    cases l with
    | nil => simp [joinSp]; omega
    | cons m l => simp only [joinSp, List.length_append, List.length_cons] at this ⊢; omega

theorem joinSp_append (a b : List Nat) (ha : a ≠ []) (hb : b ≠ []) : joinSp (a ++ b) = joinSp a ++ 32 :: joinSp b := by
  induction a with
  | nil => exact absurd rfl ha
  | cons n a ih =>
    cases a with
    | nil =>
      obtain ⟨m, b', rfl⟩ := List.exists_cons_of_ne_nil hb
      rfl
    | cons m a =>
      rw [List.cons_append, List.cons_append, joinSp, ← List.cons_append, ih (by simp), joinSp, List.append_assoc]
      rfl

theorem tokens_ok (line : List Byte) (hlen : line.length < 2 ^ 63) (tail : List Byte) (ht : tail = [] ∨ tail = [32]) : ∀ (ns : List Nat) (pre : List Byte),
    ns ≠ [] → (∀ n ∈ ns, n < 2 ^ 31) → line = pre ++ (joinSp ns ++ tail) → tokens line ns.length pre.length = .ok (ns.map fun n : Nat => (n : ℤ)) := by
  intro ns
  induction ns with
  | nil => intro _ h; exact absurd rfl h
  | cons n ns ih =>
    intro pre _ hb hl
    have hn := hb n (by simp)
    cases ns with
    | nil =>
      rw [List.length_singleton, tokens, hl, substrFrom_at]
      show (stoi (digits n ++ tail)).bind _ = _
      rw [stoi_digits n hn tail (by rcases ht with rfl | rfl <;> simp [isDigit])]
      rfl
    | cons m ns =>
      rw [List.length_cons, List.length_cons, tokens]
      have hl' : line = pre ++ digits n ++ 32 :: (joinSp (m :: ns) ++ tail) := by
        rw [hl, joinSp]; simp
      have hlt : pre.length + (digits n).length < line.length := by rw [hl']; simp
      have hf : find line 32 pre.length = pre.length + (digits n).length := by rw [hl']; exact find_at _ _ _ _ (digits_no n).1
      rw [hf, sub64_len _ _ (by omega), add64_small _ _ (by omega)]
      have hs : substr line pre.length (digits n).length = .ok (digits n) := by
        rw [hl']; exact substr_at _ _ _ _ rfl
      rw [hs]
      show (stoi (digits n)).bind _ = _
      rw [stoi_end n hn]
      have := ih (pre ++ digits n ++ [32]) (by simp) (fun x hx => hb x (by simp [hx])) (by rw [hl']; simp)
      rw [List.length_append, List.length_append, List.length_singleton, List.length_cons] at this
      show (tokens line (ns.length + 1) (pre.length + (digits n).length + 1)).bind _ = _
      rw [this]
      rfl

theorem tokens_line (ns : List Nat) (tail : List Byte) (ht : tail = [] ∨ tail = [32]) (h0 : ns ≠ []) (hb : ∀ n ∈ ns, n < 2 ^ 31) (hl : ns.length ≤ 16) :
    tokens (joinSp ns ++ tail) ns.length 0 = .ok (ns.map fun n : Nat => (n : ℤ)) := by
  have h1 := joinSp_length ns hb
  refine tokens_ok (joinSp ns ++ tail) ?_ tail ht ns [] h0 hb (by simp)
  rw [List.length_append]
  have : tail.length ≤ 1 := by rcases ht with rfl | rfl <;> simp
  have : (2 : Nat) ^ 63 = 9223372036854775808 := by norm_num
  omega

/-! ## Entries -/

theorem fullLines_ok (w : Nat) (hw : 0 < w) (hw' : w ≤ 2) : ∀ (cs : List (List Nat)) (r x : List Byte), (∀ c ∈ cs, c.length = 8 * w ∧ ∀ n ∈ c, n < 2 ^ 31) →
    ∃ y, fullLines w cs.length ⟨(cs.flatMap fun c => joinSp c ++ [32] ++ [10]) ++ r, true, x⟩ = .ok (cs.flatten.map fun n : Nat => (n : ℤ), ⟨r, true, y⟩) := by
  intro cs
  induction cs with
  | nil => intro r x _; exact ⟨x, rfl⟩
  | cons c cs ih =>
    intro r x h
    obtain ⟨h1, h2⟩ := h c (by simp)
    rw [List.length_cons, fullLines, List.flatMap_cons]
    have e : joinSp c ++ [32] ++ [10] ++ (cs.flatMap fun c => joinSp c ++ [32] ++ [10]) ++ r =
        (joinSp c ++ [32]) ++ 10 :: ((cs.flatMap fun c => joinSp c ++ [32] ++ [10]) ++ r) := by simp
    rw [e, getline_line _ _ _ (by rw [List.mem_append, not_or]; exact ⟨joinSp_no c, by decide⟩)]
    obtain ⟨y, hy⟩ := ih r (joinSp c ++ [32]) fun c' hc' => h c' (by simp [hc'])
    refine ⟨y, ?_⟩
    rw [hy]
    dsimp only
    rw [← h1, tokens_line c [32] (Or.inr rfl) (by rintro rfl; simp at h1; omega) h2 (by omega)]
    simp [Res.bind]

theorem flatMap_items (l : List (List Nat)) (h : ∀ c ∈ l, c ≠ []) (h0 : l ≠ []) :
    (l.flatMap fun c => joinSp c ++ [32]) = joinSp l.flatten ++ [32] := by
  induction l with
  | nil => exact absurd rfl h0
  | cons c l ih =>
    rw [List.flatMap_cons, List.flatten_cons]
    by_cases hl : l = []
    · subst hl; simp
    · rw [ih (fun c hc => h c (by simp [hc])) hl, joinSp_append _ _ (h c (by simp))]
      · simp
      · obtain ⟨d, l', rfl⟩ := List.exists_cons_of_ne_nil hl
        rw [List.flatten_cons]
        intro he
        exact h d (by simp) (List.append_eq_nil_iff.1 he).1

theorem range_chunks {α : Type} (f : Nat → List α) (k m : Nat) :
    ((List.range k).flatMap fun i => (List.range 8).flatMap fun j => f (8 * i + j)) ++ ((List.range m).flatMap fun i => f (k * 8 + i)) =
    (List.range (8 * k + m)).flatMap f := by
  have h : ((List.range k).flatMap fun i => (List.range 8).flatMap fun j => f (8 * i + j)) = (List.range (8 * k)).flatMap f := by
    induction k with
    | zero => rfl
    | succ k ih =>
      rw [List.range_succ (n := k), List.flatMap_append, ih, Nat.mul_succ, List.range_add, List.flatMap_append, List.flatMap_map]
      simp
  rw [h, List.range_add, List.flatMap_append, List.flatMap_map, Nat.mul_comm k 8]

/-- The entries of `rows8` are read back; `w` numbers per entry. -/
theorem readItems_ok (w : Nat) (hw : 0 < w) (hw' : w ≤ 2) (item : Nat → List Nat) (n : Nat) (hi : ∀ i < n, (item i).length = w ∧ ∀ m ∈ item i, m < 2 ^ 31)
    (r x : List Byte) : ∃ y, readItems w n ⟨rows8 (fun i => joinSp (item i)) n ++ r, true, x⟩ =
      .ok (((List.range n).flatMap item).map fun n : Nat => (n : ℤ), ⟨r, true, y⟩) := by
  have hn := Nat.div_add_mod n 8
  have hlt := Nat.mod_lt n (show 8 > 0 by omega)
  have hne : ∀ i < n, item i ≠ [] := by
    intro i h he; have := (hi i h).1; rw [he] at this; simp at this; omega
  -- the text
  have hfull : ((List.range (n / 8)).flatMap fun i => ((List.range 8).flatMap fun j => joinSp (item (8 * i + j)) ++ [32]) ++ [10]) =
      ((List.range (n / 8)).map fun i => (List.range 8).flatMap fun j => item (8 * i + j)).flatMap fun c => joinSp c ++ [32] ++ [10] := by
    rw [List.flatMap_map]
    refine List.flatMap_congr fun i hi' => ?_
    rw [List.mem_range] at hi'
    have := flatMap_items ((List.range 8).map fun j => item (8 * i + j)) (by
      intro c hc
      obtain ⟨j, hj, rfl⟩ := List.mem_map.1 hc
      rw [List.mem_range] at hj
      exact hne _ (by omega)) (by simp)
    rw [List.flatMap_map, ← List.flatMap_def] at this
    rw [this]
  have hcs : ∀ c ∈ (List.range (n / 8)).map (fun i => (List.range 8).flatMap fun j => item (8 * i + j)), c.length = 8 * w ∧ ∀ m ∈ c, m < 2 ^ 31 := by
    intro c hc
    obtain ⟨i, hi', rfl⟩ := List.mem_map.1 hc
    rw [List.mem_range] at hi'
    constructor
    · rw [List.length_flatMap]
      have : (List.range 8).map (fun j => (item (8 * i + j)).length) = (List.range 8).map fun _ => w :=
        List.map_congr_left fun j hj => (hi _ (by rw [List.mem_range] at hj; omega)).1
      rw [this]
      simp
      omega
    · intro m hm
      obtain ⟨j, hj, hm⟩ := List.mem_flatMap.1 hm
      rw [List.mem_range] at hj
      exact (hi _ (by omega)).2 m hm
  have hflat : ((List.range (n / 8)).map fun i => (List.range 8).flatMap fun j => item (8 * i + j)).flatten =
      (List.range (n / 8)).flatMap fun i => (List.range 8).flatMap fun j => item (8 * i + j) := by rw [List.flatMap_def]
  have hall := range_chunks item (n / 8) (n % 8)
  rw [hn] at hall
  unfold readItems rows8
  rw [hfull]
  by_cases hm : n % 8 = 0
  · rw [hm] at hall ⊢
    simp only [List.range_zero, List.flatMap_nil, List.append_nil, Nat.lt_irrefl, if_false, ne_eq, not_true_eq_false] at hall ⊢
    obtain ⟨y, hy⟩ := fullLines_ok w hw hw' _ r x hcs
    rw [List.length_map, List.length_range] at hy
    refine ⟨y, ?_⟩
    rw [show (0 - 1 : Nat) = 0 from rfl, List.range_zero, List.flatMap_nil, List.append_nil, hy, hflat, hall]
    rfl
  · have hrest : ((List.range (n % 8 - 1)).flatMap fun i => joinSp (item (n / 8 * 8 + i)) ++ [32]) ++ joinSp (item (n / 8 * 8 + n % 8 - 1)) =
        joinSp ((List.range (n % 8)).flatMap fun i => item (n / 8 * 8 + i)) := by
      obtain ⟨k, hk⟩ : ∃ k, n % 8 = k + 1 := ⟨n % 8 - 1, by omega⟩
      rw [hk, Nat.add_sub_cancel, List.range_succ, List.flatMap_append, List.flatMap_singleton, show n / 8 * 8 + (k + 1) - 1 = n / 8 * 8 + k by omega]
      by_cases hk0 : k = 0
      · subst hk0; simp
      · have := flatMap_items ((List.range k).map fun i => item (n / 8 * 8 + i)) (by
          intro c hc
          obtain ⟨j, hj, rfl⟩ := List.mem_map.1 hc
          rw [List.mem_range] at hj
          exact hne _ (by omega)) (by simp; omega)
        rw [List.flatMap_map, ← List.flatMap_def] at this
        rw [this, joinSp_append]
        · simp
        · intro he
          rw [List.flatMap_eq_nil_iff] at he
          exact hne _ (by omega) (he 0 (by rw [List.mem_range]; omega))
        · exact hne _ (by omega)
    have hb : ∀ m ∈ (List.range (n % 8)).flatMap (fun i => item (n / 8 * 8 + i)), m < 2 ^ 31 := by
      intro m hm
      obtain ⟨j, hj, hm⟩ := List.mem_flatMap.1 hm
      rw [List.mem_range] at hj
      exact (hi _ (by omega)).2 m hm
    have hl : ((List.range (n % 8)).flatMap fun i => item (n / 8 * 8 + i)).length = n % 8 * w := by
      rw [List.length_flatMap]
      have : (List.range (n % 8)).map (fun i => (item (n / 8 * 8 + i)).length) = (List.range (n % 8)).map fun _ => w :=
        List.map_congr_left fun j hj => (hi _ (by rw [List.mem_range] at hj; omega)).1
      rw [this]
      simp
    rw [if_pos (by omega)]
    obtain ⟨y, hy⟩ := fullLines_ok w hw hw' ((List.range (n / 8)).map fun i => (List.range 8).flatMap fun j => item (8 * i + j))
      (joinSp ((List.range (n % 8)).flatMap fun i => item (n / 8 * 8 + i)) ++ 10 :: r) x hcs
    rw [List.length_map, List.length_range] at hy
    have etext : ∀ A : List Byte, A ++ ((List.range (n % 8 - 1)).flatMap fun i => joinSp (item (n / 8 * 8 + i)) ++ [32]) ++
        (joinSp (item (n / 8 * 8 + n % 8 - 1)) ++ [10]) ++ r = A ++ (joinSp ((List.range (n % 8)).flatMap fun i => item (n / 8 * 8 + i)) ++ 10 :: r) := by
      intro A; rw [← hrest]; simp
    rw [etext, hy]
    refine ⟨joinSp ((List.range (n % 8)).flatMap fun i => item (n / 8 * 8 + i)), ?_⟩
    show (if n % 8 ≠ 0 then _ else _) = _
    rw [if_pos hm, getline_line _ _ _ (joinSp_no _)]
    dsimp only
    have ht := tokens_line _ [] (Or.inl rfl) (by intro he; rw [he] at hl; simp at hl; omega) hb (by rw [hl]; nlinarith)
    rw [List.append_nil, hl] at ht
    rw [ht, ← hall, ← hflat]
    simp [Res.bind]

/-! ## Numbers of entities -/

theorem lowerBound_sorted (l : List ℤ) (h : l.Pairwise (· ≤ ·)) (x : ℤ) : lowerBound l x = (l.filter (· < x)).length := by
  unfold lowerBound
  induction l with
  | nil => rfl
  | cons a l ih =>
    rw [List.pairwise_cons] at h
    by_cases ha : a < x
    · simp [ha, ih h.2]
    · have : l.filter (fun y => decide (y < x)) = [] := by
        rw [List.filter_eq_nil_iff]
        intro b hb
        have := h.1 b hb
        simp; omega
      simp [ha, this]

theorem rank_eq (ents : List DimTag) (d e : ℤ) : rank ents d e = (ents.filter fun x => x.1 = d ∧ x.2 < e).length + 1 := by
  unfold rank tagMap
  rw [lowerBound_sorted _ (List.pairwise_insertionSort _ _), ((List.perm_insertionSort _ _).filter _).length_eq, List.filter_map,
    List.length_map, List.filter_filter]
  congr 3
  funext x
  simp [Bool.and_comm]

theorem rank_lt (ents : List DimTag) (d a b : ℤ) (ha : (d, a) ∈ ents) (h : a < b) : rank ents d a < rank ents d b := by
  rw [rank_eq, rank_eq]
  have hsub : (ents.filter fun x => x.1 = d ∧ x.2 < a).Sublist (ents.filter fun x => x.1 = d ∧ x.2 < b) := by
    refine List.monotone_filter_right _ fun x hx => ?_
    simp at hx ⊢
    omega
  have := hsub.length_le
  rcases Nat.lt_or_ge (ents.filter fun x => x.1 = d ∧ x.2 < a).length (ents.filter fun x => x.1 = d ∧ x.2 < b).length with h1 | h1
  · omega
  · have he := hsub.eq_of_length_le h1
    have hm : (d, a) ∈ ents.filter fun x => x.1 = d ∧ x.2 < b := by simp [ha, h]
    rw [← he] at hm
    simp at hm

theorem rank_inj (ents : List DimTag) (d a b : ℤ) (ha : (d, a) ∈ ents) (hb : (d, b) ∈ ents) (h : rank ents d a = rank ents d b) : a = b := by
  rcases lt_trichotomy a b with h1 | h1 | h1
  · have := rank_lt ents d a b ha h1; omega
  · exact h1
  · have := rank_lt ents d b a hb h1; omega

theorem rank_le (ents : List DimTag) (d e : ℤ) : rank ents d e ≤ ents.length + 1 := by
  rw [rank_eq]
  have := List.length_filter_le (fun x : DimTag => decide (x.1 = d ∧ x.2 < e)) ents
  omega

/-! ## Groups -/

theorem flatMap_getD {α β : Type} (l : List α) (z : α) (f : α → List β) : ((List.range l.length).flatMap fun i => f (l.getD i z)) = l.flatMap f := by
  induction l using List.reverseRecOn with
  | nil => rfl
  | append_singleton l a ih =>
    rw [List.length_append, List.length_singleton, List.range_succ, List.flatMap_append, List.flatMap_append, ← ih]
    congr 1
    · refine List.flatMap_congr fun i hi => ?_
      rw [List.mem_range] at hi
      simp [List.getElem?_append_left hi]
    · simp

theorem dim_digits (d : ℤ) (h0 : 0 ≤ d) (h3 : d ≤ 3) : (digits d.toNat).length = 1 := by
  obtain rfl | rfl | rfl | rfl : d = 0 ∨ d = 1 ∨ d = 2 ∨ d = 3 := by omega
  all_goals decide +kernel

theorem readGroup_ok (ents : List DimTag) (g : Gmsh.Group Name) (s : Gm Name Col) (r x : List Byte) (hd : 0 ≤ g.dim ∧ g.dim ≤ 3)
    (hq : (34 : Byte) ∉ g.name) (hn : (10 : Byte) ∉ g.name) (hlen : g.name.length < 2 ^ 31) (hg : g.ents.length < 2 ^ 31) (he : ents.length + 1 < 2 ^ 31) :
    ∃ y, readGroup s ⟨groupText ents g ++ r, true, x⟩ = .ok (s.add g.dim (g.ents.map fun e => (rank ents g.dim e : ℤ)) (-1) g.name, ⟨r, true, y⟩) := by
  have p31 : (2 : Nat) ^ 31 = 2147483648 := by norm_num
  have p63 : (2 : Nat) ^ 63 = 9223372036854775808 := by norm_num
  have hdl := dim_digits g.dim hd.1 hd.2
  have hnl : (digits g.ents.length).length ≤ 10 := digits_length _ 10 (by omega) (by omega)
  have hline : groupText ents g ++ r = (str "PHYSICAL_GROUP \"" ++ g.name ++ str "\" " ++ digits g.dim.toNat ++ [32] ++ digits g.ents.length) ++
      10 :: (rows8 (fun i => joinSp [rank ents g.dim (g.ents.getD i 0)]) g.ents.length ++ r) := by
    unfold groupText joinSp; simp
  have hno : (10 : Byte) ∉ str "PHYSICAL_GROUP \"" ++ g.name ++ str "\" " ++ digits g.dim.toNat ++ [32] ++ digits g.ents.length := by
    simp only [List.mem_append, not_or]
    exact ⟨⟨⟨⟨⟨by decide +kernel, hn⟩, by decide +kernel⟩, (digits_no _).2.1⟩, by decide⟩, (digits_no _).2.1⟩
  rw [hline]
  unfold readGroup
  rw [getline_line _ _ _ hno]
  dsimp only
  obtain ⟨line, hl⟩ : ∃ line, line = str "PHYSICAL_GROUP \"" ++ g.name ++ str "\" " ++ digits g.dim.toNat ++ [32] ++ digits g.ents.length := ⟨_, rfl⟩
  rw [← hl]
  have e0 : str "PHYSICAL_GROUP \"" = str "PHYSICAL_GROUP" ++ [32, 34] := by decide +kernel
  have e1 : str "\" " = [34, 32] := by decide +kernel
  have l0 : (str "PHYSICAL_GROUP").length = 14 := by decide +kernel
  have hp : (str "PHYSICAL_GROUP").isPrefixOf line = true := by
    rw [List.isPrefixOf_iff_prefix, hl, e0]
    simp only [List.append_assoc]
    exact List.prefix_append _ _
  have f1 : find line 34 0 = 15 := by
    have := find_at [] (str "PHYSICAL_GROUP" ++ [32]) (g.name ++ str "\" " ++ digits g.dim.toNat ++ [32] ++ digits g.ents.length) 34 (by decide +kernel)
    rw [List.length_append, l0] at this
    rw [hl, e0]
    simpa using this
  have h16 : add64 (find line 34 0) 1 = 16 := by rw [f1]; rfl
  have hP : (str "PHYSICAL_GROUP \"").length = 16 := by decide +kernel
  have f2 : find line 34 16 = 16 + g.name.length := by
    have := find_at (str "PHYSICAL_GROUP \"") g.name (32 :: (digits g.dim.toNat ++ [32] ++ digits g.ents.length)) 34 hq
    rw [hP] at this
    rw [hl, e1]
    simpa using this
  have s1 : substr line 16 (sub64 (16 + g.name.length) 16) = .ok g.name := by
    rw [sub64_len _ _ (by omega)]
    have := substr_at (str "PHYSICAL_GROUP \"") g.name (str "\" " ++ digits g.dim.toNat ++ [32] ++ digits g.ents.length) _ rfl
    rw [hP] at this
    rw [hl]
    simpa using this
  have s2 : substr line (16 + g.name.length + 2) 1 = .ok (digits g.dim.toNat) := by
    have := substr_at (str "PHYSICAL_GROUP \"" ++ g.name ++ str "\" ") (digits g.dim.toNat) ([32] ++ digits g.ents.length) _ rfl
    rw [hdl, List.length_append, List.length_append, hP] at this
    rw [hl, ← List.append_assoc] at *
    rw [e1] at this ⊢
    simpa [Nat.add_assoc] using this
  have s3 : substrFrom line (16 + g.name.length + 2 + 2) = .ok (digits g.ents.length) := by
    have := substrFrom_at (str "PHYSICAL_GROUP \"" ++ g.name ++ str "\" " ++ digits g.dim.toNat ++ [32]) (digits g.ents.length)
    rw [List.length_append, List.length_append, List.length_append, List.length_append, hP, hdl] at this
    rw [hl]
    rw [e1] at this ⊢
    simpa [Nat.add_assoc] using this
  rw [if_neg (by rw [hp]; simp), h16, f2, s1]
  have t1 : add64 (16 + g.name.length) 2 = 16 + g.name.length + 2 := add64_small _ _ (by omega)
  have t2 : add64 (16 + g.name.length + 2) 2 = 16 + g.name.length + 2 + 2 := add64_small _ _ (by omega)
  rw [t1, t2, s2, s3]
  have hdn : (g.dim.toNat : ℤ) = g.dim := Int.toNat_of_nonneg hd.1
  have hst := stoi_end g.dim.toNat (by omega)
  rw [hdn] at hst
  obtain ⟨y, hy⟩ := readItems_ok 1 (by omega) (by omega) (fun i => [rank ents g.dim (g.ents.getD i 0)]) g.ents.length (by
    intro i _
    refine ⟨rfl, fun m hm => ?_⟩
    rw [List.mem_singleton] at hm
    have := rank_le ents g.dim (g.ents.getD i 0)
    omega) r line
  refine ⟨y, ?_⟩
  show (stoi (digits g.dim.toNat)).bind _ = _
  rw [hst]
  show (stoul (digits g.ents.length)).bind _ = _
  rw [stoul_end _ hg]
  show (readItems 1 g.ents.length _).bind _ = _
  rw [hy, flatMap_getD g.ents 0 fun e => [rank ents g.dim e]]
  simp only [Res.bind]
  congr 3
  rw [← List.map_eq_flatMap, List.map_map]
  rfl

/-- What a list of groups is about, without the tags. -/
def content (l : List (Gmsh.Group Name)) : List (ℤ × Name × List ℤ) := l.map fun g => (g.dim, g.name, g.ents)

theorem add_end (s : Gm Name Col) (d : ℤ) (l : List ℤ) (n : Name) (hl : l ≠ []) (hd : ∀ g ∈ s.groups, g.dim ≤ d) :
    (s.add d l (-1) n).groups = s.groups ++ [⟨d, s.newTag d, n, Gm.entSet l⟩] := by
  have hb : ∀ g ∈ s.groups, Gm.before g ⟨d, s.newTag d, n, []⟩ = true := by
    intro g hg
    rw [Gmsh.before_iff]
    have h1 := (Gmsh.newTag_gt s d).2 g hg
    have h2 := hd g hg
    rcases lt_or_eq_of_le h2 with h | h
    · exact Or.inl h
    · exact Or.inr ⟨h, h1 h⟩
  unfold Gm.add Gm.addTagged
  rw [if_pos (show (-1 : ℤ) < 0 by norm_num), if_neg hl]
  dsimp only
  rw [List.takeWhile_eq_self_iff.2 hb, List.dropWhile_eq_nil_iff.2 hb]

theorem add_color (s : Gm Name Col) (d : ℤ) (l : List ℤ) (n : Name) : (s.add d l (-1) n).color = s.color := Gmsh.addTagged_color ..

/-- Groups that can be written. -/
structure GoodGroup (ents : List DimTag) (g : Gmsh.Group Name) : Prop where
  dim : 0 ≤ g.dim ∧ g.dim ≤ 3
  quote : (34 : Byte) ∉ g.name
  newline : (10 : Byte) ∉ g.name
  len : g.name.length < 2 ^ 31
  sorted : g.ents.Pairwise (· < ·)
  ne : g.ents ≠ []
  known : ∀ e ∈ g.ents, (g.dim, e) ∈ ents

theorem GoodGroup.count {ents : List DimTag} {g : Gmsh.Group Name} (h : GoodGroup ents g) : g.ents.length ≤ ents.length := by
  have hnd : (g.ents.map fun e => (g.dim, e)).Nodup := by
    refine List.Nodup.map_on ?_ (h.sorted.imp fun hab => ne_of_lt hab)
    intro a _ b _ hab
    exact (Prod.mk.inj hab).2
  have := (hnd.subperm fun x hx => by
    obtain ⟨e, he, rfl⟩ := List.mem_map.1 hx
    exact h.known e he : (g.ents.map fun e => (g.dim, e)).Subperm ents).length_le
  simpa using this

theorem GoodGroup.entSet {ents : List DimTag} {g : Gmsh.Group Name} (h : GoodGroup ents g) :
    Gm.entSet (g.ents.map fun e => (rank ents g.dim e : ℤ)) = g.ents.map fun e => (rank ents g.dim e : ℤ) := by
  refine Gmsh.entSet_sorted _ (List.pairwise_map.2 ?_)
  refine List.Pairwise.imp_of_mem ?_ h.sorted
  intro a b ha _ hab
  have := rank_lt ents g.dim a b (h.known a ha) hab
  omega

theorem readGroups_ok (ents : List DimTag) (he : ents.length + 1 < 2 ^ 31) (r : List Byte) : ∀ (gs : List (Gmsh.Group Name)) (s : Gm Name Col) (x : List Byte),
    (∀ g ∈ gs, GoodGroup ents g) → (gs.Pairwise fun g h => g.dim ≤ h.dim) → (∀ g ∈ s.groups, ∀ h ∈ gs, g.dim ≤ h.dim) → WF s →
    ∃ s' y, readGroups gs.length s ⟨gs.flatMap (groupText ents) ++ r, true, x⟩ = .ok (s', ⟨r, true, y⟩) ∧
      content s'.groups = content s.groups ++ (gs.map fun g => (g.dim, g.name, g.ents.map fun e => (rank ents g.dim e : ℤ))) ∧
      s'.color = s.color ∧ WF s' := by
  intro gs
  induction gs with
  | nil => intro s x _ _ _ hw; exact ⟨s, x, rfl, by simp, rfl, hw⟩
  | cons g gs ih =>
    intro s x hg hd hs hw
    have hg0 := hg g (by simp)
    rw [List.pairwise_cons] at hd
    have hne : (g.ents.map fun e => (rank ents g.dim e : ℤ)) ≠ [] := by simpa using hg0.ne
    have hend := add_end s g.dim (g.ents.map fun e => (rank ents g.dim e : ℤ)) g.name hne fun h hh => hs h hh g (by simp)
    have hset := hg0.entSet
    rw [hset] at hend
    have hnt := Gmsh.newTag_gt s g.dim
    obtain ⟨y, hy⟩ := readGroup_ok ents g s (gs.flatMap (groupText ents) ++ r) x hg0.dim hg0.quote hg0.newline hg0.len (by have := hg0.count; omega) he
    obtain ⟨s', y', h1, h2, h3, h4⟩ := ih (s.add g.dim (g.ents.map fun e => (rank ents g.dim e : ℤ)) (-1) g.name) y (fun h hh => hg h (by simp [hh])) hd.2 (by
      rw [hend]
      intro k hk h hh
      rcases List.mem_append.1 hk with hk | hk
      · exact hs k hk h (by simp [hh])
      · rw [List.mem_singleton] at hk
        subst hk
        exact hd.1 h hh) (by
      constructor
      · rw [hend, List.pairwise_append]
        refine ⟨hw.sorted, by simp, fun a ha b hb => ?_⟩
        rw [List.mem_singleton] at hb
        subst hb
        rcases lt_or_eq_of_le (hs a ha g (by simp)) with h | h
        · exact Or.inl h
        · exact Or.inr ⟨h, hnt.2 a ha h⟩
      · rw [hend]
        intro h hh
        rcases List.mem_append.1 hh with hh | hh
        · exact hw.pos h hh
        · rw [List.mem_singleton] at hh; subst hh; exact hnt.1
      · rw [hend]
        intro h hh
        rcases List.mem_append.1 hh with hh | hh
        · exact hw.ents h hh
        · rw [List.mem_singleton] at hh; subst hh
          refine ⟨?_, hne⟩
          dsimp only
          rw [← hset]
          exact Gmsh.sorted_entSet _)
    refine ⟨s', y', ?_, ?_, by rw [h3, add_color], h4⟩
    · rw [List.length_cons, readGroups, List.flatMap_cons, List.append_assoc, hy]
      exact h1
    · rw [h2, hend]
      simp [content]

/-! ## Colours -/

theorem insertColor_spec (c : Col) (x : DimTag) (L : List (Col × List DimTag)) (n : Nat) (P : Col → DimTag → Prop) (hP : P c x)
    (h1 : ∀ p ∈ L, ∀ y ∈ p.2, P p.1 y) (h2 : ∀ p ∈ L, p.2.length ≤ n) :
    (∀ p ∈ insertColor c x L, ∀ y ∈ p.2, P p.1 y) ∧ (∀ p ∈ insertColor c x L, p.2.length ≤ n + 1) ∧ (insertColor c x L).length ≤ L.length + 1 ∧
    (∃ p ∈ insertColor c x L, x ∈ p.2) ∧ (∀ y, (∃ p ∈ L, y ∈ p.2) → ∃ p ∈ insertColor c x L, y ∈ p.2) := by
  induction L with
  | nil =>
    refine ⟨fun p hp y hy => ?_, fun p hp => ?_, by simp [insertColor], ⟨(c, [x]), by simp [insertColor], by simp⟩, by simp⟩
    · rw [insertColor, List.mem_singleton] at hp
      subst hp
      rw [List.mem_singleton] at hy
      rw [hy]; exact hP
    · rw [insertColor, List.mem_singleton] at hp
      subst hp
      simp
  | cons q L ih =>
    obtain ⟨c', l⟩ := q
    obtain ⟨i1, i2, i3, i4, i5⟩ := ih (fun p hp => h1 p (by simp [hp])) (fun p hp => h2 p (by simp [hp]))
    have hl := h2 (c', l) (by simp)
    have hl1 := h1 (c', l) (by simp)
    dsimp only at hl hl1
    rw [insertColor]
    split_ifs with hc
    · refine ⟨?_, ?_, by simp, ⟨(c', l ++ [x]), by simp, by simp⟩, ?_⟩
      · intro p hp y hy
        rcases List.mem_cons.1 hp with rfl | hp
        · rcases List.mem_append.1 hy with hy | hy
          · exact hl1 y hy
          · rw [List.mem_singleton] at hy; rw [hy, hc]; exact hP
        · exact h1 p (by simp [hp]) y hy
      · intro p hp
        rcases List.mem_cons.1 hp with rfl | hp
        · simp [hl]
        · have := h2 p (by simp [hp]); omega
      · rintro y ⟨p, hp, hy⟩
        rcases List.mem_cons.1 hp with rfl | hp
        · exact ⟨(c', l ++ [x]), by simp, by simp [hy]⟩
        · exact ⟨p, by simp [hp], hy⟩
    · refine ⟨?_, ?_, by simpa using i3, ?_, ?_⟩
      · intro p hp y hy
        rcases List.mem_cons.1 hp with rfl | hp
        · exact hl1 y hy
        · exact i1 p hp y hy
      · intro p hp
        rcases List.mem_cons.1 hp with rfl | hp
        · dsimp only; omega
        · exact i2 p hp
      · obtain ⟨p, hp, hx⟩ := i4
        exact ⟨p, by simp [hp], hx⟩
      · rintro y ⟨p, hp, hy⟩
        rcases List.mem_cons.1 hp with rfl | hp
        · exact ⟨_, List.mem_cons_self, hy⟩
        · obtain ⟨p', hp', hy'⟩ := i5 y ⟨p, hp, hy⟩
          exact ⟨p', by simp [hp'], hy'⟩

/-- Which entities have their colour stored. -/
def Stored (color : DimTag → Col) (x : DimTag) : Prop := 2 ≤ x.1 ∧ color x ≠ (0, 0, 255, 0)

theorem byColor_spec (color : DimTag → Col) (ents : List DimTag) :
    (∀ p ∈ byColor color ents, ∀ y ∈ p.2, p.1 = toColor (color y) ∧ Stored color y ∧ y ∈ ents) ∧
    (∀ p ∈ byColor color ents, p.2.length ≤ ents.length) ∧ (byColor color ents).length ≤ ents.length ∧
    (∀ y ∈ ents, Stored color y → ∃ p ∈ byColor color ents, y ∈ p.2) := by
  induction ents using List.reverseRecOn with
  | nil => simp [byColor]
  | append_singleton l x ih =>
    obtain ⟨i1, i2, i3, i4⟩ := ih
    have e : byColor color (l ++ [x]) = if x.1 < 2 then byColor color l else if color x = (0, 0, 255, 0) then byColor color l else
        insertColor (toColor (color x)) x (byColor color l) := by
      unfold byColor
      rw [List.foldl_append]
      rfl
    rw [e, List.length_append, List.length_singleton]
    have keep : ¬ Stored color x →
        (∀ p ∈ byColor color l, ∀ y ∈ p.2, p.1 = toColor (color y) ∧ Stored color y ∧ y ∈ l ++ [x]) ∧
        (∀ p ∈ byColor color l, p.2.length ≤ l.length + 1) ∧ (byColor color l).length ≤ l.length + 1 ∧
        (∀ y ∈ l ++ [x], Stored color y → ∃ p ∈ byColor color l, y ∈ p.2) := by
      intro hx
      refine ⟨fun p hp y hy => ?_, fun p hp => (i2 p hp).trans (by omega), by omega, fun y hy hs => ?_⟩
      · obtain ⟨a, b, c⟩ := i1 p hp y hy
        exact ⟨a, b, by simp [c]⟩
      · rcases List.mem_append.1 hy with hy | hy
        · exact i4 y hy hs
        · rw [List.mem_singleton] at hy; subst hy; exact absurd hs hx
    split_ifs with hd hc
    · exact keep fun h => by have := h.1; omega
    · exact keep fun h => h.2 hc
    · obtain ⟨j1, j2, j3, j4, j5⟩ := insertColor_spec (toColor (color x)) x (byColor color l) l.length
        (fun c y => c = toColor (color y) ∧ Stored color y ∧ y ∈ l ++ [x]) ⟨rfl, ⟨by omega, hc⟩, by simp⟩ (fun p hp y hy => by
          obtain ⟨a, b, c⟩ := i1 p hp y hy
          exact ⟨a, b, by simp [c]⟩) i2
      refine ⟨j1, j2, by omega, fun y hy hs => ?_⟩
      rcases List.mem_append.1 hy with hy | hy
      · exact j5 y (i4 y hy hs)
      · rw [List.mem_singleton] at hy; subst hy; exact j4

theorem byColor_ne (color : DimTag → Col) (ents : List DimTag) : ∀ p ∈ byColor color ents, p.2 ≠ [] := by
  have key : ∀ (c : Col) (x : DimTag) (L : List (Col × List DimTag)), (∀ p ∈ L, p.2 ≠ []) → ∀ p ∈ insertColor c x L, p.2 ≠ [] := by
    intro c x L
    induction L with
    | nil => intro _; simp [insertColor]
    | cons q L ih =>
      intro h p hp
      rw [insertColor] at hp
      split_ifs at hp with hc
      · rcases List.mem_cons.1 hp with rfl | hp
        · simp
        · exact h p (by simp [hp])
      · rcases List.mem_cons.1 hp with rfl | hp
        · exact h _ List.mem_cons_self
        · exact ih (fun p hp => h p (by simp [hp])) p hp
  have : ∀ (l : List DimTag) (acc : List (Col × List DimTag)), (∀ p ∈ acc, p.2 ≠ []) → ∀ p ∈ l.foldl (fun acc x =>
      if x.1 < 2 then acc else if color x = (0, 0, 255, 0) then acc else insertColor (toColor (color x)) x acc) acc, p.2 ≠ [] := by
    intro l
    induction l with
    | nil => intro acc h; exact h
    | cons x l ih =>
      intro acc h
      rw [List.foldl_cons]
      refine ih _ ?_
      split_ifs
      · exact h
      · exact h
      · exact key _ _ _ h
  exact this ents [] (by simp)

theorem field_ok (line pre : List Byte) (n : Nat) (r : List Byte) (hl : line = pre ++ digits n ++ 32 :: r) (hlen : line.length < 2 ^ 63) :
    substr line pre.length (sub64 (find line 32 pre.length) pre.length) = .ok (digits n) ∧
    add64 (find line 32 pre.length) 1 = (pre ++ digits n ++ [32]).length := by
  have hf : find line 32 pre.length = pre.length + (digits n).length := by rw [hl]; exact find_at _ _ _ _ (digits_no n).1
  have hlt : pre.length + (digits n).length < line.length := by rw [hl]; simp
  rw [hf, sub64_len _ _ (by omega), add64_small _ _ (by omega)]
  refine ⟨?_, by simp [Nat.add_assoc]⟩
  rw [hl]
  exact substr_at _ _ _ _ rfl

theorem pairs_flatMap (l : List DimTag) (f : DimTag → Nat) (g : DimTag → Nat) :
    pairs ((l.flatMap fun x => [f x, g x]).map fun n : Nat => (n : ℤ)) = l.map fun x => ((f x : ℤ), (g x : ℤ)) := by
  induction l with
  | nil => rfl
  | cons x l ih => simp only [List.flatMap_cons, List.map_append, List.map_cons, List.map_nil, List.cons_append, List.nil_append, pairs, ih]

/-- A colour that `Color` stores unchanged. -/
def Byte4 (c : Col) : Prop := (0 ≤ c.1 ∧ c.1 < 256) ∧ (0 ≤ c.2.1 ∧ c.2.1 < 256) ∧ (0 ≤ c.2.2.1 ∧ c.2.2.1 < 256) ∧ (0 ≤ c.2.2.2 ∧ c.2.2.2 < 256)

theorem toColor_eq (c : Col) (h : Byte4 c) : toColor c = c := by
  obtain ⟨r, g, b, a⟩ := c
  obtain ⟨h1, h2, h3, h4⟩ := h
  dsimp only at h1 h2 h3 h4
  simp only [toColor, Prod.mk.injEq]
  omega

theorem toColor_byte (c : Col) : Byte4 (toColor c) := by
  unfold Byte4 toColor
  dsimp only
  omega

theorem readColor_ok (ents : List DimTag) (he : ents.length + 1 < 2 ^ 31) (c : Col) (hc : Byte4 c) (l : List DimTag) (hl : l.length < 2 ^ 31)
    (hd : ∀ x ∈ l, 0 ≤ x.1 ∧ x.1 ≤ 3) (s : Gm Name Col) (r x : List Byte) :
    ∃ y, readColor s ⟨colorText ents c l ++ r, true, x⟩ =
      .ok (s.setColor (fun x => [x]) (l.map fun x => (x.1, (rank ents x.1 x.2 : ℤ))) c, ⟨r, true, y⟩) := by
  have p31 : (2 : Nat) ^ 31 = 2147483648 := by norm_num
  have p63 : (2 : Nat) ^ 63 = 9223372036854775808 := by norm_num
  obtain ⟨c1, c2, c3, c4⟩ := c
  obtain ⟨h1, h2, h3, h4⟩ := hc
  dsimp only at h1 h2 h3 h4
  have d1 : (digits c1.toNat).length ≤ 10 := digits_length _ 10 (by omega) (by omega)
  have d2 : (digits c2.toNat).length ≤ 10 := digits_length _ 10 (by omega) (by omega)
  have d3 : (digits c3.toNat).length ≤ 10 := digits_length _ 10 (by omega) (by omega)
  have d4 : (digits c4.toNat).length ≤ 10 := digits_length _ 10 (by omega) (by omega)
  have d5 : (digits l.length).length ≤ 10 := digits_length _ 10 (by omega) (by omega)
  obtain ⟨line, hline⟩ : ∃ line, line = str "ENTITY_COLOR " ++ digits c1.toNat ++ [32] ++ digits c2.toNat ++ [32] ++ digits c3.toNat ++ [32] ++
    digits c4.toNat ++ [32] ++ digits l.length := ⟨_, rfl⟩
  have l13 : (str "ENTITY_COLOR ").length = 13 := by decide +kernel
  have hlen : line.length < 2 ^ 63 := by
    rw [hline]
    simp only [List.length_append, l13, List.length_singleton]
    omega
  have hno : (10 : Byte) ∉ line := by
    rw [hline]
    simp only [List.mem_append, not_or]
    exact ⟨⟨⟨⟨⟨⟨⟨⟨⟨by decide +kernel, (digits_no _).2.1⟩, by decide⟩, (digits_no _).2.1⟩, by decide⟩, (digits_no _).2.1⟩, by decide⟩, (digits_no _).2.1⟩, by decide⟩, (digits_no _).2.1⟩
  have htext : colorText ents (c1, c2, c3, c4) l ++ r = line ++ 10 :: (rows8 (fun i => joinSp [(l.getD i (0, 0)).1.toNat,
      rank ents (l.getD i (0, 0)).1 (l.getD i (0, 0)).2]) l.length ++ r) := by
    rw [hline]; unfold colorText; simp [joinSp]
  have hp : (str "ENTITY_COLOR").isPrefixOf line = true := by
    have : str "ENTITY_COLOR " = str "ENTITY_COLOR" ++ [32] := by decide +kernel
    rw [List.isPrefixOf_iff_prefix, hline, this]
    simp only [List.append_assoc]
    exact List.prefix_append _ _
  obtain ⟨q1, r1⟩ := field_ok line (str "ENTITY_COLOR ") c1.toNat (digits c2.toNat ++ [32] ++ digits c3.toNat ++ [32] ++
    digits c4.toNat ++ [32] ++ digits l.length) (by rw [hline]; simp) hlen
  obtain ⟨q2, r2⟩ := field_ok line (str "ENTITY_COLOR " ++ digits c1.toNat ++ [32]) c2.toNat (digits c3.toNat ++ [32] ++
    digits c4.toNat ++ [32] ++ digits l.length) (by rw [hline]; simp) hlen
  obtain ⟨q3, r3⟩ := field_ok line (str "ENTITY_COLOR " ++ digits c1.toNat ++ [32] ++ digits c2.toNat ++ [32]) c3.toNat (
    digits c4.toNat ++ [32] ++ digits l.length) (by rw [hline]; simp) hlen
  obtain ⟨q4, r4⟩ := field_ok line (str "ENTITY_COLOR " ++ digits c1.toNat ++ [32] ++ digits c2.toNat ++ [32] ++ digits c3.toNat ++ [32]) c4.toNat (
    digits l.length) (by rw [hline]; simp) hlen
  have q5 : substrFrom line (str "ENTITY_COLOR " ++ digits c1.toNat ++ [32] ++ digits c2.toNat ++ [32] ++ digits c3.toNat ++ [32] ++
    digits c4.toNat ++ [32]).length = .ok (digits l.length) := by
    rw [hline]; exact substrFrom_at _ _
  rw [l13] at q1 r1
  have n1 := stoi_end c1.toNat (by omega)
  have n2 := stoi_end c2.toNat (by omega)
  have n3 := stoi_end c3.toNat (by omega)
  have n4 := stoi_end c4.toNat (by omega)
  rw [Int.toNat_of_nonneg h1.1] at n1
  rw [Int.toNat_of_nonneg h2.1] at n2
  rw [Int.toNat_of_nonneg h3.1] at n3
  rw [Int.toNat_of_nonneg h4.1] at n4
  obtain ⟨y, hy⟩ := readItems_ok 2 (by omega) (by omega) (fun i => [(l.getD i (0, 0)).1.toNat, rank ents (l.getD i (0, 0)).1 (l.getD i (0, 0)).2]) l.length (by
    intro i hi
    refine ⟨rfl, fun m hm => ?_⟩
    have hmem : l.getD i (0, 0) ∈ l := by simp [List.getD, hi]
    have hdd := hd _ hmem
    have := rank_le ents (l.getD i (0, 0)).1 (l.getD i (0, 0)).2
    simp only [List.mem_cons, List.not_mem_nil, or_false] at hm
    rcases hm with hm | hm <;> omega) r line
  refine ⟨y, ?_⟩
  rw [htext]
  unfold readColor
  rw [getline_line _ _ _ hno]
  dsimp only
  rw [if_neg (by rw [hp]; simp), r1, r2, r3, r4, q1, q2, q3, q4, q5]
  show (stoi (digits c1.toNat)).bind _ = _
  rw [n1]
  show (stoi (digits c2.toNat)).bind _ = _
  rw [n2]
  show (stoi (digits c3.toNat)).bind _ = _
  rw [n3]
  show (stoi (digits c4.toNat)).bind _ = _
  rw [n4]
  show (stoul (digits l.length)).bind _ = _
  rw [stoul_end _ hl]
  show (readItems 2 l.length _).bind _ = _
  rw [hy, flatMap_getD l (0, 0) fun x => [x.1.toNat, rank ents x.1 x.2]]
  simp only [Res.bind]
  rw [pairs_flatMap]
  congr 3
  refine List.map_congr_left fun x hx => ?_
  rw [Int.toNat_of_nonneg (hd x hx).1]

theorem readColors_ok (ents : List DimTag) (he : ents.length + 1 < 2 ^ 31) (r : List Byte) : ∀ (L : List (Col × List DimTag)) (s : Gm Name Col) (x : List Byte),
    (∀ p ∈ L, Byte4 p.1 ∧ p.2.length < 2 ^ 31 ∧ ∀ x ∈ p.2, 0 ≤ x.1 ∧ x.1 ≤ 3) →
    ∃ s' y, readColors L.length s ⟨(L.flatMap fun p => colorText ents p.1 p.2) ++ r, true, x⟩ = .ok (s', ⟨r, true, y⟩) ∧ s'.groups = s.groups ∧
      ∀ z c, (∀ p ∈ L, z ∈ p.2.map (fun x => (x.1, (rank ents x.1 x.2 : ℤ))) → p.1 = c) →
        ((∃ p ∈ L, z ∈ p.2.map fun x => (x.1, (rank ents x.1 x.2 : ℤ))) → s'.color z = c) ∧
        ((¬ ∃ p ∈ L, z ∈ p.2.map fun x => (x.1, (rank ents x.1 x.2 : ℤ))) → s'.color z = s.color z) := by
  intro L
  induction L with
  | nil => intro s x _; exact ⟨s, x, rfl, rfl, by simp⟩
  | cons q L ih =>
    intro s x h
    obtain ⟨a1, a2, a3⟩ := h q (by simp)
    obtain ⟨y, hy⟩ := readColor_ok ents he q.1 a1 q.2 a2 a3 s ((L.flatMap fun p => colorText ents p.1 p.2) ++ r) x
    obtain ⟨s', y', h1, h2, h3⟩ := ih (s.setColor (fun x => [x]) (q.2.map fun x => (x.1, (rank ents x.1 x.2 : ℤ))) q.1) y fun p hp => h p (by simp [hp])
    refine ⟨s', y', ?_, h2, ?_⟩
    · rw [List.length_cons, readColors, List.flatMap_cons, List.append_assoc, hy]
      exact h1
    · intro z c hz
      obtain ⟨k1, k2⟩ := h3 z c fun p hp => hz p (by simp [hp])
      have hset : (s.setColor (fun x => [x]) (q.2.map fun x => (x.1, (rank ents x.1 x.2 : ℤ))) q.1).color z =
          if z ∈ q.2.map (fun x => (x.1, (rank ents x.1 x.2 : ℤ))) then q.1 else s.color z := by
        unfold Gm.setColor
        dsimp only
        rw [List.flatMap_singleton']
      by_cases hL : ∃ p ∈ L, z ∈ p.2.map fun x => (x.1, (rank ents x.1 x.2 : ℤ))
      · refine ⟨fun _ => k1 hL, fun hn => absurd ?_ hn⟩
        obtain ⟨p, hp, hz'⟩ := hL
        exact ⟨p, by simp [hp], hz'⟩
      · have hk := k2 hL
        rw [hset] at hk
        constructor
        · rintro ⟨p, hp, hz'⟩
          rcases List.mem_cons.1 hp with rfl | hp
          · rw [hk, if_pos hz']
            exact hz p (by simp) hz'
          · exact absurd ⟨p, hp, hz'⟩ hL
        · intro hn
          rw [hk, if_neg fun hz' => hn ⟨q, by simp, hz'⟩]

end Verif.InfoL
