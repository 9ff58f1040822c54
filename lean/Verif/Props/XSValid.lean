import Mathlib.Data.Rat.Init
import Verif.Lemmas.XSValid
import Verif.Props.Stats

/-!
# C101: what a validated cross section is worth, and the built-in C5G7 data
-/

namespace Verif.XSValid

open Verif.Phys

variable {K : Type}

/-- One value for each group, and a square matrix. -/
def Sized (x : Raw K) : Prop :=
  0 < x.ng ∧ (x.a.length : Int) = x.ng ∧ (x.f.length : Int) = x.ng ∧ (x.nuf.length : Int) = x.ng ∧
    (x.tr.length : Int) = x.ng ∧ (x.s.length : Int) = x.ng ∧ x.rows = x.ng ∧ x.cols = x.ng

/-- The data of the matrix fit its extents. -/
def Filled (x : Raw K) : Prop := (x.ss.length : Int) = x.rows * x.cols

/-- No value is negative, and only what is fissile fissions. -/
def Physical [Zero K] [LinearOrder K] (x : Raw K) : Prop :=
  (∀ v ∈ x.a ++ x.f ++ x.nuf ++ x.tr ++ x.s ++ x.ss, 0 ≤ v) ∧
    (x.fissile = false → ∀ v ∈ x.f ++ x.nuf, v = 0)

/-- No fission cross section is positive. -/
def NoFission [Zero K] [LinearOrder K] (x : Raw K) : Prop := ∀ v ∈ x.f ++ x.nuf, v ≤ 0

/-- Entry `g` of a vector; zero where there is none. -/
def val [Zero K] (l : List K) (g : Nat) : K := (l[g]?).getD 0

theorem sizes_ok {x : Raw K} :
    (∀ s ∈ sizeSteps x, ∃ es, s = some es ∧ ∀ e ∈ es, e.error = false) ↔ Sized x := by
  unfold sizeSteps Sized
  simp only [List.mem_cons, List.not_mem_nil, or_false, forall_eq_or_imp, forall_eq, Option.some.injEq,
    exists_eq_left', err_ok]
  simp only [not_le, ne_eq, not_not, not_or]

theorem sizes_nil {x : Raw K} : (∀ s ∈ sizeSteps x, s = some []) ↔ Sized x := by
  unfold sizeSteps Sized
  simp only [List.mem_cons, List.not_mem_nil, or_false, forall_eq_or_imp, forall_eq, Option.some.injEq, err_nil]
  simp only [not_le, ne_eq, not_not, not_or]

theorem sizes_some (x : Raw K) : ∀ s ∈ sizeSteps x, ∃ es, s = some es := by
  unfold sizeSteps
  simp

theorem Sized.ss {x : Raw K} (h : Sized x) (hf : Filled x) : (x.ss.length : Int) = x.ng * x.ng := by
  obtain ⟨-, -, -, -, -, -, h1, h2⟩ := h
  rw [hf, h1, h2]

section verdict

variable [Zero K] [LinearOrder K]

/-- **C101 (the verdict).** When errors end the program, a cross section comes back from `validate` exactly when there
is at least one group, every vector has one value for each group, the matrix is square, and, for a microscopic one, no
nuclide which is not fissile has a positive fission cross section. -/
theorem C101_returns (x : Raw K) (hf : Filled x) :
    (∃ log, validate true x = .returns log) ↔
      Sized x ∧ (x.macro_ = true ∨ x.fissile = true ∨ NoFission x) := by
  rw [validate, exec_true_ok]
  simp only [List.mem_append, or_imp, forall_and]
  rw [sizes_ok]
  refine and_congr_right fun hs => ?_
  have hss := hs.ss hf
  obtain ⟨h0, ha, hff, hn, ht, hsc, hr, hc⟩ := hs
  unfold valueSteps
  rcases hm : x.macro_ with _ | _
  · simp only [Bool.false_eq_true, if_false, false_or, List.mem_append, or_imp, forall_and]
    rw [forall_each hff, forall_each hn]
    simp only [Option.some.injEq, exists_eq_left', err_ok]
    rw [forall_index (p := fun v => ¬(0 < v ∧ (!x.fissile) = true)),
      forall_index (p := fun v => ¬(0 < v ∧ (!x.fissile) = true))]
    unfold NoFission
    rcases x.fissile with _ | _ <;> simp [or_imp, forall_and]
  · simp only [if_true, true_or, iff_true, List.mem_append, or_imp, forall_and]
    rw [forall_each ha, forall_each hff, forall_each hn, forall_each ht, forall_each hsc, forall_each hss]
    refine ⟨⟨⟨⟨⟨?_, ?_⟩, ?_⟩, ?_⟩, ?_⟩, ?_⟩ <;> intro i hi <;> refine ⟨_, rfl, ?_⟩ <;> intro e he
    · exact warn_ok _ he
    · rcases List.mem_append.1 he with he | he <;> exact warn_ok _ he
    · rcases List.mem_append.1 he with he | he <;> exact warn_ok _ he
    · exact warn_ok _ he
    · exact warn_ok _ he
    · exact warn_ok _ he

/-- **C101 (without a word).** `validate` says nothing exactly when the sizes are right and, for a macroscopic cross
section, no value is negative and nothing fissions in a material which is not fissile; for a microscopic one the sign of
the values is not looked at. -/
theorem C101_silent (x : Raw K) (hf : Filled x) :
    validate true x = .returns [] ↔
      Sized x ∧ (x.macro_ = true → Physical x) ∧ (x.macro_ = false → x.fissile = false → NoFission x) := by
  rw [validate, exec_true_nil]
  simp only [List.mem_append, or_imp, forall_and]
  rw [sizes_nil]
  refine and_congr_right fun hs => ?_
  have hss := hs.ss hf
  obtain ⟨h0, ha, hff, hn, ht, hsc, hr, hc⟩ := hs
  unfold valueSteps
  rcases hm : x.macro_ with _ | _
  · simp only [Bool.false_eq_true, if_false, false_imp_iff, true_imp_iff, true_and, List.mem_append, or_imp,
      forall_and]
    rw [forall_each hff, forall_each hn]
    simp only [Option.some.injEq, err_nil]
    rw [forall_index (p := fun v => ¬(0 < v ∧ (!x.fissile) = true)),
      forall_index (p := fun v => ¬(0 < v ∧ (!x.fissile) = true))]
    unfold NoFission
    rcases x.fissile with _ | _ <;> simp [or_imp, forall_and]
  · simp only [if_true, true_imp_iff, List.mem_append, or_imp, forall_and, reduceCtorEq, false_imp_iff, and_true]
    rw [forall_each ha, forall_each hff, forall_each hn, forall_each ht, forall_each hsc, forall_each hss]
    simp only [Option.some.injEq, List.append_eq_nil_iff, warn_nil]
    rw [forall_index (p := fun v => ¬v < 0), forall_index (p := fun v => ¬v < 0 ∧ ¬(0 < v ∧ (!x.fissile) = true)),
      forall_index (p := fun v => ¬v < 0 ∧ ¬(0 < v ∧ (!x.fissile) = true)), forall_index (p := fun v => ¬v < 0),
      forall_index (p := fun v => ¬v < 0), forall_index (p := fun v => ¬v < 0)]
    unfold Physical
    simp only [List.mem_append, or_imp, forall_and, not_lt]
    rcases x.fissile with _ | _
    · simp only [Bool.not_false, and_true, not_lt, true_imp_iff]
      constructor
      · rintro ⟨⟨⟨⟨⟨h1, h2, h3⟩, h4, h5⟩, h6⟩, h7⟩, h8⟩
        exact ⟨⟨⟨⟨⟨⟨h1, h2⟩, h4⟩, h6⟩, h7⟩, h8⟩, fun v hv => le_antisymm (h3 v hv) (h2 v hv),
          fun v hv => le_antisymm (h5 v hv) (h4 v hv)⟩
      · rintro ⟨⟨⟨⟨⟨⟨h1, h2⟩, h4⟩, h6⟩, h7⟩, h8⟩, h9, h10⟩
        exact ⟨⟨⟨⟨⟨h1, h2, fun v hv => (h9 v hv).le⟩, h4, fun v hv => (h10 v hv).le⟩, h6⟩, h7⟩, h8⟩
    · simp

/-- **C101 (the warnings).** Each warning about a macroscopic cross section of the right size names a value which is as
it says, and each such value has its warning. -/
theorem C101_warnings (x : Raw K) (hf : Filled x) (hs : Sized x) (hm : x.macro_ = true) :
    ∃ log, validate true x = .returns log ∧ (∀ e ∈ log, e.error = false) ∧
      ∀ i : Nat,
        (⟨false, .negA i⟩ ∈ log ↔ ∃ v, x.a[i]? = some v ∧ v < 0) ∧
        (⟨false, .negF i⟩ ∈ log ↔ ∃ v, x.f[i]? = some v ∧ v < 0) ∧
        (⟨false, .fisF i⟩ ∈ log ↔ ∃ v, x.f[i]? = some v ∧ 0 < v ∧ x.fissile = false) ∧
        (⟨false, .negNuf i⟩ ∈ log ↔ ∃ v, x.nuf[i]? = some v ∧ v < 0) ∧
        (⟨false, .fisNuf i⟩ ∈ log ↔ ∃ v, x.nuf[i]? = some v ∧ 0 < v ∧ x.fissile = false) ∧
        (⟨false, .negTr i⟩ ∈ log ↔ ∃ v, x.tr[i]? = some v ∧ v < 0) ∧
        (⟨false, .negS i⟩ ∈ log ↔ ∃ v, x.s[i]? = some v ∧ v < 0) ∧
        (⟨false, .negSS i⟩ ∈ log ↔ ∃ v, x.ss[i]? = some v ∧ v < 0) := by
  obtain ⟨log, hlog⟩ := (C101_returns x hf).2 ⟨hs, Or.inl hm⟩
  refine ⟨log, hlog, ?_⟩
  rw [validate] at hlog
  obtain ⟨ls, h1, h2, h3⟩ := exec_true.1 hlog
  refine ⟨fun e he => ?_, ?_⟩
  · rw [h2] at he
    obtain ⟨es, h4, h5⟩ := List.mem_flatten.1 he
    exact h3 es h4 e h5
  have hmem : ∀ e, e ∈ log ↔ ∃ es, some es ∈ sizeSteps x ++ valueSteps x ∧ e ∈ es := by
    intro e
    rw [h2, List.mem_flatten, h1]
    simp
  have hnil := sizes_nil.2 hs
  have hmem' : ∀ e, e ∈ log ↔ ∃ es, some es ∈ valueSteps x ∧ e ∈ es := by
    intro e
    rw [hmem]
    constructor
    · rintro ⟨es, h4, h5⟩
      rcases List.mem_append.1 h4 with h4 | h4
      · have := hnil _ h4
        simp only [Option.some.injEq] at this
        subst this; simp at h5
      · exact ⟨es, h4, h5⟩
    · rintro ⟨es, h4, h5⟩; exact ⟨es, List.mem_append.2 (Or.inr h4), h5⟩
  have hss := hs.ss hf
  obtain ⟨h0, ha, hff, hn, ht, hsc, hr, hc⟩ := hs
  have hval : ∀ e, e ∈ log ↔
      (∃ i, ∃ hi : i < x.a.length, x.a[i] < 0 ∧ e = ⟨false, .negA i⟩) ∨
      (∃ i, ∃ hi : i < x.f.length, (x.f[i] < 0 ∧ e = ⟨false, .negF i⟩) ∨
        ((0 < x.f[i] ∧ x.fissile = false) ∧ e = ⟨false, .fisF i⟩)) ∨
      (∃ i, ∃ hi : i < x.nuf.length, (x.nuf[i] < 0 ∧ e = ⟨false, .negNuf i⟩) ∨
        ((0 < x.nuf[i] ∧ x.fissile = false) ∧ e = ⟨false, .fisNuf i⟩)) ∨
      (∃ i, ∃ hi : i < x.tr.length, x.tr[i] < 0 ∧ e = ⟨false, .negTr i⟩) ∨
      (∃ i, ∃ hi : i < x.s.length, x.s[i] < 0 ∧ e = ⟨false, .negS i⟩) ∨
      (∃ i, ∃ hi : i < x.ss.length, x.ss[i] < 0 ∧ e = ⟨false, .negSS i⟩) := by
    intro e
    rw [hmem']
    unfold valueSteps
    rw [hm, if_pos rfl]
    simp only [List.mem_append, mem_each ha, mem_each hff, mem_each hn, mem_each ht, mem_each hsc, mem_each hss,
      Option.some.injEq, or_assoc]
    constructor
    · rintro ⟨es, (⟨i, hi, rfl⟩ | ⟨i, hi, rfl⟩ | ⟨i, hi, rfl⟩ | ⟨i, hi, rfl⟩ | ⟨i, hi, rfl⟩ | ⟨i, hi, rfl⟩), he⟩ <;>
        simp only [List.mem_append, mem_warn, Bool.not_eq_true'] at he
      · exact Or.inl ⟨i, hi, he⟩
      · exact Or.inr (Or.inl ⟨i, hi, he⟩)
      · exact Or.inr (Or.inr (Or.inl ⟨i, hi, he⟩))
      · exact Or.inr (Or.inr (Or.inr (Or.inl ⟨i, hi, he⟩)))
      · exact Or.inr (Or.inr (Or.inr (Or.inr (Or.inl ⟨i, hi, he⟩))))
      · exact Or.inr (Or.inr (Or.inr (Or.inr (Or.inr ⟨i, hi, he⟩))))
    · rintro (⟨i, hi, he⟩ | ⟨i, hi, he⟩ | ⟨i, hi, he⟩ | ⟨i, hi, he⟩ | ⟨i, hi, he⟩ | ⟨i, hi, he⟩)
      · exact ⟨_, Or.inl ⟨i, hi, rfl⟩, by simpa only [mem_warn] using he⟩
      · exact ⟨_, Or.inr (Or.inl ⟨i, hi, rfl⟩), by simpa only [List.mem_append, mem_warn, Bool.not_eq_true'] using he⟩
      · exact ⟨_, Or.inr (Or.inr (Or.inl ⟨i, hi, rfl⟩)),
          by simpa only [List.mem_append, mem_warn, Bool.not_eq_true'] using he⟩
      · exact ⟨_, Or.inr (Or.inr (Or.inr (Or.inl ⟨i, hi, rfl⟩))), by simpa only [mem_warn] using he⟩
      · exact ⟨_, Or.inr (Or.inr (Or.inr (Or.inr (Or.inl ⟨i, hi, rfl⟩)))), by simpa only [mem_warn] using he⟩
      · exact ⟨_, Or.inr (Or.inr (Or.inr (Or.inr (Or.inr ⟨i, hi, rfl⟩)))), by simpa only [mem_warn] using he⟩
  have hget : ∀ (l : List K) (i : Nat) (p : K → Prop),
      (∃ v, l[i]? = some v ∧ p v) ↔ ∃ hi : i < l.length, p l[i] := by
    intro l i p
    constructor
    · rintro ⟨v, h, hv⟩
      obtain ⟨hi, rfl⟩ := List.getElem?_eq_some_iff.1 h
      exact ⟨hi, hv⟩
    · rintro ⟨hi, hv⟩; exact ⟨_, List.getElem?_eq_getElem hi, hv⟩
  intro i
  refine ⟨?_, ?_, ?_, ?_, ?_, ?_, ?_, ?_⟩ <;> rw [hval] <;> simp only [hget] <;>
    simp [eq_comm (a := i)]

omit [Zero K] [LinearOrder K] in
theorem all_each {n : Int} {v : List K} (h : (v.length : Int) = n) (g : Nat → K → List Entry) :
    ∀ s ∈ each n v g, ∃ es, s = some es := by
  intro s hs
  obtain ⟨i, hi, rfl⟩ := (mem_each h g).1 hs
  exact ⟨_, rfl⟩

/-- **C101 (no read outside).** When errors end the program, `validate` reads no vector beyond its end, however wrong
the sizes are, as long as the data of the matrix fit its extents. -/
theorem C101_defined_partial (x : Raw K) (hf : Filled x) : validate true x ≠ .undef := by
  refine exec_defined (sizes_some x) fun h => ?_
  have hs := sizes_ok.1 h
  have hss := hs.ss hf
  obtain ⟨h0, ha, hff, hn, ht, hsc, hr, hc⟩ := hs
  unfold valueSteps
  split_ifs
  · simp only [List.mem_append, or_imp, forall_and]
    exact ⟨⟨⟨⟨⟨all_each ha _, all_each hff _⟩, all_each hn _⟩, all_each ht _⟩, all_each hsc _⟩, all_each hss _⟩
  · simp only [List.mem_append, or_imp, forall_and]
    exact ⟨all_each hff _, all_each hn _⟩

/-- One group, and no absorption cross section. -/
def short : Raw ℚ := ⟨true, false, 1, [], [0], [0], [1], [1], 1, 1, [1]⟩

/-- One group, and a matrix whose data were set through `asVector` to nothing. -/
def bare : Raw ℚ := ⟨true, false, 1, [1], [0], [0], [1], [1], 1, 1, []⟩

/-- **C101 (fails).** When the user lets the program run on after an error, the report of a vector which is too short is
followed by reads beyond its end. -/
theorem C101_exit_fails :
    Filled short ∧ validate false short = .undef ∧ validate true short = .ends [⟨true, .sizeA⟩] := by
  unfold Filled
  decide +kernel

/-- **C101 (fails).** The data of the matrix are not compared with its extents: a matrix which was given too few values
through `asVector` passes the checks of the sizes and is then read beyond its end. -/
theorem C101_matrix_fails : Sized bare ∧ validate true bare = .undef := by
  unfold Sized
  decide +kernel

/-- **C101 (materials).** `validateProperties` comes back exactly for a material which has a name, a positive
temperature and density, and at least one nuclide, with a number density which is not negative for each positive
identifier. -/
theorem C101_properties (m : Mat K) :
    ((∃ log, validateProperties true m = .returns log) ↔
      m.name ≠ "" ∧ 0 < m.temperature ∧ 0 < m.density ∧ m.zaid ≠ [] ∧ m.numDensity.length = m.zaid.length ∧
        (∀ v ∈ m.numDensity, 0 ≤ v) ∧ ∀ z ∈ m.zaid, 0 < z) ∧
    ∀ log, validateProperties true m = .returns log → log = [] := by
  have hnil : (∀ s ∈ propertySteps m, s = some []) ↔
      m.name ≠ "" ∧ 0 < m.temperature ∧ 0 < m.density ∧ m.zaid ≠ [] ∧ m.numDensity.length = m.zaid.length ∧
        (∀ v ∈ m.numDensity, 0 ≤ v) ∧ ∀ z ∈ m.zaid, 0 < z := by
    unfold propertySteps
    simp only [List.mem_append, List.mem_cons, List.mem_map, List.not_mem_nil, or_false, or_imp, forall_and,
      forall_eq, Option.some.injEq, err_nil, forall_exists_index, and_imp, forall_apply_eq_imp_iff₂]
    simp only [not_le, not_lt, ne_eq, not_not, String.isEmpty_iff, List.isEmpty_iff]
    constructor
    · rintro ⟨⟨⟨h1, h2, h3, h4, h5, h6⟩, h7⟩, h8⟩; exact ⟨h1, h2, h3, h5, h6, h7, h8⟩
    · rintro ⟨h1, h2, h3, h5, h6, h7, h8⟩
      refine ⟨⟨⟨h1, h2, h3, ?_, h5, h6⟩, h7⟩, h8⟩
      intro h
      rw [h] at h6
      exact h5 (List.length_eq_zero_iff.1 h6.symm)
  have hall : ∀ log, validateProperties true m = .returns log → ∀ s ∈ propertySteps m, s = some [] := by
    intro log h s hs
    obtain ⟨es, rfl, h2⟩ := exec_true_ok.1 ⟨log, h⟩ s hs
    have : ∀ e ∈ es, e.error = true := by
      unfold propertySteps at hs
      simp only [List.mem_append, List.mem_cons, List.mem_map, List.not_mem_nil, or_false, Option.some.injEq] at hs
      have herr : ∀ (c : Prop) [Decidable c] (q : Msg), ∀ e ∈ err c q, e.error = true := by
        intro c _ q e he
        unfold err at he
        split_ifs at he with hc
        · simp only [List.mem_singleton] at he; rw [he]
        · simp at he
      rcases hs with (hs | ⟨_, _, rfl⟩) | ⟨_, _, rfl⟩
      · rcases hs with rfl | rfl | rfl | rfl | rfl | rfl <;> exact herr _ _
      · exact herr _ _
      · exact herr _ _
    rcases es with _ | ⟨e, es⟩
    · rfl
    · have h3 := h2 e (by simp)
      have h4 := this e (by simp)
      rw [h3] at h4; simp at h4
  refine ⟨⟨?_, ?_⟩, ?_⟩
  · rintro ⟨log, h⟩; exact hnil.1 (hall log h)
  · intro h; exact ⟨[], exec_true_nil.2 (hnil.2 h)⟩
  · intro log h
    have := exec_true_nil.2 (hall log h)
    unfold validateProperties at h
    rw [this] at h
    simpa using h.symm

/-- **C101 (materials).** `validateXSec` comes back exactly for a macroscopic cross section of the right size, and says
nothing exactly when the values are physical as well. -/
theorem C101_xsec (m : Mat K) (hf : Filled m.xsec) :
    ((∃ log, validateXSec true m = .returns log) ↔ m.xsec.macro_ = true ∧ Sized m.xsec) ∧
      (validateXSec true m = .returns [] ↔ m.xsec.macro_ = true ∧ Sized m.xsec ∧ Physical m.xsec) ∧
      validateXSec true m ≠ .undef := by
  refine ⟨?_, ?_, ?_⟩
  · have := C101_returns m.xsec hf
    rw [validate, exec_true_ok] at this
    rw [validateXSec, exec_true_ok]
    simp only [List.mem_cons, forall_eq_or_imp, Option.some.injEq, exists_eq_left', err_ok, Bool.not_eq_false]
    rw [this]
    constructor
    · rintro ⟨h1, h2, -⟩; exact ⟨h1, h2⟩
    · rintro ⟨h1, h2⟩; exact ⟨h1, h2, Or.inl h1⟩
  · have := C101_silent m.xsec hf
    rw [validate, exec_true_nil] at this
    rw [validateXSec, exec_true_nil]
    simp only [List.mem_cons, forall_eq_or_imp, Option.some.injEq, err_nil, Bool.not_eq_false]
    rw [this]
    constructor
    · rintro ⟨h1, h2, h3, -⟩; exact ⟨h1, h2, h3 h1⟩
    · rintro ⟨h1, h2, h3⟩; exact ⟨h1, h2, fun _ => h3, fun h => by rw [h1] at h; cases h⟩
  · rw [validateXSec, exec]
    split_ifs
    · simp
    · have := C101_defined_partial m.xsec hf
      rw [validate] at this
      cases hx : exec true (sizeSteps m.xsec ++ valueSteps m.xsec) <;> simp_all [Outcome.after]

end verdict

/-! ### Collapsing to one group -/

section collapse

variable [Field K] [LinearOrder K] [IsStrictOrderedRing K]

/-- **C101 (collapsed).** The one-group average of a cross section which `validate` has nothing to say about is there,
and `validate` has nothing to say about it either. -/
theorem C101_collapse (x : XSec K) (hl : x.ss.length = x.ng * x.ng) (h : validate true (ofXSec x) = .returns []) :
    ∃ y, collapse x = some y ∧ validate true (ofXSec y) = .returns [] ∧ y.macro_ = x.macro_ ∧
      y.fissile = x.fissile := by
  have hf : Filled (ofXSec x) := by simp [Filled, ofXSec, hl]
  obtain ⟨⟨h0, ha, hff, hn, ht, hsc, -, -⟩, hmac, hmic⟩ := (C101_silent _ hf).1 h
  simp only [ofXSec] at h0 ha hff hn ht hsc
  have h0' : 0 < x.ng := by exact_mod_cast h0
  have ne : ∀ l : List K, (l.length : Int) = x.ng → l ≠ [] := by
    rintro l hl rfl
    simp only [List.length_nil] at hl
    omega
  have hmean : ∀ l : List K, l ≠ [] → Stats.mean l = some (l.sum / l.length) := fun l hl => Stats.C18_mean l hl
  have hssne : x.ss ≠ [] := by
    rintro h'
    rw [h'] at hl
    have := Nat.mul_pos h0' h0'
    simp at hl; omega
  have hcol : collapse x = some ⟨x.macro_, x.fissile, 1, [x.a.sum / x.a.length], [x.f.sum / x.f.length],
      [x.nuf.sum / x.nuf.length], [x.tr.sum / x.tr.length], [x.s.sum / x.s.length],
      [(x.ng : K) * (x.ss.sum / x.ss.length)]⟩ := by
    unfold collapse
    rw [hmean _ (ne _ ha), hmean _ (ne _ hff), hmean _ (ne _ hn), hmean _ (ne _ ht), hmean _ (ne _ hsc),
      hmean _ hssne]
    rfl
  refine ⟨_, hcol, ?_, rfl, rfl⟩
  have nn : ∀ l : List K, (∀ v ∈ l, 0 ≤ v) → 0 ≤ l.sum / (l.length : K) := fun l hl =>
    div_nonneg (List.sum_nonneg hl) (Nat.cast_nonneg _)
  have np : ∀ l : List K, (∀ v ∈ l, v ≤ 0) → l.sum / (l.length : K) ≤ 0 := fun l hl =>
    by
    have h1 : 0 ≤ (l.map fun v => -v).sum := List.sum_nonneg (by
      intro v hv
      obtain ⟨w, hw, rfl⟩ := List.mem_map.1 hv
      have := hl w hw
      linarith)
    have h2 : (l.map fun v => -v).sum = -l.sum := by
      clear h1 hl
      induction l with
      | nil => simp
      | cons v l ih => rw [List.map_cons, List.sum_cons, List.sum_cons, ih]; ring
    exact div_nonpos_of_nonpos_of_nonneg (by linarith) (Nat.cast_nonneg _)
  rw [C101_silent _ (by simp [Filled, ofXSec])]
  refine ⟨by simp [Sized, ofXSec], fun hm => ?_, fun hm hfi => ?_⟩
  · obtain ⟨h1, h2⟩ := hmac hm
    simp only [ofXSec, List.mem_append, or_imp, forall_and] at h1 h2
    obtain ⟨⟨⟨⟨⟨k1, k2⟩, k3⟩, k4⟩, k5⟩, k6⟩ := h1
    refine ⟨?_, fun hfi => ?_⟩
    · simp only [ofXSec, List.mem_append, List.mem_singleton, or_imp, forall_and, forall_eq]
      exact ⟨⟨⟨⟨⟨nn _ k1, nn _ k2⟩, nn _ k3⟩, nn _ k4⟩, nn _ k5⟩, mul_nonneg (Nat.cast_nonneg _) (nn _ k6)⟩
    · have h3 := h2.1 hfi
      have h4 := h2.2 hfi
      simp only [ofXSec, List.mem_append, List.mem_singleton, or_imp, forall_and, forall_eq]
      exact ⟨by rw [List.sum_eq_zero h3, zero_div], by rw [List.sum_eq_zero h4, zero_div]⟩
  · have h1 := hmic hm hfi
    simp only [NoFission, ofXSec, List.mem_append, or_imp, forall_and] at h1
    simp only [NoFission, ofXSec, List.mem_append, List.mem_singleton, or_imp, forall_and, forall_eq]
    exact ⟨np _ h1.1, np _ h1.2⟩

/-- **C101 (a medium without leakage).** Take a macroscopic cross section about which `validate` has nothing to say,
which absorbs in every group and whose scattering cross sections are the sums over the columns of its matrix.  Then for
every source the balance of removal against scattering and source has exactly one flux, and where the source is nowhere
negative, neither is the flux. -/
theorem C101_medium (x : XSec K) (hl : x.ss.length = x.ng * x.ng) (hm : x.macro_ = true)
    (h : validate true (ofXSec x) = .returns []) (hpos : ∀ v ∈ x.a, 0 < v)
    (hsum : ∀ g < x.ng, val x.s g = ∑ j : Fin x.ng, val x.ss (g * x.ng + j)) (q : Fin x.ng → K) :
    ∃! φ : Fin x.ng → K,
      (∀ g : Fin x.ng, (val x.a g + val x.s g) * φ g = ∑ j : Fin x.ng, val x.ss (j * x.ng + g) * φ j + q g) ∧
        ((∀ g, 0 ≤ q g) → ∀ g, 0 ≤ φ g) := by
  have hf : Filled (ofXSec x) := by simp [Filled, ofXSec, hl]
  obtain ⟨⟨-, hal, -⟩, hmac, -⟩ := (C101_silent _ hf).1 h
  simp only [ofXSec] at hal
  have hal' : x.a.length = x.ng := by exact_mod_cast hal
  obtain ⟨h1, -⟩ := hmac hm
  have hS0 : ∀ i j : Fin x.ng, 0 ≤ val x.ss (j * x.ng + i) := by
    intro i j
    unfold val
    cases hx : x.ss[j.1 * x.ng + i.1]? with
    | none => exact le_refl _
    | some v =>
      have := List.mem_of_getElem? hx
      exact h1 v (by simp [ofXSec, this])
  have ha : ∀ g : Fin x.ng, 0 < val x.a g := by
    intro g
    have hg : g.1 < x.a.length := by rw [hal']; exact g.2
    simp only [val, List.getElem?_eq_getElem hg, Option.getD_some]
    exact hpos _ (List.getElem_mem _)
  obtain ⟨φ, h2, h3⟩ := flux_unique (fun g : Fin x.ng => val x.a g) (fun g => val x.s g)
    (fun i j => val x.ss (j * x.ng + i)) ha (fun g => hsum g g.2) hS0 q
  exact ⟨φ, ⟨h2, fun hq => flux_nonneg _ _ _ ha (fun g => hsum g g.2) hS0 φ q hq h2⟩, fun ψ hψ => h3 ψ hψ.1⟩

end collapse

/-! ### The C5G7 data -/

/-- The capture cross sections printed in the comments of `getC5G7XSecs`, which are not part of the data. -/
def capture : List (List ℚ) := [
  [8.12740e-04, 2.89810e-03, 2.03158e-02, 7.76712e-02, 1.22116e-02, 2.82252e-02, 6.67760e-02],
  [8.06860e-04, 2.88080e-03, 2.22717e-02, 8.13228e-02, 1.29177e-01, 1.76423e-01, 1.60382e-01],
  [8.11240e-04, 2.97105e-03, 2.44594e-02, 8.91570e-02, 1.67016e-01, 2.44666e-01, 2.22407e-01],
  [8.14110e-04, 3.03134e-03, 2.59684e-02, 9.36753e-02, 1.89142e-01, 2.83812e-01, 2.59571e-01],
  [5.11315e-04, 7.58072e-05, 3.15966e-04, 1.16226e-03, 3.39755e-03, 9.18789e-03, 2.32419e-02],
  [5.11320e-04, 7.58010e-05, 3.15720e-04, 1.15820e-03, 3.39750e-03, 9.18780e-03, 2.32420e-02],
  [6.01050e-04, 1.57930e-05, 3.37160e-04, 1.94060e-03, 5.74160e-03, 1.50010e-02, 3.72390e-02]]

/-- What is asked of one group of one of the seven: absorption is positive and is capture and fission; a fission gives
between 2.4 and 2.95 neutrons; scattering is the sum over the targets; and absorption and scattering make up the
transport cross section.  The tables are printed to six digits. -/
def Balanced (x : XSec ℚ) (cap : List ℚ) (g : Nat) : Prop :=
  0 < val x.a g ∧ |val x.a g - (val cap g + val x.f g)| ≤ 5e-7 ∧
    2.4 * val x.f g ≤ val x.nuf g ∧ val x.nuf g ≤ 2.95 * val x.f g ∧
    val x.s g = ∑ j : Fin 7, val x.ss (g * 7 + j.1) ∧ |val x.a g + val x.s g - val x.tr g| ≤ 4e-6

instance (x : XSec ℚ) (cap : List ℚ) (g : Nat) : Decidable (Balanced x cap g) := by
  unfold Balanced; infer_instance

/-- **C101 (C5G7).** `getC5G7XSecs` gives seven macroscopic cross sections in seven groups.  `validate` has nothing to
say about any of them, though it is called for two of them only.  Exactly the fuels and the fission chamber are fissile.
In every group the numbers balance. -/
theorem C101_c5g7 :
    ∃ xs, c5g7 = some xs ∧ xs.length = 7 ∧
      (∀ x ∈ xs, x.ng = 7 ∧ x.macro_ = true ∧ x.ss.length = 49 ∧ validate true (ofXSec x) = .returns []) ∧
      xs.map XSec.fissile = [true, true, true, true, true, false, false] ∧
      ∀ p ∈ xs.zip capture, ∀ g < 7, Balanced p.1 p.2 g := by
  have h : c5g7.isSome = true := by decide +kernel
  refine ⟨c5g7.getD [], ?_, ?_⟩
  · obtain ⟨xs, hx⟩ := Option.isSome_iff_exists.1 h
    rw [hx]; rfl
  · decide +kernel

/-- **C101 (C5G7).** In a medium without leakage made of any of the seven materials, every source has exactly one flux,
which is nowhere negative if the source is not. -/
theorem C101_c5g7_medium (xs : List (XSec ℚ)) (hx : c5g7 = some xs) (x : XSec ℚ) (h : x ∈ xs) (q : Fin 7 → ℚ) :
    ∃! φ : Fin 7 → ℚ,
      (∀ g : Fin 7, (val x.a g + val x.s g) * φ g = ∑ j : Fin 7, val x.ss (j * 7 + g) * φ j + q g) ∧
        ((∀ g, 0 ≤ q g) → ∀ g, 0 ≤ φ g) := by
  obtain ⟨xs', h1, hlen, hall, -, hbal⟩ := C101_c5g7
  rw [hx, Option.some.injEq] at h1
  subst h1
  obtain ⟨hng, hmac, hss, hval⟩ := hall x h
  obtain ⟨i, hi, rfl⟩ := List.mem_iff_getElem.1 h
  have hb := hbal (xs[i], capture[i]'(by simp [capture]; omega)) (by
    rw [List.mem_iff_getElem]
    exact ⟨i, by simp [capture]; omega, by simp⟩)
  generalize xs[i] = x at *
  obtain ⟨m, fi, n, a, f, nuf, tr, s, ss⟩ := x
  simp only at hng hmac hss
  subst hng
  have hf : Filled (ofXSec ⟨m, fi, 7, a, f, nuf, tr, s, ss⟩) := by simp [Filled, ofXSec, hss]
  obtain ⟨⟨-, hal, -⟩, -⟩ := (C101_silent _ hf).1 hval
  simp only [ofXSec] at hal
  have hal' : a.length = 7 := by exact_mod_cast hal
  refine C101_medium ⟨m, fi, 7, a, f, nuf, tr, s, ss⟩ hss hmac hval ?_ (fun g hg => (hb g hg).2.2.2.2.1) q
  intro v hv
  obtain ⟨k, hk, rfl⟩ := List.mem_iff_getElem.1 hv
  have := (hb k (by rw [← hal']; exact hk)).1
  simpa [val, List.getElem?_eq_getElem (show k < a.length from hk)] using this

/-- **C101 (C5G7).** The seven materials have the names of the benchmark and pass `validateXSec` without a message; they
have no nuclides, no temperature and no density, so `validateProperties` ends the program for each of them. -/
theorem C101_c5g7_materials :
    ∃ ms, c5g7Materials = some ms ∧
      ms.map Mat.name = ["UO2", "MOX_4.3", "MOX_7.0", "MOX_8.7", "Fission_Chamber", "Guide_Tube", "Moderator"] ∧
      (∀ m ∈ ms, validateXSec true m = .returns []) ∧
      ∀ m ∈ ms, m.temperature = 0 ∧ m.density = 0 ∧ m.numDensity = [] ∧ m.zaid = [] ∧
        validateProperties true m = .ends [⟨true, .temperature⟩] := by
  have h : c5g7Materials.isSome = true := by decide +kernel
  refine ⟨c5g7Materials.getD [], ?_, ?_⟩
  · obtain ⟨xs, hx⟩ := Option.isSome_iff_exists.1 h
    rw [hx]; rfl
  · decide +kernel

/-! ### Concrete cases -/

/-- Two groups of a fuel. -/
def fuel : XSec ℚ := ⟨true, true, 2, [1, 2], [1/2, 1], [1, 5/2], [3, 3], [2, 1], [3/2, 1/2, 0, 1]⟩

/-- A cross section passes, with one negative value and a fission where there should be none it is warned about, and a
microscopic one is refused. -/
example : Filled (ofXSec fuel) ∧ Sized (ofXSec fuel) ∧ validate true (ofXSec fuel) = .returns [] ∧
    validate true (ofXSec { fuel with fissile := false, a := [1, -2] }) =
      .returns [⟨false, .negA 1⟩, ⟨false, .fisF 0⟩, ⟨false, .fisF 1⟩, ⟨false, .fisNuf 0⟩, ⟨false, .fisNuf 1⟩] ∧
    validate true (ofXSec { fuel with fissile := false, macro_ := false }) = .ends [⟨true, .fisF 0⟩] := by
  unfold Filled Sized
  decide +kernel

/-- The average of the two groups is silent too. -/
example : ∃ y, collapse fuel = some y ∧ validate true (ofXSec y) = .returns [] ∧ y.macro_ = true ∧ y.fissile = true :=
  C101_collapse fuel rfl (by decide +kernel)

/-- The two groups as a medium. -/
example (q : Fin 2 → ℚ) :
    ∃! φ : Fin 2 → ℚ,
      (∀ g : Fin 2, (val fuel.a g + val fuel.s g) * φ g = ∑ j : Fin 2, val fuel.ss (j * 2 + g) * φ j + q g) ∧
        ((∀ g, 0 ≤ q g) → ∀ g, 0 ≤ φ g) :=
  C101_medium fuel rfl rfl (by decide +kernel) (by decide +kernel) (by decide +kernel) q

/-- A material which is all right and one with a nuclide too few. -/
example : validateProperties true (⟨"H2O", 300, 1, [2, 1], [1001, 8016], ofXSec fuel⟩ : Mat ℚ) = .returns [] ∧
    validateProperties true (⟨"H2O", 300, 1, [2, 1], [1001], ofXSec fuel⟩ : Mat ℚ) = .ends [⟨true, .sizes⟩] := by
  decide +kernel

end Verif.XSValid
