import Verif.Model.XSec
import Verif.Props.Stats
import Mathlib.Tactic.Ring
import Mathlib.Tactic.Linarith
import Mathlib.Algebra.BigOperators.Group.List.Basic

/-! Auxiliary facts about cross sections. -/

namespace Verif.Phys

variable {K : Type}

/-- The reactions of a cross section. -/
inductive Rx
  | a | f | nuf | tr | s | ss

/-- The values of one reaction: one per group, for `ss` one per pair of groups. -/
def XSec.get (x : XSec K) : Rx → List K
  | .a => x.a
  | .f => x.f
  | .nuf => x.nuf
  | .tr => x.tr
  | .s => x.s
  | .ss => x.ss

def Rx.size (n : Nat) : Rx → Nat
  | .ss => n * n
  | _ => n

/-- The vectors have the sizes that go with `n` groups. -/
def XSec.WF (n : Nat) (x : XSec K) : Prop := x.ng = n ∧ ∀ r, (x.get r).length = Rx.size n r

theorem mapM_eq_map {α β : Type} (l : List α) (h : α → Option β) (k : α → β) (hk : ∀ x ∈ l, h x = some (k x)) :
    l.mapM h = some (l.map k) := by
  induction l with
  | nil => rfl
  | cons x l ih =>
    rw [List.mapM_cons, hk x (by simp), ih fun y hy => hk y (by simp [hy])]
    rfl

theorem flatMap_range {β : Type} (m n : Nat) (h : Nat → β) :
    ((List.range m).map fun g => (List.range n).map fun gg => h (g * n + gg)).flatten = (List.range (m * n)).map h := by
  induction m with
  | zero => simp
  | succ m ih =>
    rw [List.range_succ, List.map_append, List.flatten_append, ih, Nat.succ_mul, List.range_add, List.map_append]
    simp [Function.comp_def]

theorem zipWith_range [Inhabited K] (op : K → K → K) (l0 l1 : List K) (n : Nat) (h0 : l0.length = n) (h1 : l1.length = n) :
    (List.range n).map (fun i => op (l0[i]?.getD default) (l1[i]?.getD default)) = List.zipWith op l0 l1 := by
  apply List.ext_getElem
  · simp [h0, h1]
  · intro i hi hi'
    simp at hi
    rw [List.getElem_map, List.getElem_zipWith]
    simp [List.getElem?_eq_getElem (l := l0) (i := i) (by omega), List.getElem?_eq_getElem (l := l1) (i := i) (by omega)]

theorem mapG_spec (op : K → K → K) (l0 l1 : List K) (n : Nat) (h0 : l0.length = n) (h1 : l1.length = n) :
    (mapG n fun g => do pure (op (← l0[g]?) (← l1[g]?))) = some (List.zipWith op l0 l1) := by
  cases n with
  | zero =>
    have e0 := List.eq_nil_of_length_eq_zero h0
    subst e0
    rfl
  | succ n =>
    have : Inhabited K := ⟨l0[0]'(by omega)⟩
    rw [← zipWith_range op l0 l1 _ h0 h1]
    apply mapM_eq_map
    intro i hi
    simp only [List.mem_range] at hi
    simp [List.getElem?_eq_getElem (l := l0) (i := i) (by omega), List.getElem?_eq_getElem (l := l1) (i := i) (by omega)]

theorem mapGG_spec (op : K → K → K) (l0 l1 : List K) (n : Nat) (h0 : l0.length = n * n) (h1 : l1.length = n * n) :
    (mapGG n fun gg g => do pure (op (← l0[g * n + gg]?) (← l1[g * n + gg]?))) = some (List.zipWith op l0 l1) := by
  by_cases hn : n = 0
  · subst hn
    have e0 := List.eq_nil_of_length_eq_zero h0
    subst e0
    rfl
  · have hpos : 0 < n * n := Nat.mul_pos (by omega) (by omega)
    have : Inhabited K := ⟨l0[0]'(by omega)⟩
    unfold mapGG
    rw [mapM_eq_map (List.range n) _
      (fun g => (List.range n).map fun gg => (fun i => op (l0[i]?.getD default) (l1[i]?.getD default)) (g * n + gg))]
    · rw [Option.map_some, flatMap_range n n (fun i => op (l0[i]?.getD default) (l1[i]?.getD default)), zipWith_range op l0 l1 _ h0 h1]
    · intro g hg
      apply mapM_eq_map
      intro gg hgg
      simp only [List.mem_range] at hg hgg
      have hlt : g * n + gg < n * n := by
        calc g * n + gg < g * n + n := by omega
          _ = (g + 1) * n := by ring
          _ ≤ n * n := Nat.mul_le_mul_right n hg
      simp [List.getElem?_eq_getElem (l := l0) (i := g * n + gg) (by omega), List.getElem?_eq_getElem (l := l1) (i := g * n + gg) (by omega)]

theorem combine_spec (op : K → K → K) (n : Nat) (m fis : Bool) (x y : XSec K) (hx : x.WF n) (hy : y.WF n) :
    ∃ r, combine op n m fis x y = some r ∧ r.macro_ = m ∧ r.fissile = fis ∧ r.WF n ∧
      ∀ rx, r.get rx = List.zipWith op (x.get rx) (y.get rx) := by
  refine ⟨⟨m, fis, n, List.zipWith op x.a y.a, List.zipWith op x.f y.f, List.zipWith op x.nuf y.nuf,
    List.zipWith op x.tr y.tr, List.zipWith op x.s y.s, List.zipWith op x.ss y.ss⟩, ?_, rfl, rfl, ⟨rfl, ?_⟩, ?_⟩
  · unfold combine
    rw [mapG_spec op x.a y.a n (hx.2 .a) (hy.2 .a), mapG_spec op x.f y.f n (hx.2 .f) (hy.2 .f),
      mapG_spec op x.nuf y.nuf n (hx.2 .nuf) (hy.2 .nuf), mapG_spec op x.tr y.tr n (hx.2 .tr) (hy.2 .tr),
      mapG_spec op x.s y.s n (hx.2 .s) (hy.2 .s)]
    unfold XSec.ssAt
    rw [hx.1, hy.1, mapGG_spec op x.ss y.ss n (hx.2 .ss) (hy.2 .ss)]
    rfl
  · intro rx
    have h1 := hx.2 rx
    have h2 := hy.2 rx
    cases rx <;> simp only [XSec.get] at h1 h2 ⊢ <;> simp [h1, h2]
  · intro rx
    cases rx <;> rfl

theorem XSec.ext' {x y : XSec K} (hm : x.macro_ = y.macro_) (hf : x.fissile = y.fissile) (hn : x.ng = y.ng)
    (h : ∀ rx, x.get rx = y.get rx) : x = y := by
  cases x; cases y
  have ha := h .a
  have hf' := h .f
  have hnuf := h .nuf
  have htr := h .tr
  have hs := h .s
  have hss := h .ss
  simp only [XSec.get] at *
  subst hm hf hn ha hf' hnuf htr hs hss
  rfl

theorem zero_WF [Zero K] (n : Nat) : (XSec.zero n : XSec K).WF n :=
  ⟨rfl, fun r => by cases r <;> simp [XSec.zero, XSec.get, Rx.size]⟩

theorem zero_get [Zero K] (n : Nat) (r : Rx) : (XSec.zero n : XSec K).get r = List.replicate (Rx.size n r) 0 := by
  cases r <;> rfl

end Verif.Phys
