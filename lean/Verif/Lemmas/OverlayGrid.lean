import Verif.Props.OverlayGridSpec
import Verif.Lemmas.Mpact
import Verif.Lemmas.ModelXdmf
import Mathlib.Tactic.Linarith

/-! Lemmas for C91. -/

namespace Verif.OverlayGrid

open Verif.Mpact hiding Lattice
open Verif.XSLib (Res)
open Verif.Overlay Verif.OverlaySpec
open Verif.ModelXdmf (places childAt)

set_option linter.unusedSectionVars false
variable {K M : Type} [Field K] [LinearOrder K]

/-! ## The places, all of them -/

/-- A place with what stands there. -/
abbrev Item (K : Type) := Path × ℤ × Cut K

def cellsOf (r : Rect K) (ai aj k li lj : Nat) (ll : K × K) (z dz : K) : List (Item K) :=
  (places (r.xs.length - 1) (r.ys.length - 1)).filterMap fun p =>
    (childAt (r.xs.length - 1) r.children p).bind fun c => (boxAt r.xs r.ys p).map fun b =>
      (⟨ai, aj, k, li, lj, p.1, p.2⟩, c, ⟨(ll.1 + b.1.1, ll.2 + b.1.2, z), (b.2.1, b.2.2, dz)⟩)

def rtmsOf (s : Model K M) (l : Mpact.Lattice K) (ai aj k : Nat) (ll : K × K) (z dz : K) : List (Item K) :=
  (places l.nx l.ny).flatMap fun p => ((childAt l.nx l.children p).bind (at? s.rtms)).elim [] fun r =>
    cellsOf r ai aj k p.1 p.2 (ll.1 + l.spacing.1 * (p.1 : K), ll.2 + l.spacing.2 * (p.2 : K)) z dz

def latOf (s : Model K M) (a : Assembly K) (ai aj : Nat) (ll : K × K) (k : Nat) : List (Item K) :=
  ((a.children[k]?).bind (at? s.lattices)).elim [] fun l => (a.zs[k]?).elim [] fun lo => (a.zs[k + 1]?).elim [] fun hi =>
    rtmsOf s l ai aj k ll ((lo + hi) / 2) ((hi - lo) / 2)

def latsOf (s : Model K M) (a : Assembly K) (ai aj : Nat) (ll : K × K) : List (Item K) :=
  (List.range (a.zs.length - 1)).flatMap (latOf s a ai aj ll)

def asyOf (s : Model K M) (p : Nat × Nat) : List (Item K) :=
  ((childAt (s.core.xs.length - 1) s.core.children p).bind (at? s.assemblies)).elim [] fun a =>
    (boxAt s.core.xs s.core.ys p).elim [] fun b => latsOf s a p.1 p.2 b.1

def placements (s : Model K M) : List (Item K) :=
  (places (s.core.xs.length - 1) (s.core.ys.length - 1)).flatMap (asyOf s)

/-- The coarse cells of some places. -/
def keys (P : List (Item K)) : List ℤ := P.map (·.2.1)

/-- What stands at the first place with the coarse cell. -/
def first (P : List (Item K)) (c : ℤ) : Option (Cut K) := (P.find? fun x => x.2.1 == c).map (·.2.2)

theorem keys_append (P Q : List (Item K)) : keys (P ++ Q) = keys P ++ keys Q := by simp [keys]

theorem keys_cells (r : Rect K) (ai aj k li lj ai' aj' k' li' lj' : Nat) (ll ll' : K × K) (z dz z' dz' : K) :
    keys (cellsOf r ai aj k li lj ll z dz) = keys (cellsOf r ai' aj' k' li' lj' ll' z' dz') := by
  unfold keys cellsOf
  rw [List.map_filterMap, List.map_filterMap]
  congr 1
  funext p
  cases childAt (r.xs.length - 1) r.children p <;> cases boxAt r.xs r.ys p <;> rfl

theorem keys_rtms (s : Model K M) (l : Mpact.Lattice K) (ai aj k ai' aj' k' : Nat) (ll ll' : K × K) (z dz z' dz' : K) :
    keys (rtmsOf s l ai aj k ll z dz) = keys (rtmsOf s l ai' aj' k' ll' z' dz') := by
  unfold rtmsOf
  have : ∀ (f : Nat × Nat → List (Item K)) (L : List (Nat × Nat)), keys (L.flatMap f) = L.flatMap fun p => keys (f p) := by
    intro f L; simp [keys, List.map_flatMap]
  rw [this, this]
  congr 1
  funext p
  cases (childAt l.nx l.children p).bind (at? s.rtms) with
  | none => rfl
  | some r => exact keys_cells _ _ _ _ _ _ _ _ _ _ _ _ _ _ _ _ _

theorem keys_lats (s : Model K M) (a : Assembly K) (ai aj ai' aj' : Nat) (ll ll' : K × K) :
    keys (latsOf s a ai aj ll) = keys (latsOf s a ai' aj' ll') := by
  unfold latsOf
  have : ∀ (f : Nat → List (Item K)) (L : List Nat), keys (L.flatMap f) = L.flatMap fun p => keys (f p) := by
    intro f L; simp [keys, List.map_flatMap]
  rw [this, this]
  congr 1
  funext k
  unfold latOf
  cases (a.children[k]?).bind (at? s.lattices) with
  | none => rfl
  | some l =>
    cases a.zs[k]? with
    | none => rfl
    | some lo =>
      cases a.zs[k + 1]? with
      | none => rfl
      | some hi => exact keys_rtms _ _ _ _ _ _ _ _ _ _ _ _ _ _

theorem first_append (P Q : List (Item K)) (c : ℤ) : first (P ++ Q) c = (first P c).or (first Q c) := by
  unfold first
  rw [List.find?_append]
  cases P.find? fun x => x.2.1 == c <;> simp

theorem first_none (P : List (Item K)) (c : ℤ) : first P c = none ↔ c ∉ keys P := by
  unfold first keys
  rw [Option.map_eq_none_iff, List.find?_eq_none]
  simp only [beq_iff_eq, List.mem_map, not_exists, not_and]

theorem first_sub (P Q : List (Item K)) (h : ∀ c ∈ keys Q, c ∈ keys P) (c : ℤ) : first (P ++ Q) c = first P c := by
  rw [first_append]
  cases hp : first P c with
  | some x => rfl
  | none =>
    rw [Option.none_or, first_none]
    intro hc
    exact (first_none P c).1 hp (h c hc)

/-! ## The search -/

/-- The table of the cells. -/
def InvC (s : Model K M) (P : List (Item K)) (st : Found K) : Prop :=
  st.cells.length = s.cells.length ∧ ∀ c : Nat, c < s.cells.length → st.cells[c]? = some (first P (c : ℤ))

def InvR (s : Model K M) (P : List (Item K)) (st : Found K) : Prop :=
  InvC s P st ∧ st.rtm.length = s.rtms.length ∧ ∀ (i : Nat) r, st.rtm[i]? = some true → s.rtms[i]? = some r →
    ∀ c ∈ keys (cellsOf r 0 0 0 0 0 (0, 0) 0 0), c ∈ keys P

def InvL (s : Model K M) (P : List (Item K)) (st : Found K) : Prop :=
  InvR s P st ∧ st.lat.length = s.lattices.length ∧ ∀ (i : Nat) l, st.lat[i]? = some true → s.lattices[i]? = some l →
    ∀ c ∈ keys (rtmsOf s l 0 0 0 (0, 0) 0 0), c ∈ keys P

def InvA (s : Model K M) (P : List (Item K)) (st : Found K) : Prop :=
  InvL s P st ∧ st.asy.length = s.assemblies.length ∧ ∀ (i : Nat) a, st.asy[i]? = some true → s.assemblies[i]? = some a →
    ∀ c ∈ keys (latsOf s a 0 0 (0, 0)), c ∈ keys P

theorem invC_sub (s : Model K M) (P Q : List (Item K)) (st : Found K) (h : InvC s P st) (hq : ∀ c ∈ keys Q, c ∈ keys P) :
    InvC s (P ++ Q) st := ⟨h.1, fun c hc => by rw [first_sub P Q hq]; exact h.2 c hc⟩

theorem invR_sub (s : Model K M) (P Q : List (Item K)) (st : Found K) (h : InvR s P st) (hq : ∀ c ∈ keys Q, c ∈ keys P) :
    InvR s (P ++ Q) st :=
  ⟨invC_sub s P Q st h.1 hq, h.2.1, fun i r h1 h2 c hc => by
    rw [keys_append]; exact List.mem_append_left _ (h.2.2 i r h1 h2 c hc)⟩

theorem invL_sub (s : Model K M) (P Q : List (Item K)) (st : Found K) (h : InvL s P st) (hq : ∀ c ∈ keys Q, c ∈ keys P) :
    InvL s (P ++ Q) st :=
  ⟨invR_sub s P Q st h.1 hq, h.2.1, fun i r h1 h2 c hc => by
    rw [keys_append]; exact List.mem_append_left _ (h.2.2 i r h1 h2 c hc)⟩

theorem invA_sub (s : Model K M) (P Q : List (Item K)) (st : Found K) (h : InvA s P st) (hq : ∀ c ∈ keys Q, c ∈ keys P) :
    InvA s (P ++ Q) st :=
  ⟨invL_sub s P Q st h.1 hq, h.2.1, fun i r h1 h2 c hc => by
    rw [keys_append]; exact List.mem_append_left _ (h.2.2 i r h1 h2 c hc)⟩

/-- A loop whose steps add their places adds all places. -/
theorem forEach_spec {α : Type} (f : α → Found K → Res (Found K)) (g : α → List (Item K)) (I : List (Item K) → Found K → Prop)
    (J : Found K → Found K → Prop) (hJ0 : ∀ st, J st st) (hJ : ∀ a b c, J a b → J b c → J a c) :
    ∀ (l : List α) (P : List (Item K)) (st : Found K), I P st →
      (∀ x ∈ l, ∀ P st, I P st → ∃ st', f x st = .ok st' ∧ I (P ++ g x) st' ∧ J st st') →
      ∃ st', forEach f l st = .ok st' ∧ I (P ++ l.flatMap g) st' ∧ J st st' := by
  intro l
  induction l with
  | nil => intro P st h _; exact ⟨st, rfl, by simpa using h, hJ0 st⟩
  | cons x l ih =>
    intro P st h hf
    obtain ⟨st1, h1, h2, h3⟩ := hf x (by simp) P st h
    obtain ⟨st2, h4, h5, h6⟩ := ih (P ++ g x) st1 h2 (fun y hy => hf y (by simp [hy]))
    refine ⟨st2, ?_, by simpa using h5, hJ _ _ _ h3 h6⟩
    rw [forEach, h1]; exact h4

theorem mem_places {nx ny : Nat} {p : Nat × Nat} : p ∈ places nx ny ↔ p.1 < nx ∧ p.2 < ny := by
  unfold places
  simp only [List.mem_flatMap, List.mem_range, List.mem_map]
  constructor
  · rintro ⟨j, hj, i, hi, rfl⟩; exact ⟨hi, hj⟩
  · rintro ⟨h1, h2⟩; exact ⟨p.2, h2, p.1, h1, rfl⟩

/-- A place of a full grid has a child. -/
theorem child_some {nx ny : Nat} {ch : List ℤ} (hl : ch.length = nx * ny) {p : Nat × Nat} (hp : p ∈ places nx ny) :
    ∃ c ∈ ch, childAt nx ch p = some c := by
  rw [mem_places] at hp
  have : p.1 + p.2 * nx < ch.length := by
    rw [hl]
    have h1 : p.2 * nx + nx ≤ ny * nx := by rw [← Nat.succ_mul]; exact Nat.mul_le_mul_right _ hp.2
    rw [Nat.mul_comm nx ny]; omega
  exact ⟨ch[p.1 + p.2 * nx], List.getElem_mem _, List.getElem?_eq_getElem this⟩

theorem box_some (xs ys : List K) {p : Nat × Nat} (hp : p ∈ places (xs.length - 1) (ys.length - 1)) : ∃ b, boxAt xs ys p = some b := by
  rw [mem_places] at hp
  unfold boxAt
  rw [List.getElem?_eq_getElem (by omega : p.1 < xs.length), List.getElem?_eq_getElem (by omega : p.1 + 1 < xs.length),
    List.getElem?_eq_getElem (by omega : p.2 < ys.length), List.getElem?_eq_getElem (by omega : p.2 + 1 < ys.length)]
  exact ⟨_, rfl⟩

theorem at_some {α : Type} {l : List α} {i : ℤ} (h : 0 ≤ i ∧ i < l.length) : ∃ a ∈ l, at? l i = some a ∧ l[i.toNat]? = some a := by
  have : i.toNat < l.length := by omega
  exact ⟨l[i.toNat], List.getElem_mem _, by simp [at?, h.1.not_gt, List.getElem?_eq_getElem this], List.getElem?_eq_getElem this⟩

theorem visitCell_spec (s : Model K M) (r : Rect K) (hl : r.children.length = (r.xs.length - 1) * (r.ys.length - 1))
    (hc : ∀ i ∈ r.children, 0 ≤ i ∧ i < s.cells.length) (ai aj k li lj : Nat) (ll : K × K) (z dz : K) (P : List (Item K)) (st : Found K)
    (h : InvC s P st) : ∃ st', forEach (visitCell r ll z dz) (places (r.xs.length - 1) (r.ys.length - 1)) st = .ok st' ∧
      InvC s (P ++ cellsOf r ai aj k li lj ll z dz) st' ∧ (st'.asy = st.asy ∧ st'.lat = st.lat ∧ st'.rtm = st.rtm) := by
  have hg : cellsOf r ai aj k li lj ll z dz = (places (r.xs.length - 1) (r.ys.length - 1)).flatMap fun p =>
      ((childAt (r.xs.length - 1) r.children p).bind fun c => (boxAt r.xs r.ys p).map fun b =>
      ((⟨ai, aj, k, li, lj, p.1, p.2⟩, c, ⟨(ll.1 + b.1.1, ll.2 + b.1.2, z), (b.2.1, b.2.2, dz)⟩) : Item K)).toList := by
    rw [cellsOf, List.filterMap_eq_flatMap_toList]
  rw [hg]
  refine forEach_spec _ _ (InvC s) (fun st st' => st'.asy = st.asy ∧ st'.lat = st.lat ∧ st'.rtm = st.rtm) (fun _ => ⟨rfl, rfl, rfl⟩)
    (fun a b c h1 h2 => ⟨h2.1.trans h1.1, h2.2.1.trans h1.2.1, h2.2.2.trans h1.2.2⟩) _ P st h ?_
  intro p hp P st h
  obtain ⟨c, hcm, hcp⟩ := child_some hl hp
  obtain ⟨b, hb⟩ := box_some r.xs r.ys hp
  have hcr := hc c hcm
  have hct : c.toNat < s.cells.length := by omega
  have hcc : ((c.toNat : Nat) : ℤ) = c := Int.toNat_of_nonneg hcr.1
  have hget := h.2 c.toNat hct
  rw [hcc] at hget
  have hat : at? st.cells c = some (first P c) := by rw [at?, if_neg (not_lt.2 hcr.1)]; exact hget
  unfold visitCell
  rw [hcp, hb]
  simp only [Res.ofOption, Res.bind, Option.bind_some, Option.map_some, Option.toList_some, hat]
  cases hf : first P c with
  | some x =>
    refine ⟨st, rfl, invC_sub s P _ st h ?_, rfl, rfl, rfl⟩
    intro c' hc'
    simp only [keys, List.map_cons, List.map_nil, List.mem_singleton] at hc'
    subst hc'
    by_contra hn
    rw [(first_none P c').2 hn] at hf
    cases hf
  | none =>
    refine ⟨_, rfl, ⟨by simpa using h.1, fun c' hc' => ?_⟩, rfl, rfl, rfl⟩
    rw [first_append]
    by_cases hcc' : c.toNat = c'
    · subst hcc'
      rw [List.getElem?_set_self (by rw [h.1]; exact hct), hcc, hf, Option.none_or]
      simp [first]
    · rw [List.getElem?_set_ne hcc', h.2 c' hc']
      congr 1
      have : first [((⟨ai, aj, k, li, lj, p.1, p.2⟩, c, ⟨(ll.1 + b.1.1, ll.2 + b.1.2, z), (b.2.1, b.2.2, dz)⟩) : Item K)] (c' : ℤ) = none := by
        rw [first_none]
        simp only [keys, List.map_cons, List.map_nil, List.mem_singleton]
        intro h; apply hcc'; rw [← h]; simp
      rw [this, Option.or_none]

theorem visitRtm_spec (s : Model K M) (w : Whole s) (l : Mpact.Lattice K) (hl : l.children.length = l.nx * l.ny)
    (hc : ∀ i ∈ l.children, 0 ≤ i ∧ i < s.rtms.length) (ai aj k : Nat) (ll : K × K) (z dz : K) (P : List (Item K)) (st : Found K)
    (h : InvR s P st) : ∃ st', forEach (visitRtm s l ll z dz) (places l.nx l.ny) st = .ok st' ∧
      InvR s (P ++ rtmsOf s l ai aj k ll z dz) st' ∧ (st'.asy = st.asy ∧ st'.lat = st.lat) := by
  refine forEach_spec _ _ (InvR s) (fun st st' => st'.asy = st.asy ∧ st'.lat = st.lat) (fun _ => ⟨rfl, rfl⟩)
    (fun a b c h1 h2 => ⟨h2.1.trans h1.1, h2.2.trans h1.2⟩) _ P st h ?_
  intro p hp P st h
  obtain ⟨i, him, hip⟩ := child_some hl hp
  obtain ⟨r, hrm, hr, hr'⟩ := at_some (hc i him)
  have hil : i.toNat < st.rtm.length := by rw [h.2.1]; have := hc i him; omega
  have hat : at? st.rtm i = some st.rtm[i.toNat] := by
    rw [at?, if_neg (not_lt.2 (hc i him).1)]; exact List.getElem?_eq_getElem hil
  obtain ⟨w1, w2, w3⟩ := w.rtm r hrm
  unfold visitRtm
  rw [hip]
  simp only [Res.ofOption, Res.bind, Option.bind_some, hat, hr, Option.elim_some]
  cases hf : st.rtm[i.toNat] with
  | true =>
    refine ⟨st, rfl, invR_sub s P _ st h ?_, rfl, rfl⟩
    intro c hc
    rw [keys_cells r _ _ _ _ _ 0 0 0 0 0 _ (0, 0) _ _ 0 0] at hc
    exact h.2.2 i.toNat r (by rw [List.getElem?_eq_getElem hil, hf]) hr' c hc
  | false =>
    rw [if_neg (by simp), if_neg w1]
    obtain ⟨st', h1, h2, h3, h4, h5⟩ := visitCell_spec s r w2 w3 ai aj k p.1 p.2
      (ll.1 + l.spacing.1 * (p.1 : K), ll.2 + l.spacing.2 * (p.2 : K)) z dz P { st with rtm := st.rtm.set i.toNat true } h.1
    refine ⟨st', h1, ⟨h2, by rw [h5]; simpa using h.2.1, fun i' r' hi hr2 c hcc => ?_⟩, h3, h4⟩
    rw [keys_append]
    rw [h5] at hi
    dsimp only at hi
    by_cases hii : i.toNat = i'
    · subst hii
      rw [hr'] at hr2; cases hr2
      refine List.mem_append_right _ ?_
      rw [keys_cells r _ _ _ _ _ 0 0 0 0 0 _ (0, 0) _ _ 0 0]
      exact hcc
    · rw [List.getElem?_set_ne hii] at hi
      exact List.mem_append_left _ (h.2.2 i' r' hi hr2 c hcc)

theorem visitLat_spec (s : Model K M) (w : Whole s) (a : Assembly K) (hl : a.children.length + 1 = a.zs.length)
    (hc : ∀ i ∈ a.children, 0 ≤ i ∧ i < s.lattices.length) (ai aj : Nat) (ll : K × K) (P : List (Item K)) (st : Found K)
    (h : InvL s P st) : ∃ st', forEach (visitLat s a ll) (List.range (a.zs.length - 1)) st = .ok st' ∧
      InvL s (P ++ latsOf s a ai aj ll) st' ∧ st'.asy = st.asy := by
  refine forEach_spec _ _ (InvL s) (fun st st' => st'.asy = st.asy) (fun _ => rfl)
    (fun a b c h1 h2 => h2.trans h1) _ P st h ?_
  intro k hk P st h
  rw [List.mem_range] at hk
  have hkc : k < a.children.length := by omega
  have him : a.children[k] ∈ a.children := List.getElem_mem _
  generalize hi : a.children[k] = i at him
  obtain ⟨l, hlm, hl1, hl2⟩ := at_some (hc i him)
  have hil : i.toNat < st.lat.length := by rw [h.2.1]; have := hc i him; omega
  have hat : at? st.lat i = some st.lat[i.toNat] := by
    rw [at?, if_neg (not_lt.2 (hc i him).1)]; exact List.getElem?_eq_getElem hil
  obtain ⟨w1, w2, w3⟩ := w.lat l hlm
  have hck : a.children[k]? = some i := by rw [List.getElem?_eq_getElem hkc, hi]
  unfold visitLat latOf
  rw [hck, List.getElem?_eq_getElem (by omega : k < a.zs.length), List.getElem?_eq_getElem (by omega : k + 1 < a.zs.length)]
  simp only [Res.ofOption, Res.bind, Option.bind_some, hat, hl1, Option.elim_some]
  cases hf : st.lat[i.toNat] with
  | true =>
    refine ⟨st, rfl, invL_sub s P _ st h ?_, rfl⟩
    intro c hc
    rw [keys_rtms s l _ _ _ 0 0 0 _ (0, 0) _ _ 0 0] at hc
    exact h.2.2 i.toNat l (by rw [List.getElem?_eq_getElem hil, hf]) hl2 c hc
  | false =>
    rw [if_neg (by simp), if_neg w1]
    obtain ⟨st', h1, h2, h3, h4⟩ := visitRtm_spec s w l w2 w3 ai aj k ll ((a.zs[k] + a.zs[k + 1]) / 2) ((a.zs[k + 1] - a.zs[k]) / 2) P
      { st with lat := st.lat.set i.toNat true } h.1
    refine ⟨st', h1, ⟨h2, by rw [h4]; simpa using h.2.1, fun i' r' hi hr2 c hcc => ?_⟩, h3⟩
    rw [keys_append]
    rw [h4] at hi
    dsimp only at hi
    by_cases hii : i.toNat = i'
    · subst hii
      rw [hl2] at hr2; cases hr2
      refine List.mem_append_right _ ?_
      rw [keys_rtms s l _ _ _ 0 0 0 _ (0, 0) _ _ 0 0]
      exact hcc
    · rw [List.getElem?_set_ne hii] at hi
      exact List.mem_append_left _ (h.2.2 i' r' hi hr2 c hcc)

theorem search_spec (s : Model K M) (w : Whole s) : ∃ st, search s = .ok st ∧ InvA s (placements s) st := by
  obtain ⟨w1, w2, w3⟩ := w.core
  unfold search
  rw [if_neg w1]
  have key := forEach_spec (visitAsy s) (asyOf s) (InvA s) (fun _ _ => True) (fun _ => trivial) (fun _ _ _ _ _ => trivial)
    (places (s.core.xs.length - 1) (s.core.ys.length - 1)) []
    ⟨List.replicate s.assemblies.length false, List.replicate s.lattices.length false, List.replicate s.rtms.length false,
      List.replicate s.cells.length none⟩ (by
      have hrep : ∀ (n i : Nat), (List.replicate n false)[i]? = some true → False := by
        intro n i hi
        rw [List.getElem?_replicate] at hi
        split at hi <;> cases hi
      refine ⟨⟨⟨⟨by simp, fun c hc => ?_⟩, by simp, fun i r h => ?_⟩, by simp, fun i r h => ?_⟩, by simp, fun i r h => ?_⟩
      · rw [List.getElem?_replicate, if_pos hc]; rfl
      all_goals exact (hrep _ _ h).elim) ?_
  · obtain ⟨st, h1, h2, _⟩ := key
    exact ⟨st, h1, by simpa [placements] using h2⟩
  intro p hp P st h
  obtain ⟨i, him, hip⟩ := child_some w2 hp
  obtain ⟨b, hb⟩ := box_some s.core.xs s.core.ys hp
  obtain ⟨a, ham, ha, ha'⟩ := at_some (w3 i him)
  have hil : i.toNat < st.asy.length := by rw [h.2.1]; have := w3 i him; omega
  have hat : at? st.asy i = some st.asy[i.toNat] := by
    rw [at?, if_neg (not_lt.2 (w3 i him).1)]; exact List.getElem?_eq_getElem hil
  obtain ⟨v1, v2, v3⟩ := w.asy a ham
  unfold visitAsy asyOf
  rw [hip, hb]
  simp only [Res.ofOption, Res.bind, Option.bind_some, hat, ha, Option.elim_some]
  cases hf : st.asy[i.toNat] with
  | true =>
    refine ⟨st, rfl, invA_sub s P _ st h ?_, trivial⟩
    intro c hc
    rw [keys_lats s a _ _ 0 0 _ (0, 0)] at hc
    exact h.2.2 i.toNat a (by rw [List.getElem?_eq_getElem hil, hf]) ha' c hc
  | false =>
    rw [if_neg (by simp), if_neg v1]
    obtain ⟨st', h1, h2, h3⟩ := visitLat_spec s w a v2 v3 p.1 p.2 b.1 P { st with asy := st.asy.set i.toNat true } h.1
    refine ⟨st', h1, ⟨h2, by rw [h3]; simpa using h.2.1, fun i' r' hi hr2 c hcc => ?_⟩, trivial⟩
    rw [keys_append]
    rw [h3] at hi
    dsimp only at hi
    by_cases hii : i.toNat = i'
    · subst hii
      rw [ha'] at hr2; cases hr2
      refine List.mem_append_right _ ?_
      rw [keys_lats s a _ _ 0 0 _ (0, 0)]
      exact hcc
    · rw [List.getElem?_set_ne hii] at hi
      exact List.mem_append_left _ (h.2.2 i' r' hi hr2 c hcc)

end Verif.OverlayGrid
