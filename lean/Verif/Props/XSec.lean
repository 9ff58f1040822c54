import Verif.Lemmas.XSec
import Mathlib.Topology.LocallyFinite
import Mathlib.Topology.Order.OrderClosed
import Mathlib.Tactic.FieldSimp
import Mathlib.Tactic.Positivity
import Mathlib.Tactic.NormNum

/-!
# C53 interpolation, C54 collapsing
-/

namespace Verif.Phys

/-! ### C53 -/

/-- A table of cross sections for increasing temperatures. -/
structure Table (n : Nat) (temps : List ℝ) (xs : List (XSec ℝ)) : Prop where
  len : temps.length = xs.length
  ne : temps ≠ []
  sorted : temps.Pairwise (· < ·)
  nonneg : ∀ t ∈ temps, 0 ≤ t
  wf : ∀ x ∈ xs, x.WF n

theorem upperLoop_spec (t : ℝ) (l : List ℝ) (i k : Nat) (t1 : ℝ) (hle : ∀ j, j ≤ k → ∀ x, l[j]? = some x → x ≤ t)
    (h1 : l[k + 1]? = some t1) (hlt : t < t1) : upperLoop t l i = some (i + k + 1) := by
  induction l generalizing i k with
  | nil => simp at h1
  | cons x l ih =>
    rw [upperLoop, if_pos (hle 0 (by omega) x rfl)]
    cases k with
    | zero =>
      cases l with
      | nil => simp at h1
      | cons y l =>
        simp at h1
        subst h1
        rw [upperLoop, if_neg (not_le.2 hlt)]
    | succ k =>
      rw [ih (i + 1) k (fun j hj y hy => hle (j + 1) (by omega) y (by simpa using hy)) (by simpa using h1)]
      congr 1
      omega

theorem sorted_lt {l : List ℝ} (h : l.Pairwise (· < ·)) {i j : Nat} {x y : ℝ} (hx : l[i]? = some x) (hy : l[j]? = some y)
    (hij : i < j) : x < y := by
  obtain ⟨hi, rfl⟩ := List.getElem?_eq_some_iff.1 hx
  obtain ⟨hj, rfl⟩ := List.getElem?_eq_some_iff.1 hy
  exact List.pairwise_iff_getElem.1 h i j hi hj hij

theorem sorted_le {l : List ℝ} (h : l.Pairwise (· < ·)) {i j : Nat} {x y : ℝ} (hx : l[i]? = some x) (hy : l[j]? = some y)
    (hij : i ≤ j) : x ≤ y := by
  rcases Nat.lt_or_eq_of_le hij with h1 | rfl
  · exact (sorted_lt h hx hy h1).le
  · rw [hx] at hy
    exact (Option.some.inj hy).le

/-- Between two neighbouring temperatures. -/
noncomputable def weight (t0 t1 t : ℝ) : ℝ := (√t - √t0) / (√t1 - √t0)

theorem zipWith_left {K : Type} (op : K → K → K) (l0 l1 : List K) (h : l0.length = l1.length) (hop : ∀ a b, op a b = a) :
    List.zipWith op l0 l1 = l0 := by
  induction l0 generalizing l1 with
  | nil => rfl
  | cons a l0 ih =>
    cases l1 with
    | nil => simp at h
    | cons b l1 => rw [List.zipWith_cons_cons, hop, ih l1 (by simpa using h)]

theorem zipWith_right {K : Type} (op : K → K → K) (l0 l1 : List K) (h : l0.length = l1.length) (hop : ∀ a b, op a b = b) :
    List.zipWith op l0 l1 = l1 := by
  induction l0 generalizing l1 with
  | nil =>
    cases l1 with
    | nil => rfl
    | cons b l1 => simp at h
  | cons a l0 ih =>
    cases l1 with
    | nil => simp at h
    | cons b l1 => rw [List.zipWith_cons_cons, hop, ih l1 (by simpa using h)]

theorem Table.length_eq {n : Nat} {temps : List ℝ} {xs : List (XSec ℝ)} (h : Table n temps xs) {k j : Nat}
    {x0 x1 : XSec ℝ} (hx0 : xs[k]? = some x0) (hx1 : xs[j]? = some x1) (rx : Rx) :
    (x0.get rx).length = (x1.get rx).length := by
  rw [(h.wf x0 (List.mem_of_getElem? hx0)).2, (h.wf x1 (List.mem_of_getElem? hx1)).2]

theorem interp_open {n : Nat} {temps : List ℝ} {xs : List (XSec ℝ)} (h : Table n temps xs) (k : Nat) (t0 t1 t : ℝ)
    (x0 x1 : XSec ℝ) (ht0 : temps[k]? = some t0) (ht1 : temps[k + 1]? = some t1) (hx0 : xs[k]? = some x0)
    (hx1 : xs[k + 1]? = some x1) (hl : t0 ≤ t) (hu : t < t1) :
    ∃ r, interpXS temps xs t = some r ∧ r.WF n ∧ r.macro_ = x0.macro_ ∧ r.fissile = x0.fissile ∧
      ∀ rx, r.get rx = List.zipWith (fun v0 v1 => v0 + weight t0 t1 t * (v1 - v0)) (x0.get rx) (x1.get rx) := by
  have hk1 := (List.getElem?_eq_some_iff.1 ht1).1
  have hw0 := h.wf x0 (List.mem_of_getElem? hx0)
  have hw1 := h.wf x1 (List.mem_of_getElem? hx1)
  unfold interpXS
  rw [if_neg (by omega)]
  have hfirst : temps[0]? = some (temps[0]'(by omega)) := List.getElem?_eq_getElem _
  rw [hfirst]
  simp only [Option.bind_eq_bind, Option.bind_some]
  split_ifs with hc
  · -- t = temps[0], k = 0
    have hk : k = 0 := by
      by_contra hk
      have := sorted_lt h.sorted hfirst ht0 (by omega)
      linarith
    subst hk
    have e : t0 = temps[0]'(by omega) := by rw [hfirst] at ht0; exact (Option.some.inj ht0).symm
    have hz : weight t0 t1 t = 0 := by
      unfold weight
      rw [show t = t0 by linarith, sub_self, zero_div]
    refine ⟨x0, hx0, hw0, rfl, rfl, fun rx => ?_⟩
    rw [zipWith_left _ _ _ (h.length_eq hx0 hx1 rx)]
    intro a b
    rw [hz]
    ring
  · have hlast : temps.getLast? = some (temps[temps.length - 1]'(by omega)) := by
      rw [List.getLast?_eq_getElem?, List.getElem?_eq_getElem]
    rw [hlast]
    simp only [Option.bind_some]
    have hlast' : temps[temps.length - 1]? = some (temps[temps.length - 1]'(by omega)) := List.getElem?_eq_getElem _
    have := sorted_le h.sorted ht1 hlast' (by omega)
    rw [if_neg (by linarith), upperLoop_spec t temps 0 k t1 (fun j hj x hx => (sorted_le h.sorted hx ht0 hj).trans hl) ht1 hu]
    simp only [Option.bind_some, Nat.zero_add]
    rw [if_neg (by omega), Nat.add_sub_cancel, ht0, ht1, hx0, hx1]
    simp only [Option.bind_some]
    rw [hw0.1]
    obtain ⟨r, r1, r2, r3, r4, r5⟩ := combine_spec
      (fun v0 v1 => v0 + (√t - √t0) / (√t1 - √t0) * (v1 - v0)) n x0.macro_ x0.fissile x0 x1 hw0 hw1
    exact ⟨r, r1, r4, r2, r3, r5⟩

/-- At a tabulated temperature the tabulated cross section is returned. -/
theorem C53_tabulated {n : Nat} {temps : List ℝ} {xs : List (XSec ℝ)} (h : Table n temps xs) (k : Nat) (t : ℝ) (x : XSec ℝ)
    (ht : temps[k]? = some t) (hx : xs[k]? = some x) : interpXS temps xs t = some x := by
  have hk := (List.getElem?_eq_some_iff.1 ht).1
  by_cases hlast : k + 1 < temps.length
  · have hxl : k + 1 < xs.length := by rw [← h.len]; exact hlast
    obtain ⟨r, r1, r2, r3, r4, r5⟩ := interp_open h k t temps[k + 1] t x xs[k + 1] ht (List.getElem?_eq_getElem _) hx
      (List.getElem?_eq_getElem _) le_rfl (sorted_lt h.sorted ht (List.getElem?_eq_getElem _) (by omega))
    rw [r1]
    congr 1
    refine XSec.ext' r3 r4 (by rw [r2.1, (h.wf x (List.mem_of_getElem? hx)).1]) fun rx => ?_
    rw [r5, zipWith_left _ _ _ (h.length_eq hx (List.getElem?_eq_getElem hxl) rx)]
    intro a b
    unfold weight
    rw [sub_self, zero_div]
    ring
  · have hk' : k = temps.length - 1 := by omega
    unfold interpXS
    split_ifs with h1
    · have : k = 0 := by omega
      subst this
      exact hx
    · have hfirst : temps[0]? = some (temps[0]'(by omega)) := List.getElem?_eq_getElem _
      rw [hfirst]
      simp only [Option.bind_eq_bind, Option.bind_some]
      have := sorted_lt h.sorted hfirst ht (by omega)
      rw [if_neg (by linarith), List.getLast?_eq_getElem?, ← hk', ht]
      simp only [Option.bind_some]
      rw [if_pos le_rfl, List.getLast?_eq_getElem?, ← h.len, ← hk', hx]

/-- Below the table. -/
theorem C53_below (temps : List ℝ) (xs : List (XSec ℝ)) (t0 t : ℝ)
    (ht : temps.head? = some t0) (hle : t ≤ t0) : interpXS temps xs t = xs.head? := by
  unfold interpXS
  rw [List.head?_eq_getElem?] at ht ⊢
  split_ifs with h1
  · rfl
  · rw [ht]
    simp only [Option.bind_eq_bind, Option.bind_some]
    rw [if_pos hle]

/-- Above the table. -/
theorem C53_above {n : Nat} {temps : List ℝ} {xs : List (XSec ℝ)} (h : Table n temps xs) (t1 t : ℝ)
    (ht : temps.getLast? = some t1) (hle : t1 ≤ t) : interpXS temps xs t = xs.getLast? := by
  have hpos := List.length_pos_iff.2 h.ne
  unfold interpXS
  split_ifs with h1
  · rw [List.getLast?_eq_getElem?, ← h.len, h1]
  · have hfirst : temps[0]? = some (temps[0]'(by omega)) := List.getElem?_eq_getElem _
    have hl : temps[temps.length - 1]? = some t1 := by rw [← List.getLast?_eq_getElem?]; exact ht
    have := sorted_lt h.sorted hfirst hl (by omega)
    rw [hfirst, ht]
    simp only [Option.bind_eq_bind, Option.bind_some]
    rw [if_neg (by linarith), if_pos hle]

/-- Between two neighbouring temperatures, both included, every value is linear in the square root of the
temperature. -/
theorem C53_linear {n : Nat} {temps : List ℝ} {xs : List (XSec ℝ)} (h : Table n temps xs) (k : Nat) (t0 t1 t : ℝ)
    (x0 x1 : XSec ℝ) (ht0 : temps[k]? = some t0) (ht1 : temps[k + 1]? = some t1) (hx0 : xs[k]? = some x0)
    (hx1 : xs[k + 1]? = some x1) (hl : t0 ≤ t) (hu : t ≤ t1) :
    ∃ r, interpXS temps xs t = some r ∧ r.WF n ∧
      ∀ rx, r.get rx = List.zipWith (fun v0 v1 => v0 + (√t - √t0) / (√t1 - √t0) * (v1 - v0)) (x0.get rx) (x1.get rx) := by
  rcases hu.lt_or_eq with hlt | rfl
  · obtain ⟨r, r1, r2, -, -, r5⟩ := interp_open h k t0 t1 t x0 x1 ht0 ht1 hx0 hx1 hl hlt
    exact ⟨r, r1, r2, r5⟩
  · refine ⟨x1, C53_tabulated h (k + 1) t x1 ht1 hx1, h.wf x1 (List.mem_of_getElem? hx1), fun rx => ?_⟩
    rw [zipWith_right _ _ _ (h.length_eq hx0 hx1 rx)]
    intro a b
    have h01 := sorted_lt h.sorted ht0 ht1 (by omega)
    have hs : √t0 < √t := Real.sqrt_lt_sqrt (h.nonneg t0 (List.mem_of_getElem? ht0)) h01
    rw [div_self (by linarith)]
    ring

/-- The values lie between those of the two neighbours. -/
theorem C53_between {n : Nat} {temps : List ℝ} {xs : List (XSec ℝ)} (h : Table n temps xs) (k : Nat) (t0 t1 t : ℝ)
    (x0 x1 : XSec ℝ) (ht0 : temps[k]? = some t0) (ht1 : temps[k + 1]? = some t1) (hx0 : xs[k]? = some x0)
    (hx1 : xs[k + 1]? = some x1) (hl : t0 ≤ t) (hu : t ≤ t1) :
    ∃ r, interpXS temps xs t = some r ∧ ∀ (rx : Rx) (i : Nat) (v0 v1 : ℝ), (x0.get rx)[i]? = some v0 → (x1.get rx)[i]? = some v1 →
      ∃ v, (r.get rx)[i]? = some v ∧ min v0 v1 ≤ v ∧ v ≤ max v0 v1 := by
  obtain ⟨r, r1, -, r3⟩ := C53_linear h k t0 t1 t x0 x1 ht0 ht1 hx0 hx1 hl hu
  refine ⟨r, r1, fun rx i v0 v1 h0 h1 => ?_⟩
  refine ⟨v0 + (√t - √t0) / (√t1 - √t0) * (v1 - v0), by rw [r3, List.getElem?_zipWith, h0, h1], ?_⟩
  have h01 := sorted_lt h.sorted ht0 ht1 (by omega)
  have hs : √t0 < √t1 := Real.sqrt_lt_sqrt (h.nonneg t0 (List.mem_of_getElem? ht0)) h01
  have hs0 : √t0 ≤ √t := Real.sqrt_le_sqrt hl
  have hs1 : √t ≤ √t1 := Real.sqrt_le_sqrt hu
  have hw0 : 0 ≤ (√t - √t0) / (√t1 - √t0) := div_nonneg (by linarith) (by linarith)
  have hw1 : (√t - √t0) / (√t1 - √t0) ≤ 1 := (div_le_one (by linarith)).2 (by linarith)
  generalize (√t - √t0) / (√t1 - √t0) = w at hw0 hw1
  rcases le_total v0 v1 with hv | hv
  · rw [min_eq_left hv, max_eq_right hv]
    constructor <;> nlinarith
  · rw [min_eq_right hv, max_eq_left hv]
    constructor <;> nlinarith

/-- One value of the interpolated cross section. -/
noncomputable def valueAt (temps : List ℝ) (xs : List (XSec ℝ)) (rx : Rx) (i : Nat) (t : ℝ) : ℝ :=
  match interpXS temps xs t with
  | some r => match (r.get rx)[i]? with
    | some v => v
    | none => 0
  | none => 0

/-- Every value is a continuous function of the temperature. -/
theorem C53_continuous {n : Nat} {temps : List ℝ} {xs : List (XSec ℝ)} (h : Table n temps xs) (rx : Rx) (i : Nat) :
    Continuous (valueAt temps xs rx i) := by
  have hpos := List.length_pos_iff.2 h.ne
  -- the closed pieces: below, above, and the intervals
  let piece : Option (Fin (temps.length - 1)) ⊕ Unit → Set ℝ := fun p => match p with
    | .inl none => Set.Iic (temps[0]'hpos)
    | .inr () => Set.Ici (temps[temps.length - 1]'(by omega))
    | .inl (some k) => Set.Icc (temps[(k : Nat)]'(by omega)) (temps[(k : Nat) + 1]'(by omega))
  refine LocallyFinite.continuous (f := piece) (locallyFinite_of_finite _) ?_ ?_ ?_
  · rw [Set.eq_univ_iff_forall]
    intro t
    rw [Set.mem_iUnion]
    by_cases h0 : t ≤ temps[0]
    · exact ⟨.inl none, h0⟩
    by_cases h1 : temps[temps.length - 1]'(by omega) ≤ t
    · exact ⟨.inr (), h1⟩
    -- the last k with temps[k] ≤ t
    have hex : ∃ k, k + 1 < temps.length ∧ ∃ (hk : k + 1 < temps.length), t ≤ temps[k + 1] := by
      refine ⟨temps.length - 2, ?_, ?_, ?_⟩
      · by_contra hc
        have : temps.length = 1 := by omega
        simp only [this] at h1
        exact h1 (not_le.1 h0).le
      · by_contra hc
        have : temps.length = 1 := by omega
        simp only [this] at h1
        exact h1 (not_le.1 h0).le
      · have e : temps.length - 2 + 1 = temps.length - 1 := by
          have : temps.length ≠ 1 := by
            intro hc
            simp only [hc] at h1
            exact h1 (not_le.1 h0).le
          omega
        simp only [e]
        exact (not_le.1 h1).le
    classical
    let k := Nat.find hex
    obtain ⟨hk1, hk2, hk3⟩ := Nat.find_spec hex
    refine ⟨.inl (some ⟨k, by omega⟩), ?_, hk3⟩
    by_contra hc
    rcases Nat.eq_zero_or_pos k with hk0 | hkp
    · apply hc
      have : temps[k]'(by omega) = temps[0] := by simp only [hk0]
      show temps[k]'_ ≤ t
      rw [this]
      exact (not_le.1 h0).le
    · have hmin := Nat.find_min hex (m := k - 1) (by omega)
      apply hmin
      refine ⟨by omega, by omega, ?_⟩
      have e : k - 1 + 1 = k := by omega
      simp only [e]
      exact (not_le.1 hc).le
  · rintro ((_ | k) | ⟨⟩)
    · exact isClosed_Iic
    · exact isClosed_Icc
    · exact isClosed_Ici
  · rintro ((_ | k) | ⟨⟩)
    · -- below
      have hval : ∀ t ∈ Set.Iic (temps[0]'hpos), valueAt temps xs rx i t = valueAt temps xs rx i temps[0] := by
        intro t ht
        have e0 : temps.head? = some temps[0] := by rw [List.head?_eq_getElem?, List.getElem?_eq_getElem]
        unfold valueAt
        rw [C53_below temps xs _ t e0 ht, C53_below temps xs _ _ e0 le_rfl]
      exact continuousOn_const.congr hval
    · -- interval
      have hk := k.2
      have ek : temps[(k : Nat)]? = some (temps[(k : Nat)]'(by omega)) := List.getElem?_eq_getElem _
      have ek1 : temps[(k : Nat) + 1]? = some (temps[(k : Nat) + 1]'(by omega)) := List.getElem?_eq_getElem _
      have ex : xs[(k : Nat)]? = some (xs[(k : Nat)]'(by rw [← h.len]; omega)) := List.getElem?_eq_getElem _
      have ex1 : xs[(k : Nat) + 1]? = some (xs[(k : Nat) + 1]'(by rw [← h.len]; omega)) := List.getElem?_eq_getElem _
      have hlin := fun t hl hu => C53_linear h (k : Nat) _ _ t _ _ ek ek1 ex ex1 hl hu
      show ContinuousOn (valueAt temps xs rx i) (Set.Icc (temps[(k : Nat)]'(by omega)) (temps[(k : Nat) + 1]'(by omega)))
      clear_value piece
      generalize temps[(k : Nat)]'(by omega) = t0 at *
      generalize temps[(k : Nat) + 1]'(by omega) = t1 at *
      generalize xs[(k : Nat)]'(by rw [← h.len]; omega) = x0 at *
      generalize xs[(k : Nat) + 1]'(by rw [← h.len]; omega) = x1 at *
      have hval : ∀ t ∈ Set.Icc t0 t1, valueAt temps xs rx i t =
          match (x0.get rx)[i]?, (x1.get rx)[i]? with
          | some v0, some v1 => v0 + (√t - √t0) / (√t1 - √t0) * (v1 - v0)
          | _, _ => 0 := by
        intro t ht
        obtain ⟨r, r1, -, r3⟩ := hlin t ht.1 ht.2
        unfold valueAt
        rw [r1]
        dsimp only
        rw [r3, List.getElem?_zipWith]
        cases (x0.get rx)[i]? <;> cases (x1.get rx)[i]? <;> rfl
      refine ContinuousOn.congr (Continuous.continuousOn ?_) hval
      cases (x0.get rx)[i]? <;> cases (x1.get rx)[i]? <;> dsimp only <;> try exact continuous_const
      exact continuous_const.add (((Real.continuous_sqrt.sub continuous_const).div_const _).mul continuous_const)
    · -- above
      have hval : ∀ t ∈ Set.Ici (temps[temps.length - 1]'(by omega)),
          valueAt temps xs rx i t = valueAt temps xs rx i (temps[temps.length - 1]'(by omega)) := by
        intro t ht
        have e0 : temps.getLast? = some (temps[temps.length - 1]'(by omega)) := by
          rw [List.getLast?_eq_getElem?, List.getElem?_eq_getElem]
        unfold valueAt
        rw [C53_above h _ t e0 ht, C53_above h _ _ e0 le_rfl]
      exact continuousOn_const.congr hval

/-! ### C54 -/

/-- The total scattering cross section of every group is the sum of its column of the scattering matrix. -/
def Balanced {K : Type} [AddCommMonoid K] (n : Nat) (x : XSec K) : Prop :=
  ∀ g < n, x.s[g]? = some ((List.range n).map fun i => (x.ssAt i g).getD 0).sum

/-- Every reaction is averaged over the groups; flags are kept. -/
theorem C54_average {K : Type} [Field K] (n : Nat) (hn : 0 < n) (x : XSec K) (hx : x.WF n) :
    ∃ r, collapse x = some r ∧ r.WF 1 ∧ r.macro_ = x.macro_ ∧ r.fissile = x.fissile ∧
      (∀ rx, rx ≠ .ss → r.get rx = [(x.get rx).sum / n]) ∧ r.ss = [(n : K) * (x.ss.sum / (n * n : Nat))] := by
  have hne : ∀ rx, x.get rx ≠ [] := by
    intro rx
    have := hx.2 rx
    rw [← List.length_pos_iff, this]
    cases rx <;> simp only [Rx.size] <;> first | exact hn | exact Nat.mul_pos hn hn
  have hm : ∀ rx, Stats.mean (x.get rx) = some ((x.get rx).sum / (Rx.size n rx : Nat)) := by
    intro rx
    rw [Stats.C18_mean _ (hne rx), hx.2 rx]
  refine ⟨⟨x.macro_, x.fissile, 1, [x.a.sum / n], [x.f.sum / n], [x.nuf.sum / n], [x.tr.sum / n], [x.s.sum / n],
    [(n : K) * (x.ss.sum / (n * n : Nat))]⟩, ?_, ⟨rfl, fun r => by cases r <;> rfl⟩, rfl, rfl, ?_, rfl⟩
  · unfold collapse
    have ha := hm .a
    have hf := hm .f
    have hnuf := hm .nuf
    have htr := hm .tr
    have hs := hm .s
    have hss := hm .ss
    simp only [XSec.get, Rx.size] at ha hf hnuf htr hs hss
    rw [ha, hf, hnuf, htr, hs, hss, hx.1]
    rfl
  · intro rx hrx
    cases rx <;> first | rfl | exact absurd rfl hrx

theorem sum_columns {K : Type} [AddCommMonoid K] (n m : Nat) (l : List K) (hl : l.length = m * n) :
    ((List.range m).map fun g => ((List.range n).map fun i => (l[g * n + i]?).getD 0).sum).sum = l.sum := by
  have h1 := flatMap_range m n (fun i => (l[i]?).getD 0)
  have h2 : (List.range (m * n)).map (fun i => (l[i]?).getD 0) = l := by
    apply List.ext_getElem
    · simp [hl]
    · intro i hi hi'
      simp [List.getElem?_eq_getElem hi']
  rw [h2] at h1
  conv_rhs => rw [← h1]
  rw [List.sum_flatten, List.map_map]
  rfl

/-- A balanced cross section collapses to a balanced one. -/
theorem C54_balance {K : Type} [Field K] [CharZero K] (n : Nat) (hn : 0 < n) (x : XSec K) (hx : x.WF n) (hb : Balanced n x) :
    ∃ r, collapse x = some r ∧ r.WF 1 ∧ Balanced 1 r ∧ r.s = r.ss := by
  obtain ⟨r, r1, r2, -, -, r5, r6⟩ := C54_average n hn x hx
  have hs : r.s = [x.s.sum / n] := r5 .s (by simp)
  have hsum : x.s.sum = x.ss.sum := by
    rw [← sum_columns n n x.ss (hx.2 .ss)]
    congr 1
    apply List.ext_getElem?
    intro g
    by_cases hg : g < n
    · rw [hb g hg, List.getElem?_map, List.getElem?_range hg]
      unfold XSec.ssAt
      rw [hx.1]
      rfl
    · have := hx.2 .s
      simp only [XSec.get, Rx.size] at this
      rw [List.getElem?_eq_none (by omega), List.getElem?_eq_none (by simp; omega)]
  have heq : r.s = r.ss := by
    rw [hs, r6, hsum]
    have : (n : K) ≠ 0 := by exact_mod_cast (by omega : n ≠ 0)
    congr 1
    push_cast
    field_simp
  refine ⟨r, r1, r2, ?_, heq⟩
  intro g hg
  have hg0 : g = 0 := by omega
  subst hg0
  unfold XSec.ssAt
  rw [heq, r6]
  simp

/-! ### Examples -/

/-- Two groups; group 0 scatters 3 within and 1 into group 1, group 1 scatters 2 within. -/
def demo : XSec ℚ := ⟨true, false, 2, [1, 2], [0, 0], [0, 0], [5, 4], [4, 2], [3, 1, 0, 2]⟩

example : demo.WF 2 := ⟨rfl, fun r => by cases r <;> rfl⟩
example : Balanced 2 demo := by
  intro g hg
  have : g = 0 ∨ g = 1 := by omega
  rcases this with rfl | rfl <;> (simp [demo, XSec.ssAt, List.range_succ]; try norm_num)
example : ∃ r, collapse demo = some r ∧ r.s = [3] ∧ r.ss = [3] := by
  obtain ⟨r, h1, -, -, -, h2, h3⟩ := C54_average 2 (by simp) demo ⟨rfl, fun r => by cases r <;> rfl⟩
  exact ⟨r, h1, by rw [show r.s = r.get .s from rfl, h2 .s (by simp)]; simp [demo, XSec.get]; norm_num,
    by rw [h3]; simp [demo]; norm_num⟩

def demo0 (v : ℝ) : XSec ℝ := ⟨false, false, 1, [v], [0], [0], [v], [v], [v]⟩

example : Table 1 [300, 600] [demo0 1, demo0 2] where
  len := rfl
  ne := by simp
  sorted := by simp; norm_num
  nonneg := by simp
  wf := by
    intro x hx
    simp at hx
    rcases hx with rfl | rfl <;> exact ⟨rfl, fun r => by cases r <;> rfl⟩

end Verif.Phys
