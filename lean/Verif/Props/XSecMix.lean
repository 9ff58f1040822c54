import Verif.Props.XSec

/-!
# C55 homogenisation, C71 macroscopic cross sections
-/

set_option linter.unusedSectionVars false

namespace Verif.Phys

variable {K : Type}

/-- One value of a cross section. -/
def XSec.val [Zero K] (x : XSec K) (rx : Rx) (i : Nat) : K := ((x.get rx)[i]?).getD 0

theorem combine_val [Zero K] (op : K → K → K) (n : Nat) (m fis : Bool) (x y : XSec K) (hx : x.WF n) (hy : y.WF n) :
    ∃ r, combine op n m fis x y = some r ∧ r.macro_ = m ∧ r.fissile = fis ∧ r.WF n ∧
      ∀ rx, ∀ i < Rx.size n rx, r.val rx i = op (x.val rx i) (y.val rx i) := by
  obtain ⟨r, h1, h2, h3, h4, h5⟩ := combine_spec op n m fis x y hx hy
  refine ⟨r, h1, h2, h3, h4, fun rx i hi => ?_⟩
  unfold XSec.val
  have hx' := hx.2 rx
  have hy' := hy.2 rx
  rw [h5, List.getElem?_zipWith, List.getElem?_eq_getElem (l := x.get rx) (by omega),
    List.getElem?_eq_getElem (l := y.get rx) (by omega)]
  rfl

theorem zero_val [Zero K] (n : Nat) (rx : Rx) (i : Nat) : (XSec.zero n : XSec K).val rx i = 0 := by
  unfold XSec.val
  rw [zero_get, List.getElem?_replicate]
  split_ifs <;> rfl

theorem get_eq_of_val [Zero K] {n : Nat} {x y : XSec K} (hx : x.WF n) (hy : y.WF n) (rx : Rx)
    (h : ∀ i < Rx.size n rx, x.val rx i = y.val rx i) : x.get rx = y.get rx := by
  have hx' := hx.2 rx
  have hy' := hy.2 rx
  apply List.ext_getElem (by omega)
  intro i hi hi'
  have := h i (by omega)
  unfold XSec.val at this
  rw [List.getElem?_eq_getElem hi, List.getElem?_eq_getElem hi'] at this
  exact this

/-- Balance in terms of single values. -/
theorem balanced_iff [AddCommMonoid K] {n : Nat} {x : XSec K} (hx : x.WF n) :
    Balanced n x ↔ ∀ g < n, x.val .s g = ((List.range n).map fun i => x.val .ss (g * n + i)).sum := by
  unfold Balanced
  refine forall₂_congr fun g hg => ?_
  have hl := hx.2 .s
  simp only [XSec.get, Rx.size] at hl
  unfold XSec.val XSec.ssAt
  rw [hx.1]
  simp only [XSec.get]
  rw [List.getElem?_eq_getElem (by omega), Option.some.injEq, Option.getD_some]

/-! ### C55 -/

section mix
variable [Field K] [LinearOrder K]

/-- `Σ aᵢ vᵢ`. -/
def dot (as vs : List K) : K := (List.zipWith (· * ·) as vs).sum

theorem dot_cons (a v : K) (as vs : List K) : dot (a :: as) (v :: vs) = a * v + dot as vs := by simp [dot]

theorem dot_set (as vs : List K) (j : Nat) (x a v : K) (hx : as[j]? = some x) (hv : vs[j]? = some v) :
    dot (as.set j (x + a)) vs = dot as vs + a * v := by
  induction as generalizing j vs with
  | nil => simp at hx
  | cons b as ih =>
    cases vs with
    | nil => simp at hv
    | cons w vs =>
      cases j with
      | zero =>
        simp at hx hv
        subst hx hv
        rw [List.set_cons_zero, dot_cons, dot_cons]
        ring
      | succ j =>
        simp at hx hv
        rw [List.set_cons_succ, dot_cons, dot_cons, ih vs j hx hv]
        ring

theorem areas_spec (faces : List (K × Nat)) (as : List K) (vs : List K) (hl : as.length = vs.length)
    (hf : ∀ f ∈ faces, f.2 < vs.length) :
    ∃ as', faces.foldlM areaStep as = some as' ∧ as'.length = vs.length ∧
      dot as' vs = dot as vs + (faces.map fun f => f.1 * (vs[f.2]?).getD 0).sum := by
  induction faces generalizing as with
  | nil => exact ⟨as, rfl, hl, by simp⟩
  | cons f faces ih =>
    have h1 := hf f (by simp)
    have hx : as[f.2]? = some (as[f.2]'(by omega)) := List.getElem?_eq_getElem _
    have hv : vs[f.2]? = some (vs[f.2]'(by omega)) := List.getElem?_eq_getElem _
    have hs : areaStep as f = some (as.set f.2 (as[f.2]'(by omega) + f.1)) := by
      unfold areaStep
      rw [hx]
      rfl
    obtain ⟨as', g1, g2, g3⟩ := ih (as.set f.2 (as[f.2]'(by omega) + f.1)) (by simpa using hl) fun x hx => hf x (by simp [hx])
    refine ⟨as', ?_, g2, ?_⟩
    · rw [List.foldlM_cons, hs]
      exact g1
    · rw [g3, dot_set as vs f.2 _ _ _ hx hv, List.map_cons, List.sum_cons, hv]
      simp only [Option.getD_some]
      ring

theorem mix_spec (n : Nat) (as : List K) (mats : List (XSec K)) (hl : as.length = mats.length) (hm : ∀ m ∈ mats, m.WF n)
    (acc : XSec K) (ha : acc.WF n) :
    ∃ r, (as.zip mats).foldlM mixStep acc = some r ∧ r.WF n ∧
      ∀ rx, ∀ i < Rx.size n rx, r.val rx i = acc.val rx i + dot as (mats.map fun m => m.val rx i) := by
  induction as generalizing mats acc with
  | nil =>
    have e : mats = [] := List.eq_nil_of_length_eq_zero (by simpa using hl.symm)
    subst e
    exact ⟨acc, rfl, ha, fun rx i _ => by simp [dot]⟩
  | cons a as ih =>
    cases mats with
    | nil => simp at hl
    | cons m mats =>
      obtain ⟨acc', h1, h2, h3⟩ : ∃ acc', mixStep acc (a, m) = some acc' ∧ acc'.WF n ∧
          ∀ rx, ∀ i < Rx.size n rx, acc'.val rx i = acc.val rx i + a * m.val rx i := by
        unfold mixStep
        dsimp only
        split_ifs with h0
        · exact ⟨acc, rfl, ha, fun rx i _ => by rw [h0]; ring⟩
        · rw [ha.1]
          obtain ⟨r, r1, -, -, r4, r5⟩ := combine_val (fun r v => r + a * v) n acc.macro_ acc.fissile acc m ha (hm m (by simp))
          exact ⟨r, r1, r4, r5⟩
      obtain ⟨r, g1, g2, g3⟩ := ih mats (by simpa using hl) (fun x hx => hm x (by simp [hx])) acc' h2
      refine ⟨r, ?_, g2, fun rx i hi => ?_⟩
      · rw [List.zip_cons_cons, List.foldlM_cons, h1]
        exact g1
      · rw [g3 rx i hi, h3 rx i hi, List.map_cons, dot_cons]
        ring

/-- A face and the cross section of its material. -/
def matVal (mats : List (XSec K)) (rx : Rx) (i : Nat) (f : K × Nat) : K :=
  match mats[f.2]? with
  | some m => m.val rx i
  | none => 0

theorem matVal_eq (mats : List (XSec K)) (rx : Rx) (i : Nat) (f : K × Nat) :
    ((mats.map fun m => m.val rx i)[f.2]?).getD 0 = matVal mats rx i f := by
  unfold matVal
  rw [List.getElem?_map]
  cases mats[f.2]? <;> rfl

/-- Every value is the mean over the faces, weighted by their areas. -/
theorem C55_mean (n : Nat) (faces : List (K × Nat)) (mats : List (XSec K)) (hm : ∀ m ∈ mats, m.WF n) (hne : mats ≠ [])
    (hf : ∀ f ∈ faces, f.2 < mats.length) (htot : (faces.map (·.1)).sum ≠ 0) :
    ∃ r, homogenize faces mats = some r ∧ r.WF n ∧ r.macro_ = true ∧ (r.fissile = true ↔ ∃ v ∈ r.f, 0 < v) ∧
      ∀ rx, ∀ i < Rx.size n rx,
        r.val rx i = (faces.map fun f => f.1 * matVal mats rx i f).sum / (faces.map (·.1)).sum := by
  obtain ⟨m0, ms, rfl⟩ := List.exists_cons_of_ne_nil hne
  obtain ⟨as, h1, h2, h3⟩ := areas_spec faces (List.replicate (m0 :: ms).length 0) (List.replicate (m0 :: ms).length 1)
    (by simp) (by simpa using hf)
  have hdot1 : ∀ l : List K, dot l (List.replicate l.length 1) = l.sum := by
    intro l
    induction l with
    | nil => rfl
    | cons a l ih => rw [List.length_cons, List.replicate_succ, dot_cons, ih, List.sum_cons, mul_one]
  have hdot0 : ∀ (k : Nat) (vs : List K), dot (List.replicate k 0) vs = 0 := by
    intro k vs
    induction k generalizing vs with
    | zero => simp [dot]
    | succ k ih =>
      cases vs with
      | nil => simp [dot]
      | cons v vs => rw [List.replicate_succ, dot_cons, ih, zero_mul, zero_add]
  have h2' : as.length = (m0 :: ms).length := by simpa using h2
  have hsum : as.sum = (faces.map (·.1)).sum := by
    rw [← h2', hdot1, hdot0, zero_add] at h3
    rw [h3]
    congr 1
    apply List.map_congr_left
    intro f hff
    have := hf f hff
    rw [List.getElem?_replicate, if_pos (by rw [h2']; exact this)]
    simp
  obtain ⟨acc, g1, g2, g3⟩ := mix_spec n as (m0 :: ms) h2' hm (XSec.zero n) (zero_WF n)
  have hm0 := hm m0 (by simp)
  have hasne : as ≠ [] := by
    intro e
    rw [e] at h2'
    simp at h2'
  obtain ⟨r, r1, r2, r3, r4, r5⟩ := combine_val (fun v _ => v * (1 / as.sum)) n true false acc acc g2 g2
  refine ⟨{ r with fissile := r.f.any fun v => decide (0 < v) }, ?_, ?_, ?_, ?_, ?_⟩
  · unfold homogenize
    rw [h1]
    simp only [List.getElem?_cons_zero, Option.bind_eq_bind, Option.bind_some]
    rw [hm0.1, g1, Stats.C18_sum, if_neg hasne]
    simp only [Option.bind_some]
    rw [hsum, if_neg htot, ← hsum, g2.1, r1]
    rfl
  · exact ⟨r4.1, fun rx => by have := r4.2 rx; cases rx <;> exact this⟩
  · exact r2
  · simp
  · intro rx i hi
    have e1 : XSec.val { r with fissile := r.f.any fun v => decide (0 < v) } rx i = r.val rx i := by
      cases rx <;> rfl
    rw [e1, r5 rx i hi, g3 rx i hi, zero_val, zero_add, hsum, mul_one_div]
    congr 1
    obtain ⟨as2, k1, -, k3⟩ := areas_spec faces (List.replicate (m0 :: ms).length 0) ((m0 :: ms).map fun m => m.val rx i)
      (by simp) (by simpa using hf)
    rw [h1, Option.some.injEq] at k1
    subst k1
    rw [k3, hdot0, zero_add]
    congr 1
    apply List.map_congr_left
    intro f _
    rw [matVal_eq]

variable [IsStrictOrderedRing K]

theorem weighted_bounds (faces : List (K × Nat)) (v : K × Nat → K) (lo hi : K) (ha : ∀ f ∈ faces, 0 ≤ f.1)
    (hv : ∀ f ∈ faces, lo ≤ v f ∧ v f ≤ hi) :
    lo * (faces.map (·.1)).sum ≤ (faces.map fun f => f.1 * v f).sum ∧
      (faces.map fun f => f.1 * v f).sum ≤ hi * (faces.map (·.1)).sum := by
  induction faces with
  | nil => simp
  | cons f faces ih =>
    obtain ⟨h1, h2⟩ := ih (fun x hx => ha x (by simp [hx])) fun x hx => hv x (by simp [hx])
    obtain ⟨h3, h4⟩ := hv f (by simp)
    have h5 := ha f (by simp)
    simp only [List.map_cons, List.sum_cons]
    constructor <;> nlinarith

/-- Bounds on the materials in the cell are bounds on the result. -/
theorem C55_bounds (n : Nat) (faces : List (K × Nat)) (mats : List (XSec K)) (hm : ∀ m ∈ mats, m.WF n) (hne : mats ≠ [])
    (hf : ∀ f ∈ faces, f.2 < mats.length) (ha : ∀ f ∈ faces, 0 < f.1) (hfaces : faces ≠ []) :
    ∃ r, homogenize faces mats = some r ∧ r.WF n ∧ ∀ rx, ∀ i < Rx.size n rx, ∀ lo hi : K,
      (∀ f ∈ faces, ∀ m, mats[f.2]? = some m → lo ≤ m.val rx i ∧ m.val rx i ≤ hi) → lo ≤ r.val rx i ∧ r.val rx i ≤ hi := by
  have htot : 0 < (faces.map (·.1)).sum := by
    clear hf
    obtain ⟨f, fs, rfl⟩ := List.exists_cons_of_ne_nil hfaces
    rw [List.map_cons, List.sum_cons]
    have h1 := ha f (by simp)
    have h2 : 0 ≤ (fs.map (·.1)).sum := List.sum_nonneg (by
      intro x hx
      obtain ⟨y, hy, rfl⟩ := List.mem_map.1 hx
      exact (ha y (by simp [hy])).le)
    linarith
  obtain ⟨r, r1, r2, -, -, r5⟩ := C55_mean n faces mats hm hne hf htot.ne'
  refine ⟨r, r1, r2, fun rx i hi lo hi' hb => ?_⟩
  obtain ⟨b1, b2⟩ := weighted_bounds faces (matVal mats rx i) lo hi' (fun f h => (ha f h).le) (by
    intro f h
    have hl := hf f h
    unfold matVal
    rw [List.getElem?_eq_getElem hl]
    exact hb f h _ (List.getElem?_eq_getElem hl))
  rw [r5 rx i hi]
  exact ⟨(le_div_iff₀ htot).2 b1, (div_le_iff₀ htot).2 b2⟩

/-- A cell of one material has the cross section of that material. -/
theorem C55_uniform (n : Nat) (faces : List (K × Nat)) (mats : List (XSec K)) (hm : ∀ m ∈ mats, m.WF n)
    (ha : ∀ f ∈ faces, 0 < f.1) (hfaces : faces ≠ []) (j : Nat) (m : XSec K) (hj : mats[j]? = some m)
    (hall : ∀ f ∈ faces, f.2 = j) :
    ∃ r, homogenize faces mats = some r ∧ ∀ rx, r.get rx = m.get rx := by
  have hjl := (List.getElem?_eq_some_iff.1 hj).1
  obtain ⟨r, r1, r2, r3⟩ := C55_bounds n faces mats hm (by rintro rfl; simp at hj) (fun f h => by rw [hall f h]; exact hjl) ha hfaces
  refine ⟨r, r1, fun rx => get_eq_of_val r2 (hm m (List.mem_of_getElem? hj)) rx fun i hi => ?_⟩
  obtain ⟨b1, b2⟩ := r3 rx i hi (m.val rx i) (m.val rx i) (by
    intro f h m' hm'
    rw [hall f h, hj, Option.some.injEq] at hm'
    subst hm'
    exact ⟨le_rfl, le_rfl⟩)
  exact le_antisymm b2 b1

theorem sum_comm_lists {α : Type} (n : Nat) (l : List α) (c : α → K) (v : α → Nat → K) :
    (l.map fun f => c f * ((List.range n).map fun i => v f i).sum).sum =
      ((List.range n).map fun i => (l.map fun f => c f * v f i).sum).sum := by
  induction l with
  | nil => simp
  | cons f l ih =>
    simp only [List.map_cons, List.sum_cons]
    rw [List.sum_map_add, ← ih, ← List.sum_map_mul_left]

/-- The scattering balance of the materials carries over. -/
theorem C55_balance (n : Nat) (faces : List (K × Nat)) (mats : List (XSec K)) (hm : ∀ m ∈ mats, m.WF n) (hne : mats ≠ [])
    (hf : ∀ f ∈ faces, f.2 < mats.length) (htot : (faces.map (·.1)).sum ≠ 0) (hb : ∀ m ∈ mats, Balanced n m) :
    ∃ r, homogenize faces mats = some r ∧ Balanced n r := by
  obtain ⟨r, r1, r2, -, -, r5⟩ := C55_mean n faces mats hm hne hf htot
  refine ⟨r, r1, (balanced_iff r2).2 fun g hg => ?_⟩
  have hidx : ∀ i ∈ List.range n, g * n + i < Rx.size n .ss := by
    intro i hi
    simp only [List.mem_range] at hi
    show g * n + i < n * n
    calc g * n + i < g * n + n := by omega
      _ = (g + 1) * n := by ring
      _ ≤ n * n := Nat.mul_le_mul_right n hg
  rw [r5 .s g hg, List.map_congr_left fun i hi => r5 .ss (g * n + i) (hidx i hi)]
  have : ∀ f ∈ faces, f.1 * matVal mats .s g f = f.1 * ((List.range n).map fun i => matVal mats .ss (g * n + i) f).sum := by
    intro f h
    have hl := hf f h
    unfold matVal
    rw [List.getElem?_eq_getElem hl]
    dsimp only
    rw [(balanced_iff (hm _ (List.getElem_mem hl))).1 (hb _ (List.getElem_mem hl)) g hg]
  rw [List.map_congr_left this, sum_comm_lists]
  simp only [div_eq_mul_inv]
  rw [List.sum_map_mul_right]

end mix

/-- Two materials with areas 1 and 3. -/
example : ∃ r : XSec ℚ, homogenize [(1, 0), (3, 1)] [demo, { demo with a := [5, 6] }] = some r ∧ r.a = [4, 5] := by
  have h0 : demo.WF 2 := ⟨rfl, fun r => by cases r <;> rfl⟩
  have h1 : ({ demo with a := [5, 6] } : XSec ℚ).WF 2 := ⟨rfl, fun r => by cases r <;> rfl⟩
  obtain ⟨r, r1, r2, -, -, r5⟩ := C55_mean 2 [(1, 0), (3, 1)] [demo, { demo with a := [5, 6] }] (by
    intro m hm
    simp at hm
    rcases hm with rfl | rfl
    · exact h0
    · exact h1) (by simp) (by simp) (by norm_num)
  refine ⟨r, r1, ?_⟩
  have hl := r2.2 .a
  have v0 := r5 .a 0 (by simp [Rx.size])
  have v1 := r5 .a 1 (by simp [Rx.size])
  simp only [XSec.get, Rx.size] at hl
  obtain ⟨x, y, hxy⟩ := List.length_eq_two.1 hl
  simp [XSec.val, XSec.get, hxy, matVal, demo] at v0 v1
  rw [hxy, v0, v1]
  norm_num

/-! ### C71 -/

/-- The nuclides of the library are tables with `n` groups and different ZAIDs. -/
structure Library (n : Nat) (lib : List Nuc) : Prop where
  table : ∀ nuc ∈ lib, Table n nuc.temps nuc.xs
  distinct : (lib.map (·.zaid)).Nodup

theorem interp_some {n : Nat} {temps : List ℝ} {xs : List (XSec ℝ)} (h : Table n temps xs) (t : ℝ) :
    ∃ r, interpXS temps xs t = some r ∧ r.WF n := by
  have hpos := List.length_pos_iff.2 h.ne
  have hxpos : 0 < xs.length := by rw [← h.len]; exact hpos
  by_cases h0 : t ≤ temps[0]
  · rw [C53_below temps xs _ t (by rw [List.head?_eq_getElem?, List.getElem?_eq_getElem hpos]) h0, List.head?_eq_getElem?,
      List.getElem?_eq_getElem hxpos]
    exact ⟨_, rfl, h.wf _ (List.getElem_mem _)⟩
  by_cases h1 : temps[temps.length - 1]'(by omega) ≤ t
  · rw [C53_above h _ t (by rw [List.getLast?_eq_getElem?, List.getElem?_eq_getElem (by omega)]) h1, List.getLast?_eq_getElem?,
      List.getElem?_eq_getElem (by omega)]
    exact ⟨_, rfl, h.wf _ (List.getElem_mem _)⟩
  -- in between
  classical
  have hex : ∃ k, k < temps.length ∧ ∃ (hk : k < temps.length), t < temps[k] :=
    ⟨temps.length - 1, by omega, by omega, not_le.1 h1⟩
  obtain ⟨hk1, hk2, hk3⟩ := Nat.find_spec hex
  have hkne : Nat.find hex ≠ 0 := by
    intro e
    have : temps[Nat.find hex]'hk2 = temps[0] := by simp only [e]
    rw [this] at hk3
    exact h0 hk3.le
  have hmin := Nat.find_min hex (m := Nat.find hex - 1) (by omega)
  have hle : temps[Nat.find hex - 1]'(by omega) ≤ t := by
    by_contra hc
    exact hmin ⟨by omega, by omega, not_le.1 hc⟩
  obtain ⟨r, r1, r2, -⟩ := interp_open h (Nat.find hex - 1) _ (temps[Nat.find hex]'hk2) t (xs[Nat.find hex - 1]'(by rw [← h.len]; omega))
    (xs[Nat.find hex]'(by rw [← h.len]; omega)) (List.getElem?_eq_getElem _)
    (by rw [show Nat.find hex - 1 + 1 = Nat.find hex by omega]; exact List.getElem?_eq_getElem _) (List.getElem?_eq_getElem _)
    (by rw [show Nat.find hex - 1 + 1 = Nat.find hex by omega]; exact List.getElem?_eq_getElem _) hle hk3
  exact ⟨r, r1, r2⟩

/-- The number density and the microscopic cross section, at the temperature of the material, of each nuclide of a
material. -/
def Micro (lib : List Nuc) (T : ℝ) (zn : ℤ × ℝ) (nx : ℝ × XSec ℝ) : Prop :=
  nx.1 = zn.2 ∧ ∃ nuc ∈ lib, nuc.zaid = zn.1 ∧ interpXS nuc.temps nuc.xs T = some nx.2

theorem getNuclide_mem {n : Nat} {lib : List Nuc} (hl : Library n lib) (nuc : Nuc) (h : nuc ∈ lib) : getNuclide lib nuc.zaid = some nuc := by
  have hd := hl.distinct
  clear hl
  unfold getNuclide
  have : lib.find? (fun n => n.zaid == nuc.zaid) = some nuc := by
    induction lib with
    | nil => simp at h
    | cons a lib ih =>
      rw [List.map_cons, List.nodup_cons] at hd
      rcases List.mem_cons.1 h with rfl | h'
      · simp
      · have hne : a.zaid ≠ nuc.zaid := fun e => hd.1 (by rw [e]; exact List.mem_map_of_mem h')
        rw [List.find?_cons_of_neg (by simpa using hne), ih h' hd.2]
  rw [this]

/-- A material whose nuclides are all in the library: every value is the sum of the microscopic values times the
number densities; the material is fissile when one of its nuclides is. -/
theorem C71_sum (n : Nat) (lib : List Nuc) (hl : Library n lib) (T : ℝ) (comp : List (ℤ × ℝ))
    (hc : ∀ zn ∈ comp, ∃ nuc ∈ lib, nuc.zaid = zn.1) :
    ∃ r micros, populateXSec n lib T comp = some r ∧ List.Forall₂ (Micro lib T) comp micros ∧ r.WF n ∧ r.macro_ = true ∧
      (r.fissile = true ↔ ∃ nx ∈ micros, nx.2.fissile = true) ∧
      (∀ nx ∈ micros, nx.2.WF n) ∧
      ∀ rx, ∀ i < Rx.size n rx, r.val rx i = (micros.map fun nx => nx.1 * nx.2.val rx i).sum := by
  have key : ∀ (comp : List (ℤ × ℝ)) (acc : XSec ℝ), acc.WF n → (∀ zn ∈ comp, ∃ nuc ∈ lib, nuc.zaid = zn.1) →
      ∃ r micros, comp.foldlM (populateStep lib T) acc = some r ∧ List.Forall₂ (Micro lib T) comp micros ∧ r.WF n ∧
        r.macro_ = acc.macro_ ∧ (r.fissile = true ↔ acc.fissile = true ∨ ∃ nx ∈ micros, nx.2.fissile = true) ∧
        (∀ nx ∈ micros, nx.2.WF n) ∧
        ∀ rx, ∀ i < Rx.size n rx, r.val rx i = acc.val rx i + (micros.map fun nx => nx.1 * nx.2.val rx i).sum := by
    intro comp
    induction comp with
    | nil => intro acc ha _; exact ⟨acc, [], rfl, .nil, ha, rfl, by simp, by simp, by simp⟩
    | cons zn comp ih =>
      intro acc ha hc
      obtain ⟨nuc, hn1, hn2⟩ := hc zn (by simp)
      obtain ⟨x, hx1, hx2⟩ := interp_some (hl.table nuc hn1) T
      obtain ⟨acc', a1, a2, a3, a4, a5⟩ := combine_val (fun r v => r + v * zn.2) n acc.macro_ (x.fissile || acc.fissile) acc x ha hx2
      obtain ⟨r, micros, r1, r2, r3, r4, r5, r6, r7⟩ := ih acc' a4 fun z hz => hc z (by simp [hz])
      refine ⟨r, (zn.2, x) :: micros, ?_, .cons ⟨rfl, nuc, hn1, hn2, hx1⟩ r2, r3, by rw [r4, a2], ?_, ?_, ?_⟩
      · have hstep : populateStep lib T acc zn = some acc' := by
          unfold populateStep
          rw [← hn2, getNuclide_mem hl nuc hn1]
          simp only [Option.bind_eq_bind, Option.bind_some]
          rw [hx1]
          simp only [Option.bind_some]
          rw [ha.1, a1]
        rw [List.foldlM_cons, hstep]
        exact r1
      · rw [r5, a3]
        simp
        tauto
      · intro nx hnx
        rcases List.mem_cons.1 hnx with rfl | hnx
        · exact hx2
        · exact r6 nx hnx
      · intro rx i hi
        rw [r7 rx i hi, a5 rx i hi, List.map_cons, List.sum_cons]
        ring
  obtain ⟨r, micros, r1, r2, r3, r4, r5, r6, r7⟩ := key comp { (XSec.zero n : XSec ℝ) with macro_ := true }
    ⟨rfl, fun rx => by have := (zero_WF (K := ℝ) n).2 rx; cases rx <;> exact this⟩ hc
  refine ⟨r, micros, r1, r2, r3, r4, by rw [r5]; simp [XSec.zero], r6, fun rx i hi => ?_⟩
  rw [r7 rx i hi]
  have : XSec.val { (XSec.zero n : XSec ℝ) with macro_ := true } rx i = 0 := by
    have := zero_val (K := ℝ) n rx i
    cases rx <;> exact this
  rw [this, zero_add]

/-- Interpolation keeps the scattering balance. -/
theorem C71_interp_balance {n : Nat} {temps : List ℝ} {xs : List (XSec ℝ)} (h : Table n temps xs) (t : ℝ)
    (hb : ∀ x ∈ xs, Balanced n x) : ∃ r, interpXS temps xs t = some r ∧ Balanced n r := by
  have hpos := List.length_pos_iff.2 h.ne
  have hxpos : 0 < xs.length := by rw [← h.len]; exact hpos
  by_cases h0 : t ≤ temps[0]
  · rw [C53_below temps xs _ t (by rw [List.head?_eq_getElem?, List.getElem?_eq_getElem hpos]) h0, List.head?_eq_getElem?,
      List.getElem?_eq_getElem hxpos]
    exact ⟨_, rfl, hb _ (List.getElem_mem _)⟩
  by_cases h1 : temps[temps.length - 1]'(by omega) ≤ t
  · rw [C53_above h _ t (by rw [List.getLast?_eq_getElem?, List.getElem?_eq_getElem (by omega)]) h1, List.getLast?_eq_getElem?,
      List.getElem?_eq_getElem (by omega)]
    exact ⟨_, rfl, hb _ (List.getElem_mem _)⟩
  classical
  have hex : ∃ k, k < temps.length ∧ ∃ (hk : k < temps.length), t < temps[k] :=
    ⟨temps.length - 1, by omega, by omega, not_le.1 h1⟩
  obtain ⟨hk1, hk2, hk3⟩ := Nat.find_spec hex
  have hkne : Nat.find hex ≠ 0 := by
    intro e
    have : temps[Nat.find hex]'hk2 = temps[0] := by simp only [e]
    rw [this] at hk3
    exact h0 hk3.le
  have hmin := Nat.find_min hex (m := Nat.find hex - 1) (by omega)
  have hle : temps[Nat.find hex - 1]'(by omega) ≤ t := by
    by_contra hc
    exact hmin ⟨by omega, by omega, not_le.1 hc⟩
  have hl := h.len
  have m0 : xs[Nat.find hex - 1]'(by omega) ∈ xs := List.getElem_mem _
  have m1 : xs[Nat.find hex]'(by omega) ∈ xs := List.getElem_mem _
  obtain ⟨r, r1, r2, -, -, r5⟩ := interp_open h (Nat.find hex - 1) _ (temps[Nat.find hex]'hk2) t (xs[Nat.find hex - 1]'(by omega))
    (xs[Nat.find hex]'(by omega)) (List.getElem?_eq_getElem _)
    (by rw [show Nat.find hex - 1 + 1 = Nat.find hex by omega]; exact List.getElem?_eq_getElem _) (List.getElem?_eq_getElem _)
    (by rw [show Nat.find hex - 1 + 1 = Nat.find hex by omega]; exact List.getElem?_eq_getElem _) hle hk3
  generalize weight _ _ t = w at r5
  generalize xs[Nat.find hex - 1]'(by omega) = x0 at *
  generalize xs[Nat.find hex]'(by omega) = x1 at *
  refine ⟨r, r1, (balanced_iff r2).2 fun g hg => ?_⟩
  have hval : ∀ rx, ∀ i < Rx.size n rx, r.val rx i = x0.val rx i + w * (x1.val rx i - x0.val rx i) := by
    intro rx i hi
    have l0 := (h.wf x0 m0).2 rx
    have l1 := (h.wf x1 m1).2 rx
    unfold XSec.val
    rw [r5, List.getElem?_zipWith, List.getElem?_eq_getElem (l := x0.get rx) (by omega),
      List.getElem?_eq_getElem (l := x1.get rx) (by omega)]
    rfl
  have hidx : ∀ i ∈ List.range n, g * n + i < Rx.size n .ss := by
    intro i hi
    simp only [List.mem_range] at hi
    show g * n + i < n * n
    calc g * n + i < g * n + n := by omega
      _ = (g + 1) * n := by ring
      _ ≤ n * n := Nat.mul_le_mul_right n hg
  rw [hval .s g hg, List.map_congr_left fun i hi => hval .ss (g * n + i) (hidx i hi),
    (balanced_iff (h.wf x0 m0)).1 (hb x0 m0) g hg, (balanced_iff (h.wf x1 m1)).1 (hb x1 m1) g hg]
  generalize List.range n = l
  induction l with
  | nil => simp
  | cons i l ih => simp only [List.map_cons, List.sum_cons]; linarith

theorem forall₂_right {α β : Type} {R : α → β → Prop} {l : List α} {l' : List β} (h : List.Forall₂ R l l') (b : β) (hb : b ∈ l') :
    ∃ a ∈ l, R a b := by
  induction h with
  | nil => simp at hb
  | @cons a b' l l' h1 _ ih =>
    rcases List.mem_cons.1 hb with rfl | hb
    · exact ⟨a, by simp, h1⟩
    · obtain ⟨x, hx, hr⟩ := ih hb
      exact ⟨x, by simp [hx], hr⟩

/-- The scattering balance of the library carries over to the material. -/
theorem C71_balance (n : Nat) (lib : List Nuc) (hl : Library n lib) (T : ℝ) (comp : List (ℤ × ℝ))
    (hc : ∀ zn ∈ comp, ∃ nuc ∈ lib, nuc.zaid = zn.1) (hb : ∀ nuc ∈ lib, ∀ x ∈ nuc.xs, Balanced n x) :
    ∃ r, populateXSec n lib T comp = some r ∧ Balanced n r := by
  obtain ⟨r, micros, r1, r2, r3, -, -, r6, r7⟩ := C71_sum n lib hl T comp hc
  refine ⟨r, r1, (balanced_iff r3).2 fun g hg => ?_⟩
  have hidx : ∀ i ∈ List.range n, g * n + i < Rx.size n .ss := by
    intro i hi
    simp only [List.mem_range] at hi
    show g * n + i < n * n
    calc g * n + i < g * n + n := by omega
      _ = (g + 1) * n := by ring
      _ ≤ n * n := Nat.mul_le_mul_right n hg
  have hbal : ∀ nx ∈ micros, Balanced n nx.2 := by
    intro nx hnx
    obtain ⟨zn, -, hmic⟩ := forall₂_right r2 nx hnx
    obtain ⟨-, nuc, h1, -, h3⟩ := hmic
    obtain ⟨x, k1, k2⟩ := C71_interp_balance (hl.table nuc h1) T (hb nuc h1)
    rw [h3, Option.some.injEq] at k1
    rw [k1]
    exact k2
  rw [r7 .s g hg, List.map_congr_left fun i hi => r7 .ss (g * n + i) (hidx i hi), ← sum_comm_lists]
  congr 1
  apply List.map_congr_left
  intro nx hnx
  rw [(balanced_iff (r6 nx hnx)).1 (hbal nx hnx) g hg]

/-- A nuclide that is not in the library is replaced by the first nuclide of the library (an error is logged). -/
theorem C71_unknown_fails (lib : List Nuc) (T : ℝ) (acc : XSec ℝ) (zaid : ℤ) (N : ℝ) (h : ∀ nuc ∈ lib, nuc.zaid ≠ zaid)
    (nuc0 : Nuc) (h0 : lib.head? = some nuc0) :
    populateStep lib T acc (zaid, N) = populateStep [nuc0] T acc (nuc0.zaid, N) := by
  have e1 : getNuclide lib zaid = some nuc0 := by
    unfold getNuclide
    rw [List.find?_eq_none.2 (by simpa using h)]
    rw [← List.head?_eq_getElem?]
    exact h0
  have e2 : getNuclide [nuc0] nuc0.zaid = some nuc0 := by simp [getNuclide]
  unfold populateStep
  dsimp only
  rw [e1, e2]

example : Library 1 [⟨92235, [300, 600], [demo0 1, demo0 2]⟩, ⟨8016, [300], [demo0 3]⟩] where
  table := by
    intro nuc hnuc
    simp at hnuc
    have hw : ∀ v, (demo0 v).WF 1 := fun v => ⟨rfl, fun r => by cases r <;> rfl⟩
    rcases hnuc with rfl | rfl
    · exact ⟨rfl, by simp, by simp; norm_num, by simp, by simp [hw]⟩
    · exact ⟨rfl, by simp, by simp, by simp, by simp [hw]⟩
  distinct := by simp

end Verif.Phys
