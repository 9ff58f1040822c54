import Verif.Lemmas.PinArea
import Verif.Props.RectPin
import Mathlib.Data.List.GetD
import Mathlib.Algebra.BigOperators.Field
import Mathlib.Analysis.Real.Pi.Bounds

/-!
# C61: cylindrical pin meshes preserve areas

Over the real numbers.  The areas are those of the polygons (shoelace formula) and, for quadratic meshes, those that
`area` computes for quadratic quadrilaterals (`Geom.quad8Area`), which C68 shows to be the area enclosed by the curved
edges.

The theorems are about the mesh computed with the tolerance `epsDistance` equal to zero; `C61_tolerance` shows that any
tolerance below a positive bound gives the same mesh.
-/

namespace Verif.PropsPinArea

open Verif Verif.Pin Verif.PinTopo Verif.PinArea Verif.PropsRectPin

/-- The area of a quadratic quadrilateral; `none` if a vertex does not exist. -/
def faceArea8 {K : Type} [Field K] [LinearOrder K] (mesh : Mesh K) (f : List Nat) : Option K :=
  match f.map fun v => mesh.verts[v]? with
  | [some a, some b, some c, some d, some ab, some bc, some cd, some da] =>
    some (Geom.quad8Area ![pt a, pt b, pt c, pt d, pt ab, pt bc, pt cd, pt da])
  | _ => none

/-- The radius inside region `i`: that of the previous region, zero for the first. -/
def innerRadius (radii : List ℝ) (i : Nat) : ℝ := (0 :: radii).getD i 0

/-! ## Requested areas -/

theorem regionAreas_get (eps : ℝ) (radii : List ℝ) (i : Nat) (r : ℝ) (hr : radii[i]? = some r) :
    (regionAreas (realLibm eps) radii none)[i]? = some (Real.pi * (r ^ 2 - innerRadius radii i ^ 2)) := by
  have key : ∀ (radii : List ℝ) (p : ℝ) (i : Nat) (r : ℝ), radii[i]? = some r →
      (regionAreas (realLibm eps) radii (some p))[i]? = some (Real.pi * (r ^ 2 - ((p :: radii).getD i 0) ^ 2)) := by
    intro radii
    induction radii with
    | nil => intro p i r h; simp at h
    | cons x xs ih =>
      intro p i r h
      cases i with
      | zero =>
        simp only [List.getElem?_cons_zero, Option.some.injEq] at h
        subst h
        simp only [regionAreas, List.getElem?_cons_zero, List.getD_cons_zero, realLibm, Option.some.injEq]
        ring
      | succ i =>
        simp only [List.getElem?_cons_succ] at h
        simp only [regionAreas, List.getElem?_cons_succ, List.getD_cons_succ]
        exact ih x i r h
  cases radii with
  | nil => simp at hr
  | cons x xs =>
    cases i with
    | zero =>
      simp only [List.getElem?_cons_zero, Option.some.injEq] at hr
      subst hr
      simp only [regionAreas, List.getElem?_cons_zero, innerRadius, List.getD_cons_zero, realLibm, Option.some.injEq]
      ring
    | succ i =>
      simp only [List.getElem?_cons_succ] at hr
      simp only [regionAreas, List.getElem?_cons_succ, innerRadius, List.getD_cons_succ]
      exact key xs x i r hr

theorem ringAreas_get (areas : List ℝ) (rings : List Nat) (i t n : Nat) (A : ℝ) (hA : areas[i]? = some A) (hn : rings[i]? = some n) (ht : t < n) :
    (ringAreas areas rings)[(rings.take i).sum + t]? = some (A / n) := by
  unfold ringAreas
  induction i generalizing areas rings with
  | zero =>
    cases areas with
    | nil => simp at hA
    | cons x xs =>
      cases rings with
      | nil => simp at hn
      | cons m ms =>
        simp only [List.getElem?_cons_zero, Option.some.injEq] at hA hn
        subst hA hn
        rw [List.zip_cons_cons, List.flatMap_cons, List.getElem?_append_left (by simpa using ht)]
        simp [ht]
  | succ i ih =>
    cases areas with
    | nil => simp at hA
    | cons x xs =>
      cases rings with
      | nil => simp at hn
      | cons m ms =>
        simp only [List.getElem?_cons_succ] at hA hn
        rw [List.zip_cons_cons, List.flatMap_cons, List.take_succ_cons, List.sum_cons, Nat.add_assoc, append_at (by simp)]
        exact ih xs ms hA hn

theorem regionAreas_nonneg (eps : ℝ) (radii : List ℝ) (hpos : ∀ r ∈ radii, 0 < r) (hinc : radii.Pairwise (· ≤ ·)) :
    ∀ a ∈ regionAreas (realLibm eps) radii none, 0 ≤ a := by
  intro a ha
  obtain ⟨i, hi⟩ := List.mem_iff_getElem?.1 ha
  have hlt : i < radii.length := by
    have := (List.getElem?_eq_some_iff.1 hi).1
    rwa [PropsPinTopo.regionAreas_length] at this
  have hr : radii[i]? = some radii[i] := List.getElem?_eq_getElem hlt
  rw [regionAreas_get eps radii i _ hr, Option.some.injEq] at hi
  rw [← hi]
  have hge : innerRadius radii i ≤ radii[i] ∧ 0 ≤ innerRadius radii i := by
    unfold innerRadius
    cases i with
    | zero => exact ⟨(hpos _ (List.getElem_mem _)).le, le_refl _⟩
    | succ i =>
      rw [List.getD_cons_succ, List.getD_eq_getElem _ _ (by omega)]
      exact ⟨List.pairwise_iff_getElem.1 hinc i (i + 1) (by omega) hlt (by omega), (hpos _ (List.getElem_mem _)).le⟩
  have := Real.pi_pos
  have : innerRadius radii i ^ 2 ≤ radii[i] ^ 2 := pow_le_pow_left₀ hge.2 hge.1 2
  exact mul_nonneg (by positivity) (by linarith)

theorem ringAreas_nonneg (areas : List ℝ) (rings : List Nat) (h : ∀ a ∈ areas, 0 ≤ a) : ∀ a ∈ ringAreas areas rings, 0 ≤ a := by
  intro a ha
  unfold ringAreas at ha
  obtain ⟨p, hp, ha⟩ := List.mem_flatMap.1 ha
  rw [List.eq_of_mem_replicate ha]
  have := h p.1 (List.of_mem_zip hp).1
  positivity

/-! ## Faces in order -/

/-- All faces. -/
def pfList (na nr : Nat) : List PF :=
  ((List.range (na / 2)).flatMap fun i => [PF.even i, PF.odd i]) ++ (List.range nr).flatMap fun r => (List.range na).map fun a => PF.ring r a

theorem map_flatMap' {α β γ : Type} (f : β → γ) (g : α → List β) (l : List α) : (l.flatMap g).map f = l.flatMap fun x => (g x).map f := by
  induction l with
  | nil => rfl
  | cons x l ih => rw [List.flatMap_cons, List.map_append, ih, List.flatMap_cons]

theorem flatMap_congr' {α β : Type} {f g : α → List β} {l : List α} (h : ∀ x ∈ l, f x = g x) : l.flatMap f = l.flatMap g := by
  induction l with
  | nil => rfl
  | cons x l ih => rw [List.flatMap_cons, List.flatMap_cons, h x (by simp), ih fun y hy => h y (by simp [hy])]

theorem faces1_eq {na nr : Nat} (h2 : na % 2 = 0) : faces1 na nr = (pfList na nr).map fun f => (corners na f).map (enc1 na) := by
  unfold faces1 pfList triFaces1
  rw [List.map_append, map_flatMap', map_flatMap']
  congr 1
  · refine flatMap_congr' fun i _ => ?_
    exact tri1_eq h2
  · refine flatMap_congr' fun r _ => ?_
    unfold ringFaces1
    rw [List.map_map]
    exact List.map_congr_left fun a ha => ring1_eq (List.mem_range.1 ha)

theorem faces2_eq {na nr : Nat} (h2 : na % 2 = 0) : faces2 na nr = (pfList na nr).map fun f => (corners na f ++ mids na f).map (enc2 na) := by
  unfold faces2 pfList triFaces2
  rw [List.map_append, map_flatMap', map_flatMap']
  congr 1
  · refine flatMap_congr' fun i _ => ?_
    exact tri2_eq h2
  · refine flatMap_congr' fun r _ => ?_
    unfold ringFaces2
    rw [List.map_map]
    exact List.map_congr_left fun a ha => ring2_eq (List.mem_range.1 ha)

theorem pfList_ok {na nr : Nat} (h2 : na % 2 = 0) : ∀ f ∈ pfList na nr, f.ok na nr := by
  intro f hf
  unfold pfList at hf
  rw [List.mem_append, List.mem_flatMap, List.mem_flatMap] at hf
  rcases hf with ⟨i, hi, hf⟩ | ⟨r, hr, hf⟩
  · rw [List.mem_range] at hi
    simp only [List.mem_cons, List.not_mem_nil, or_false] at hf
    rcases hf with rfl | rfl <;> simp only [PF.ok] <;> omega
  · obtain ⟨a, ha, rfl⟩ := List.mem_map.1 hf
    exact ⟨List.mem_range.1 hr, List.mem_range.1 ha⟩

/-- The area of a face, from the areas `W r a` between the centre and arc `a` of ring `r`. -/
def faceW (W : Nat → Nat → ℝ) : PF → ℝ
  | .even i => W 0 (2 * i)
  | .odd i => W 0 (2 * i + 1)
  | .ring r a => W (r + 1) a - W r a

theorem sum_list_range (f : Nat → ℝ) (n : Nat) : ((List.range n).map f).sum = ∑ a ∈ Finset.range n, f a := by
  induction n with
  | zero => simp
  | succ n ih => rw [List.range_succ, List.map_append, List.sum_append, ih, Finset.sum_range_succ]; simp

theorem sum_pairs (f : Nat → ℝ) (n : Nat) : ∑ i ∈ Finset.range n, (f (2 * i) + f (2 * i + 1)) = ∑ a ∈ Finset.range (2 * n), f a := by
  induction n with
  | zero => simp
  | succ n ih => rw [Finset.sum_range_succ, ih, show 2 * (n + 1) = 2 * n + 1 + 1 by omega, Finset.sum_range_succ, Finset.sum_range_succ]; ring

theorem sum_flatMap (f : Nat → List ℝ) (n : Nat) : ((List.range n).flatMap f).sum = ∑ i ∈ Finset.range n, (f i).sum := by
  induction n with
  | zero => simp
  | succ n ih => rw [List.range_succ, List.flatMap_append, List.sum_append, ih, Finset.sum_range_succ]; simp

/-- All faces together have the area inside the outermost points. -/
theorem sum_faceW {na nr : Nat} (h2 : na % 2 = 0) (W : Nat → Nat → ℝ) : ((pfList na nr).map (faceW W)).sum = ∑ a ∈ Finset.range na, W nr a := by
  unfold pfList
  rw [List.map_append, List.sum_append, map_flatMap', map_flatMap', sum_flatMap, sum_flatMap]
  have e1 : ∑ i ∈ Finset.range (na / 2), (List.map (faceW W) [PF.even i, PF.odd i]).sum = ∑ a ∈ Finset.range na, W 0 a := by
    rw [show na = 2 * (na / 2) by omega, ← sum_pairs, Nat.mul_div_cancel_left _ (by norm_num)]
    refine Finset.sum_congr rfl fun i _ => ?_
    simp [faceW]
  have e2 : ∑ r ∈ Finset.range nr, (List.map (faceW W) ((List.range na).map fun a => PF.ring r a)).sum =
      ∑ r ∈ Finset.range nr, ((∑ a ∈ Finset.range na, W (r + 1) a) - ∑ a ∈ Finset.range na, W r a) := by
    refine Finset.sum_congr rfl fun r _ => ?_
    rw [List.map_map, sum_list_range, ← Finset.sum_sub_distrib]
    rfl
  rw [e1, e2, Finset.sum_range_sub (fun r => ∑ a ∈ Finset.range na, W r a)]
  ring

theorem mapM_area {α : Type} (g : List Nat → Option ℝ) (v : α → List Nat) (w : α → ℝ) (l : List α) (h : ∀ f ∈ l, g (v f) = some (w f)) :
    (l.map v).mapM g = some (l.map w) := by
  induction l with
  | nil => rfl
  | cons x l ih =>
    rw [List.map_cons, List.mapM_cons, h x (by simp), ih fun y hy => h y (by simp [hy])]
    rfl

/-- The faces of block `k` are those between rings `k - 1` and `k`. -/
theorem faceW_pos {na nr k a : Nat} (h2 : na % 2 = 0) (W : Nat → Nat → ℝ) {f : PF} (hf : f.ok na nr) (ha : a < na) (hp : k * na + a = f.pos na) :
    faceW W f = W k a - (if k = 0 then 0 else W (k - 1) a) := by
  cases f with
  | even i =>
    simp only [PF.pos, PF.ok] at hp hf
    have : k = 0 := by
      by_contra hk
      have : 1 * na ≤ k * na := Nat.mul_le_mul_right _ (by omega)
      omega
    subst this
    simp only [faceW, if_true, sub_zero]
    congr 1; omega
  | odd i =>
    simp only [PF.pos, PF.ok] at hp hf
    have : k = 0 := by
      by_contra hk
      have : 1 * na ≤ k * na := Nat.mul_le_mul_right _ (by omega)
      omega
    subst this
    simp only [faceW, if_true, sub_zero]
    congr 1; omega
  | ring r b =>
    simp only [PF.pos] at hp
    have := block_inj (n := na) (r := k) (a := a) (r' := r + 1) (a' := b) ha hf.2 (by rw [Nat.mul_comm na k, Nat.mul_comm na (r + 1), Nat.succ_mul]; omega)
    obtain ⟨rfl, rfl⟩ := this
    simp [faceW]

/-! ## Angles -/

theorem snap_zero (x : ℝ) : snap (realLibm 0) x = x := by
  unfold snap
  rw [if_neg]
  exact not_lt.2 (abs_nonneg x)

theorem snapTrig_zero (x : ℝ) : snapTrig (realLibm 0) x = (Real.cos x, Real.sin x) := by
  unfold snapTrig
  rw [snap_zero, snap_zero]
  rfl

theorem shift_zero (pitch : ℝ) : shift (realLibm 0) pitch = tr (pitch / 2) := by
  funext p
  unfold shift tr
  rw [snap_zero, snap_zero]

section
variable {t : ℝ} {n : Nat} (hn : t * n = 2 * Real.pi)
include hn

theorem cos_nxt {a : Nat} : Real.cos (t * (nxt n a : ℕ)) = Real.cos (t * (a + 1 : ℕ)) := by
  rcases nxt_or n a with h | h
  · rw [h.2, h.1, hn]; simp
  · rw [h.2]

theorem sin_nxt {a : Nat} : Real.sin (t * (nxt n a : ℕ)) = Real.sin (t * (a + 1 : ℕ)) := by
  rcases nxt_or n a with h | h
  · rw [h.2, h.1, hn]; simp
  · rw [h.2]

theorem rbd_nxt {p : ℝ} {a : Nat} : rbd p (t * (nxt n a : ℕ)) = rbd p (t * (a + 1 : ℕ)) := by
  unfold rbd
  rw [cos_nxt hn, sin_nxt hn]

theorem cross_nxt {a : Nat} : Real.sin (t * (nxt n a : ℕ)) * Real.cos (t * a) - Real.cos (t * (nxt n a : ℕ)) * Real.sin (t * a) = Real.sin t := by
  rw [cos_nxt hn, sin_nxt hn, ← Real.sin_sub]
  congr 1
  push_cast
  ring

end

/-! ## Linear meshes -/

theorem faceArea_eq {mesh : Mesh ℝ} {x y z w : Nat} {a b c d : ℝ × ℝ} (ha : mesh.verts[x]? = some a) (hb : mesh.verts[y]? = some b) (hc : mesh.verts[z]? = some c)
    (hd : mesh.verts[w]? = some d) : faceArea mesh [x, y, z, w] = some (shoe a b c d) := by
  unfold faceArea
  simp only [List.map_cons, List.map_nil, ha, hb, hc, hd]
  rfl

/-- The distance of the point of ring `r` on spoke `a` from the centre. -/
noncomputable def rad (pitch th : ℝ) (eq : List ℝ) (r a : Nat) : ℝ := if r < eq.length then eq.getD r 0 else rbd pitch (th * a)

section
variable {pitch : ℝ} {na : Nat} {eq : List ℝ}

theorem vert1_R (hp : 0 < pitch) {r a : Nat} (hr : r ≤ eq.length) (ha : a < na) :
    ((points1 (realLibm 0) na pitch eq).map (shift (realLibm 0) pitch))[enc1 na (.R r a)]? =
      some (tr (pitch / 2) (polar (rad pitch (theta (realLibm 0) na) eq r a) (Real.cos (theta (realLibm 0) na * a), Real.sin (theta (realLibm 0) na * a)))) := by
  rw [List.getElem?_map, shift_zero]
  unfold rad
  by_cases h : r < eq.length
  · rw [if_pos h, enc1, points1_R _ _ _ _ r a (eq.getD r 0) (by rw [List.getD_eq_getElem _ _ h, List.getElem?_eq_getElem h]) ha, snapTrig_zero]
    rfl
  · rw [if_neg h, enc1, show r = eq.length by omega, points1_bd _ _ _ _ a ha, snapTrig_zero, boundaryRadius_eq hp]
    rfl

theorem vert1_C : ((points1 (realLibm 0) na pitch eq).map (shift (realLibm 0) pitch))[enc1 na .C]? = some (tr (pitch / 2) (0, 0)) := by
  rw [List.getElem?_map, shift_zero]
  rfl

theorem vert1_T {i : Nat} (hi : i < na / 2) :
    ((points1 (realLibm 0) na pitch eq).map (shift (realLibm 0) pitch))[enc1 na (.T i)]? =
      some (tr (pitch / 2) (polar (eq.headD 0 / 2) (Real.cos (theta (realLibm 0) na * (2 * i + 1 : ℕ)), Real.sin (theta (realLibm 0) na * (2 * i + 1 : ℕ))))) := by
  rw [List.getElem?_map, shift_zero, enc1, points1_T _ _ _ _ i hi]
  push_cast
  rfl

/-- The area between the centre and the points of ring `r` on spokes `a` and `a + 1`. -/
noncomputable def W1 (pitch th : ℝ) (na : Nat) (eq : List ℝ) (r a : Nat) : ℝ := rad pitch th eq r a * rad pitch th eq r (nxt na a) * Real.sin th / 2

theorem face1_area (hp : 0 < pitch) (h2 : na % 2 = 0) (h8 : 8 ≤ na) (he : 0 < eq.length) {f : PF} (hf : f.ok na eq.length) (faces : List (List Nat)) :
    faceArea ⟨(points1 (realLibm 0) na pitch eq).map (shift (realLibm 0) pitch), faces⟩ ((corners na f).map (enc1 na)) =
      some (faceW (W1 pitch (theta (realLibm 0) na) na eq) f) := by
  have hn : theta (realLibm 0) na * na = 2 * Real.pi := by
    have : (na : ℝ) ≠ 0 := by exact_mod_cast (by omega : na ≠ 0)
    unfold theta
    change 2 * Real.pi / na * na = _
    field_simp
  cases f with
  | even i =>
    simp only [PF.ok] at hf
    simp only [corners, List.map_cons, List.map_nil]
    rw [faceArea_eq vert1_C (vert1_R hp (Nat.zero_le _) hf) (vert1_R hp (Nat.zero_le _) (by omega)) (vert1_T (by omega))]
    have e0 : ∀ c : ℝ × ℝ, ((0 : ℝ), (0 : ℝ)) = polar 0 c := fun c => by simp [polar]
    rw [e0, shoe_ring]
    have hx : nxt na (2 * i) = 2 * i + 1 := by rcases nxt_or na (2 * i) with h | h <;> omega
    have := cross_nxt hn (a := 2 * i)
    rw [hx] at this
    rw [this]
    simp only [faceW, W1, hx]
    congr 1
    ring
  | odd i =>
    simp only [PF.ok] at hf
    simp only [corners, List.map_cons, List.map_nil]
    rw [faceArea_eq vert1_C (vert1_T (by omega)) (vert1_R hp (Nat.zero_le _) (by omega)) (vert1_R hp (Nat.zero_le _) (nxt_lt (by omega))), shoe_odd, cross_nxt hn]
    rfl
  | ring r a =>
    obtain ⟨hr, ha⟩ := hf
    simp only [corners, List.map_cons, List.map_nil]
    rw [faceArea_eq (vert1_R hp (by omega) ha) (vert1_R hp hr ha) (vert1_R hp hr (nxt_lt ha)) (vert1_R hp (by omega) (nxt_lt ha)), shoe_ring, cross_nxt hn]
    simp only [faceW, W1]
    congr 1
    ring

end

/-- What an accepted call computes. -/
theorem mesh1_data {eps pitch : ℝ} {radii : List ℝ} {rings : List ℤ} {na : ℤ} {mesh : Mesh ℝ} (h : cylindricalMesh (realLibm eps) pitch radii rings na 1 = some (some mesh)) :
    radii.length = rings.length ∧ 8 ≤ na.toNat ∧ na.toNat % 8 = 0 ∧ (∀ r ∈ radii, r ≤ pitch / 2) ∧ (0 < rings.headD 0) ∧ (∀ n ∈ rings, 0 ≤ n) ∧
    mesh = ⟨(points1 (realLibm eps) na.toNat pitch (eqRadii1 (realLibm eps) na.toNat (ringAreas (regionAreas (realLibm eps) radii none) (rings.map Int.toNat)))).map
      (shift (realLibm eps) pitch), faces1 na.toNat (rings.map Int.toNat).sum⟩ := by
  unfold cylindricalMesh at h
  rw [if_neg (by decide)] at h
  split at h
  · simp at h
  rename_i hna
  split at h
  · simp at h
  rename_i hpow
  split at h
  · simp at h
  rename_i hlen
  split at h
  · simp at h
  rename_i hrad
  split at h
  · simp at h
  rename_i hring
  dsimp only at h
  rw [if_pos rfl] at h
  split at h
  · simp at h
  split at h
  · simp at h
  cases h
  refine ⟨not_not.1 hlen, by omega, eight_dvd (by omega) (not_not.1 hpow), ?_, ?_, ?_, rfl⟩
  · intro r hr
    simp only [List.any_eq_true, decide_eq_true_eq, not_exists, not_and, not_lt] at hrad
    exact hrad r hr
  · push Not at hring
    exact hring.1
  · intro n hn
    push Not at hring
    have := hring.2
    simp only [Bool.not_eq_true, List.any_eq_false, decide_eq_true_eq, not_lt] at this
    exact this n hn

theorem sin_theta_pos {na : Nat} (h8 : 8 ≤ na) (eps : ℝ) : 0 < Real.sin (theta (realLibm eps) na) := by
  have hn : (8 : ℝ) ≤ na := by exact_mod_cast h8
  have hpi := Real.pi_pos
  apply Real.sin_pos_of_pos_of_lt_pi
  · unfold theta; change 0 < 2 * Real.pi / na; positivity
  · unfold theta; change 2 * Real.pi / na < Real.pi
    rw [div_lt_iff₀ (by linarith)]
    nlinarith

theorem pitch_pos {pitch : ℝ} {radii : List ℝ} {rings : List ℤ} (hpos : ∀ r ∈ radii, 0 < r) (hle : ∀ r ∈ radii, r ≤ pitch / 2) (hlen : radii.length = rings.length)
    (hring : 0 < rings.headD 0) : 0 < pitch := by
  cases rings with
  | nil => simp at hring
  | cons n ns =>
    cases radii with
    | nil => simp at hlen
    | cons r rs =>
      have := hpos r (by simp)
      have := hle r (by simp)
      linarith

theorem sum_pos {rings : List ℤ} (hring : 0 < rings.headD 0) : 0 < (rings.map Int.toNat).sum := by
  cases rings with
  | nil => simp at hring
  | cons n ns =>
    simp only [List.headD_cons] at hring
    rw [List.map_cons, List.sum_cons]
    omega

theorem take_lt {rings : List Nat} {i n t : Nat} (hn : rings[i]? = some n) (ht : t < n) : (rings.take i).sum + t < rings.sum := by
  have hlt := (List.getElem?_eq_some_iff.1 hn).1
  have h1 : rings.sum = (rings.take i).sum + (rings.drop i).sum := by rw [← List.sum_append, List.take_append_drop]
  rw [List.drop_eq_getElem_cons hlt, List.sum_cons] at h1
  have := (List.getElem?_eq_some_iff.1 hn).2
  omega

/-- **C61**, linear meshes: ring `t` of region `i` has `na` faces, each with the `na`-th part of the area of the ring; and that is the area of the
region divided by its number of rings. -/
theorem C61_linear_rings (pitch : ℝ) (radii : List ℝ) (rings : List ℤ) (numAzi : ℤ) (mesh : Mesh ℝ) (hpos : ∀ r ∈ radii, 0 < r) (hinc : radii.Pairwise (· ≤ ·))
    (h : cylindricalMesh (realLibm 0) pitch radii rings numAzi 1 = some (some mesh)) (i t a : Nat) (r : ℝ) (n : ℤ) (hr : radii[i]? = some r) (hn : rings[i]? = some n)
    (ht : (t : ℤ) < n) (ha : (a : ℤ) < numAzi) :
    ∃ f, mesh.faces[(((rings.take i).map Int.toNat).sum + t) * numAzi.toNat + a]? = some f ∧
      faceArea mesh f = some (Real.pi * (r ^ 2 - innerRadius radii i ^ 2) / n / numAzi) := by
  obtain ⟨hlen, h8, hd, hle, hring, hnn, rfl⟩ := mesh1_data h
  have h2 : numAzi.toNat % 2 = 0 := by omega
  have hp := pitch_pos hpos hle hlen hring
  have hcast : ((numAzi.toNat : ℕ) : ℝ) = (numAzi : ℝ) := by rw [← Int.cast_natCast, show (numAzi.toNat : ℤ) = numAzi by omega]
  have ha' : a < numAzi.toNat := by omega
  have hn' : (rings.map Int.toNat)[i]? = some n.toNat := by rw [List.getElem?_map, hn]; rfl
  have hk := take_lt hn' (show t < n.toNat by omega)
  have hA := ringAreas_get _ _ i t n.toNat _ (regionAreas_get 0 radii i r hr) hn' (show t < n.toNat by omega)
  rw [← List.map_take] at hk hA
  have hnc : ((n.toNat : ℕ) : ℝ) = (n : ℝ) := by rw [← Int.cast_natCast, show (n.toNat : ℤ) = n by omega]
  rw [hnc] at hA
  set k := ((rings.take i).map Int.toNat).sum + t with hkdef
  set areas := ringAreas (regionAreas (realLibm 0) radii none) (rings.map Int.toNat) with hareas
  have hal : areas.length = (rings.map Int.toNat).sum := PropsPinTopo.ringAreas_length _ _ (by rw [PropsPinTopo.regionAreas_length, List.length_map]; exact hlen)
  have hel : (eqRadii1 (realLibm 0) numAzi.toNat areas).length = (rings.map Int.toNat).sum := by rw [PropsPinTopo.eqRadii1_length, hal]
  rw [← hel]
  rw [← hel] at hk
  set eq := eqRadii1 (realLibm 0) numAzi.toNat areas with heq
  generalize hna : numAzi.toNat = na at *
  have hfl : (faces1 na eq.length).length = (eq.length + 1) * na := Mpact.faces1_length _ _ h2
  have hlt : k * na + a < (faces1 na eq.length).length := by
    rw [hfl]
    have : (k + 1) * na ≤ (eq.length + 1) * na := Nat.mul_le_mul_right _ (by omega)
    rw [Nat.succ_mul] at this
    omega
  refine ⟨_, List.getElem?_eq_getElem hlt, ?_⟩
  obtain ⟨f, hf, hpos', hF⟩ := faces1_get h2 _ _ (List.getElem?_eq_getElem hlt)
  rw [hF, face1_area hp h2 h8 (by omega) hf, faceW_pos h2 _ hf ha' hpos', ← hcast]
  congr 1
  have hnonneg : ∀ x ∈ areas, 0 ≤ x := ringAreas_nonneg _ (rings.map Int.toNat) (regionAreas_nonneg 0 radii hpos hinc)
  obtain ⟨e0, A, h0, hA', hE⟩ := eqRadii1_spec hnonneg (sin_theta_pos h8 0) (show 0 < na by omega) k eq[k] (by rw [← heq]; exact List.getElem?_eq_getElem hk)
  rw [hA, Option.some.injEq] at hA'
  rw [← hA'] at hE
  rw [← hE]
  have r1 : ∀ b, rad pitch (theta (realLibm 0) na) eq k b = eq[k] := by
    intro b; unfold rad; rw [if_pos hk, List.getD_eq_getElem _ _ hk]
  unfold W1
  rw [r1, r1]
  by_cases hk0 : k = 0
  · rw [if_pos hk0]
    rw [hk0] at h0
    simp only [List.getElem?_cons_zero, Option.some.injEq] at h0
    rw [← h0]
    ring
  · rw [if_neg hk0]
    obtain ⟨k', hk'⟩ := Nat.exists_eq_succ_of_ne_zero hk0
    have r0 : ∀ b, rad pitch (theta (realLibm 0) na) eq (k - 1) b = e0 := by
      intro b; unfold rad
      rw [if_pos (by omega), List.getD_eq_getElem?_getD]
      rw [hk', List.getElem?_cons_succ] at h0
      rw [show k - 1 = k' by omega, heq, h0]
      rfl
    rw [r0, r0]
    ring

/-- **C61**, linear meshes: all faces together have the area of the square of the pitch. -/
theorem C61_linear_total (pitch : ℝ) (radii : List ℝ) (rings : List ℤ) (numAzi : ℤ) (mesh : Mesh ℝ) (hpos : ∀ r ∈ radii, 0 < r)
    (h : cylindricalMesh (realLibm 0) pitch radii rings numAzi 1 = some (some mesh)) :
    ∃ as : List ℝ, mesh.faces.mapM (faceArea mesh) = some as ∧ as.sum = pitch ^ 2 := by
  obtain ⟨hlen, h8, hd, hle, hring, hnn, rfl⟩ := mesh1_data h
  have h2 : numAzi.toNat % 2 = 0 := by omega
  have hp := pitch_pos hpos hle hlen hring
  set areas := ringAreas (regionAreas (realLibm 0) radii none) (rings.map Int.toNat) with hareas
  have hal : areas.length = (rings.map Int.toNat).sum := PropsPinTopo.ringAreas_length _ _ (by rw [PropsPinTopo.regionAreas_length, List.length_map]; exact hlen)
  have hel : (eqRadii1 (realLibm 0) numAzi.toNat areas).length = (rings.map Int.toNat).sum := by rw [PropsPinTopo.eqRadii1_length, hal]
  have hsp := sum_pos hring
  rw [← hel] at hsp ⊢
  generalize eqRadii1 (realLibm 0) numAzi.toNat areas = eq at *
  generalize numAzi.toNat = na at *
  refine ⟨_, by
    dsimp only
    rw [faces1_eq h2]
    exact mapM_area _ _ (faceW (W1 pitch (theta (realLibm 0) na) na eq)) _ fun f hf => face1_area hp h2 h8 hsp (pfList_ok h2 f hf) _, ?_⟩
  rw [sum_faceW h2]
  have hna0 : (na : ℝ) ≠ 0 := by exact_mod_cast (by omega : na ≠ 0)
  have hn : theta (realLibm 0) na * na = 2 * Real.pi := by
    unfold theta
    change 2 * Real.pi / na * na = _
    field_simp
  have hW : ∀ a ∈ Finset.range na, W1 pitch (theta (realLibm 0) na) na eq eq.length a = wedge pitch (theta (realLibm 0) na) a / 2 := by
    intro a _
    unfold W1 wedge rad
    rw [if_neg (by omega), if_neg (by omega), rbd_nxt hn]
  have hq : theta (realLibm 0) na * (na / 8 : ℕ) = Real.pi / 4 := by
    have : ((na / 8 : ℕ) : ℝ) * 8 = na := by exact_mod_cast (show na / 8 * 8 = na by omega)
    rw [← this] at hn
    linear_combination hn / 8
  have hs := wedge_sum pitch (theta (realLibm 0) na) (na / 8) (by omega) hq
  rw [show 8 * (na / 8) = na by omega] at hs
  rw [Finset.sum_congr rfl hW, ← Finset.sum_div, hs]
  ring

/-! ## Quadratic meshes -/

theorem faceArea8_eq {mesh : Mesh ℝ} {x0 x1 x2 x3 x4 x5 x6 x7 : Nat} {a b c d ab bc cd da : ℝ × ℝ} (h0 : mesh.verts[x0]? = some a) (h1 : mesh.verts[x1]? = some b)
    (h2 : mesh.verts[x2]? = some c) (h3 : mesh.verts[x3]? = some d) (h4 : mesh.verts[x4]? = some ab) (h5 : mesh.verts[x5]? = some bc)
    (h6 : mesh.verts[x6]? = some cd) (h7 : mesh.verts[x7]? = some da) : faceArea8 mesh [x0, x1, x2, x3, x4, x5, x6, x7] = some (area8 a b c d ab bc cd da) := by
  unfold faceArea8
  simp only [List.map_cons, List.map_nil, h0, h1, h2, h3, h4, h5, h6, h7]
  rfl

/-- The distance of point `s` of ring `r` from the centre. -/
noncomputable def rad2 (pitch g : ℝ) (rr eq : List ℝ) (r s : Nat) : ℝ :=
  if r < rr.length then (if s % 2 = 0 then rr.getD r 0 else eq.getD r 0) else rbd pitch (g * s)

section
variable {pitch : ℝ} {na : Nat} {rr eq : List ℝ}

theorem vert2_outer (h2 : na % 2 = 0) (hl : rr.length = eq.length) (he : 0 < rr.length) (j : Nat) :
    (points2 (realLibm 0) na pitch rr eq)[1 + 2 * na + j]? = (outer2 (realLibm 0) na pitch rr eq)[j]? := by
  cases rr with
  | nil => simp at he
  | cons r rs =>
    cases eq with
    | nil => simp at hl
    | cons e es =>
      rw [points2_outer _ _ _ _ _ _ _ (by simpa using hl), List.getElem?_append_right (by simp; omega),
        List.getElem?_append_right (by rw [PropsPinTopo.triPoints2_length _ _ _ h2]; simp; omega), PropsPinTopo.triPoints2_length _ _ _ h2]
      congr 1
      simp
      omega

theorem vert2_tri (h2 : na % 2 = 0) (hl : rr.length = eq.length) (he : 0 < rr.length) (j : Nat) (hj : j < 2 * na) :
    (points2 (realLibm 0) na pitch rr eq)[1 + j]? = (triPoints2 (realLibm 0) na (rr.headD 0))[j]? := by
  cases rr with
  | nil => simp at he
  | cons r rs =>
    cases eq with
    | nil => simp at hl
    | cons e es =>
      rw [points2_outer _ _ _ _ _ _ _ (by simpa using hl), List.getElem?_append_right (by simp),
        List.getElem?_append_left (by rw [PropsPinTopo.triPoints2_length _ _ _ h2]; simp; omega)]
      simp

theorem vert2_ring (hp : 0 < pitch) (h2 : na % 2 = 0) (hl : rr.length = eq.length) (he : 0 < rr.length) {r s : Nat} (hr : r ≤ rr.length) (hs : s < 2 * na) :
    ((points2 (realLibm 0) na pitch rr eq).map (shift (realLibm 0) pitch))[1 + 2 * na + (3 * na * r + s)]? =
      some (tr (pitch / 2) (polar (rad2 pitch (gamma (realLibm 0) na) rr eq r s) (Real.cos (gamma (realLibm 0) na * s), Real.sin (gamma (realLibm 0) na * s)))) := by
  rw [List.getElem?_map, shift_zero, vert2_outer h2 hl he]
  unfold rad2
  by_cases h : r < rr.length
  · rw [if_pos h, outer2_ring _ _ _ _ _ r s (rr.getD r 0) (eq.getD r 0) (by rw [List.getD_eq_getElem _ _ h, List.getElem?_eq_getElem h])
      (by rw [List.getD_eq_getElem _ _ (by omega), List.getElem?_eq_getElem (by omega)]) hs, snapTrig_zero, mul_comm (s : ℝ)]
    rfl
  · rw [if_neg h, show r = rr.length by omega, outer2_bd _ _ _ _ _ s hl hs, snapTrig_zero, boundaryRadius_eq hp]
    rfl

theorem gamma_two (a : Nat) : gamma (realLibm 0) na * (2 * a : ℕ) = theta (realLibm 0) na * a := by
  unfold gamma; push_cast; ring

theorem vert2_R (hp : 0 < pitch) (h2 : na % 2 = 0) (hl : rr.length = eq.length) (he : 0 < rr.length) {r a : Nat} (hr : r ≤ rr.length) (ha : a < na) :
    ((points2 (realLibm 0) na pitch rr eq).map (shift (realLibm 0) pitch))[enc2 na (.R r a)]? =
      some (tr (pitch / 2) (polar (rad2 pitch (gamma (realLibm 0) na) rr eq r (2 * a)) (Real.cos (theta (realLibm 0) na * a), Real.sin (theta (realLibm 0) na * a)))) := by
  rw [enc2, show 1 + 2 * na + 3 * na * r + 2 * a = 1 + 2 * na + (3 * na * r + 2 * a) by ring, vert2_ring hp h2 hl he hr (by omega), gamma_two]

theorem vert2_M (hp : 0 < pitch) (h2 : na % 2 = 0) (hl : rr.length = eq.length) (he : 0 < rr.length) {r a : Nat} (hr : r ≤ rr.length) (ha : a < na) :
    ((points2 (realLibm 0) na pitch rr eq).map (shift (realLibm 0) pitch))[enc2 na (.M r a)]? =
      some (tr (pitch / 2) (polar (rad2 pitch (gamma (realLibm 0) na) rr eq r (2 * a + 1))
        (Real.cos (gamma (realLibm 0) na * (2 * a + 1 : ℕ)), Real.sin (gamma (realLibm 0) na * (2 * a + 1 : ℕ))))) := by
  rw [enc2, show 1 + 2 * na + 3 * na * r + 2 * a + 1 = 1 + 2 * na + (3 * na * r + (2 * a + 1)) by ring, vert2_ring hp h2 hl he hr (by omega)]

theorem vert2_B (h2 : na % 2 = 0) (hl : rr.length = eq.length) (he : 0 < rr.length) {r a : Nat} (hr : r < rr.length) (ha : a < na) :
    ∃ y, ((points2 (realLibm 0) na pitch rr eq).map (shift (realLibm 0) pitch))[enc2 na (.B r a)]? =
      some (tr (pitch / 2) (polar y (Real.cos (theta (realLibm 0) na * a), Real.sin (theta (realLibm 0) na * a)))) := by
  have hx : enc2 na (.B r a) = 1 + 2 * na + (3 * na * r + 2 * na + a) := by rw [enc2]; ring
  rw [List.getElem?_map, shift_zero, hx, vert2_outer h2 hl he]
  by_cases h : r + 1 < rr.length
  · rw [outer2_between _ _ _ _ _ r a rr[r] rr[r + 1] (List.getElem?_eq_getElem hr) (List.getElem?_eq_getElem h) (by omega) ha, snapTrig_zero, mul_comm (a : ℝ)]
    exact ⟨_, rfl⟩
  · rw [outer2_before _ _ _ _ _ r a rr[r] (List.getElem?_eq_getElem hr) (by omega) hl ha, snapTrig_zero, mul_comm (a : ℝ)]
    exact ⟨_, rfl⟩

theorem vert2_C (h2 : na % 2 = 0) (hl : rr.length = eq.length) (he : 0 < rr.length) :
    ((points2 (realLibm 0) na pitch rr eq).map (shift (realLibm 0) pitch))[enc2 na .C]? = some (tr (pitch / 2) (0, 0)) := by
  rw [List.getElem?_map, shift_zero]
  rfl

theorem vert2_S (h2 : na % 2 = 0) (hl : rr.length = eq.length) (he : 0 < rr.length) {i : Nat} (hi : 2 * i + 1 < na) :
    ∃ y, ((points2 (realLibm 0) na pitch rr eq).map (shift (realLibm 0) pitch))[enc2 na (.S i)]? =
      some (tr (pitch / 2) (polar y (Real.cos (theta (realLibm 0) na * (2 * i : ℕ)), Real.sin (theta (realLibm 0) na * (2 * i : ℕ))))) := by
  rw [List.getElem?_map, shift_zero, enc2, vert2_tri h2 hl he _ (by omega), (triPoints2_at _ _ _ i hi).1, mul_comm ((2 * i : ℕ) : ℝ)]
  exact ⟨_, rfl⟩

theorem vert2_UTW (h2 : na % 2 = 0) (hl : rr.length = eq.length) (he : 0 < rr.length) {i : Nat} (hi : 2 * i + 1 < na) (v : PV) (hv : v = .U i ∨ v = .T i ∨ v = .W i) :
    ∃ y, ((points2 (realLibm 0) na pitch rr eq).map (shift (realLibm 0) pitch))[enc2 na v]? =
      some (tr (pitch / 2) (polar y (Real.cos (theta (realLibm 0) na * (2 * i + 1 : ℕ)), Real.sin (theta (realLibm 0) na * (2 * i + 1 : ℕ))))) := by
  obtain ⟨h0, h1, h3, h4⟩ := triPoints2_at (realLibm 0) na (rr.headD 0) i hi
  rw [List.getElem?_map, shift_zero, mul_comm (theta (realLibm 0) na)]
  rcases hv with rfl | rfl | rfl
  · rw [show enc2 na (.U i) = 1 + (4 * i + 1) by rw [enc2]; ring, vert2_tri h2 hl he _ (by omega), h1]
    exact ⟨_, rfl⟩
  · rw [show enc2 na (.T i) = 1 + (4 * i + 2) by rw [enc2]; ring, vert2_tri h2 hl he _ (by omega), h3]
    exact ⟨_, rfl⟩
  · rw [show enc2 na (.W i) = 1 + (4 * i + 3) by rw [enc2]; ring, vert2_tri h2 hl he _ (by omega), h4]
    exact ⟨_, rfl⟩

/-- The area between the centre and the arc of ring `r` from spoke `a` to `a + 1`. -/
noncomputable def W2 (pitch : ℝ) (na : Nat) (rr eq : List ℝ) (r a : Nat) : ℝ :=
  let g := gamma (realLibm 0) na
  let x0 := rad2 pitch g rr eq r (2 * a)
  let x1 := rad2 pitch g rr eq r (2 * nxt na a)
  let y := rad2 pitch g rr eq r (2 * a + 1)
  x0 * x1 * Real.sin (theta (realLibm 0) na) / 2 + 2 / 3 * (y * x1 * Real.sin g + y * x0 * Real.sin g - x0 * x1 * Real.sin (theta (realLibm 0) na))

theorem theta_mul (h8 : 8 ≤ na) : theta (realLibm 0) na * na = 2 * Real.pi := by
  have : (na : ℝ) ≠ 0 := by exact_mod_cast (by omega : na ≠ 0)
  unfold theta
  change 2 * Real.pi / na * na = _
  field_simp

theorem cross_mid0 (a : Nat) : Real.sin (gamma (realLibm 0) na * (2 * a + 1 : ℕ)) * Real.cos (theta (realLibm 0) na * a) -
    Real.cos (gamma (realLibm 0) na * (2 * a + 1 : ℕ)) * Real.sin (theta (realLibm 0) na * a) = Real.sin (gamma (realLibm 0) na) := by
  rw [← Real.sin_sub]
  congr 1
  unfold gamma
  push_cast
  ring

theorem cross_mid1 (h8 : 8 ≤ na) (a : Nat) : Real.sin (theta (realLibm 0) na * (nxt na a : ℕ)) * Real.cos (gamma (realLibm 0) na * (2 * a + 1 : ℕ)) -
    Real.cos (theta (realLibm 0) na * (nxt na a : ℕ)) * Real.sin (gamma (realLibm 0) na * (2 * a + 1 : ℕ)) = Real.sin (gamma (realLibm 0) na) := by
  rw [cos_nxt (theta_mul h8), sin_nxt (theta_mul h8), ← Real.sin_sub]
  congr 1
  unfold gamma
  push_cast
  ring

theorem face2_area (hp : 0 < pitch) (h2 : na % 2 = 0) (h8 : 8 ≤ na) (hl : rr.length = eq.length) (he : 0 < rr.length) {f : PF} (hf : f.ok na rr.length) (faces : List (List Nat)) :
    faceArea8 ⟨(points2 (realLibm 0) na pitch rr eq).map (shift (realLibm 0) pitch), faces⟩ ((corners na f ++ mids na f).map (enc2 na)) =
      some (faceW (W2 pitch na rr eq) f) := by
  have hn := theta_mul h8
  cases f with
  | even i =>
    simp only [PF.ok] at hf
    have hi : 2 * i + 1 < na := by omega
    have hx : nxt na (2 * i) = 2 * i + 1 := by rcases nxt_or na (2 * i) with h | h <;> omega
    simp only [corners, mids, List.map_cons, List.map_nil, List.cons_append, List.nil_append]
    obtain ⟨y0, e0⟩ := vert2_UTW (pitch := pitch) h2 hl he hi (.T i) (by simp)
    obtain ⟨y1, e1⟩ := vert2_S (pitch := pitch) h2 hl he hi
    obtain ⟨y2, e2⟩ := vert2_UTW (pitch := pitch) h2 hl he hi (.W i) (by simp)
    obtain ⟨y3, e3⟩ := vert2_UTW (pitch := pitch) h2 hl he hi (.U i) (by simp)
    rw [faceArea8_eq (vert2_C h2 hl he) (vert2_R hp h2 hl he (Nat.zero_le _) hf) (vert2_R hp h2 hl he (Nat.zero_le _) hi) e0 e1
      (vert2_M hp h2 hl he (Nat.zero_le _) hf) e2 e3, area8_even]
    have c0 := cross_nxt hn (a := 2 * i)
    have c1 := cross_mid1 h8 (2 * i)
    rw [hx] at c0 c1
    rw [c0, c1, cross_mid0]
    simp only [faceW, W2, hx]
  | odd i =>
    simp only [PF.ok] at hf
    have hi : 2 * i + 1 < na := by omega
    have hx : 2 * nxt (na / 2) i = nxt na (2 * i + 1) := by
      rcases nxt_or na (2 * i + 1) with h | h <;> rcases nxt_or (na / 2) i with h' | h' <;> omega
    have hlt := nxt_lt (na := na) (a := 2 * i + 1) hi
    simp only [corners, mids, List.map_cons, List.map_nil, List.cons_append, List.nil_append]
    obtain ⟨y0, e0⟩ := vert2_UTW (pitch := pitch) h2 hl he hi (.T i) (by simp)
    obtain ⟨y1, e1⟩ := vert2_UTW (pitch := pitch) h2 hl he hi (.U i) (by simp)
    obtain ⟨y2, e2⟩ := vert2_UTW (pitch := pitch) h2 hl he hi (.W i) (by simp)
    obtain ⟨y3, e3⟩ := vert2_S (pitch := pitch) (i := nxt (na / 2) i) h2 hl he (by omega)
    rw [hx] at e3
    rw [faceArea8_eq (vert2_C h2 hl he) e0 (vert2_R hp h2 hl he (Nat.zero_le _) hi) (vert2_R hp h2 hl he (Nat.zero_le _) hlt) e1 e2
      (vert2_M hp h2 hl he (Nat.zero_le _) hi) e3, area8_odd, cross_nxt hn, cross_mid1 h8, cross_mid0]
    rfl
  | ring r a =>
    obtain ⟨hr, ha⟩ := hf
    have hlt := nxt_lt (na := na) (a := a) ha
    simp only [corners, mids, List.map_cons, List.map_nil, List.cons_append, List.nil_append]
    obtain ⟨y0, e0⟩ := vert2_B (pitch := pitch) h2 hl he (r := r) (by omega) ha
    obtain ⟨y1, e1⟩ := vert2_B (pitch := pitch) h2 hl he (r := r) (by omega) hlt
    rw [faceArea8_eq (vert2_R hp h2 hl he (by omega) ha) (vert2_R hp h2 hl he hr ha) (vert2_R hp h2 hl he hr hlt) (vert2_R hp h2 hl he (by omega) hlt) e0
      (vert2_M hp h2 hl he hr ha) e1 (vert2_M hp h2 hl he (by omega) ha), area8_ring, cross_nxt hn, cross_mid1 h8, cross_mid0]
    rfl

end

theorem mesh2_data {eps pitch : ℝ} {radii : List ℝ} {rings : List ℤ} {na : ℤ} {mesh : Mesh ℝ} (h : cylindricalMesh (realLibm eps) pitch radii rings na 2 = some (some mesh)) :
    radii.length = rings.length ∧ 8 ≤ na.toNat ∧ na.toNat % 8 = 0 ∧ (∀ r ∈ radii, r ≤ pitch / 2) ∧ (0 < rings.headD 0) ∧ (∀ n ∈ rings, 0 ≤ n) ∧
    mesh = ⟨(points2 (realLibm eps) na.toNat pitch (ringRadii (realLibm eps) (ringAreas (regionAreas (realLibm eps) radii none) (rings.map Int.toNat)))
      (eqRadii2 (realLibm eps) na.toNat (ringRadii (realLibm eps) (ringAreas (regionAreas (realLibm eps) radii none) (rings.map Int.toNat)))
        (ringAreas (regionAreas (realLibm eps) radii none) (rings.map Int.toNat)))).map
      (shift (realLibm eps) pitch), faces2 na.toNat (rings.map Int.toNat).sum⟩ := by
  unfold cylindricalMesh at h
  rw [if_neg (by decide)] at h
  split at h
  · simp at h
  rename_i hna
  split at h
  · simp at h
  rename_i hpow
  split at h
  · simp at h
  rename_i hlen
  split at h
  · simp at h
  rename_i hrad
  split at h
  · simp at h
  rename_i hring
  dsimp only at h
  rw [if_neg (by decide)] at h
  split at h
  · simp at h
  split at h
  · simp at h
  cases h
  refine ⟨not_not.1 hlen, by omega, eight_dvd (by omega) (not_not.1 hpow), ?_, ?_, ?_, rfl⟩
  · intro r hr
    simp only [List.any_eq_true, decide_eq_true_eq, not_exists, not_and, not_lt] at hrad
    exact hrad r hr
  · push Not at hring
    exact hring.1
  · intro n hn
    push Not at hring
    have := hring.2
    simp only [Bool.not_eq_true, List.any_eq_false, decide_eq_true_eq, not_lt] at this
    exact this n hn

theorem sin_gamma_pos {na : Nat} (h8 : 8 ≤ na) (eps : ℝ) : 0 < Real.sin (gamma (realLibm eps) na) := by
  have hn : (8 : ℝ) ≤ na := by exact_mod_cast h8
  have hpi := Real.pi_pos
  apply Real.sin_pos_of_pos_of_lt_pi
  · unfold gamma theta; change 0 < 2 * Real.pi / na / 2; positivity
  · unfold gamma theta; change 2 * Real.pi / na / 2 < Real.pi
    rw [div_lt_iff₀ (by norm_num), div_lt_iff₀ (by linarith)]
    nlinarith

/-- The first ring has a positive area. -/
theorem ringAreas_head {radii : List ℝ} {rings : List ℤ} (hpos : ∀ r ∈ radii, 0 < r) (hlen : radii.length = rings.length) (hring : 0 < rings.headD 0) :
    ∃ a as, ringAreas (regionAreas (realLibm 0) radii none) (rings.map Int.toNat) = a :: as ∧ 0 < a := by
  cases rings with
  | nil => simp at hring
  | cons n ns =>
    cases radii with
    | nil => simp at hlen
    | cons r rs =>
      simp only [List.headD_cons] at hring
      have hA := ringAreas_get _ ((n :: ns).map Int.toNat) 0 0 n.toNat _ (regionAreas_get 0 (r :: rs) 0 r rfl) rfl (by omega)
      cases hL : ringAreas (regionAreas (realLibm 0) (r :: rs) none) ((n :: ns).map Int.toNat) with
      | nil => rw [hL] at hA; simp at hA
      | cons a as =>
        refine ⟨a, as, rfl, ?_⟩
        rw [hL] at hA
        simp only [List.take_zero, List.sum_nil, Nat.add_zero, List.getElem?_cons_zero, Option.some.injEq] at hA
        rw [hA]
        have h0 := hpos r (by simp)
        have hn : (0 : ℝ) < (n.toNat : ℕ) := by exact_mod_cast (by omega : 0 < n.toNat)
        have hpi := Real.pi_pos
        simp only [innerRadius, List.getD_cons_zero]
        have : 0 < r ^ 2 - 0 ^ 2 := by nlinarith
        positivity

/-- **C61**, quadratic meshes: ring `t` of region `i` has `na` faces, each with the `na`-th part of the area of the ring. -/
theorem C61_quadratic_rings (pitch : ℝ) (radii : List ℝ) (rings : List ℤ) (numAzi : ℤ) (mesh : Mesh ℝ) (hpos : ∀ r ∈ radii, 0 < r) (hinc : radii.Pairwise (· ≤ ·))
    (h : cylindricalMesh (realLibm 0) pitch radii rings numAzi 2 = some (some mesh)) (i t a : Nat) (r : ℝ) (n : ℤ) (hr : radii[i]? = some r) (hn : rings[i]? = some n)
    (ht : (t : ℤ) < n) (ha : (a : ℤ) < numAzi) :
    ∃ f, mesh.faces[(((rings.take i).map Int.toNat).sum + t) * numAzi.toNat + a]? = some f ∧
      faceArea8 mesh f = some (Real.pi * (r ^ 2 - innerRadius radii i ^ 2) / n / numAzi) := by
  obtain ⟨hlen, h8, hd, hle, hring, hnn, rfl⟩ := mesh2_data h
  clear h
  have h2 : numAzi.toNat % 2 = 0 := by omega
  have hp := pitch_pos hpos hle hlen hring
  have hcast : ((numAzi.toNat : ℕ) : ℝ) = (numAzi : ℝ) := by rw [← Int.cast_natCast, show (numAzi.toNat : ℤ) = numAzi by omega]
  have ha' : a < numAzi.toNat := by omega
  have hn' : (rings.map Int.toNat)[i]? = some n.toNat := by rw [List.getElem?_map, hn]; rfl
  have hk := take_lt hn' (show t < n.toNat by omega)
  have hA := ringAreas_get _ _ i t n.toNat _ (regionAreas_get 0 radii i r hr) hn' (show t < n.toNat by omega)
  rw [← List.map_take] at hk hA
  have hnc : ((n.toNat : ℕ) : ℝ) = (n : ℝ) := by rw [← Int.cast_natCast, show (n.toNat : ℤ) = n by omega]
  rw [hnc] at hA
  obtain ⟨A0, As, hcons, hA0⟩ := ringAreas_head hpos hlen hring
  have hnonneg := ringAreas_nonneg _ (rings.map Int.toNat) (regionAreas_nonneg 0 radii hpos hinc)
  have hal : (ringAreas (regionAreas (realLibm 0) radii none) (rings.map Int.toNat)).length = (rings.map Int.toNat).sum :=
    PropsPinTopo.ringAreas_length _ _ (by rw [PropsPinTopo.regionAreas_length, List.length_map]; exact hlen)
  generalize ringAreas (regionAreas (realLibm 0) radii none) (rings.map Int.toNat) = areas at *
  generalize ((rings.take i).map Int.toNat).sum + t = k at *
  have hrpos : ∀ x ∈ ringRadii (realLibm 0) areas, 0 < x := by
    subst hcons
    exact ringRadii_pos hA0 fun x hx => hnonneg x (by simp [hx])
  have hrl : (ringRadii (realLibm 0) areas).length = (rings.map Int.toNat).sum := by rw [PropsPinTopo.ringRadii_length, hal]
  have hel : (eqRadii2 (realLibm 0) numAzi.toNat (ringRadii (realLibm 0) areas) areas).length = (rings.map Int.toNat).sum := by
    rw [PropsPinTopo.eqRadii2_length _ _ _ _ (by rw [hrl, hal]), hal]
  rw [← hrl] at hk hel ⊢
  have hsp := eqRadii2_spec (as := areas) hrpos (sin_gamma_pos h8 0) k
  generalize hrr : ringRadii (realLibm 0) areas = rr at *
  generalize heq : eqRadii2 (realLibm 0) numAzi.toNat rr areas = eq at *
  generalize hna : numAzi.toNat = na at *
  have hfl : (faces2 na rr.length).length = (rr.length + 1) * na := Mpact.faces2_length _ _ h2
  have hlt : k * na + a < (faces2 na rr.length).length := by
    rw [hfl]
    have : (k + 1) * na ≤ (rr.length + 1) * na := Nat.mul_le_mul_right _ (by omega)
    rw [Nat.succ_mul] at this
    omega
  refine ⟨_, List.getElem?_eq_getElem hlt, ?_⟩
  obtain ⟨f, hf, hpos', hF⟩ := faces2_get h2 _ _ (List.getElem?_eq_getElem hlt)
  rw [hF, face2_area hp h2 h8 hel.symm (by omega) hf, faceW_pos h2 _ hf ha' hpos', ← hcast]
  congr 1
  obtain ⟨e0, l0, A, h0, hl0, hA', hE⟩ := hsp eq[k] rr[k] (List.getElem?_eq_getElem (by omega)) (List.getElem?_eq_getElem hk)
  rw [hA, Option.some.injEq] at hA'
  rw [← hA'] at hE
  rw [← hE]
  have key : ∀ (j b : Nat) (l e : ℝ), rr[j]? = some l → eq[j]? = some e → W2 pitch na rr eq j b = sector (gamma (realLibm 0) na) l e := by
    intro j b l e hl he
    have hj := (List.getElem?_eq_some_iff.1 hl).1
    unfold W2 rad2 sector
    simp only [if_pos hj, Nat.mul_mod_right, if_true, show (2 * b + 1) % 2 = 1 by omega, Nat.one_ne_zero, if_false]
    rw [List.getD_eq_getElem?_getD, List.getD_eq_getElem?_getD, hl, he, show 2 * gamma (realLibm 0) na = theta (realLibm 0) na by unfold gamma; ring]
    simp only [Option.getD_some]
    ring
  rw [key k a _ _ (List.getElem?_eq_getElem hk) (List.getElem?_eq_getElem (by omega))]
  by_cases hk0 : k = 0
  · rw [if_pos hk0]
    rw [hk0] at h0 hl0
    simp only [List.getElem?_cons_zero, Option.some.injEq] at h0 hl0
    rw [← h0, ← hl0]
    simp [sector]
  · rw [if_neg hk0]
    obtain ⟨k', hk'⟩ := Nat.exists_eq_succ_of_ne_zero hk0
    rw [hk', List.getElem?_cons_succ] at h0 hl0
    rw [key (k - 1) a _ _ (by rw [show k - 1 = k' by omega]; exact hl0) (by rw [show k - 1 = k' by omega]; exact h0)]

/-- **C61**, quadratic meshes: all faces together have the area of the square of the pitch. -/
theorem C61_quadratic_total (pitch : ℝ) (radii : List ℝ) (rings : List ℤ) (numAzi : ℤ) (mesh : Mesh ℝ) (hpos : ∀ r ∈ radii, 0 < r)
    (h : cylindricalMesh (realLibm 0) pitch radii rings numAzi 2 = some (some mesh)) :
    ∃ as : List ℝ, mesh.faces.mapM (faceArea8 mesh) = some as ∧ as.sum = pitch ^ 2 := by
  obtain ⟨hlen, h8, hd, hle, hring, hnn, rfl⟩ := mesh2_data h
  clear h
  have h2 : numAzi.toNat % 2 = 0 := by omega
  have hp := pitch_pos hpos hle hlen hring
  have hal : (ringAreas (regionAreas (realLibm 0) radii none) (rings.map Int.toNat)).length = (rings.map Int.toNat).sum :=
    PropsPinTopo.ringAreas_length _ _ (by rw [PropsPinTopo.regionAreas_length, List.length_map]; exact hlen)
  generalize ringAreas (regionAreas (realLibm 0) radii none) (rings.map Int.toNat) = areas at *
  have hrl : (ringRadii (realLibm 0) areas).length = (rings.map Int.toNat).sum := by rw [PropsPinTopo.ringRadii_length, hal]
  have hel : (eqRadii2 (realLibm 0) numAzi.toNat (ringRadii (realLibm 0) areas) areas).length = (rings.map Int.toNat).sum := by
    rw [PropsPinTopo.eqRadii2_length _ _ _ _ (by rw [hrl, hal]), hal]
  have hsp := sum_pos hring
  rw [← hrl] at hel hsp ⊢
  generalize eqRadii2 (realLibm 0) numAzi.toNat (ringRadii (realLibm 0) areas) areas = eq at *
  generalize ringRadii (realLibm 0) areas = rr at *
  generalize numAzi.toNat = na at *
  refine ⟨_, by
    dsimp only
    rw [faces2_eq h2]
    exact mapM_area _ _ (faceW (W2 pitch na rr eq)) _ fun f hf => face2_area hp h2 h8 hel.symm hsp (pfList_ok h2 f hf) _, ?_⟩
  rw [sum_faceW h2]
  have hn := theta_mul (na := na) h8
  have hg2 : 2 * gamma (realLibm 0) na = theta (realLibm 0) na := by unfold gamma; ring
  have hW : ∀ a ∈ Finset.range na, W2 pitch na rr eq rr.length a = 2 / 3 * (wedge pitch (gamma (realLibm 0) na) (2 * a) + wedge pitch (gamma (realLibm 0) na) (2 * a + 1)) -
      1 / 6 * wedge pitch (theta (realLibm 0) na) a := by
    intro a _
    unfold W2 wedge rad2
    simp only [if_neg (Nat.lt_irrefl _), gamma_two, rbd_nxt hn]
    rw [show 2 * a + 1 + 1 = 2 * (a + 1) by ring, gamma_two]
    ring
  have hcast8 : ((na / 8 : ℕ) : ℝ) * 8 = na := by exact_mod_cast (show na / 8 * 8 = na by omega)
  have hq : theta (realLibm 0) na * (na / 8 : ℕ) = Real.pi / 4 := by
    rw [← hcast8] at hn
    linear_combination hn / 8
  have hq' : gamma (realLibm 0) na * (2 * (na / 8) : ℕ) = Real.pi / 4 := by
    rw [gamma_two]
    exact hq
  have hs := wedge_sum pitch (theta (realLibm 0) na) (na / 8) (by omega) hq
  have hs' := wedge_sum pitch (gamma (realLibm 0) na) (2 * (na / 8)) (by omega) hq'
  rw [show 8 * (na / 8) = na by omega] at hs
  rw [show 8 * (2 * (na / 8)) = 2 * na by omega, ← sum_pairs] at hs'
  rw [Finset.sum_congr rfl hW, Finset.sum_sub_distrib, ← Finset.mul_sum, ← Finset.mul_sum, hs, hs']
  ring

/-! ## The tolerance -/

theorem least_abs (L : List ℝ) : ∃ e : ℝ, 0 < e ∧ ∀ x ∈ L, x ≠ 0 → e ≤ |x| := by
  induction L with
  | nil => exact ⟨1, one_pos, by simp⟩
  | cons y L ih =>
    obtain ⟨e, h0, he⟩ := ih
    by_cases hy : y = 0
    · refine ⟨e, h0, fun x hx hx0 => ?_⟩
      rcases List.mem_cons.1 hx with rfl | hx
      · exact absurd hy hx0
      · exact he x hx hx0
    · refine ⟨min e |y|, lt_min h0 (abs_pos.2 hy), fun x hx hx0 => ?_⟩
      rcases List.mem_cons.1 hx with rfl | hx
      · exact min_le_right _ _
      · exact le_trans (min_le_left _ _) (he x hx hx0)

theorem snap_same {eps x : ℝ} (h : x ≠ 0 → eps ≤ |x|) : snap (realLibm eps) x = x := by
  unfold snap
  split
  · rename_i hlt
    by_contra hx
    exact absurd (h (Ne.symm hx)) (not_le.2 hlt)
  · rfl

/-- The sines and cosines that the mesh is made of. -/
noncomputable def trigs (na : Nat) : List ℝ :=
  (List.range (2 * na)).flatMap fun s : Nat => [Real.cos (theta (realLibm 0) na * s), Real.sin (theta (realLibm 0) na * s),
    Real.cos (gamma (realLibm 0) na * s), Real.sin (gamma (realLibm 0) na * s)]

section
variable {eps : ℝ} {na : Nat}

theorem snapTrig_theta (h : ∀ x ∈ trigs na, x ≠ 0 → eps ≤ |x|) {s : Nat} (hs : s < 2 * na) :
    snapTrig (realLibm eps) (theta (realLibm eps) na * s) = snapTrig (realLibm 0) (theta (realLibm 0) na * s) := by
  have hm := List.mem_range.2 hs
  rw [snapTrig_zero]
  unfold snapTrig
  rw [snap_same, snap_same]
  · rfl
  · exact h _ (List.mem_flatMap.2 ⟨s, hm, List.mem_cons_of_mem _ List.mem_cons_self⟩)
  · exact h _ (List.mem_flatMap.2 ⟨s, hm, List.mem_cons_self⟩)

theorem snapTrig_gamma (h : ∀ x ∈ trigs na, x ≠ 0 → eps ≤ |x|) {s : Nat} (hs : s < 2 * na) :
    snapTrig (realLibm eps) (gamma (realLibm eps) na * s) = snapTrig (realLibm 0) (gamma (realLibm 0) na * s) := by
  have hm := List.mem_range.2 hs
  rw [snapTrig_zero]
  unfold snapTrig
  rw [snap_same, snap_same]
  · rfl
  · exact h _ (List.mem_flatMap.2 ⟨s, hm, List.mem_cons_of_mem _ (List.mem_cons_of_mem _ (List.mem_cons_of_mem _ List.mem_cons_self))⟩)
  · exact h _ (List.mem_flatMap.2 ⟨s, hm, List.mem_cons_of_mem _ (List.mem_cons_of_mem _ List.mem_cons_self)⟩)

theorem regionAreas_eps (radii : List ℝ) (p : Option ℝ) : regionAreas (realLibm eps) radii p = regionAreas (realLibm 0) radii p := by
  induction radii generalizing p with
  | nil => rfl
  | cons r rs ih => cases p <;> simp only [regionAreas, ih] <;> rfl

theorem radiiLoop_eps (p : ℝ) (as : List ℝ) : radiiLoop (realLibm eps) p as = radiiLoop (realLibm 0) p as := by
  induction as generalizing p with
  | nil => rfl
  | cons a as ih => simp only [radiiLoop]; rw [ih]; rfl

theorem ringRadii_eps (as : List ℝ) : ringRadii (realLibm eps) as = ringRadii (realLibm 0) as := by
  cases as with
  | nil => rfl
  | cons a as => simp only [ringRadii]; rw [radiiLoop_eps]; rfl

theorem eqLoop1_eps (p : ℝ) (as : List ℝ) : eqLoop1 (realLibm eps) na p as = eqLoop1 (realLibm 0) na p as := by
  induction as generalizing p with
  | nil => rfl
  | cons a as ih => simp only [eqLoop1]; rw [ih]; rfl

theorem eqRadii1_eps (as : List ℝ) : eqRadii1 (realLibm eps) na as = eqRadii1 (realLibm 0) na as := by
  cases as with
  | nil => rfl
  | cons a as => simp only [eqRadii1]; rw [eqLoop1_eps]; rfl

theorem eqLoop2_eps (l1 e1 : ℝ) (ls as : List ℝ) : eqLoop2 (realLibm eps) na l1 e1 ls as = eqLoop2 (realLibm 0) na l1 e1 ls as := by
  induction ls generalizing l1 e1 as with
  | nil => cases as <;> rfl
  | cons l ls ih =>
    cases as with
    | nil => rfl
    | cons a as => simp only [eqLoop2]; rw [ih]; rfl

theorem eqRadii2_eps (ls as : List ℝ) : eqRadii2 (realLibm eps) na ls as = eqRadii2 (realLibm 0) na ls as := by
  cases ls with
  | nil => cases as <;> rfl
  | cons l ls =>
    cases as with
    | nil => rfl
    | cons a as => simp only [eqRadii2]; rw [eqLoop2_eps]; rfl

theorem ringPoints2_eps (h : ∀ x ∈ trigs na, x ≠ 0 → eps ≤ |x|) (r e : ℝ) : ringPoints2 (realLibm eps) na r e = ringPoints2 (realLibm 0) na r e := by
  unfold ringPoints2
  refine List.map_congr_left fun s hs => ?_
  rw [mul_comm (s : ℝ), mul_comm (s : ℝ), snapTrig_gamma h (List.mem_range.1 hs)]

theorem betweenPoints2_eps (h : ∀ x ∈ trigs na, x ≠ 0 → eps ≤ |x|) (r e : ℝ) : betweenPoints2 (realLibm eps) na r e = betweenPoints2 (realLibm 0) na r e := by
  unfold betweenPoints2
  refine List.map_congr_left fun s hs => ?_
  have := List.mem_range.1 hs
  rw [mul_comm (s : ℝ), mul_comm (s : ℝ), snapTrig_theta h (by omega)]

theorem rings2_eps (h : ∀ x ∈ trigs na, x ≠ 0 → eps ≤ |x|) (r0 : ℝ) (rs es : List ℝ) : rings2 (realLibm eps) na r0 rs es = rings2 (realLibm 0) na r0 rs es := by
  induction rs generalizing r0 es with
  | nil => rfl
  | cons r rs ih =>
    cases es with
    | nil => rfl
    | cons e es => simp only [rings2]; rw [ih, betweenPoints2_eps h, ringPoints2_eps h]

theorem points2_eps (h : ∀ x ∈ trigs na, x ≠ 0 → eps ≤ |x|) (pitch : ℝ) (rr eq : List ℝ) : points2 (realLibm eps) na pitch rr eq = points2 (realLibm 0) na pitch rr eq := by
  unfold points2
  rw [ringPoints2_eps h, rings2_eps h]
  congr 1
  · congr 1
    unfold beforePoints2
    refine List.map_congr_left fun s hs => ?_
    have := List.mem_range.1 hs
    dsimp only
    rw [mul_comm (s : ℝ), mul_comm (s : ℝ), snapTrig_theta h (by omega)]
  · unfold boundaryPoints2
    refine List.map_congr_left fun s hs => ?_
    dsimp only
    rw [snapTrig_gamma h (List.mem_range.1 hs)]

theorem points1_eps (h : ∀ x ∈ trigs na, x ≠ 0 → eps ≤ |x|) (pitch : ℝ) (eq : List ℝ) : points1 (realLibm eps) na pitch eq = points1 (realLibm 0) na pitch eq := by
  have hr : ringPoints1 (realLibm eps) na = ringPoints1 (realLibm 0) na := by
    funext e
    unfold ringPoints1
    refine List.map_congr_left fun s hs => ?_
    have := List.mem_range.1 hs
    rw [snapTrig_theta h (by omega)]
  unfold points1
  rw [hr]
  congr 1
  unfold boundaryPoints1
  refine List.map_congr_left fun s hs => ?_
  have := List.mem_range.1 hs
  rw [snapTrig_theta h (by omega)]

theorem shift_eps {pitch : ℝ} {L : List (ℝ × ℝ)} (h : ∀ x ∈ L.flatMap (fun p => [p.1 + pitch / 2, p.2 + pitch / 2]), x ≠ 0 → eps ≤ |x|) :
    L.map (shift (realLibm eps) pitch) = L.map (shift (realLibm 0) pitch) := by
  refine List.map_congr_left fun p hp => ?_
  rw [shift_zero]
  unfold shift
  rw [snap_same, snap_same]
  · rfl
  · exact h _ (List.mem_flatMap.2 ⟨p, hp, by simp⟩)
  · exact h _ (List.mem_flatMap.2 ⟨p, hp, by simp⟩)

end

/-- **C61**: the tests that set tiny sines, cosines and coordinates to zero do not change the mesh when the tolerance is small enough for that mesh: smaller
than each of the finitely many non-zero values that occur. -/
theorem C61_tolerance (pitch : ℝ) (radii : List ℝ) (rings : List ℤ) (numAzi order : ℤ) :
    ∃ e0 : ℝ, 0 < e0 ∧ ∀ eps, 0 ≤ eps → eps ≤ e0 → cylindricalMesh (realLibm eps) pitch radii rings numAzi order = cylindricalMesh (realLibm 0) pitch radii rings numAzi order := by
  let areas := ringAreas (regionAreas (realLibm 0) radii none) (rings.map Int.toNat)
  let P1 := points1 (realLibm 0) numAzi.toNat pitch (eqRadii1 (realLibm 0) numAzi.toNat areas)
  let P2 := points2 (realLibm 0) numAzi.toNat pitch (ringRadii (realLibm 0) areas) (eqRadii2 (realLibm 0) numAzi.toNat (ringRadii (realLibm 0) areas) areas)
  obtain ⟨e0, hpos, he⟩ := least_abs (trigs numAzi.toNat ++ (P1 ++ P2).flatMap (fun p => [p.1 + pitch / 2, p.2 + pitch / 2]))
  refine ⟨e0, hpos, fun eps _ hle => ?_⟩
  have ht : ∀ x ∈ trigs numAzi.toNat, x ≠ 0 → eps ≤ |x| := fun x hx h0 => le_trans hle (he x (List.mem_append_left _ hx) h0)
  have h1 : ∀ x ∈ P1.flatMap (fun p => [p.1 + pitch / 2, p.2 + pitch / 2]), x ≠ 0 → eps ≤ |x| := fun x hx h0 =>
    le_trans hle (he x (List.mem_append_right _ (by rw [List.flatMap_append]; exact List.mem_append_left _ hx)) h0)
  have h2 : ∀ x ∈ P2.flatMap (fun p => [p.1 + pitch / 2, p.2 + pitch / 2]), x ≠ 0 → eps ≤ |x| := fun x hx h0 =>
    le_trans hle (he x (List.mem_append_right _ (by rw [List.flatMap_append]; exact List.mem_append_right _ hx)) h0)
  unfold cylindricalMesh
  simp only [regionAreas_eps, ringRadii_eps, eqRadii1_eps, eqRadii2_eps, points1_eps ht, points2_eps ht]
  rw [shift_eps (L := points1 _ _ _ _) h1, shift_eps (L := points2 _ _ _ _ _) h2]

/-! ## A mesh that meets the hypotheses -/

theorem sin_quarter : (1 : ℝ) / 2 ≤ Real.sin (2 * Real.pi / (8 : ℕ)) := by
  have hpi := Real.pi_pos
  have := Real.mul_le_sin (x := 2 * Real.pi / (8 : ℕ)) (by positivity) (by push_cast; linarith)
  have h2 : 2 / Real.pi * (2 * Real.pi / (8 : ℕ)) = 1 / 2 := by push_cast; field_simp; norm_num
  linarith

theorem sin_eighth : (1 : ℝ) / 4 ≤ Real.sin (2 * Real.pi / (8 : ℕ) / 2) := by
  have hpi := Real.pi_pos
  have := Real.mul_le_sin (x := 2 * Real.pi / (8 : ℕ) / 2) (by positivity) (by push_cast; linarith)
  have h2 : 2 / Real.pi * (2 * Real.pi / (8 : ℕ) / 2) = 1 / 4 := by push_cast; field_simp; norm_num
  linarith

example : ∃ mesh, cylindricalMesh (realLibm 0) 100 [1 / 2] [1] 8 1 = some (some mesh) := by
  have hs := sin_quarter
  have hpi := Real.pi_pos
  have hpi4 := Real.pi_le_four
  unfold cylindricalMesh
  simp [regionAreas, ringAreas, eqRadii1, eqLoop1, theta, realLibm]
  rw [if_neg (by norm_num), if_neg]
  · exact ⟨_, rfl⟩
  · rw [not_lt, Real.sqrt_le_iff]
    refine ⟨by norm_num, ?_⟩
    rw [div_le_iff₀ (by linarith)]
    norm_num
    linarith

example : ∃ mesh, cylindricalMesh (realLibm 0) 100 [1 / 2] [1] 8 2 = some (some mesh) := by
  have hs := sin_eighth
  have hpi := Real.pi_pos
  have hpi4 := Real.pi_le_four
  unfold cylindricalMesh
  simp [regionAreas, ringAreas, ringRadii, radiiLoop, eqRadii2, eqLoop2, theta, gamma, realLibm]
  rw [if_neg (by norm_num), if_neg]
  · exact ⟨_, rfl⟩
  · have hr : √(Real.pi * 2⁻¹ * 2⁻¹ / Real.pi) = 1 / 2 := by
      rw [show Real.pi * 2⁻¹ * 2⁻¹ / Real.pi = (1 / 2) ^ 2 by field_simp]
      exact Real.sqrt_sq (by norm_num)
    rw [hr, not_lt]
    have hc := Real.cos_le_one (2 * Real.pi / 8 / 2)
    have hc0 : 0 ≤ Real.cos (2 * Real.pi / 8 / 2) := Real.cos_nonneg_of_neg_pi_div_two_le_of_le (by linarith) (by linarith)
    push_cast at hs
    generalize Real.sin (2 * Real.pi / 8 / 2) = x at *
    generalize Real.cos (2 * Real.pi / 8 / 2) = y at *
    have h1 : 3 / 4 * (Real.pi * 2⁻¹ * 2⁻¹ / 8 - 1 / 2 * (1 / 2) * (x * y)) / (1 / 2 * x) ≤ 10 := by
      rw [div_le_iff₀ (by linarith)]
      nlinarith [mul_nonneg (show 0 ≤ x by linarith) hc0]
    linarith

end Verif.PropsPinArea
