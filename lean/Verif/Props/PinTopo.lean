import Verif.Lemmas.PinTopo
import Verif.Props.Mpact

/-!
# C60: cylindrical pin meshes are conforming

The specification is `Conforming` (`Verif.Model.Conform`): connectivity in range, every vertex used, every edge with a
direction in one face only, every edge off the boundary in exactly one other face in the other direction, and the
boundary one closed loop.  The theorems hold for every record of mathematical functions: the topology does not depend
on the coordinates.
-/

namespace Verif.PropsPinTopo

open Verif Verif.Pin Verif.Conform Verif.PinTopo

set_option linter.unusedSectionVars false

variable {K : Type} [Field K] [LinearOrder K]

theorem regionAreas_length (m : Libm K) (radii : List K) (p : Option K) : (regionAreas m radii p).length = radii.length := by
  induction radii generalizing p with
  | nil => rfl
  | cons r rs ih => cases p <;> simp [regionAreas, ih]

theorem ringAreas_length (areas : List K) (rings : List Nat) (h : areas.length = rings.length) : (ringAreas areas rings).length = rings.sum := by
  unfold ringAreas
  induction rings generalizing areas with
  | nil => simp
  | cons n ns ih =>
    cases areas with
    | nil => simp at h
    | cons a as =>
      rw [List.zip_cons_cons, List.flatMap_cons, List.length_append, ih as (by simpa using h), List.length_replicate, List.sum_cons]

theorem radiiLoop_length (m : Libm K) (p : K) (as : List K) : (radiiLoop m p as).length = as.length := by
  induction as generalizing p with
  | nil => rfl
  | cons a as ih => simp [radiiLoop, ih]

theorem ringRadii_length (m : Libm K) (as : List K) : (ringRadii m as).length = as.length := by
  cases as <;> simp [ringRadii, radiiLoop_length]

theorem eqLoop1_length (m : Libm K) (na : Nat) (p : K) (as : List K) : (eqLoop1 m na p as).length = as.length := by
  induction as generalizing p with
  | nil => rfl
  | cons a as ih => simp [eqLoop1, ih]

theorem eqRadii1_length (m : Libm K) (na : Nat) (as : List K) : (eqRadii1 m na as).length = as.length := by
  cases as <;> simp [eqRadii1, eqLoop1_length]

theorem eqLoop2_length (m : Libm K) (na : Nat) (l e : K) (ls as : List K) (h : ls.length = as.length) : (eqLoop2 m na l e ls as).length = as.length := by
  induction as generalizing l e ls with
  | nil => cases ls <;> simp_all [eqLoop2]
  | cons a as ih =>
    cases ls with
    | nil => simp at h
    | cons x xs => simp [eqLoop2, ih _ _ xs (by simpa using h)]

theorem eqRadii2_length (m : Libm K) (na : Nat) (ls as : List K) (h : ls.length = as.length) : (eqRadii2 m na ls as).length = as.length := by
  cases ls with
  | nil => cases as <;> simp_all [eqRadii2]
  | cons x xs =>
    cases as with
    | nil => simp at h
    | cons a as => simp [eqRadii2, eqLoop2_length _ _ _ _ xs as (by simpa using h)]

theorem points1_length (m : Libm K) (na : Nat) (pitch : K) (eq : List K) : (points1 m na pitch eq).length = 1 + na / 2 + (eq.length + 1) * na := by
  unfold points1
  rw [List.length_append, List.length_append, List.length_append, Mpact.flatMap_length _ na _ fun x _ => by simp [ringPoints1]]
  simp [triPoints1, boundaryPoints1, Nat.succ_mul]
  omega

theorem triPoints2_length (m : Libm K) (na : Nat) (r0 : K) (h : na % 2 = 0) : (triPoints2 m na r0).length = 2 * na := by
  obtain ⟨k, rfl⟩ : ∃ k, na = 2 * k := ⟨na / 2, by omega⟩
  unfold triPoints2
  generalize hth : theta m (2 * k) = th
  clear hth
  clear h
  induction k with
  | zero => simp
  | succ k ih =>
    rw [show 2 * (k + 1) = 2 * k + 1 + 1 by omega, List.range_succ, List.range_succ, List.flatMap_append, List.flatMap_append, List.length_append, List.length_append, ih,
      List.flatMap_singleton, List.flatMap_singleton, if_pos (by omega), if_neg (by omega)]
    simp; omega

theorem rings2_length (m : Libm K) (na : Nat) (r : K) (rs es : List K) (h : rs.length = es.length) : (rings2 m na r rs es).length = rs.length * (3 * na) := by
  induction rs generalizing r es with
  | nil => simp [rings2]
  | cons x xs ih =>
    cases es with
    | nil => simp at h
    | cons e es =>
      rw [rings2, List.length_append, List.length_append, ih _ es (by simpa using h)]
      simp [betweenPoints2, ringPoints2, Nat.succ_mul]
      omega

theorem points2_length (m : Libm K) (na : Nat) (pitch : K) (radii eq : List K) (h2 : na % 2 = 0) (h : radii.length = eq.length) (h0 : 0 < eq.length) :
    (points2 m na pitch radii eq).length = 1 + 2 * na + (3 * na * eq.length + 2 * na) := by
  unfold points2
  simp only [List.length_append]
  rw [triPoints2_length _ _ _ h2, rings2_length _ _ _ _ _ (by simp [h])]
  simp only [List.length_tail, h]
  obtain ⟨k, hk⟩ := Nat.exists_eq_succ_of_ne_zero (Nat.pos_iff_ne_zero.1 h0)
  rw [hk]
  simp [beforePoints2, boundaryPoints2, ringPoints2, Nat.mul_succ, Nat.mul_comm (3 * na) k]
  omega

/-- What an accepted call says about its arguments and its result. -/
theorem cylindricalMesh_data {m : Libm K} {pitch : K} {radii : List K} {rings : List ℤ} {na o : ℤ} {mesh : Mesh K}
    (h : cylindricalMesh m pitch radii rings na o = some (some mesh)) :
    8 ≤ na.toNat ∧ na.toNat % 2 = 0 ∧ 0 < (rings.map Int.toNat).sum ∧
      ((o = 1 ∧ mesh.faces = faces1 na.toNat (rings.map Int.toNat).sum ∧
          mesh.verts.length = 1 + na.toNat / 2 + ((rings.map Int.toNat).sum + 1) * na.toNat) ∨
        (o = 2 ∧ mesh.faces = faces2 na.toNat (rings.map Int.toNat).sum ∧
          mesh.verts.length = 1 + 2 * na.toNat + (3 * na.toNat * (rings.map Int.toNat).sum + 2 * na.toNat))) := by
  unfold cylindricalMesh at h
  split at h
  · simp at h
  rename_i ho
  split at h
  · simp at h
  rename_i hna
  split at h
  · simp at h
  rename_i hpow
  have hev : na.toNat % 2 = 0 := Mpact.even_of_pow (by omega) (not_not.1 hpow)
  split at h
  · simp at h
  rename_i hlen
  split at h
  · simp at h
  split at h
  · simp at h
  rename_i hring
  dsimp only at h
  have hpos : 0 < (rings.map Int.toNat).sum := by
    cases rings with
    | nil => simp at hring
    | cons n ns =>
      simp only [List.headD_cons, not_or, not_le] at hring
      rw [List.map_cons, List.sum_cons]
      omega
  have hal : (ringAreas (regionAreas m radii none) (rings.map Int.toNat)).length = (rings.map Int.toNat).sum :=
    ringAreas_length _ _ (by rw [regionAreas_length, List.length_map]; exact not_not.1 hlen)
  refine ⟨by omega, hev, hpos, ?_⟩
  split at h
  · rename_i ho1
    left
    split at h
    · simp at h
    split at h
    · simp at h
    cases h
    refine ⟨ho1, rfl, ?_⟩
    rw [List.length_map, points1_length, eqRadii1_length, hal]
  · rename_i ho1
    right
    split at h
    · simp at h
    split at h
    · simp at h
    cases h
    refine ⟨by by_contra hc; exact ho ⟨ho1, hc⟩, rfl, ?_⟩
    have e1 := ringRadii_length m (ringAreas (regionAreas m radii none) (rings.map Int.toNat))
    have e2 := eqRadii2_length m na.toNat _ _ e1
    rw [List.length_map, points2_length _ _ _ _ _ hev (by rw [e1, e2]) (by rw [e2, hal]; exact hpos), e2, hal]

/-- **C60.**  A linear pin mesh has `na` faces inside the first ring, between any two rings and outside the last ring, and is conforming; its
boundary is the loop of the last `na` vertices. -/
theorem C60_linear (m : Libm K) (pitch : K) (radii : List K) (rings : List ℤ) (numAzi : ℤ) (mesh : Mesh K)
    (h : cylindricalMesh m pitch radii rings numAzi 1 = some (some mesh)) :
    mesh.faces.length = numAzi.toNat * ((rings.map Int.toNat).sum + 1) ∧
    ∃ b, b + numAzi.toNat = mesh.verts.length ∧
      Conforming mesh.verts.length quadEdges mesh.faces
        ((List.range numAzi.toNat).map fun a => ⟨b + a, b + (a + 1) % numAzi.toNat, none⟩) := by
  obtain ⟨h8, h2, hr, ⟨-, hf, hv⟩ | ⟨h, -⟩⟩ := cylindricalMesh_data h
  · generalize (rings.map Int.toNat).sum = nr at *
    generalize numAzi.toNat = na at *
    refine ⟨by rw [hf, Mpact.faces1_length _ _ h2, Nat.mul_comm], 1 + na / 2 + nr * na, by rw [hv, Nat.succ_mul]; omega, ?_⟩
    rw [hv, hf]
    have hc := conform1 h2 h8 hr
    refine cast (congrArg _ (List.map_congr_left ?_)) hc
    intro a ha
    rw [List.mem_range] at ha
    simp only [enc1]
    rcases nxt_or na a with h | h
    · rw [h.2, h.1, Nat.mod_self]
    · rw [h.2, Nat.mod_eq_of_lt (by omega)]
  · exact absurd h (by decide)

/-- **C60.**  The same of a quadratic pin mesh; neighbouring faces also share the midpoint of their edge. -/
theorem C60_quadratic (m : Libm K) (pitch : K) (radii : List K) (rings : List ℤ) (numAzi : ℤ) (mesh : Mesh K)
    (h : cylindricalMesh m pitch radii rings numAzi 2 = some (some mesh)) :
    mesh.faces.length = numAzi.toNat * ((rings.map Int.toNat).sum + 1) ∧
    ∃ b, b + 2 * numAzi.toNat = mesh.verts.length ∧
      Conforming mesh.verts.length quad8Edges mesh.faces
        ((List.range numAzi.toNat).map fun a => ⟨b + 2 * a, b + (2 * a + 2) % (2 * numAzi.toNat), some (b + 2 * a + 1)⟩) := by
  obtain ⟨h8, h2, hr, ⟨h, -⟩ | ⟨-, hf, hv⟩⟩ := cylindricalMesh_data h
  · exact absurd h (by decide)
  · generalize (rings.map Int.toNat).sum = nr at *
    generalize numAzi.toNat = na at *
    refine ⟨by rw [hf, Mpact.faces2_length _ _ h2, Nat.mul_comm], 1 + 2 * na + 3 * na * nr, by rw [hv]; omega, ?_⟩
    rw [hv, hf]
    have hc := conform2 h2 h8 hr
    refine cast (congrArg _ (List.map_congr_left ?_)) hc
    intro a ha
    rw [List.mem_range] at ha
    simp only [enc2]
    rcases nxt_or na a with h | h
    · rw [h.2, show 2 * a + 2 = 2 * na by omega, Nat.mod_self]
    · rw [h.2, Nat.mod_eq_of_lt (show 2 * a + 2 < 2 * na by omega)]
      rfl

/-! The hypotheses are met. -/

example : ((cylindricalMesh Mpact.exLibm 2 [1 / 2] [1] 8 1).map (·.map fun x => (x.faces.length, x.verts.length))) = some (some (16, 21)) := by
  decide +kernel

example : ((cylindricalMesh Mpact.exLibm 2 [1 / 2] [1] 8 2).map (·.map fun x => (x.faces.length, x.verts.length))) = some (some (16, 57)) := by
  decide +kernel

end Verif.PropsPinTopo
