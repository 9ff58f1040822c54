import Verif.Lemmas.SveaShapes

/-! The sheets of the channel box are in one piece (C119). -/

namespace Verif.SveaL

open Verif.Svea Verif.SveaSpec

noncomputable section

/-! ### General -/

theorem glue {A B : Set Pt} (hA : IsConnected A) (hB : IsConnected B) {p : Pt} (h : p ∈ closure A) (h' : p ∈ B) : IsConnected (A ∪ B) := by
  have h1 : IsConnected (A ∪ {p}) := hA.subset_closure Set.subset_union_left (Set.union_subset subset_closure (by simpa using h))
  have h2 := IsConnected.union (s := A ∪ {p}) (t := B) ⟨p, Or.inr rfl, h'⟩ h1 hB
  have h3 : A ∪ {p} ∪ B = A ∪ B := by
    rw [Set.union_assoc, Set.union_eq_self_of_subset_left (Set.singleton_subset_iff.2 h')]
  rwa [h3] at h2

theorem join {A B : Set Pt} (hA : IsConnected A) (hB : IsConnected B) (p : Pt) (h : p ∈ A) (h' : p ∈ B) : IsConnected (A ∪ B) :=
  glue hA hB (subset_closure h) h'

theorem limit_mem {A : Set Pt} {f : ℝ → Pt} (hf : Continuous f) {a b : ℝ} (hab : a < b) (h : ∀ s, a ≤ s → s < b → f s ∈ A) : f b ∈ closure A := by
  have hb : b ∈ closure (Set.Ico a b) := by rw [closure_Ico hab.ne]; exact ⟨hab.le, le_refl b⟩
  exact map_mem_closure hf hb fun s hs => h s hs.1 hs.2

theorem band {f g : ℝ → ℝ} (hf : Continuous f) (hg : Continuous g) {a b : ℝ} (hab : a < b) (hfg : ∀ x, a ≤ x → x < b → f x < g x) :
    IsConnected {P : Pt | a ≤ P.1 ∧ P.1 < b ∧ f P.1 ≤ P.2 ∧ P.2 < g P.1} := by
  have h1 : IsConnected (Set.Ico a b ×ˢ Set.Ico (0 : ℝ) 1) := (isConnected_Ico hab).prod (isConnected_Ico one_pos)
  have h2 : Continuous fun p : ℝ × ℝ => ((p.1, f p.1 + p.2 * (g p.1 - f p.1)) : Pt) := by fun_prop
  have h3 := h1.image _ h2.continuousOn
  convert h3 using 1
  ext P
  constructor
  · rintro ⟨k1, k2, k3, k4⟩
    have hd := sub_pos.2 (hfg P.1 k1 k2)
    refine ⟨(P.1, (P.2 - f P.1) / (g P.1 - f P.1)), ⟨⟨k1, k2⟩, div_nonneg (by linarith) hd.le, ?_⟩, ?_⟩
    · rw [div_lt_one hd]; linarith
    · refine Prod.ext rfl ?_
      show f P.1 + (P.2 - f P.1) / (g P.1 - f P.1) * (g P.1 - f P.1) = P.2
      rw [div_mul_cancel₀ _ hd.ne']; ring
  · rintro ⟨⟨x, t⟩, ⟨⟨k1, k2⟩, k3, k4⟩, rfl⟩
    have hd := sub_pos.2 (hfg x k1 k2)
    refine ⟨k1, k2, ?_, ?_⟩
    · show f x ≤ f x + t * (g x - f x)
      have := mul_nonneg k3 hd.le
      linarith
    · show f x + t * (g x - f x) < g x
      have := mul_lt_mul_of_pos_right k4 hd
      linarith

theorem rect_connected {a b c d : ℝ} (h : a < b) (h' : c < d) : IsConnected {P : Pt | a ≤ P.1 ∧ P.1 < b ∧ c ≤ P.2 ∧ P.2 < d} :=
  band continuous_const continuous_const h fun _ _ _ => h'

theorem turn_connected (t : ℝ) {S : Set Pt} (hS : IsConnected S) : IsConnected (turned t S) := by
  have h2 : Continuous fun p : Pt => ((width / 2 + (Real.cos t * (p.1 - width / 2) - Real.sin t * (p.2 - width / 2)),
    width / 2 + (Real.sin t * (p.1 - width / 2) + Real.cos t * (p.2 - width / 2))) : Pt) := by fun_prop
  have h3 := hS.image _ h2.continuousOn
  convert h3 using 1
  have hsc := Real.sin_sq_add_cos_sq t
  ext P
  rw [turned_in]
  constructor
  · intro h
    refine ⟨_, h, Prod.ext ?_ ?_⟩
    · dsimp only
      linear_combination (P.1 - width / 2) * hsc
    · dsimp only
      linear_combination (P.2 - width / 2) * hsc
  · rintro ⟨Q, hQ, rfl⟩
    convert hQ using 1
    refine Prod.ext ?_ ?_
    · dsimp only
      linear_combination (Q.1 - width / 2) * hsc
    · dsimp only
      linear_combination (Q.2 - width / 2) * hsc

theorem convex_connected {S : Set Pt} (h : Convex ℝ S) (p : Pt) (hp : p ∈ S) : IsConnected S := ⟨⟨p, hp⟩, h.isPreconnected⟩

/-! ### The diamond -/

/-- Between two squares. -/
theorem square_ring {a b c d : ℝ} (h1 : a < b) (h2 : b < c) (h3 : c < d) :
    IsConnected ({P : Pt | a ≤ P.1 ∧ P.1 < d ∧ a ≤ P.2 ∧ P.2 < d} \ {P : Pt | b ≤ P.1 ∧ P.1 < c ∧ b ≤ P.2 ∧ P.2 < c}) := by
  have k1 : IsConnected {P : Pt | a ≤ P.1 ∧ P.1 < b ∧ a ≤ P.2 ∧ P.2 < d} := rect_connected h1 (by linarith)
  have k2 : IsConnected {P : Pt | a ≤ P.1 ∧ P.1 < d ∧ a ≤ P.2 ∧ P.2 < b} := rect_connected (by linarith) h1
  have k3 : IsConnected {P : Pt | c ≤ P.1 ∧ P.1 < d ∧ a ≤ P.2 ∧ P.2 < d} := rect_connected h3 (by linarith)
  have k4 : IsConnected {P : Pt | a ≤ P.1 ∧ P.1 < d ∧ c ≤ P.2 ∧ P.2 < d} := rect_connected (by linarith) h3
  have k5 := join k1 k2 (a, a) ⟨le_refl _, h1, le_refl _, by show a < d; linarith⟩ ⟨le_refl _, by show a < d; linarith, le_refl _, h1⟩
  have k6 := join k5 k3 (c, a) (Or.inr ⟨by show a ≤ c; linarith, h3, le_refl _, h1⟩) ⟨le_refl _, h3, le_refl _, by show a < d; linarith⟩
  have k7 := join k6 k4 (c, c) (Or.inr ⟨le_refl _, h3, by show a ≤ c; linarith, h3⟩) ⟨by show a ≤ c; linarith, h3, le_refl _, h3⟩
  convert k7 using 1
  ext P
  simp only [Set.mem_sdiff, Set.mem_union, Set.mem_ofPred_eq]
  constructor
  · rintro ⟨⟨q1, q2, q3, q4⟩, q⟩
    rcases lt_or_ge P.1 b with r1 | r1
    · exact Or.inl (Or.inl (Or.inl ⟨q1, r1, q3, q4⟩))
    rcases lt_or_ge P.1 c with r2 | r2
    · rcases lt_or_ge P.2 b with r3 | r3
      · exact Or.inl (Or.inl (Or.inr ⟨q1, q2, q3, r3⟩))
      · rcases lt_or_ge P.2 c with r4 | r4
        · exact absurd ⟨r1, r2, r3, r4⟩ q
        · exact Or.inr ⟨q1, q2, r4, q4⟩
    · exact Or.inl (Or.inr ⟨r2, q2, q3, q4⟩)
  · rintro (((⟨q1, q2, q3, q4⟩ | ⟨q1, q2, q3, q4⟩) | ⟨q1, q2, q3, q4⟩) | ⟨q1, q2, q3, q4⟩)
    · exact ⟨⟨q1, by linarith, q3, q4⟩, fun h => by linarith [h.1]⟩
    · exact ⟨⟨q1, q2, q3, by linarith⟩, fun h => by linarith [h.2.2.1]⟩
    · exact ⟨⟨by linarith, q2, q3, q4⟩, fun h => by linarith [h.2.1]⟩
    · exact ⟨⟨q1, q2, by linarith, q4⟩, fun h => by linarith [h.2.2.2]⟩

theorem crossRing_connected : IsConnected crossRing := by
  have h := turn_connected (1 / 4 * Real.pi) (square_ring (a := width / 2 - 7625 / 10000) (b := width / 2 - 7425 / 10000) (c := width / 2 + 7425 / 10000)
    (d := width / 2 + 7625 / 10000) (by linarith) (by linarith) (by linarith))
  convert h using 1
  unfold crossRing
  rw [rect0_eq, rect1_eq]
  unfold rectangle
  ext P
  simp only [Set.mem_sdiff, turned_in, Set.mem_ofPred_eq]
  rw [show width / 2 - 7625 / 10000 + 2 * (7625 / 10000 : ℝ) = width / 2 + 7625 / 10000 by ring,
    show width / 2 - 7425 / 10000 + 2 * (7425 / 10000 : ℝ) = width / 2 + 7425 / 10000 by ring]

/-! ### The wing -/

/-- Points of the diamond have small coordinates. -/
theorem diamond_small {h u v : ℝ} (H : Diamond h u v) : |u| ≤ h * Real.sqrt 2 ∧ |v| ≤ h * Real.sqrt 2 := by
  obtain ⟨h1, h2, h3, h4⟩ := H
  have h0 : (0 : ℝ) < Real.sqrt 2 := by positivity
  rw [le_div_iff₀ h0] at h1 h3
  rw [div_lt_iff₀ h0] at h2 h4
  constructor <;> rw [abs_le] <;> constructor <;> linarith

theorem diamond_iff (h u v : ℝ) : Diamond h u v ↔ -(h * Real.sqrt 2) ≤ u + v ∧ u + v < h * Real.sqrt 2 ∧ -(h * Real.sqrt 2) ≤ v - u ∧ v - u < h * Real.sqrt 2 := by
  have h0 : (0 : ℝ) < Real.sqrt 2 := by positivity
  unfold Diamond
  rw [le_div_iff₀ h0, le_div_iff₀ h0, div_lt_iff₀ h0, div_lt_iff₀ h0, neg_mul]

theorem D0_bounds : 1078 / 1000 < 7625 / 10000 * Real.sqrt 2 ∧ 7625 / 10000 * Real.sqrt 2 < 1079 / 1000 := by
  have := root_bounds
  constructor <;> nlinarith

theorem D1_bounds : 1049 / 1000 < 7425 / 10000 * Real.sqrt 2 ∧ 7425 / 10000 * Real.sqrt 2 < 1051 / 1000 := by
  have := root_bounds
  constructor <;> nlinarith

/-- The part of the thin sheet right of `a`, below or above the corner of the diamond. -/
theorem tip_connected (a D : ℝ) (h : a < -D) :
    IsConnected {P : Pt | a ≤ P.1 - width / 2 ∧ -(2 / 100) ≤ P.2 - width / 2 ∧ P.2 - width / 2 < 2 / 100 ∧
      (P.1 - width / 2 + (P.2 - width / 2) < -D ∨ D ≤ P.2 - width / 2 - (P.1 - width / 2))} := by
  have c1 : Convex ℝ {P : Pt | a ≤ P.1 - width / 2 ∧ -(2 / 100) ≤ P.2 - width / 2 ∧ P.2 - width / 2 < 2 / 100 ∧ P.1 - width / 2 + (P.2 - width / 2) < -D} := by
    rintro P ⟨p1, p2, p3, p4⟩ Q ⟨q1, q2, q3, q4⟩ s t hs ht hst
    obtain rfl : s = 1 - t := by linarith
    have e1 : ((1 - t) • P + t • Q).1 = (1 - t) * P.1 + t * Q.1 := rfl
    have e2 : ((1 - t) • P + t • Q).2 = (1 - t) * P.2 + t * Q.2 := rfl
    simp only [Set.mem_ofPred_eq, e1, e2]
    refine ⟨by nlinarith, by nlinarith, ?_, ?_⟩
    · rcases ht.eq_or_lt with rfl | ht'
      · linarith
      · nlinarith
    · rcases ht.eq_or_lt with rfl | ht'
      · linarith
      · nlinarith
  have c2 : Convex ℝ {P : Pt | a ≤ P.1 - width / 2 ∧ -(2 / 100) ≤ P.2 - width / 2 ∧ P.2 - width / 2 < 2 / 100 ∧ D ≤ P.2 - width / 2 - (P.1 - width / 2)} := by
    rintro P ⟨p1, p2, p3, p4⟩ Q ⟨q1, q2, q3, q4⟩ s t hs ht hst
    obtain rfl : s = 1 - t := by linarith
    have e1 : ((1 - t) • P + t • Q).1 = (1 - t) * P.1 + t * Q.1 := rfl
    have e2 : ((1 - t) • P + t • Q).2 = (1 - t) * P.2 + t * Q.2 := rfl
    simp only [Set.mem_ofPred_eq, e1, e2]
    refine ⟨by nlinarith, by nlinarith, ?_, by nlinarith⟩
    · rcases ht.eq_or_lt with rfl | ht'
      · linarith
      · nlinarith
  have m1 : ((width / 2 + a, width / 2) : Pt) ∈ {P : Pt | a ≤ P.1 - width / 2 ∧ -(2 / 100) ≤ P.2 - width / 2 ∧ P.2 - width / 2 < 2 / 100 ∧ P.1 - width / 2 + (P.2 - width / 2) < -D} := by
    simp only [Set.mem_ofPred_eq]
    exact ⟨by linarith, by linarith, by linarith, by linarith⟩
  have m2 : ((width / 2 + a, width / 2) : Pt) ∈ {P : Pt | a ≤ P.1 - width / 2 ∧ -(2 / 100) ≤ P.2 - width / 2 ∧ P.2 - width / 2 < 2 / 100 ∧ D ≤ P.2 - width / 2 - (P.1 - width / 2)} := by
    simp only [Set.mem_ofPred_eq]
    exact ⟨by linarith, by linarith, by linarith, by linarith⟩
  have := join (convex_connected c1 _ m1) (convex_connected c2 _ m2) _ m1 m2
  convert this using 1
  ext P
  simp only [Set.mem_union, Set.mem_ofPred_eq]
  tauto

theorem thin_in (P : Pt) : P ∈ thinSheet ↔ -(6975 / 1000) ≤ P.1 - width / 2 ∧ -(2 / 100) ≤ P.2 - width / 2 ∧ P.2 - width / 2 < 2 / 100 ∧
    (P.1 - width / 2 + (P.2 - width / 2) < -(7625 / 10000 * Real.sqrt 2) ∨ 7625 / 10000 * Real.sqrt 2 ≤ P.2 - width / 2 - (P.1 - width / 2)) := by
  have hD := D0_bounds
  unfold thinSheet
  rw [Set.mem_sdiff, rect0_in, skinny_in, diamond_iff]
  generalize 7625 / 10000 * Real.sqrt 2 = D at hD ⊢
  constructor
  · rintro ⟨⟨h1, h2, h3, h4⟩, h5⟩
    refine ⟨h1, h3, h4, ?_⟩
    by_contra h
    push Not at h
    exact h5 ⟨h.1, by linarith, by linarith, h.2⟩
  · rintro ⟨h1, h3, h4, h5⟩
    refine ⟨⟨h1, ?_, h3, h4⟩, fun h => ?_⟩
    · rcases h5 with h5 | h5 <;> linarith
    · rcases h5 with h5 | h5 <;> linarith [h.1, h.2.2.2]

theorem thin_connected : IsConnected thinSheet := by
  have hD := D0_bounds
  have := tip_connected (-(6975 / 1000)) (7625 / 10000 * Real.sqrt 2) (by linarith)
  convert this using 1
  ext P
  exact thin_in P

theorem box_connected {a b c d : ℝ} (h : a < b) (h' : c < d) :
    IsConnected {P : Pt | a ≤ P.1 - width / 2 ∧ P.1 - width / 2 < b ∧ c ≤ P.2 - width / 2 ∧ P.2 - width / 2 < d} := by
  have := rect_connected (a := a + width / 2) (b := b + width / 2) (c := c + width / 2) (d := d + width / 2) (by linarith) (by linarith)
  convert this using 1
  ext P
  simp only [Set.mem_ofPred_eq]
  constructor
  · rintro ⟨h1, h2, h3, h4⟩; exact ⟨by linarith, by linarith, by linarith, by linarith⟩
  · rintro ⟨h1, h2, h3, h4⟩; exact ⟨by linarith, by linarith, by linarith, by linarith⟩

theorem wide_connected : IsConnected wideSheet := by
  have hD := D0_bounds
  refine join thin_connected ?_ (width / 2 - 6, width / 2) ((thin_in _).2 ?_) ((thick_in _).2 ?_)
  · have := box_connected (a := -(615 / 100)) (b := -(282 / 100)) (c := -(9 / 100)) (d := 9 / 100) (by norm_num) (by norm_num)
    convert this using 1
    ext P
    exact thick_in P
  · dsimp only
    exact ⟨by linarith, by linarith, by linarith, Or.inl (by linarith)⟩
  · dsimp only
    exact ⟨by linarith, by linarith, by linarith, by linarith⟩

theorem wing_connected : IsConnected wingSheet := by
  have hD := D0_bounds
  have k1 := box_connected (a := -(6975 / 1000)) (b := -(611 / 100)) (c := -(2 / 100)) (d := 2 / 100) (by norm_num) (by norm_num)
  have k2 := box_connected (a := -(615 / 100)) (b := -(611 / 100)) (c := -(9 / 100)) (d := 9 / 100) (by norm_num) (by norm_num)
  have k3 := box_connected (a := -(615 / 100)) (b := -(282 / 100)) (c := -(9 / 100)) (d := -(5 / 100)) (by norm_num) (by norm_num)
  have k4 := box_connected (a := -(615 / 100)) (b := -(282 / 100)) (c := 5 / 100) (d := 9 / 100) (by norm_num) (by norm_num)
  have k5 := box_connected (a := -(286 / 100)) (b := -(282 / 100)) (c := -(9 / 100)) (d := 9 / 100) (by norm_num) (by norm_num)
  have k6 := tip_connected (-(286 / 100)) (7625 / 10000 * Real.sqrt 2) (by linarith)
  have j1 := join k1 k2 (width / 2 - 612 / 100, width / 2) (by simp only [Set.mem_ofPred_eq]; exact ⟨by linarith, by linarith, by linarith, by linarith⟩)
    (by simp only [Set.mem_ofPred_eq]; exact ⟨by linarith, by linarith, by linarith, by linarith⟩)
  have j2 := join j1 k3 (width / 2 - 612 / 100, width / 2 - 7 / 100) (Or.inr (by simp only [Set.mem_ofPred_eq]; exact ⟨by linarith, by linarith, by linarith, by linarith⟩))
    (by simp only [Set.mem_ofPred_eq]; exact ⟨by linarith, by linarith, by linarith, by linarith⟩)
  have j3 := join j2 k4 (width / 2 - 612 / 100, width / 2 + 7 / 100)
    (Or.inl (Or.inr (by simp only [Set.mem_ofPred_eq]; exact ⟨by linarith, by linarith, by linarith, by linarith⟩)))
    (by simp only [Set.mem_ofPred_eq]; exact ⟨by linarith, by linarith, by linarith, by linarith⟩)
  have j4 := join j3 k5 (width / 2 - 284 / 100, width / 2 + 7 / 100)
    (Or.inr (by simp only [Set.mem_ofPred_eq]; exact ⟨by linarith, by linarith, by linarith, by linarith⟩))
    (by simp only [Set.mem_ofPred_eq]; exact ⟨by linarith, by linarith, by linarith, by linarith⟩)
  have j5 := join j4 k6 (width / 2 - 284 / 100, width / 2)
    (Or.inr (by simp only [Set.mem_ofPred_eq]; exact ⟨by linarith, by linarith, by linarith, by linarith⟩))
    (by simp only [Set.mem_ofPred_eq]; exact ⟨by linarith, by linarith, by linarith, Or.inl (by linarith)⟩)
  convert j5 using 1
  ext P
  have hw : P ∈ wingSheet ↔ (P ∈ thinSheet ∨ P ∈ thick) ∧ P ∉ wingHole := Iff.rfl
  rw [hw, thin_in, thick_in, hole_in]
  unfold Hole
  simp only [Set.mem_union, Set.mem_ofPred_eq]
  generalize P.1 - width / 2 = u
  generalize P.2 - width / 2 = v
  generalize 7625 / 10000 * Real.sqrt 2 = D at hD ⊢
  constructor
  · rintro ⟨⟨h1, h2, h3, h4⟩ | ⟨h1, h2, h3, h4⟩, h5⟩
    · rcases lt_or_ge u (-(611 / 100)) with r | r
      · exact Or.inl (Or.inl (Or.inl (Or.inl (Or.inl ⟨h1, r, h2, h3⟩))))
      · rcases lt_or_ge u (-(286 / 100)) with r' | r'
        · exact absurd ⟨r, r', by linarith, by linarith⟩ h5
        · exact Or.inr ⟨r', h2, h3, h4⟩
    · rcases lt_or_ge u (-(611 / 100)) with r | r
      · exact Or.inl (Or.inl (Or.inl (Or.inl (Or.inr ⟨h1, r, h3, h4⟩))))
      · rcases lt_or_ge u (-(286 / 100)) with r' | r'
        · rcases lt_or_ge v (-(5 / 100)) with r2 | r2
          · exact Or.inl (Or.inl (Or.inl (Or.inr ⟨h1, h2, h3, r2⟩)))
          · rcases lt_or_ge v (5 / 100) with r3 | r3
            · exact absurd ⟨r, r', r2, r3⟩ h5
            · exact Or.inl (Or.inl (Or.inr ⟨h1, h2, r3, h4⟩))
        · exact Or.inl (Or.inr ⟨r', h2, h3, h4⟩)
  · rintro (((((⟨h1, h2, h3, h4⟩ | ⟨h1, h2, h3, h4⟩) | ⟨h1, h2, h3, h4⟩) | ⟨h1, h2, h3, h4⟩) | ⟨h1, h2, h3, h4⟩) | ⟨h1, h2, h3, h4⟩)
    · exact ⟨Or.inl ⟨h1, h3, h4, Or.inl (by linarith)⟩, fun h => by linarith [h.1]⟩
    · exact ⟨Or.inr ⟨h1, by linarith, h3, h4⟩, fun h => by linarith [h.1]⟩
    · exact ⟨Or.inr ⟨h1, h2, h3, by linarith⟩, fun h => by linarith [h.2.2.1]⟩
    · exact ⟨Or.inr ⟨h1, h2, by linarith, h4⟩, fun h => by linarith [h.2.2.2]⟩
    · exact ⟨Or.inr ⟨by linarith, h2, h3, h4⟩, fun h => by linarith [h.2.1]⟩
    · exact ⟨Or.inl ⟨by linarith, h2, h3, h4⟩, fun h => by linarith [h.2.1]⟩

end

end Verif.SveaL
