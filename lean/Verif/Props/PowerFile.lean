import Verif.Model.PowerFile
import Verif.Props.Power
import Verif.Props.PostSoup
import Verif.Props.Order

/-! C133: powers from an FSR output. -/

namespace Verif.PowerFileP

open Verif.Polytope Verif.Geom Verif.Power Verif.PowerFile Verif.PropsPower
open Verif.Str (Byte)
open Verif.ElemTypes (VTK)
open Verif.XSLib (Res)
open Verif.Post (OneKind faceOf faces_eq byName integral)

set_option linter.unusedSectionVars false

variable {K : Type} [Field K] [LinearOrder K] [IsStrictOrderedRing K] {N : Nat}

/-- The set `power` has as many ids, in ascending order, and as many values as there are elements, and `power` lists the values, one of them positive. -/
def Accepted (n : Nat) (sets : List (ElSet (List Byte) K)) (power : List K) : Prop :=
  ∃ e, (sets.find? fun e => decide (e.name = MFiles.str "power")) = some e ∧ e.data = power ∧ e.ids.length = n ∧ power.length = n ∧ 0 < n ∧
    e.ids.Pairwise (· ≤ ·) ∧ ∃ p ∈ power, 0 < p

/-- What is not accepted ends the program; nothing is undefined. -/
theorem C133_data {V T : Type} (s : Soup V T (List Byte) K) (els sets) (h : Rep s els sets) :
    (∀ power, powerData s = .ok power ↔ Accepted els.length sets power) ∧ ((∀ power, ¬ Accepted els.length sets power) ↔ powerData s = .refused) := by
  have key : (∃ power, powerData s = .ok power ∧ Accepted els.length sets power) ∨ (powerData s = .refused ∧ ∀ power, ¬ Accepted els.length sets power) := by
    unfold powerData
    rw [byName s els sets h]
    cases hf : sets.find? fun e => decide (e.name = MFiles.str "power") with
    | none =>
      refine Or.inr ⟨rfl, ?_⟩
      rintro power ⟨e, he, -⟩
      rw [hf] at he
      exact absurd he (by simp)
    | some e =>
      have hd : (if e.data = [] then [] else e.data) = e.data := by
        split
        · rename_i h; rw [h]
        · rfl
      have uniq : ∀ power, Accepted els.length sets power → e.data = power ∧ e.ids.length = els.length ∧ power.length = els.length ∧ 0 < els.length ∧
          e.ids.Pairwise (· ≤ ·) ∧ ∃ p ∈ power, 0 < p := by
        rintro power ⟨e', he, h1⟩
        rw [hf] at he
        obtain rfl := Option.some.inj he
        exact h1
      have hs := Order.C13_isSorted e.ids
      simp only [Option.map_some, Res.ofOption, Res.bind, Option.getD_some, hd, h.types, List.length_map]
      split
      · rename_i c
        exact Or.inr ⟨rfl, fun power a => c (by have := uniq power a; rw [this.1]; omega)⟩
      · rename_i c1
        split
        · rename_i c
          refine Or.inr ⟨rfl, fun power a => ?_⟩
          have := uniq power a
          rw [List.isEmpty_iff] at c
          rw [c] at this
          simp at this
          omega
        · rename_i c2
          split
          · rename_i c
            exact Or.inr ⟨rfl, fun power a => c (uniq power a).2.1⟩
          · rename_i c3
            split
            · rename_i c
              refine Or.inr ⟨rfl, fun power a => ?_⟩
              have := hs.2 (uniq power a).2.2.2.2.1
              unfold Alg.lt' at this
              rw [this] at c
              exact absurd c (by simp)
            · rename_i c4
              have sorted : e.ids.Pairwise (· ≤ ·) := hs.1 (by unfold Alg.lt'; simpa using c4)
              split
              · rename_i c
                refine Or.inl ⟨_, rfl, e, hf, rfl, by omega, by omega, ?_, sorted, ?_⟩
                · rw [List.isEmpty_iff, ← List.length_eq_zero_iff] at c2
                  omega
                · simpa using c
              · rename_i c
                refine Or.inr ⟨rfl, fun power a => c ?_⟩
                obtain ⟨a1, -, -, -, -, p, hp, pos⟩ := uniq power a
                rw [a1]
                simpa using ⟨p, hp, pos⟩
  have same : ∀ p q, Accepted els.length sets p → Accepted els.length sets q → p = q := by
    rintro p q ⟨e, he, rfl, -⟩ ⟨e', he', rfl, -⟩
    rw [he] at he'
    rw [Option.some.inj he']
  rcases key with ⟨p, hp, ha⟩ | ⟨hr, hn⟩
  · rw [hp]
    exact ⟨fun q => ⟨fun c => by cases c; exact ha, fun a => by rw [same _ _ ha a]⟩, ⟨fun c => absurd ha (c p), fun c => absurd c (by simp)⟩⟩
  · rw [hr]
    exact ⟨fun q => ⟨fun c => absurd c (by simp), fun a => absurd a (hn q)⟩, ⟨fun _ => rfl, fun _ => hn⟩⟩

theorem lookup_eq {α β : Type} (f : α → Option β) (z : β) : ∀ (l : List α) (r : List β) (power : List K), l.mapM f = some r → l.length = power.length →
    ((l.zip power).mapM fun x => if 0 < x.2 then f x.1 else some z) = some (List.zipWith (fun y p => if 0 < p then y else z) r power)
  | [], r, power, h, hl => by
    rw [List.mapM_nil] at h
    obtain rfl := Option.some.inj h
    obtain rfl := List.length_eq_zero_iff.1 hl.symm
    rfl
  | a :: l, r, [], h, hl => by simp at hl
  | a :: l, r, p :: power, h, hl => by
    rw [List.mapM_cons] at h
    cases ha : f a with
    | none => rw [ha] at h; exact absurd h (by simp)
    | some b =>
      cases hm : l.mapM f with
      | none => rw [ha, hm] at h; exact absurd h (by simp)
      | some r' =>
        rw [ha, hm] at h
        obtain rfl := Option.some.inj h
        rw [List.zip_cons_cons, List.mapM_cons, lookup_eq f z l r' power hm (by simpa using hl), List.zipWith_cons_cons]
        dsimp only
        split
        · rw [ha]; rfl
        · rfl

theorem mapM_len {α β : Type} (f : α → Option β) : ∀ (l : List α) (r : List β), l.mapM f = some r → r.length = l.length
  | [], r, h => by
    rw [List.mapM_nil] at h
    obtain rfl := Option.some.inj h
    rfl
  | a :: l, r, h => by
    rw [List.mapM_cons] at h
    cases ha : f a with
    | none => rw [ha] at h; exact absurd h (by simp)
    | some b =>
      cases hm : l.mapM f with
      | none => rw [ha, hm] at h; exact absurd h (by simp)
      | some r' =>
        rw [ha, hm] at h
        obtain rfl := Option.some.inj h
        rw [List.length_cons, List.length_cons, mapM_len f l r' hm]

theorem items_zipWith (z : Poly N 2 K) (faces : List (Poly N 2 K)) (power : List K) :
    items (List.zipWith (fun y p => if 0 < p then y else z) faces power) power = items faces power := by
  have key : ∀ (faces : List (Poly N 2 K)) (power : List K) (k : Nat),
      ((((List.zipWith (fun y p => if 0 < p then y else z) faces power).zip power).zipIdx k).filter fun x => decide (0 < x.1.2)) =
        ((faces.zip power).zipIdx k).filter fun x => decide (0 < x.1.2) := by
    intro faces
    induction faces with
    | nil => intro power k; rfl
    | cons a l ih =>
      intro power k
      cases power with
      | nil => rfl
      | cons p power =>
        rw [List.zipWith_cons_cons, List.zip_cons_cons, List.zip_cons_cons, List.zipIdx_cons, List.zipIdx_cons, List.filter_cons, List.filter_cons, ih]
        by_cases c : 0 < p
        · simp [c]
        · simp [c]
  unfold items
  rw [key]

/-- The faces of the soup. -/
def facesOf (N : Nat) (s : Soup (Pt 3 K) VTK (List Byte) K) (els : List (VTK × List Nat)) : List (Poly N 2 K) := els.map fun e => faceOf N s.verts e.2

theorem powersOf_eq (kind : Kind N K) (ty : VTK) (eps : K) (junk : Nat → Pt 2 K) (tol scl : K) (sorter : List (Item N K) → List (Item N K))
    (s : Soup (Pt 3 K) VTK (List Byte) K) (els sets) (h : OneKind N ty eps s els sets) {power : List K} (ha : Accepted els.length sets power) :
    powersOf kind ty eps junk tol scl sorter s = Res.ofOption (getPowers kind tol scl sorter (facesOf N s els) power) := by
  obtain ⟨m, h1, h2⟩ := faces_eq N ty eps junk s els sets h
  have hl : m.fv.length = els.length := by
    have := mapM_len _ _ _ h2
    simpa using this.symm
  have hp : power.length = els.length := by obtain ⟨e, -, -, -, hp, -⟩ := ha; exact hp
  unfold powersOf
  rw [((C133_data s els sets h.rep).1 power).2 ha, h1]
  show (Res.ofOption _).bind _ = _
  rw [lookup_eq _ _ _ _ power h2 (by rw [hl, hp])]
  show Res.ofOption _ = _
  congr 1
  unfold getPowers
  rw [items_zipWith]
  unfold facesOf
  rw [List.length_zipWith, List.length_map, hp]
  simp

/-- The powers of an FSR output are those of the connected groups of its elements with positive power (C65), taken from the set `power`, in which
element `i` has the value with number `i`.

Partial: the ids must be different, and ids of elements (`hn`, `hi`; `C133_ids_fails`), and `NearFits` as in C65. -/
theorem C133_powers_partial (kind : Kind N K) (hk : BoxesVertices kind) (ty : VTK) (eps : K) (junk : Nat → Pt 2 K) (tol scl : K)
    (sorter : List (Item N K) → List (Item N K)) (hsort : ∀ l, IsStdSort (fun a b : Item N K => decide (a.id < b.id)) l (sorter l))
    (s : Soup (Pt 3 K) VTK (List Byte) K) (els sets) (h : OneKind N ty eps s els sets) (e : ElSet (List Byte) K)
    (he : (sets.find? fun e => decide (e.name = MFiles.str "power")) = some e) (hn : e.ids.Nodup) (hi : ∀ i ∈ e.ids, i < els.length)
    (ha : Accepted els.length sets e.data) (hf : NearFits kind tol scl (facesOf N s els) e.data) :
    e.ids = List.range els.length ∧ ∃ (groups : List (List Nat)) (out : List (K × Option (Pt 2 K))), powersOf kind ty eps junk tol scl sorter s = .ok out ∧
      groups.flatten.Nodup ∧ (∀ i, i ∈ groups.flatten ↔ Positive (facesOf N s els) e.data i) ∧ (∀ g ∈ groups, g ≠ []) ∧
      (∀ g ∈ groups, ∀ x ∈ g, ∀ y, y ∈ g ↔ Relation.ReflTransGen (Adjacent tol (facesOf N s els) e.data) x y) ∧
      List.Forall₂ (IsEntry kind (facesOf N s els) e.data) groups out := by
  have hr : e.ids = List.range els.length := by
    obtain ⟨e', he', -, hl, -, -, hs, -⟩ := ha
    rw [he] at he'
    obtain rfl := Option.some.inj he'
    have hp : e.ids.Perm (List.range els.length) := by
      refine (List.subperm_of_subset hn fun i hm => List.mem_range.2 (hi i hm)).perm_of_length_le ?_
      rw [hl, List.length_range]
    exact hp.eq_of_pairwise (fun a b _ _ h1 h2 => le_antisymm h1 h2) hs List.pairwise_le_range
  refine ⟨hr, ?_⟩
  have hp : e.data.length = els.length := by obtain ⟨e', -, -, -, hp, -⟩ := ha; exact hp
  obtain ⟨groups, out, h1, h2, h3, h4, h5, h6, -⟩ := C65_components_partial kind hk tol scl sorter hsort (facesOf N s els) e.data
    (by unfold facesOf; rw [List.length_map, hp]) hf
  exact ⟨groups, out, by rw [powersOf_eq kind ty eps junk tol scl sorter s els sets h ha, h1]; rfl, h2, h3, h4, h5, h6⟩

/-- The total of the powers is the sum of value times area over the elements with positive value. -/
theorem C133_total (kind : Kind N K) (hk : BoxesVertices kind) (ty : VTK) (eps : K) (junk : Nat → Pt 2 K) (tol scl : K)
    (sorter : List (Item N K) → List (Item N K)) (hsort : ∀ l, IsStdSort (fun a b : Item N K => decide (a.id < b.id)) l (sorter l))
    (s : Soup (Pt 3 K) VTK (List Byte) K) (els sets) (h : OneKind N ty eps s els sets) (power : List K)
    (ha : Accepted els.length sets power) (hf : NearFits kind tol scl (facesOf N s els) power) :
    ∃ out, powersOf kind ty eps junk tol scl sorter s = .ok out ∧
      (out.map (·.1)).sum = ((((facesOf N s els).zip power).filter fun x => decide (0 < x.2)).map fun x => x.2 * kind.area x.1).sum := by
  have hp : power.length = els.length := by obtain ⟨e', -, -, -, hp, -⟩ := ha; exact hp
  obtain ⟨groups, out, h1, -, -, -, -, -, h7⟩ := C65_components_partial kind hk tol scl sorter hsort (facesOf N s els) power
    (by unfold facesOf; rw [List.length_map, hp]) hf
  exact ⟨out, by rw [powersOf_eq kind ty eps junk tol scl sorter s els sets h ha, h1]; rfl, h7⟩

/-- Without acceptable data, and without elements of one of the four types only, the program ends. -/
theorem C133_refused (eps : ℝ) (junk : Nat → Pt 2 ℝ) (tol scl : ℝ) (sorter : ∀ N, List (Item N ℝ) → List (Item N ℝ))
    (s : Soup (Pt 3 ℝ) VTK (List Byte) ℝ) (els sets) (h : Rep s els sets)
    (bad : (∀ power, ¬ Accepted els.length sets power) ∨ ∀ t ∈ [VTK.Triangle, VTK.Quad, VTK.QuadraticTriangle, VTK.QuadraticQuad], els = [] ∨ ∃ e ∈ els, e.1 ≠ t) :
    powers eps junk tol scl sorter s = .refused := by
  unfold powers
  split
  · rename_i t ht
    rcases bad with bad | bad
    · have hd := (C133_data s els sets h).2.1 bad
      have hr : ∀ {N : Nat} (kind : Kind N ℝ) (ty : VTK) (so : List (Item N ℝ) → List (Item N ℝ)), powersOf kind ty eps junk tol scl so s = .refused := by
        intro N kind ty so
        unfold powersOf
        rw [hd]
        rfl
      rw [hr, hr, hr, hr]
      simp
    · have hm := (C46_elemTypes s).2
      rw [ht] at hm
      have no : ∀ t' ∈ [VTK.Triangle, VTK.Quad, VTK.QuadraticTriangle, VTK.QuadraticQuad], t ≠ t' := by
        rintro t' h' rfl
        rcases bad t h' with c | ⟨e, he, c⟩
        · have : t ∈ s.types := (hm t).1 (by simp)
          rw [h.types, c] at this
          simp at this
        · have := (hm e.1).2 (by rw [h.types]; exact List.mem_map.2 ⟨e, he, rfl⟩)
          exact c (by simpa using this)
      rw [if_neg (no _ (by simp)), if_neg (no _ (by simp)), if_neg (no _ (by simp)), if_neg (no _ (by simp))]
  · rfl

/-- Each of the four types has its own instance. -/
theorem C133_types (eps : ℝ) (junk : Nat → Pt 2 ℝ) (tol scl : ℝ) (sorter : ∀ N, List (Item N ℝ) → List (Item N ℝ))
    (s : Soup (Pt 3 ℝ) VTK (List Byte) ℝ) (els sets) :
    (OneKind 3 VTK.Triangle eps s els sets → powers eps junk tol scl sorter s = powersOf triKind VTK.Triangle eps junk tol scl (sorter 3) s) ∧
    (OneKind 4 VTK.Quad eps s els sets → powers eps junk tol scl sorter s = powersOf quadKind VTK.Quad eps junk tol scl (sorter 4) s) ∧
    (OneKind 6 VTK.QuadraticTriangle eps s els sets → powers eps junk tol scl sorter s = powersOf tri6Kind VTK.QuadraticTriangle eps junk tol scl (sorter 6) s) ∧
    (OneKind 8 VTK.QuadraticQuad eps s els sets → powers eps junk tol scl sorter s = powersOf quad8Kind VTK.QuadraticQuad eps junk tol scl (sorter 8) s) := by
  have ht : ∀ {N : Nat} {ty : VTK}, OneKind N ty eps s els sets → getElemTypes s = [ty] := by
    intro N ty h
    apply Mesh.types_single
    · rw [h.rep.types]; simpa using h.some_
    · rw [h.rep.types]
      intro t ht
      obtain ⟨e, he, rfl⟩ := List.mem_map.1 ht
      exact (h.all e he).1
  refine ⟨fun h => ?_, fun h => ?_, fun h => ?_, fun h => ?_⟩ <;> unfold powers <;> rw [ht h] <;> dsimp only
  · rw [if_pos rfl]
  · rw [if_neg (by decide), if_pos rfl]
  · rw [if_neg (by decide), if_neg (by decide), if_pos rfl]
  · rw [if_neg (by decide), if_neg (by decide), if_neg (by decide), if_pos rfl]

/-! ### A set that lists an element twice -/

/-- Two triangles with areas 1/2 and 2; `ids` lists their numbers, the values are 1. -/
def twoFaces (ids : List Nat) : Soup (Pt 3 ℚ) VTK (List Byte) ℚ :=
  ⟨[![0, 0, 0], ![1, 0, 0], ![0, 1, 0], ![5, 0, 0], ![7, 0, 0], ![5, 2, 0]], [5, 5], [0, 3, 6], [0, 1, 2, 3, 4, 5], [MFiles.str "power"], [0, ids.length], ids, [[1, 1]]⟩

def twoEls : List (VTK × List Nat) := [(5, [0, 1, 2]), (5, [3, 4, 5])]

def twoSets (ids : List Nat) : List (ElSet (List Byte) ℚ) := [⟨MFiles.str "power", ids, [1, 1]⟩]

theorem two_kind (a b : Nat) : OneKind 3 VTK.Triangle (1 / 10000000) (twoFaces [a, b]) twoEls (twoSets [a, b]) where
  rep := ⟨rfl, rfl, rfl, rfl, rfl, rfl, rfl⟩
  some_ := by decide
  all := by decide
  verts := by unfold twoFaces; dsimp only; decide
  flat := ⟨![0, 0, 0], rfl, by unfold twoFaces; dsimp only; decide +kernel⟩

theorem two_accepted {a b : Nat} (h : a ≤ b) : Accepted 2 (twoSets [a, b]) [1, 1] := by
  refine ⟨⟨MFiles.str "power", [a, b], [1, 1]⟩, ?_, rfl, rfl, rfl, by norm_num, by simpa using h, 1, by simp, one_pos⟩
  simp [twoSets]

theorem two_near (ids : List Nat) : NearFits triKind (1 / 100000) (101 / 100) (facesOf 3 (twoFaces ids) twoEls) [1, 1] := by
  apply C65_large _ _ _ (by norm_num) (by norm_num)
  have : ∀ f ∈ facesOf 3 (twoFaces []) twoEls, ∀ d, (1 / 100000 : ℚ) ≤ (101 / 100 - 1) * Box.extents ((triKind (K := ℚ)).box f) d := by decide +kernel
  intro i f _ hf
  exact this f (List.mem_of_getElem? hf)

/-- The ids are only compared with each other: a set that lists the first element twice, so that its values make up a power of 1, is accepted, and gives the
power 5/2 with the second element. -/
theorem C133_ids_fails (junk : Nat → Pt 2 ℚ) (sorter : List (Item 3 ℚ) → List (Item 3 ℚ))
    (hsort : ∀ l, IsStdSort (fun a b : Item 3 ℚ => decide (a.id < b.id)) l (sorter l)) :
    ∃ out, powersOf triKind VTK.Triangle (1 / 10000000) junk (1 / 100000) (101 / 100) sorter (twoFaces [0, 0]) = .ok out ∧ (out.map (·.1)).sum = 5 / 2 ∧
      integral 3 triArea (twoFaces [0, 0]).verts twoEls ⟨MFiles.str "power", [0, 0], [1, 1]⟩ = 1 := by
  obtain ⟨out, h1, h2⟩ := C133_total triKind C65_kinds.1 VTK.Triangle (1 / 10000000) junk (1 / 100000) (101 / 100) sorter hsort (twoFaces [0, 0]) twoEls
    (twoSets [0, 0]) (two_kind 0 0) [1, 1] (two_accepted (le_refl 0)) (two_near _)
  refine ⟨out, h1, ?_, by decide +kernel⟩
  rw [h2]
  decide +kernel

/-- The hypotheses of `C133_powers_partial` are met by the set that lists both elements. -/
example (junk : Nat → Pt 2 ℚ) (sorter : List (Item 3 ℚ) → List (Item 3 ℚ)) (hsort : ∀ l, IsStdSort (fun a b : Item 3 ℚ => decide (a.id < b.id)) l (sorter l)) :
    ∃ (groups : List (List Nat)) (out : List (ℚ × Option (Pt 2 ℚ))),
      powersOf triKind VTK.Triangle (1 / 10000000) junk (1 / 100000) (101 / 100) sorter (twoFaces [0, 1]) = .ok out ∧ groups.flatten.Nodup := by
  obtain ⟨-, g, o, h1, h2, -⟩ := C133_powers_partial triKind C65_kinds.1 VTK.Triangle (1 / 10000000) junk (1 / 100000) (101 / 100) sorter hsort (twoFaces [0, 1]) twoEls
    (twoSets [0, 1]) (two_kind 0 1) ⟨MFiles.str "power", [0, 1], [1, 1]⟩ (by simp [twoSets]) (by decide) (by decide) (two_accepted (by norm_num)) (two_near _)
  exact ⟨g, o, h1, h2⟩

end Verif.PowerFileP
