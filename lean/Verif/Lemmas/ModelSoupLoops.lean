import Verif.Lemmas.ModelSoupVisits

/-! Helper lemmas for the soup of a model: the loops. -/

set_option linter.unusedSectionVars false
set_option linter.unusedVariables false

namespace Verif.ModelSoup

open Verif.Mpact Verif.ModelXdmf Verif.Polytope Verif.Phys Verif.CmfdInfo
open Verif.Pin (Mesh)
open Verif.Str (Byte)
open Verif.XSLib (Res)

/-- The sets with data. -/
def dataNames : List Name := [bytes "Material_ID", bytes "One_Group_XS", bytes "Mean_Chord_Length", bytes "Knudsen_Number"]

def IsData (n : Name) : Prop := n ∈ dataNames

section
variable {K M : Type} [Field K] [LinearOrder K]

/-- A cell at its place, with the names of the sets it is in. -/
structure Mark (K : Type) where
  tile : Tile K
  nC : Name
  nR : Name
  nL : Name
  nA : Name

/-- The part of the soup for a mark. -/
def partOf (E : Env K) (xsec : M → XSec K) (s : Model K M) (m : Mark K) : Part K where
  verts := (meshOf s m.tile.id).verts.map fun p => (p.1 + m.tile.lo.1, p.2 + m.tile.lo.2, m.tile.z)
  els := (meshOf s m.tile.id).faces.map fun c => (typeOf s m.tile.id, c)
  sets := [(m.nC, []), (m.nR, []), (m.nL, []), (m.nA, []),
    (bytes "Material_ID", (matsOf s m.tile.id).map fun i : ℤ => (i : K)),
    (bytes "One_Group_XS", (matsOf s m.tile.id).map (sigma xsec s)),
    (bytes "Mean_Chord_Length", (List.range (nf s m.tile)).map (E.chord (meshOf s m.tile.id))),
    (bytes "Knudsen_Number", List.zipWith (fun x c => E.recip (x * c)) ((matsOf s m.tile.id).map (sigma xsec s))
      ((List.range (nf s m.tile)).map (E.chord (meshOf s m.tile.id))))]

/-- Names of the four kinds. -/
structure Heads (m : Mark K) : Prop where
  c : m.nC.head? = some 67
  r : m.nR.head? = some 82
  l : m.nL.head? = some 76
  a : m.nA.head? = some 65

theorem ne_of_head (a b : Name) (x y : Byte) (ha : a.head? = some x) (hb : b.head? = some y) (h : x ≠ y) : a ≠ b := by
  rintro rfl
  rw [ha, Option.some.injEq] at hb
  exact h hb

theorem names_ok (E : Env K) (xsec : M → XSec K) (s : Model K M) (m : Mark K) (h : Heads m) :
    ((partOf E xsec s m).sets.map (·.1)).Nodup := by
  have d1 : (bytes "Material_ID").head? = some 77 := by decide
  have d2 : (bytes "One_Group_XS").head? = some 79 := by decide
  have d3 : (bytes "Mean_Chord_Length").head? = some 77 := by decide
  have d4 : (bytes "Knudsen_Number").head? = some 75 := by decide
  have d5 : bytes "Material_ID" ≠ bytes "Mean_Chord_Length" := by decide
  simp only [partOf, List.map_cons, List.map_nil, List.nodup_cons, List.mem_cons, List.not_mem_nil, or_false, not_or, List.nodup_nil,
    not_false_eq_true, and_true]
  refine ⟨⟨?_, ?_, ?_, ?_, ?_, ?_, ?_⟩, ⟨?_, ?_, ?_, ?_, ?_, ?_⟩, ⟨?_, ?_, ?_, ?_, ?_⟩, ⟨?_, ?_, ?_, ?_⟩, ⟨?_, d5, ?_⟩, ⟨?_, ?_⟩, ?_⟩
  · exact ne_of_head _ _ _ _ h.c h.r (by decide)
  · exact ne_of_head _ _ _ _ h.c h.l (by decide)
  · exact ne_of_head _ _ _ _ h.c h.a (by decide)
  · exact ne_of_head _ _ _ _ h.c d1 (by decide)
  · exact ne_of_head _ _ _ _ h.c d2 (by decide)
  · exact ne_of_head _ _ _ _ h.c d3 (by decide)
  · exact ne_of_head _ _ _ _ h.c d4 (by decide)
  · exact ne_of_head _ _ _ _ h.r h.l (by decide)
  · exact ne_of_head _ _ _ _ h.r h.a (by decide)
  · exact ne_of_head _ _ _ _ h.r d1 (by decide)
  · exact ne_of_head _ _ _ _ h.r d2 (by decide)
  · exact ne_of_head _ _ _ _ h.r d3 (by decide)
  · exact ne_of_head _ _ _ _ h.r d4 (by decide)
  · exact ne_of_head _ _ _ _ h.l h.a (by decide)
  · exact ne_of_head _ _ _ _ h.l d1 (by decide)
  · exact ne_of_head _ _ _ _ h.l d2 (by decide)
  · exact ne_of_head _ _ _ _ h.l d3 (by decide)
  · exact ne_of_head _ _ _ _ h.l d4 (by decide)
  · exact ne_of_head _ _ _ _ h.a d1 (by decide)
  · exact ne_of_head _ _ _ _ h.a d2 (by decide)
  · exact ne_of_head _ _ _ _ h.a d3 (by decide)
  · exact ne_of_head _ _ _ _ h.a d4 (by decide)
  · decide
  · decide
  · decide
  · decide
  · decide

/-- The facts about one coarse cell. -/
theorem Meshed.get {s : Model K M} (h : Meshed s) (c : Nat) (hc : c < s.cells.length) :
    ∃ cell l m, s.cells[c]? = some cell ∧ s.meshes cell.meshType = some l ∧ at? l cell.meshId = some m ∧ meshOf s c = m ∧
      typeOf s c = elemType cell.meshType ∧ matsOf s c = cell.mats.map (·.toInt) ∧ m.faces ≠ [] ∧ m.faces.length = cell.mats.length ∧
      ∀ id ∈ cell.mats, 0 ≤ id.toInt ∧ id.toInt < s.materials.length := by
  obtain ⟨cell, hcell⟩ := get_of_lt s.cells c hc
  obtain ⟨l, m, h1, h2, h3, h4, h5, h6⟩ := h cell (List.mem_of_getElem? hcell)
  refine ⟨cell, l, m, hcell, h1, ?_, ?_, ?_, ?_, h4, h5, h6⟩
  · unfold at?; rw [if_neg (by omega), h3]
  · unfold meshOf; rw [hcell, Option.bind_some, h1, Option.bind_some, h3]; rfl
  · unfold typeOf; rw [hcell]; rfl
  · unfold matsOf; rw [hcell]; rfl

theorem meshOf_faces {s : Model K M} (h : Meshed s) (c : Nat) (hc : c < s.cells.length) :
    (meshOf s c).faces ≠ [] ∧ (matsOf s c).length = (meshOf s c).faces.length := by
  obtain ⟨cell, l, m, -, -, -, e1, -, e2, h4, h5, -⟩ := h.get c hc
  rw [e1, e2]
  exact ⟨h4, by simp [h5]⟩

theorem partOf_good (E : Env K) (xsec : M → XSec K) (s : Model K M) (hM : Meshed s) (m : Mark K) (h : Heads m)
    (hc : m.tile.id < s.cells.length) : GoodPart IsData (partOf E xsec s m) := by
  obtain ⟨f1, f2⟩ := meshOf_faces hM _ hc
  refine ⟨by simpa [partOf] using f1, names_ok E xsec s m h, ?_⟩
  have hd : ∀ n : Name, ∀ x : Byte, n.head? = some x → x ≠ 77 → x ≠ 79 → x ≠ 75 → ¬ IsData n := by
    intro n x hn h1 h2 h3 hmem
    simp only [IsData, dataNames, List.mem_cons, List.not_mem_nil, or_false] at hmem
    rcases hmem with rfl | rfl | rfl | rfl
    · exact h1 (Option.some.inj hn).symm
    · exact h2 (Option.some.inj hn).symm
    · exact h1 (Option.some.inj hn).symm
    · exact h3 (Option.some.inj hn).symm
  have hy : ∀ n ∈ dataNames, IsData n := fun n h => h
  intro x hx
  simp only [partOf, List.mem_cons, List.not_mem_nil, or_false] at hx
  rcases hx with rfl | rfl | rfl | rfl | rfl | rfl | rfl | rfl
  · exact ⟨fun hh => absurd hh (hd _ _ h.c (by decide) (by decide) (by decide)), fun _ => rfl⟩
  · exact ⟨fun hh => absurd hh (hd _ _ h.r (by decide) (by decide) (by decide)), fun _ => rfl⟩
  · exact ⟨fun hh => absurd hh (hd _ _ h.l (by decide) (by decide) (by decide)), fun _ => rfl⟩
  · exact ⟨fun hh => absurd hh (hd _ _ h.a (by decide) (by decide) (by decide)), fun _ => rfl⟩
  · exact ⟨fun _ => by simp [partOf, f2], fun hh => absurd (by simp [IsData, dataNames]) hh⟩
  · exact ⟨fun _ => by simp [partOf, f2], fun hh => absurd (by simp [IsData, dataNames]) hh⟩
  · exact ⟨fun _ => by simp [partOf, nf], fun hh => absurd (by simp [IsData, dataNames]) hh⟩
  · exact ⟨fun _ => by simp [partOf, f2, nf], fun hh => absurd (by simp [IsData, dataNames]) hh⟩

/-! ### One cell -/

theorem meshSoup_holds (ty : ℤ) (m : Mesh K) :
    Holds (meshSoup ty m : CSoup K) ⟨m.verts.map fun p => (p.1, p.2, 0), m.faces.map fun c => (ty, c), []⟩ := by
  have h1 : ∀ (l : List (K × K)) (s : CSoup K) (a : Abs (K × K × K) ℤ Name K), Holds s a →
      Holds (l.foldl (fun s p => (addVertex s (p.1, p.2, 0)).1) s) { a with verts := a.verts ++ l.map fun p => (p.1, p.2, 0) } := by
    intro l
    induction l with
    | nil => intro s a h; simpa using h
    | cons p l ih =>
      intro s a h
      have := ih _ _ (C46_step s a h (.addVertex (p.1, p.2, 0))).1
      simpa [Abs.step, step] using this
  have h2 : ∀ (l : List (List Nat)) (s : CSoup K) (a : Abs (K × K × K) ℤ Name K), Holds s a →
      Holds (l.foldl (fun s c => (addElement s ty c).1) s) { a with els := a.els ++ l.map fun c => (ty, c) } := by
    intro l
    induction l with
    | nil => intro s a h; simpa using h
    | cons c l ih =>
      intro s a h
      have := ih _ _ (C46_step s a h (.addElement ty c)).1
      simpa [Abs.step, step] using this
  have := h2 m.faces _ _ (h1 m.verts empty _ holds_empty)
  simpa [meshSoup] using this

theorem mapM_some {α β : Type} (f : α → Option β) (g : α → β) : ∀ l : List α, (∀ x ∈ l, f x = some (g x)) → l.mapM f = some (l.map g) := by
  intro l
  induction l with
  | nil => intro _; rfl
  | cons a l ih =>
    intro h
    rw [List.mapM_cons, h a (by simp), ih fun x hx => h x (by simp [hx])]
    rfl

/-- The cross sections of the materials are defined. -/
def Sections (xsec : M → XSec K) (s : Model K M) (xs : List K) : Prop :=
  xs.length = s.materials.length ∧ ∀ i : Nat, i < xs.length → xs[i]? = some (sigma xsec s i)

theorem lookup_sets (n : Nat) (l : List (Name × List K)) (k : Name) :
    lookup (l.map fun x => (⟨x.1, List.range n, x.2⟩ : ElSet Name K)) k =
      ((l.find? fun x => decide (x.1 = k)).map (·.2)).map fun d => (List.range n, d) := by
  unfold lookup
  rw [List.find?_map, Option.map_map, Option.map_map]
  rfl

theorem cellSoup_ok (E : Env K) (lt : Name → Name → Bool) (hsp : ∀ l, IsStdSort (Alg.pairLt lt ltNat) l (E.sortPairs l))
    (hs : ∀ v, Alg.IsSortPermutation ltNat v (E.sortPerm v)) (xsec : M → XSec K) (s : Model K M) (hM : Meshed s) (xs : List K)
    (hxs : Sections xsec s xs) (m : Mark K) (h : Heads m) (hc : m.tile.id < s.cells.length) :
    ∃ soup, cellSoup E s xs m.nC m.nR m.nL m.nA (m.tile.lo.1, m.tile.lo.2, m.tile.z) (m.tile.id : ℤ) = .ok soup ∧
      Made IsData soup [partOf E xsec s m] := by
  have hgood := partOf_good E xsec s hM m h hc
  obtain ⟨cell, l, mesh, e1, e2, e3, e4, e5, e6, f1, f2, f3⟩ := hM.get m.tile.id hc
  have hch : chords E mesh cell.mats.length = some ((List.range (nf s m.tile)).map (E.chord (meshOf s m.tile.id))) := by
    unfold chords
    have hn : nf s m.tile = cell.mats.length := by unfold nf; rw [e4, f2]
    rw [hn, e4]
    apply mapM_some
    intro i hi
    rw [if_pos (by rw [f2]; exact List.mem_range.1 hi)]
  have hsig : (cell.mats.mapM fun m => at? xs m.toInt) = some ((matsOf s m.tile.id).map (sigma xsec s)) := by
    rw [e6, List.map_map]
    apply mapM_some
    intro i hi
    obtain ⟨g1, g2⟩ := f3 i hi
    unfold at?
    rw [if_neg (by omega), hxs.2 _ (by rw [hxs.1]; omega)]
    show some (sigma xsec s (i.toInt.toNat : ℤ)) = some (sigma xsec s i.toInt)
    rw [Int.toNat_of_nonneg g1]
  have hmat : (cell.mats.map fun m => ((m.toInt : ℤ) : K)) = (matsOf s m.tile.id).map fun i : ℤ => (i : K) := by
    rw [e6, List.map_map]; rfl
  have hold := meshSoup_holds (elemType cell.meshType) mesh
  unfold cellSoup
  rw [at_nat, e1, of_some, ok_bind, e2]
  dsimp only
  rw [e3, of_some, ok_bind, hch, of_some, ok_bind]
  rw [hmat, hsig]
  -- the soup before the sets
  have hlen : (translate (meshSoup (elemType cell.meshType) mesh) (m.tile.lo.1, m.tile.lo.2, m.tile.z) : CSoup K).types.length
      = (partOf E xsec s m).els.length := by
    simp only [translate]
    rw [hold.rep.types]
    simp [partOf, e4]
  have hverts : (translate (meshSoup (elemType cell.meshType) mesh) (m.tile.lo.1, m.tile.lo.2, m.tile.z) : CSoup K).verts
      = (partOf E xsec s m).verts := by
    simp only [translate]
    rw [hold.verts]
    simp [partOf, e4]
  have hrep : Rep (translate (meshSoup (elemType cell.meshType) mesh) (m.tile.lo.1, m.tile.lo.2, m.tile.z) : CSoup K)
      (partOf E xsec s m).els [] := by
    have : (partOf E xsec s m).els = mesh.faces.map fun c => (elemType cell.meshType, c) := by simp [partOf, e4, e5]
    rw [this]
    exact ⟨hold.rep.types, hold.rep.conn, hold.rep.eoffs, hold.rep.names, hold.rep.sids, hold.rep.soffs, hold.rep.sdata⟩
  rw [hlen]
  generalize (translate (meshSoup (elemType cell.meshType) mesh) (m.tile.lo.1, m.tile.lo.2, m.tile.z) : CSoup K) = base at hverts hrep ⊢
  have hids : List.range (partOf E xsec s m).els.length ≠ [] := by
    rw [Ne, List.range_eq_nil]
    have := hgood.ne
    simpa using this
  have hl : ∀ x ∈ (partOf E xsec s m).sets, x.2 = [] ∨ x.2.length = (List.range (partOf E xsec s m).els.length).length := by
    intro x hx
    rw [List.length_range]
    by_cases hd : IsData x.1
    · exact Or.inr ((hgood.data x hx).1 hd)
    · exact Or.inl ((hgood.data x hx).2 hd)
  have hnd := hgood.nodup
  let el : Name × List K → ElSet Name K := fun x => ⟨x.1, List.range (partOf E xsec s m).els.length, x.2⟩
  have step : ∀ (done : List (Name × List K)) (x : Name × List K) (rest : List (Name × List K)) (soup : CSoup K),
      (partOf E xsec s m).sets = done ++ x :: rest → soup.verts = (partOf E xsec s m).verts →
      Rep soup (partOf E xsec s m).els (done.map el) →
      ∃ soup', addSet soup x.1 (List.range (partOf E xsec s m).els.length) x.2 = .ok soup' ∧ soup'.verts = (partOf E xsec s m).verts ∧
        Rep soup' (partOf E xsec s m).els ((done ++ [x]).map el) := by
    intro done x rest soup hsplit hv hr
    have hx : x ∈ (partOf E xsec s m).sets := by rw [hsplit]; simp
    obtain ⟨soup', a1, a2, a3⟩ := addSet_ok soup _ _ hr (el x) (by
      rw [hsplit, List.map_append, List.map_cons, List.nodup_append] at hnd
      intro hmem
      rw [List.map_map] at hmem
      exact hnd.2.2 x.1 hmem x.1 (by simp) rfl) hids (hl x hx)
    exact ⟨soup', a1, by rw [a2, hv], by rw [List.map_append]; exact a3⟩
  obtain ⟨s1, t1, v1, r1⟩ := step [] _ _ base rfl hverts hrep
  obtain ⟨s2, t2, v2, r2⟩ := step [_] _ _ s1 rfl v1 r1
  obtain ⟨s3, t3, v3, r3⟩ := step [_, _] _ _ s2 rfl v2 r2
  obtain ⟨s4, t4, v4, r4⟩ := step [_, _, _] _ _ s3 rfl v3 r3
  obtain ⟨s5, t5, v5, r5⟩ := step [_, _, _, _] _ _ s4 rfl v4 r4
  obtain ⟨s6, t6, v6, r6⟩ := step [_, _, _, _, _] _ _ s5 rfl v5 r5
  obtain ⟨s7, t7, v7, r7⟩ := step [_, _, _, _, _, _] _ _ s6 rfl v6 r6
  obtain ⟨s8, t8, v8, r8⟩ := step [_, _, _, _, _, _, _] _ _ s7 rfl v7 r7
  dsimp only at t1 t2 t3 t4 t5 t6 t7 t8
  rw [t1, ok_bind, t2, ok_bind, t3, ok_bind, t4, ok_bind, t5, ok_bind, of_some, ok_bind, t6, ok_bind, t7, ok_bind, t8, ok_bind]
  have hmade : Made IsData s8 [partOf E xsec s m] := by
    have hels : allEls 0 [partOf E xsec s m] = (partOf E xsec s m).els := by simp [allEls]
    refine ⟨by simpa using hgood, by rw [v8]; simp [allVerts], (partOf E xsec s m).sets.map el, ?_, ?_, ?_⟩
    · rw [hels]; exact r8
    · refine ⟨by rw [List.map_map]; exact hnd, ?_, ?_⟩
      · intro e he
        obtain ⟨x, hx, rfl⟩ := List.mem_map.1 he
        exact hids
      · intro e he
        obtain ⟨x, hx, rfl⟩ := List.mem_map.1 he
        exact hl x hx
    · intro n
      rw [look, look, union_none]
      exact lookup_sets _ _ _
  obtain ⟨r, q1, q2, -⟩ := hmade.sort IsData E lt hsp hs s8 _ ⟨m.nC, by
    rw [look, look, union_none]
    simp [Part.look, Part.data, partOf]⟩
  exact ⟨r, by rw [q1]; rfl, q2⟩

end

end Verif.ModelSoup
