import Verif.Lemmas.CApi
import Verif.Props.CApiSpec
import Mathlib.Data.List.GetD

/-! Lemmas on the walk through the core (C115). -/

namespace Verif.CApi

open Verif.XSLib (Res)
open Verif.Mpact (Model Assembly Rect CoarseCell at? at?_eq below placedCells)
open Verif.OverlaySpec (Whole)
open Verif.Pin (Mesh)

variable {K M β : Type}

theorem at?_nat {α : Type} (l : List α) (i : Nat) : at? l (i : ℤ) = l[i]? := by
  unfold at?
  rw [if_neg (by omega), Int.toNat_natCast]

theorem grid_ok (ch : List ℤ) (nx ny : ℤ) (h : ch.length = nx.toNat * ny.toNat) (F : Nat → Nat → ℤ → Res (List β)) (G : Nat → Nat → ℤ → List β)
    (hF : ∀ (x y : Nat), x < nx.toNat → y < ny.toNat → ∀ i ∈ ch, F x y i = Res.ok (G x y i)) :
    loop ny (fun y => loop nx fun x => (child2 ch nx x y).bind (F x y)) =
      .ok ((List.range ny.toNat).flatMap fun y => (List.range nx.toNat).flatMap fun x => G x y (ch.getD (x + y * nx.toNat) 0)) := by
  refine loop_ok _ _ _ fun y hy => loop_ok _ _ _ fun x hx => ?_
  have hlt : x + y * nx.toNat < ch.length := by
    rw [h]
    calc x + y * nx.toNat < nx.toNat + y * nx.toNat := by omega
      _ = nx.toNat * (y + 1) := by ring
      _ ≤ _ := Nat.mul_le_mul_left _ hy
  have e : ((x : ℤ) + (y : ℤ) * nx) = ((x + y * nx.toNat : Nat) : ℤ) := by
    push_cast
    rw [Int.toNat_of_nonneg (by omega)]
  have hc : child2 ch nx x y = .ok (ch.getD (x + y * nx.toNat) 0) := by
    unfold child2
    rw [e, at?_nat, List.getElem?_eq_getElem hlt, List.getD_eq_getElem _ _ hlt]
    rfl
  rw [hc]
  refine hF x y hx hy _ ?_
  rw [List.getD_eq_getElem _ _ hlt]
  exact List.getElem_mem hlt

/-- The cells of a module, from the place of the module. -/
def rtmW (s : Model K M) (sp : Nat → Nat → Spot) (r : ℤ) : List (Spot × ℤ) :=
  (s.rtms[r.toNat]?).elim [] fun t => (List.range (t.ys.length - 1)).flatMap fun ky => (List.range (t.xs.length - 1)).flatMap fun kx =>
    [(sp kx ky, t.children.getD (kx + ky * (t.xs.length - 1)) 0)]

def latW (s : Model K M) (sp : Nat → Nat → Nat → Nat → Spot) (l : ℤ) : List (Spot × ℤ) :=
  (s.lattices[l.toNat]?).elim [] fun t => (List.range t.ny).flatMap fun jy => (List.range t.nx).flatMap fun jx =>
    rtmW s (sp jx jy) (t.children.getD (jx + jy * t.nx) 0)

def asyW (s : Model K M) (sp : Nat → Nat → Nat → Nat → Nat → Spot) (a : ℤ) : List (Spot × ℤ) :=
  (s.assemblies[a.toNat]?).elim [] fun t => (List.range t.children.length).flatMap fun iz => latW s (sp iz) (t.children.getD iz 0)

def coreW (s : Model K M) : List (Spot × ℤ) :=
  (List.range (s.core.ys.length - 1)).flatMap fun iy => (List.range (s.core.xs.length - 1)).flatMap fun ix =>
    asyW s (fun iz jx jy kx ky => ⟨ix, iy, iz, jx, jy, kx, ky⟩) (s.core.children.getD (ix + iy * (s.core.xs.length - 1)) 0)

theorem divCells_toNat (l : List K) : (divCells l).toNat = l.length - 1 := by unfold divCells; omega

theorem walk_eq [Field K] [LinearOrder K] (s : Model K M) (h : Whole s) : walk s = .ok (coreW s) := by
  unfold walk coreW
  have key := grid_ok (β := Spot × ℤ) s.core.children (divCells s.core.xs) (divCells s.core.ys)
    (by rw [divCells_toNat, divCells_toNat]; exact h.core.2.1)
    (fun ix iy a => (asyNumCells s a).bind fun nz =>
      loop nz fun iz => (asyGetChild s a iz).bind fun l => (latNumCells s l).bind fun n =>
      loop n.2 fun jy => loop n.1 fun jx => (latGetChild s l jx jy).bind fun r => (rtmNumCells s r).bind fun m =>
      loop m.2 fun ky => loop m.1 fun kx => (rtmGetChild s r kx ky).bind fun c => .ok [(⟨ix, iy, iz, jx, jy, kx, ky⟩, c)])
    (fun ix iy a => asyW s (fun iz jx jy kx ky => ⟨ix, iy, iz, jx, jy, kx, ky⟩) a) ?_
  · rw [divCells_toNat, divCells_toNat] at key
    exact key
  intro ix iy hx hy a ha
  obtain ⟨asy, hasy, hm⟩ := Mpact.at?_of_lt (h.core.2.2 a ha).1 (h.core.2.2 a ha).2
  obtain ⟨a1, a2, a3⟩ := h.asy asy hm
  have en : asyNumCells s a = .ok (divCells asy.zs) := by unfold asyNumCells; rw [hasy]; rfl
  have ew : ∀ sp, asyW s sp a = (List.range asy.children.length).flatMap fun iz => latW s (sp iz) (asy.children.getD iz 0) := by
    intro sp; unfold asyW; rw [(at?_eq.1 hasy).2]; rfl
  have ez : (divCells asy.zs).toNat = asy.children.length := by rw [divCells_toNat]; omega
  rw [en, ew, ← ez]
  refine loop_ok _ _ _ fun iz hz => ?_
  rw [ez] at hz
  have ec : asyGetChild s a iz = .ok (asy.children.getD iz 0) := by
    unfold asyGetChild
    rw [hasy]
    show Res.ofOption (at? asy.children (iz : ℤ)) = _
    rw [at?_nat, List.getElem?_eq_getElem hz, List.getD_eq_getElem _ _ hz]
    rfl
  rw [ec]
  have hl := a3 (asy.children.getD iz 0) (by rw [List.getD_eq_getElem _ _ hz]; exact List.getElem_mem hz)
  generalize asy.children.getD iz 0 = l at hl
  obtain ⟨lat, hlat, hm⟩ := Mpact.at?_of_lt hl.1 hl.2
  obtain ⟨l1, l2, l3⟩ := h.lat lat hm
  have en : latNumCells s l = .ok ((lat.nx : ℤ), (lat.ny : ℤ)) := by unfold latNumCells; rw [hlat]; rfl
  have ew : ∀ sp, latW s sp l = (List.range lat.ny).flatMap fun jy => (List.range lat.nx).flatMap fun jx =>
      rtmW s (sp jx jy) (lat.children.getD (jx + jy * lat.nx) 0) := by
    intro sp; unfold latW; rw [(at?_eq.1 hlat).2]; rfl
  show (latNumCells s l).bind _ = _
  rw [en, ew]
  have key := grid_ok (β := Spot × ℤ) lat.children (lat.nx : ℤ) (lat.ny : ℤ) l2
    (fun jx jy r => (rtmNumCells s r).bind fun m =>
      loop m.2 fun ky => loop m.1 fun kx => (rtmGetChild s r kx ky).bind fun c => .ok [(⟨ix, iy, iz, jx, jy, kx, ky⟩, c)])
    (fun jx jy r => rtmW s (fun kx ky => ⟨ix, iy, iz, jx, jy, kx, ky⟩) r) ?_
  · simp only [Int.toNat_natCast] at key
    rw [← key]
    show loop _ _ = _
    congr 1
    funext jy
    congr 1
    funext jx
    unfold latGetChild
    rw [hlat]
    rfl
  intro jx jy hjx hjy r hr
  obtain ⟨rtm, hrtm, hm⟩ := Mpact.at?_of_lt (l3 r hr).1 (l3 r hr).2
  obtain ⟨r1, r2, r3⟩ := h.rtm rtm hm
  have en : rtmNumCells s r = .ok (divCells rtm.xs, divCells rtm.ys) := by unfold rtmNumCells; rw [hrtm]; rfl
  have ew : ∀ sp, rtmW s sp r = (List.range (rtm.ys.length - 1)).flatMap fun ky => (List.range (rtm.xs.length - 1)).flatMap fun kx =>
      [(sp kx ky, rtm.children.getD (kx + ky * (rtm.xs.length - 1)) 0)] := by
    intro sp; unfold rtmW; rw [(at?_eq.1 hrtm).2]; rfl
  rw [en, ew]
  have key := grid_ok (β := Spot × ℤ) rtm.children (divCells rtm.xs) (divCells rtm.ys)
    (by rw [divCells_toNat, divCells_toNat]; exact r2)
    (fun kx ky c => .ok [(⟨ix, iy, iz, jx, jy, kx, ky⟩, c)]) (fun kx ky c => [(⟨ix, iy, iz, jx, jy, kx, ky⟩, c)])
    (fun _ _ _ _ _ _ => rfl)
  rw [divCells_toNat, divCells_toNat] at key
  rw [← key]
  show loop _ _ = _
  congr 1
  funext ky
  congr 1
  funext kx
  unfold rtmGetChild
  rw [hrtm]
  rfl

/-! ### The cells -/

theorem rtmW_snd [Field K] [LinearOrder K] (s : Model K M) (h : Whole s) (sp : Nat → Nat → Spot) (r : ℤ) :
    (rtmW s sp r).map (·.2) = (s.rtms[r.toNat]?).elim [] (·.children) := by
  unfold rtmW
  cases hr : s.rtms[r.toNat]? with
  | none => rfl
  | some t =>
    have := rows_eq t.children (t.xs.length - 1) (t.ys.length - 1) (h.rtm t (List.mem_of_getElem? hr)).2.1 fun i => [i]
    rw [List.flatMap_singleton'] at this
    show List.map _ (List.flatMap _ _) = t.children
    simp only [List.map_flatMap, List.map_cons, List.map_nil]
    exact this

theorem latW_snd [Field K] [LinearOrder K] (s : Model K M) (h : Whole s) (sp : Nat → Nat → Nat → Nat → Spot) (l : ℤ) :
    (latW s sp l).map (·.2) = (s.lattices[l.toNat]?).elim [] fun t => below s.rtms (·.children) t.children := by
  unfold latW
  cases hr : s.lattices[l.toNat]? with
  | none => rfl
  | some t =>
    show List.map _ (List.flatMap _ _) = below s.rtms (·.children) t.children
    simp only [List.map_flatMap, rtmW_snd s h]
    exact rows_eq t.children t.nx t.ny (h.lat t (List.mem_of_getElem? hr)).2.1 fun r => (s.rtms[r.toNat]?).elim [] (·.children)

theorem asyW_snd [Field K] [LinearOrder K] (s : Model K M) (h : Whole s) (sp : Nat → Nat → Nat → Nat → Nat → Spot) (a : ℤ) :
    (asyW s sp a).map (·.2) = (s.assemblies[a.toNat]?).elim [] fun t => below s.rtms (·.children) (below s.lattices (·.children) t.children) := by
  unfold asyW
  cases hr : s.assemblies[a.toNat]? with
  | none => rfl
  | some t =>
    show List.map _ (List.flatMap _ _) = below s.rtms (·.children) (below s.lattices (·.children) t.children)
    simp only [List.map_flatMap, latW_snd s h]
    rw [column_eq t.children fun l => (s.lattices[l.toNat]?).elim [] fun t => below s.rtms (·.children) t.children]
    unfold below
    rw [List.flatMap_assoc]
    refine List.flatMap_congr fun l _ => ?_
    cases s.lattices[l.toNat]? <;> rfl

theorem coreW_snd [Field K] [LinearOrder K] (s : Model K M) (h : Whole s) : (coreW s).map (·.2) = placedCells s := by
  unfold coreW
  simp only [List.map_flatMap, asyW_snd s h]
  rw [rows_eq s.core.children (s.core.xs.length - 1) (s.core.ys.length - 1) h.core.2.1 fun a => (s.assemblies[a.toNat]?).elim [] fun t =>
    below s.rtms (·.children) (below s.lattices (·.children) t.children)]
  unfold placedCells Mpact.placedRTMs Mpact.placedLattices Mpact.placedAssemblies below
  rw [List.flatMap_assoc, List.flatMap_assoc]
  refine List.flatMap_congr fun a _ => ?_
  cases s.assemblies[a.toNat]? with
  | none => rfl
  | some t =>
    show List.flatMap _ (List.flatMap _ t.children) = List.flatMap _ t.children
    rw [List.flatMap_assoc]

/-! ### The order -/

def key (q : Spot × ℤ) : List Nat := [q.1.iy, q.1.ix, q.1.iz, q.1.jy, q.1.jx, q.1.ky, q.1.kx]

/-- All keys begin with `pre`, and they ascend. -/
def Up (pre : List Nat) (l : List (Spot × ℤ)) : Prop := (∀ x ∈ l, pre <+: key x) ∧ l.Pairwise fun a b => key a < key b

theorem prefix_lt {pre k1 k2 : List Nat} {a b : Nat} (h1 : pre ++ [a] <+: k1) (h2 : pre ++ [b] <+: k2) (h : a < b) : k1 < k2 := by
  obtain ⟨t1, rfl⟩ := h1
  obtain ⟨t2, rfl⟩ := h2
  induction pre with
  | nil => exact List.cons_lt_cons_iff.2 (Or.inl h)
  | cons x pre ih => exact List.cons_lt_cons_iff.2 (Or.inr ⟨rfl, ih⟩)

theorem up_loop (pre : List Nat) (n : Nat) (f : Nat → List (Spot × ℤ)) (h : ∀ a, Up (pre ++ [a]) (f a)) : Up pre ((List.range n).flatMap f) := by
  refine ⟨fun x hx => ?_, ?_⟩
  · obtain ⟨a, -, ha⟩ := List.mem_flatMap.1 hx
    exact (List.prefix_append _ _).trans ((h a).1 x ha)
  · rw [List.pairwise_flatMap]
    refine ⟨fun a _ => (h a).2, List.pairwise_lt_range.imp ?_⟩
    intro a b hab x hx y hy
    exact prefix_lt ((h a).1 x hx) ((h b).1 y hy) hab

theorem up_elim {α : Type} (pre : List Nat) (o : Option α) (f : α → List (Spot × ℤ)) (h : ∀ a, Up pre (f a)) : Up pre (o.elim [] f) := by
  cases o with
  | none => exact ⟨fun x hx => absurd hx (by simp), List.Pairwise.nil⟩
  | some a => exact h a

theorem up_coreW (s : Model K M) : Up [] (coreW s) := by
  unfold coreW asyW latW rtmW
  refine up_loop _ _ _ fun iy => up_loop _ _ _ fun ix => up_elim _ _ _ fun t => up_loop _ _ _ fun iz => up_elim _ _ _ fun t =>
    up_loop _ _ _ fun jy => up_loop _ _ _ fun jx => up_elim _ _ _ fun t => up_loop _ _ _ fun ky => up_loop _ _ _ fun kx => ?_
  refine ⟨fun x hx => ?_, List.pairwise_singleton _ _⟩
  rw [List.mem_singleton] at hx
  subst hx
  exact List.prefix_rfl

/-! ### The places -/

theorem mem_elim {α β : Type} {o : Option α} {f : α → List β} {x : β} : x ∈ o.elim [] f ↔ ∃ a, o = some a ∧ x ∈ f a := by
  cases o <;> simp

theorem grid_get {l : List ℤ} {nx ny x y : Nat} (h : l.length = nx * ny) (hx : x < nx) (hy : y < ny) :
    l[x + y * nx]? = some (l.getD (x + y * nx) 0) := by
  have hlt : x + y * nx < l.length := by
    rw [h]
    calc x + y * nx < nx + y * nx := by omega
      _ = nx * (y + 1) := by ring
      _ ≤ _ := Nat.mul_le_mul_left _ hy
  rw [List.getElem?_eq_getElem hlt, List.getD_eq_getElem _ _ hlt]

theorem get_some {l : List K} {i : Nat} (h : i < l.length) : ∃ x, l[i]? = some x := ⟨_, List.getElem?_eq_getElem h⟩

theorem coreW_mem [Field K] [LinearOrder K] (s : Model K M) (h : Whole s) (p : Spot) (c : ℤ) :
    (p, c) ∈ coreW s ↔ ∃ cut, OverlaySpec.At s p.path c cut := by
  unfold coreW asyW latW rtmW
  simp only [List.mem_flatMap, List.mem_range, mem_elim, List.mem_singleton, Prod.mk.injEq]
  constructor
  · rintro ⟨iy, hy, ix, hx, asy, hasy, iz, hz, lat, hlat, jy, hjy, jx, hjx, rtm, hrtm, ky, hky, kx, hkx, rfl, rfl⟩
    have gi := grid_get h.core.2.1 hx hy
    have ia := h.core.2.2 _ (List.mem_of_getElem? gi)
    have ga := h.asy asy (List.mem_of_getElem? hasy)
    have gj : asy.children[iz]? = some (asy.children.getD iz 0) := by rw [List.getElem?_eq_getElem hz, List.getD_eq_getElem _ _ hz]
    have il := ga.2.2 _ (List.mem_of_getElem? gj)
    have gl := h.lat lat (List.mem_of_getElem? hlat)
    have gr := grid_get gl.2.1 hjx hjy
    have ir := gl.2.2 _ (List.mem_of_getElem? gr)
    have gm := h.rtm rtm (List.mem_of_getElem? hrtm)
    have gc := grid_get gm.2.1 hkx hky
    obtain ⟨ax, hax⟩ := get_some (l := s.core.xs) (i := ix) (by omega)
    obtain ⟨ay, hay⟩ := get_some (l := s.core.ys) (i := iy) (by omega)
    obtain ⟨lo, hlo⟩ := get_some (l := asy.zs) (i := iz) (by omega)
    obtain ⟨hi, hhi⟩ := get_some (l := asy.zs) (i := iz + 1) (by omega)
    obtain ⟨x0, hx0⟩ := get_some (l := rtm.xs) (i := kx) (by omega)
    obtain ⟨x1, hx1⟩ := get_some (l := rtm.xs) (i := kx + 1) (by omega)
    obtain ⟨y0, hy0⟩ := get_some (l := rtm.ys) (i := ky) (by omega)
    obtain ⟨y1, hy1⟩ := get_some (l := rtm.ys) (i := ky + 1) (by omega)
    exact ⟨_, _, asy, _, lat, _, rtm, ax, ay, lo, hi, x0, x1, y0, y1, ⟨hx, hy, gi, hax, hay, ia.1, hasy⟩,
      ⟨gj, hlo, hhi, il.1, hlat⟩, ⟨hjx, hjy, gr, ir.1, hrtm⟩, ⟨hkx, hky, gc, hx0, hx1, hy0, hy1⟩, rfl⟩
  · rintro ⟨cut, i, asy, j, lat, r, rtm, ax, ay, lo, hi, x0, x1, y0, y1, ⟨hx, hy, gi, -, -, -, hasy⟩, ⟨gj, -, -, -, hlat⟩,
      ⟨hjx, hjy, gr, -, hrtm⟩, ⟨hkx, hky, gc, -⟩, -⟩
    have hz := (List.getElem?_eq_some_iff.1 gj).1
    refine ⟨p.iy, hy, p.ix, hx, asy, ?_, p.iz, hz, lat, ?_, p.jy, hjy, p.jx, hjx, rtm, ?_, p.ky, hky, p.kx, hkx, rfl, ?_⟩
    · rw [List.getD_eq_getElem?_getD, show s.core.children[p.ix + p.iy * (s.core.xs.length - 1)]? = some i from gi]; exact hasy
    · rw [List.getD_eq_getElem?_getD, show asy.children[p.iz]? = some j from gj]; exact hlat
    · rw [List.getD_eq_getElem?_getD, show lat.children[p.jx + p.jy * lat.nx]? = some r from gr]; exact hrtm
    · rw [List.getD_eq_getElem?_getD, show rtm.children[p.kx + p.ky * (rtm.xs.length - 1)]? = some c from gc]; rfl

/-! ### Meshes -/

theorem withMesh_eq {α : Type} {s : Model K M} {c : CoarseCell K} {mesh : Mesh K} (h : Mpact.IsMeshOf s c mesh)
    (f : ElemTypes.MeshType → Mesh K → Res α) : withMesh s c f = f c.meshType mesh := by
  obtain ⟨h0, h⟩ := h
  unfold withMesh
  rcases h with ⟨t, h⟩ | ⟨t, h⟩ | ⟨t, h⟩ | ⟨t, h⟩
  all_goals
    rw [t]
    simp only [ElemTypes.MeshType.Tri, ElemTypes.MeshType.Quad, ElemTypes.MeshType.QuadraticTri, ElemTypes.MeshType.QuadraticQuad]
    norm_num
    rw [at?_eq.2 ⟨h0, h⟩]
    rfl

theorem mapM_some {α β : Type} {l : List α} {f : α → Option β} {l' : List β} (h : l.map f = l'.map some) : l.mapM f = some l' := by
  induction l generalizing l' with
  | nil =>
    cases l' with
    | nil => rfl
    | cons b l' => simp at h
  | cons a l ih =>
    cases l' with
    | nil => simp at h
    | cons b l' =>
      simp only [List.map_cons, List.cons.injEq] at h
      rw [List.mapM_cons, h.1, ih h.2]
      rfl

/-- The corners of face `i`. -/
def cornersOf [Zero K] (mesh : Mesh K) (i : Nat) : List (K × K) := (mesh.faces.getD i []).map fun v => mesh.verts.getD v (0, 0)

theorem corners_of [Zero K] {mesh : Mesh K} (h : Refers mesh) {i : Nat} (hi : i < mesh.faces.length) : Corners mesh i (cornersOf mesh i) := by
  refine ⟨mesh.faces[i], List.getElem?_eq_getElem hi, ?_⟩
  unfold cornersOf
  rw [List.getD_eq_getElem _ _ hi, List.map_map]
  refine List.map_congr_left fun v hv => ?_
  have := h _ (List.getElem_mem hi) v hv
  simp [this]

theorem corners_unique {mesh : Mesh K} {i : Nat} {vs vs' : List (K × K)} (h : Corners mesh i vs) (h' : Corners mesh i vs') : vs = vs' := by
  obtain ⟨f, h1, h2⟩ := h
  obtain ⟨f', h1', h2'⟩ := h'
  rw [h1] at h1'
  cases h1'
  rw [h2] at h2'
  exact List.map_injective_iff.2 (Option.some_injective _) h2'

theorem face_eq {mesh : Mesh K} {i : Nat} {vs : List (K × K)} (h : Corners mesh i vs) : face mesh i = .ok vs := by
  obtain ⟨f, h1, h2⟩ := h
  unfold face
  rw [at?_nat, h1]
  show Res.ofOption (f.mapM _) = _
  rw [mapM_some h2]
  rfl

end Verif.CApi
