import Verif.Model.Pin
import Verif.Model.Conform
import Mathlib.Data.List.Rotate
import Mathlib.Tactic.IntervalCases
import Mathlib.Tactic.SplitIfs
import Mathlib.Tactic.Ring
import Mathlib.Tactic.Linarith

/-! The abstract structure of a cylindrical pin mesh: vertices and faces by name. -/

namespace Verif.PinTopo

open Verif.Conform

/-- Vertices: centre, points of the innermost ring (`T` on the odd spokes, midpoints `S` on the even spokes, `U` and `W` on both sides of `T`), points on ring `r` (`R` on
spoke `a`, `M` between spokes `a` and `a + 1`), points between rings `r` and `r + 1`. -/
inductive PV where
  | C
  | S (i : Nat)
  | U (i : Nat)
  | T (i : Nat)
  | W (i : Nat)
  | R (r a : Nat)
  | M (r a : Nat)
  | B (r a : Nat)
deriving DecidableEq

/-- The next spoke. -/
def nxt (na a : Nat) : Nat := if a + 1 = na then 0 else a + 1

/-- Faces. -/
inductive PF where
  | even (i : Nat)
  | odd (i : Nat)
  | ring (r a : Nat)
deriving DecidableEq

def PF.ok (na nr : Nat) : PF → Prop
  | .even i => 2 * i < na
  | .odd i => 2 * i < na
  | .ring r a => r < nr ∧ a < na

def PF.pos (na : Nat) : PF → Nat
  | .even i => 2 * i
  | .odd i => 2 * i + 1
  | .ring r a => na + r * na + a

/-- The four corners. -/
def corners (na : Nat) : PF → List PV
  | .even i => [.C, .R 0 (2 * i), .R 0 (2 * i + 1), .T i]
  | .odd i => [.C, .T i, .R 0 (2 * i + 1), .R 0 (nxt na (2 * i + 1))]
  | .ring r a => [.R r a, .R (r + 1) a, .R (r + 1) (nxt na a), .R r (nxt na a)]

/-- The four midpoints. -/
def mids (na : Nat) : PF → List PV
  | .even i => [.S i, .M 0 (2 * i), .W i, .U i]
  | .odd i => [.U i, .W i, .M 0 (2 * i + 1), .S (nxt (na / 2) i)]
  | .ring r a => [.B r a, .M (r + 1) a, .B r (nxt na a), .M r a]

def aEdges (na : Nat) : PF → List (Edge PV)
  | .even i => [⟨.C, .R 0 (2 * i), some (.S i)⟩, ⟨.R 0 (2 * i), .R 0 (2 * i + 1), some (.M 0 (2 * i))⟩, ⟨.R 0 (2 * i + 1), .T i, some (.W i)⟩, ⟨.T i, .C, some (.U i)⟩]
  | .odd i => [⟨.C, .T i, some (.U i)⟩, ⟨.T i, .R 0 (2 * i + 1), some (.W i)⟩, ⟨.R 0 (2 * i + 1), .R 0 (nxt na (2 * i + 1)), some (.M 0 (2 * i + 1))⟩,
      ⟨.R 0 (nxt na (2 * i + 1)), .C, some (.S (nxt (na / 2) i))⟩]
  | .ring r a => [⟨.R r a, .R (r + 1) a, some (.B r a)⟩, ⟨.R (r + 1) a, .R (r + 1) (nxt na a), some (.M (r + 1) a)⟩,
      ⟨.R (r + 1) (nxt na a), .R r (nxt na a), some (.B r (nxt na a))⟩, ⟨.R r (nxt na a), .R r a, some (.M r a)⟩]

/-- The boundary. -/
def bEdge (na nr a : Nat) : Edge PV := ⟨.R nr a, .R nr (nxt na a), some (.M nr a)⟩

theorem nxt_lt {na a : Nat} (h : a < na) : nxt na a < na := by unfold nxt; split <;> omega

theorem nxt_inj {na a b : Nat} (ha : a < na) (hb : b < na) (h : nxt na a = nxt na b) : a = b := by
  unfold nxt at h; split_ifs at h <;> omega

theorem nxt_surj {na a : Nat} (ha : a < na) : ∃ b < na, nxt na b = a := by
  by_cases h : a = 0
  · exact ⟨na - 1, by omega, by unfold nxt; rw [if_pos (by omega)]; omega⟩
  · exact ⟨a - 1, by omega, by unfold nxt; rw [if_neg (by omega)]; omega⟩

theorem aEdges_length (na : Nat) (f : PF) : (aEdges na f).length = 4 := by cases f <;> rfl

theorem edge_cases {na : Nat} {f : PF} {k : Nat} {e : Edge PV} (h : (aEdges na f)[k]? = some e) :
    (k = 0 ∧ (aEdges na f)[0]? = some e) ∨ (k = 1 ∧ (aEdges na f)[1]? = some e) ∨ (k = 2 ∧ (aEdges na f)[2]? = some e) ∨ (k = 3 ∧ (aEdges na f)[3]? = some e) := by
  have : k < 4 := by
    rw [← aEdges_length na f]
    exact (List.getElem?_eq_some_iff.1 h).1
  interval_cases k
  · exact Or.inl ⟨rfl, h⟩
  · exact Or.inr (Or.inl ⟨rfl, h⟩)
  · exact Or.inr (Or.inr (Or.inl ⟨rfl, h⟩))
  · exact Or.inr (Or.inr (Or.inr ⟨rfl, h⟩))

theorem nxt_or (na a : Nat) : (a + 1 = na ∧ nxt na a = 0) ∨ (a + 1 ≠ na ∧ nxt na a = a + 1) := by
  unfold nxt; split
  · exact Or.inl ⟨by assumption, rfl⟩
  · exact Or.inr ⟨by assumption, rfl⟩

/-- The spoke whose successor the face uses. -/
def PF.spoke : PF → Nat
  | .even i => 2 * i
  | .odd i => 2 * i + 1
  | .ring _ a => a

theorem a_unique {na nr : Nat} (h2 : na % 2 = 0) (h8 : 8 ≤ na) {f g : PF} {k l : Nat} {e e' : Edge PV} (hf : f.ok na nr) (hg : g.ok na nr)
    (he : (aEdges na f)[k]? = some e) (he' : (aEdges na g)[l]? = some e') (ha : e.a = e'.a) (hb : e.b = e'.b) : f = g ∧ k = l := by
  have h1 := nxt_or na f.spoke
  have h2' := nxt_or na g.spoke
  cases f <;> cases g <;> rcases edge_cases he with ⟨rfl, he⟩ | ⟨rfl, he⟩ | ⟨rfl, he⟩ | ⟨rfl, he⟩ <;>
    rcases edge_cases he' with ⟨rfl, he'⟩ | ⟨rfl, he'⟩ | ⟨rfl, he'⟩ | ⟨rfl, he'⟩ <;>
    simp only [aEdges, List.getElem?_cons_zero, List.getElem?_cons_succ, Option.some.injEq] at he he' <;>
    subst he <;> subst he' <;>
    simp only [PV.R.injEq, PV.T.injEq, reduceCtorEq, PF.ok, PF.spoke, false_and, and_false] at ha hb hf hg h1 h2' <;>
    simp only [PF.even.injEq, PF.odd.injEq, PF.ring.injEq, reduceCtorEq, and_true, false_and, and_false] <;>
    omega

theorem mem_aEdges_iff {na : Nat} {f : PF} {e : Edge PV} : e ∈ aEdges na f ↔ ∃ k : Nat, (aEdges na f)[k]? = some e := List.mem_iff_getElem?

theorem a_paired {na nr : Nat} (h2 : na % 2 = 0) (h8 : 8 ≤ na) (hr : 0 < nr) {f : PF} (hf : f.ok na nr) {e : Edge PV} (he : e ∈ aEdges na f) :
    (∃ a < na, e = bEdge na nr a) ∨ ∃ g : PF, g.ok na nr ∧ g ≠ f ∧ e.rev ∈ aEdges na g := by
  cases f with
  | even i =>
    simp only [PF.ok] at hf
    simp only [aEdges, List.mem_cons, List.not_mem_nil, or_false] at he
    right
    rcases he with rfl | rfl | rfl | rfl
    · obtain ⟨j, hj, hji⟩ := nxt_surj (na := na / 2) (a := i) (by omega)
      have hn : nxt na (2 * j + 1) = 2 * i := by
        rcases nxt_or (na / 2) j with h | h <;> rcases nxt_or na (2 * j + 1) with h' | h' <;> omega
      refine ⟨.odd j, by simp only [PF.ok]; omega, by simp, ?_⟩
      simp [aEdges, Edge.rev, hn, hji]
    · refine ⟨.ring 0 (2 * i), by simp only [PF.ok]; omega, by simp, ?_⟩
      have hn : nxt na (2 * i) = 2 * i + 1 := by rcases nxt_or na (2 * i) with h' | h' <;> omega
      simp [aEdges, Edge.rev, hn]
    · exact ⟨.odd i, hf, by simp, by simp [aEdges, Edge.rev]⟩
    · exact ⟨.odd i, hf, by simp, by simp [aEdges, Edge.rev]⟩
  | odd i =>
    simp only [PF.ok] at hf
    simp only [aEdges, List.mem_cons, List.not_mem_nil, or_false] at he
    right
    rcases he with rfl | rfl | rfl | rfl
    · exact ⟨.even i, hf, by simp, by simp [aEdges, Edge.rev]⟩
    · exact ⟨.even i, hf, by simp, by simp [aEdges, Edge.rev]⟩
    · exact ⟨.ring 0 (2 * i + 1), by simp only [PF.ok]; omega, by simp, by simp [aEdges, Edge.rev]⟩
    · have hn : nxt na (2 * i + 1) = 2 * nxt (na / 2) i := by
        rcases nxt_or (na / 2) i with h | h <;> rcases nxt_or na (2 * i + 1) with h' | h' <;> omega
      have := nxt_lt (na := na / 2) (a := i) (by omega)
      refine ⟨.even (nxt (na / 2) i), by simp only [PF.ok]; omega, by simp, ?_⟩
      simp [aEdges, Edge.rev, hn]
  | ring r a =>
    simp only [PF.ok] at hf
    simp only [aEdges, List.mem_cons, List.not_mem_nil, or_false] at he
    rcases he with rfl | rfl | rfl | rfl
    · obtain ⟨b, hb, hba⟩ := nxt_surj hf.2
      refine Or.inr ⟨.ring r b, ⟨hf.1, hb⟩, ?_, by simp [aEdges, Edge.rev, hba]⟩
      rw [Ne, PF.ring.injEq]
      rcases nxt_or na b with h | h <;> omega
    · by_cases hl : r + 1 = nr
      · left; exact ⟨a, hf.2, by simp [bEdge, hl]⟩
      · refine Or.inr ⟨.ring (r + 1) a, ⟨by omega, hf.2⟩, by simp, by simp [aEdges, Edge.rev]⟩
    · refine Or.inr ⟨.ring r (nxt na a), ⟨hf.1, nxt_lt hf.2⟩, ?_, by simp [aEdges, Edge.rev]⟩
      rw [Ne, PF.ring.injEq]
      rcases nxt_or na a with h | h <;> omega
    · right
      by_cases h0 : r = 0
      · subst h0
        by_cases hp : a % 2 = 0
        · have e1 : 2 * (a / 2) = a := by omega
          have hn : nxt na a = a + 1 := by rcases nxt_or na a with h' | h' <;> omega
          exact ⟨.even (a / 2), by simp only [PF.ok]; omega, by simp, by simp [aEdges, Edge.rev, e1, hn]⟩
        · have e1 : 2 * (a / 2) + 1 = a := by omega
          exact ⟨.odd (a / 2), by simp only [PF.ok]; omega, by simp, by simp [aEdges, Edge.rev, e1]⟩
      · obtain ⟨s, rfl⟩ := Nat.exists_eq_succ_of_ne_zero h0
        exact ⟨.ring s a, ⟨by omega, hf.2⟩, by simp, by simp [aEdges, Edge.rev]⟩

theorem a_boundary {na nr a : Nat} (hr : 0 < nr) (ha : a < na) : ∃ f : PF, f.ok na nr ∧ bEdge na nr a ∈ aEdges na f := by
  obtain ⟨s, rfl⟩ := Nat.exists_eq_succ_of_ne_zero (Nat.pos_iff_ne_zero.1 hr)
  exact ⟨.ring s a, ⟨by omega, ha⟩, by simp [aEdges, bEdge]⟩

theorem a_single {na nr a : Nat} (h8 : 8 ≤ na) (hr : 0 < nr) (ha : a < na) {f : PF} (hf : f.ok na nr) {e : Edge PV} (he : e ∈ aEdges na f) :
    ¬ (e.a = (bEdge na nr a).b ∧ e.b = (bEdge na nr a).a) := by
  rintro ⟨h1, h2⟩
  have := nxt_or na f.spoke
  have := nxt_or na a
  cases f <;> simp only [aEdges, List.mem_cons, List.not_mem_nil, or_false] at he <;> rcases he with rfl | rfl | rfl | rfl <;>
    simp only [bEdge, PV.R.injEq, reduceCtorEq, false_and, and_false, PF.ok, PF.spoke] at * <;> omega

theorem a_nodup {na nr : Nat} (h8 : 8 ≤ na) {f : PF} (hf : f.ok na nr) : (corners na f ++ mids na f).Nodup := by
  have h1 := nxt_or na f.spoke
  cases f with
  | even i => simp [corners, mids]
  | odd i =>
    simp only [PF.ok, PF.spoke] at hf h1
    simp [corners, mids]; omega
  | ring r a =>
    simp only [PF.ok, PF.spoke] at hf h1
    simp [corners, mids]
    omega

/-- Vertices in range; `W`, `S`, `U`, `M`, `B` exist in quadratic meshes only. -/
def PV.ok (na nr : Nat) : PV → Prop
  | .C => True
  | .S i => 2 * i < na
  | .U i => 2 * i < na
  | .T i => 2 * i < na
  | .W i => 2 * i < na
  | .R r a => r ≤ nr ∧ a < na
  | .M r a => r ≤ nr ∧ a < na
  | .B r a => r < nr ∧ a < na

theorem a_ok {na nr : Nat} (h2 : na % 2 = 0) (h8 : 8 ≤ na) {f : PF} (hf : f.ok na nr) : ∀ v ∈ corners na f ++ mids na f, v.ok na nr := by
  cases f with
  | even i =>
    simp only [PF.ok] at hf
    simp [corners, mids, PV.ok]; omega
  | odd i =>
    simp only [PF.ok] at hf
    have := nxt_lt (na := na) (a := 2 * i + 1) (by omega)
    have := nxt_lt (na := na / 2) (a := i) (by omega)
    simp [corners, mids, PV.ok]; omega
  | ring r a =>
    simp only [PF.ok] at hf
    have := nxt_lt hf.2
    simp [corners, mids, PV.ok]; omega

theorem a_used {na nr : Nat} (h2 : na % 2 = 0) (h8 : 8 ≤ na) (hr : 0 < nr) {v : PV} (hv : v.ok na nr) :
    ∃ f : PF, f.ok na nr ∧ ((v ∈ corners na f) ∨ ((∀ r a, v ≠ .R r a) ∧ v ≠ .C ∧ (∀ i, v ≠ .T i) ∧ v ∈ mids na f)) := by
  cases v with
  | C => exact ⟨.even 0, by simp only [PF.ok]; omega, by simp [corners]⟩
  | S i => exact ⟨.even i, hv, by simp [mids]⟩
  | U i => exact ⟨.even i, hv, by simp [mids]⟩
  | T i => exact ⟨.even i, hv, by simp [corners]⟩
  | W i => exact ⟨.even i, hv, by simp [mids]⟩
  | R r a =>
    by_cases h : r < nr
    · exact ⟨.ring r a, ⟨h, hv.2⟩, by simp [corners]⟩
    · obtain ⟨s, rfl⟩ := Nat.exists_eq_succ_of_ne_zero (show r ≠ 0 by omega)
      have := hv.1
      exact ⟨.ring s a, ⟨by omega, hv.2⟩, by simp [corners]⟩
  | M r a =>
    by_cases h : r < nr
    · exact ⟨.ring r a, ⟨h, hv.2⟩, by simp [mids]⟩
    · obtain ⟨s, rfl⟩ := Nat.exists_eq_succ_of_ne_zero (show r ≠ 0 by omega)
      have := hv.1
      exact ⟨.ring s a, ⟨by omega, hv.2⟩, by simp [mids]⟩
  | B r a => exact ⟨.ring r a, hv, by simp [mids]⟩

/-- Vertex numbers of a linear mesh. -/
def enc1 (na : Nat) : PV → Nat
  | .T i => 1 + i
  | .R r a => 1 + na / 2 + r * na + a
  | _ => 0

/-- Vertex numbers of a quadratic mesh. -/
def enc2 (na : Nat) : PV → Nat
  | .C => 0
  | .S i => 1 + 4 * i
  | .U i => 2 + 4 * i
  | .T i => 3 + 4 * i
  | .W i => 4 + 4 * i
  | .R r a => 1 + 2 * na + 3 * na * r + 2 * a
  | .M r a => 1 + 2 * na + 3 * na * r + 2 * a + 1
  | .B r a => 1 + 2 * na + 3 * na * r + 2 * na + a

theorem block_inj {n r a r' a' : Nat} (ha : a < n) (ha' : a' < n) (h : n * r + a = n * r' + a') : r = r' ∧ a = a' := by
  have h1 : (n * r + a) % n = a := by rw [Nat.mul_add_mod, Nat.mod_eq_of_lt ha]
  have h2 : (n * r' + a') % n = a' := by rw [Nat.mul_add_mod, Nat.mod_eq_of_lt ha']
  have e : a = a' := by rw [← h1, ← h2, h]
  subst e
  exact ⟨Nat.eq_of_mul_eq_mul_left (by omega) (Nat.add_right_cancel h), rfl⟩

/-- The vertices of a linear mesh. -/
def PV.lin : PV → Prop
  | .C => True
  | .T _ => True
  | .R _ _ => True
  | _ => False

theorem enc1_inj {na nr : Nat} (h2 : na % 2 = 0) {v w : PV} (hv : v.ok na nr) (hw : w.ok na nr) (lv : v.lin) (lw : w.lin) (h : enc1 na v = enc1 na w) : v = w := by
  cases v <;> simp only [PV.lin] at lv <;> cases w <;> simp only [PV.lin] at lw <;> simp only [enc1, PV.ok] at h hv hw <;>
    simp only [PV.T.injEq, PV.R.injEq, reduceCtorEq]
  any_goals omega
  · rename_i r a r' a'
    exact block_inj (n := na) hv.2 hw.2 (by rw [Nat.mul_comm na r, Nat.mul_comm na r']; omega)

theorem enc2_inj {na nr : Nat} (h2 : na % 2 = 0) {v w : PV} (hv : v.ok na nr) (hw : w.ok na nr) (h : enc2 na v = enc2 na w) : v = w := by
  have key : ∀ {r s r' s' : Nat}, s < 3 * na → s' < 3 * na → 1 + 2 * na + 3 * na * r + s = 1 + 2 * na + 3 * na * r' + s' → r = r' ∧ s = s' := by
    intro r s r' s' hs hs' hh
    exact block_inj hs hs' (by omega)
  cases v <;> cases w <;> simp only [enc2, PV.ok] at h hv hw <;>
    simp only [PV.S.injEq, PV.U.injEq, PV.T.injEq, PV.W.injEq, PV.R.injEq, PV.M.injEq, PV.B.injEq, reduceCtorEq]
  any_goals omega
  · rename_i r a r' a'
    obtain ⟨e1, e2⟩ := key (r := r) (s := 2 * a) (r' := r') (s' := 2 * a') (by omega) (by omega) (by omega)
    omega
  · rename_i r a r' a'
    obtain ⟨e1, e2⟩ := key (r := r) (s := 2 * a) (r' := r') (s' := 2 * a' + 1) (by omega) (by omega) (by omega)
    omega
  · rename_i r a r' a'
    obtain ⟨e1, e2⟩ := key (r := r) (s := 2 * a) (r' := r') (s' := 2 * na + a') (by omega) (by omega) (by omega)
    omega
  · rename_i r a r' a'
    obtain ⟨e1, e2⟩ := key (r := r) (s := 2 * a + 1) (r' := r') (s' := 2 * a') (by omega) (by omega) (by omega)
    omega
  · rename_i r a r' a'
    obtain ⟨e1, e2⟩ := key (r := r) (s := 2 * a + 1) (r' := r') (s' := 2 * a' + 1) (by omega) (by omega) (by omega)
    omega
  · rename_i r a r' a'
    obtain ⟨e1, e2⟩ := key (r := r) (s := 2 * a + 1) (r' := r') (s' := 2 * na + a') (by omega) (by omega) (by omega)
    omega
  · rename_i r a r' a'
    obtain ⟨e1, e2⟩ := key (r := r) (s := 2 * na + a) (r' := r') (s' := 2 * a') (by omega) (by omega) (by omega)
    omega
  · rename_i r a r' a'
    obtain ⟨e1, e2⟩ := key (r := r) (s := 2 * na + a) (r' := r') (s' := 2 * a' + 1) (by omega) (by omega) (by omega)
    omega
  · rename_i r a r' a'
    obtain ⟨e1, e2⟩ := key (r := r) (s := 2 * na + a) (r' := r') (s' := 2 * na + a') (by omega) (by omega) (by omega)
    omega

/-- The number of a vertex determines it: every number below the total is that of a vertex. -/
theorem enc1_surj {na nr : Nat} (h2 : na % 2 = 0) (hp : 0 < na) {i : Nat} (hi : i < 1 + na / 2 + (nr + 1) * na) : ∃ v : PV, v.ok na nr ∧ v.lin ∧ enc1 na v = i := by
  by_cases h0 : i = 0
  · exact ⟨.C, trivial, trivial, h0.symm⟩
  · by_cases h1 : i < 1 + na / 2
    · exact ⟨.T (i - 1), by simp only [PV.ok]; omega, trivial, by simp only [enc1]; omega⟩
    · have hd := Nat.div_add_mod (i - (1 + na / 2)) na
      have hm := Nat.mod_lt (i - (1 + na / 2)) hp
      have hq : (i - (1 + na / 2)) / na < nr + 1 := by
        rw [Nat.div_lt_iff_lt_mul hp]; omega
      refine ⟨.R ((i - (1 + na / 2)) / na) ((i - (1 + na / 2)) % na), ⟨by omega, hm⟩, trivial, ?_⟩
      simp only [enc1]
      rw [Nat.mul_comm]
      omega

theorem enc1_lt {na nr : Nat} (hp : 8 ≤ na) {v : PV} (hv : v.ok na nr) : enc1 na v < 1 + na / 2 + (nr + 1) * na := by
  have : 0 < (nr + 1) * na := Nat.mul_pos (by omega) (by omega)
  cases v <;> simp only [enc1, PV.ok] at *
  any_goals omega
  · rename_i r a
    have : (r + 1) * na ≤ (nr + 1) * na := Nat.mul_le_mul_right _ (by omega)
    rw [Nat.succ_mul] at this
    omega

theorem enc2_lt {na nr : Nat} (hp : 8 ≤ na) (h2 : na % 2 = 0) {v : PV} (hv : v.ok na nr) : enc2 na v < 1 + 2 * na + (3 * na * nr + 2 * na) := by
  cases v <;> simp only [enc2, PV.ok] at *
  any_goals omega
  · have := Nat.mul_le_mul_left (3 * na) hv.1
    omega
  · have := Nat.mul_le_mul_left (3 * na) hv.1
    omega
  · have := Nat.mul_le_mul_left (3 * na) (show _ + 1 ≤ nr from hv.1)
    rw [Nat.mul_succ] at this
    omega

theorem enc2_surj {na nr : Nat} (h2 : na % 2 = 0) (hp : 0 < na) {i : Nat} (hi : i < 1 + 2 * na + (3 * na * nr + 2 * na)) : ∃ v : PV, v.ok na nr ∧ enc2 na v = i := by
  by_cases h0 : i = 0
  · exact ⟨.C, trivial, h0.symm⟩
  · by_cases h1 : i < 1 + 2 * na
    · have : (i - 1) % 4 < 4 := Nat.mod_lt _ (by omega)
      have hc : (i - 1) % 4 = 0 ∨ (i - 1) % 4 = 1 ∨ (i - 1) % 4 = 2 ∨ (i - 1) % 4 = 3 := by omega
      rcases hc with h | h | h | h
      · exact ⟨.S ((i - 1) / 4), by simp only [PV.ok]; omega, by simp only [enc2]; omega⟩
      · exact ⟨.U ((i - 1) / 4), by simp only [PV.ok]; omega, by simp only [enc2]; omega⟩
      · exact ⟨.T ((i - 1) / 4), by simp only [PV.ok]; omega, by simp only [enc2]; omega⟩
      · exact ⟨.W ((i - 1) / 4), by simp only [PV.ok]; omega, by simp only [enc2]; omega⟩
    · have hd := Nat.div_add_mod (i - (1 + 2 * na)) (3 * na)
      have hm := Nat.mod_lt (i - (1 + 2 * na)) (show 3 * na > 0 by omega)
      have hq : (i - (1 + 2 * na)) / (3 * na) < nr + 1 := by
        rw [Nat.div_lt_iff_lt_mul (by omega)]
        have : (nr + 1) * (3 * na) = 3 * na * nr + 3 * na := by ring
        omega
      generalize hq' : (i - (1 + 2 * na)) / (3 * na) = q at *
      generalize (i - (1 + 2 * na)) % (3 * na) = m at *
      by_cases hb : m < 2 * na
      · by_cases hpar : m % 2 = 0
        · exact ⟨.R q (m / 2), ⟨by omega, by omega⟩, by simp only [enc2]; omega⟩
        · exact ⟨.M q (m / 2), ⟨by omega, by omega⟩, by simp only [enc2]; omega⟩
      · have hqn : q < nr := by
          by_contra hcon
          have : q = nr := by omega
          subst this
          omega
        exact ⟨.B q (m - 2 * na), ⟨hqn, by omega⟩, by simp only [enc2]; omega⟩

theorem rotate_range (na : Nat) : (List.range na).map (nxt na) = (List.range na).rotate 1 := by
  apply List.ext_getElem (by simp)
  intro i h1 h2
  simp only [List.length_map, List.length_range] at h1
  simp only [List.getElem_map, List.getElem_range, List.getElem_rotate, List.length_range]
  rcases nxt_or na i with h | h
  · rw [h.2, h.1, Nat.mod_self]
  · rw [h.2, Nat.mod_eq_of_lt (by omega)]

/-- Transfer: a list of faces that are the abstract ones under an injective numbering is conforming. -/
theorem conform_of {na nr n : Nat} (h2 : na % 2 = 0) (h8 : 8 ≤ na) (hr : 0 < nr) {enc : PV → Nat} {em : Edge PV → Edge Nat} {vs : PF → List PV}
    {edges : List Nat → List (Edge Nat)} {faces : List (List Nat)} {lin : PV → Prop}
    (hem : ∀ e, (em e).a = enc e.a ∧ (em e).b = enc e.b) (hrev : ∀ e, em e.rev = (em e).rev)
    (hedges : ∀ f, edges ((vs f).map enc) = (aEdges na f).map em)
    (hvs : ∀ f, f.ok na nr → ∀ v ∈ vs f, v ∈ corners na f ++ mids na f ∧ lin v) (hnd : ∀ f, f.ok na nr → (vs f).Nodup)
    (hlin : ∀ f, ∀ v ∈ corners na f, lin v)
    (henc : ∀ v w, v.ok na nr → w.ok na nr → lin v → lin w → enc v = enc w → v = w) (hlt : ∀ v, v.ok na nr → enc v < n)
    (hused : ∀ i < n, ∃ f : PF, f.ok na nr ∧ i ∈ (vs f).map enc)
    (hget : ∀ (p : Nat) (F : List Nat), faces[p]? = some F → ∃ f : PF, f.ok na nr ∧ p = f.pos na ∧ F = (vs f).map enc)
    (hmem : ∀ f : PF, f.ok na nr → (vs f).map enc ∈ faces) :
    Conforming n edges faces ((List.range na).map fun a => em (bEdge na nr a)) := by
  have hedge : ∀ f : PF, ∀ e ∈ aEdges na f, e.a ∈ corners na f ∧ e.b ∈ corners na f := by
    intro f e he
    cases f <;> simp only [aEdges, List.mem_cons, List.not_mem_nil, or_false] at he <;> rcases he with rfl | rfl | rfl | rfl <;> simp [corners]
  have hok : ∀ f : PF, f.ok na nr → ∀ v ∈ corners na f, v.ok na nr := fun f hf v hv => a_ok h2 h8 hf v (List.mem_append_left _ hv)
  have hmem' : ∀ F ∈ faces, ∃ f : PF, f.ok na nr ∧ F = (vs f).map enc := by
    intro F hF
    obtain ⟨p, hp⟩ := List.mem_iff_getElem?.1 hF
    obtain ⟨f, hf, -, e⟩ := hget p F hp
    exact ⟨f, hf, e⟩
  have huniq : ∀ {f g : PF} {k l : Nat} {e e' : Edge PV}, f.ok na nr → g.ok na nr → (aEdges na f)[k]? = some e → (aEdges na g)[l]? = some e' →
      enc e.a = enc e'.a → enc e.b = enc e'.b → f = g ∧ k = l := by
    intro f g k l e e' hf hg he he' ha hb
    have m1 := hedge f e (List.mem_of_getElem? he)
    have m2 := hedge g e' (List.mem_of_getElem? he')
    exact a_unique h2 h8 hf hg he he' (henc _ _ (hok f hf _ m1.1) (hok g hg _ m2.1) (hlin f _ m1.1) (hlin g _ m2.1) ha)
      (henc _ _ (hok f hf _ m1.2) (hok g hg _ m2.2) (hlin f _ m1.2) (hlin g _ m2.2) hb)
  have bok : ∀ a < na, (PV.R nr a).ok na nr := fun a ha => ⟨Nat.le_refl _, ha⟩
  have blin : ∀ a < na, lin (.R nr a) := by
    intro a ha
    obtain ⟨s, rfl⟩ := Nat.exists_eq_succ_of_ne_zero (Nat.pos_iff_ne_zero.1 hr)
    exact hlin (.ring s a) _ (by simp [corners])
  refine ⟨?_, ?_, ?_, ?_, ?_, ?_, ?_, ?_, ?_, ?_⟩
  · intro F hF
    obtain ⟨f, hf, rfl⟩ := hmem' F hF
    rw [hedges, List.length_map, aEdges_length]
  · intro F hF v hv
    obtain ⟨f, hf, rfl⟩ := hmem' F hF
    obtain ⟨w, hw, rfl⟩ := List.mem_map.1 hv
    exact hlt w (a_ok h2 h8 hf w (hvs f hf w hw).1)
  · intro F hF
    obtain ⟨f, hf, rfl⟩ := hmem' F hF
    refine List.Nodup.map_on ?_ (hnd f hf)
    intro x hx y hy hxy
    exact henc x y (a_ok h2 h8 hf x (hvs f hf x hx).1) (a_ok h2 h8 hf y (hvs f hf y hy).1) (hvs f hf x hx).2 (hvs f hf y hy).2 hxy
  · intro i hi
    obtain ⟨f, hf, hm⟩ := hused i hi
    exact ⟨_, hmem f hf, hm⟩
  · intro p q k l F G e e' hp hq he he' ha hb
    obtain ⟨f, hf, rfl, rfl⟩ := hget p F hp
    obtain ⟨g, hg, rfl, rfl⟩ := hget q G hq
    rw [hedges, List.getElem?_map, Option.map_eq_some_iff] at he he'
    obtain ⟨x, hx, rfl⟩ := he
    obtain ⟨y, hy, rfl⟩ := he'
    rw [(hem x).1, (hem y).1] at ha
    rw [(hem x).2, (hem y).2] at hb
    obtain ⟨rfl, h⟩ := huniq hf hg hx hy ha hb
    exact ⟨rfl, h⟩
  · intro F hF e he
    obtain ⟨f, hf, rfl⟩ := hmem' F hF
    rw [hedges] at he
    obtain ⟨x, hx, rfl⟩ := List.mem_map.1 he
    rcases a_paired h2 h8 hr hf hx with ⟨a, ha, rfl⟩ | ⟨g, hg, hgf, hrx⟩
    · exact Or.inl (List.mem_map.2 ⟨a, List.mem_range.2 ha, rfl⟩)
    · refine Or.inr ⟨_, hmem g hg, ?_, ?_⟩
      · intro hcon
        have he2 : (aEdges na g).map em = (aEdges na f).map em := by rw [← hedges, ← hedges, hcon]
        obtain ⟨ef, hef⟩ : ∃ ef, (aEdges na f)[0]? = some ef := by cases f <;> exact ⟨_, rfl⟩
        obtain ⟨eg, heg⟩ : ∃ eg, (aEdges na g)[0]? = some eg := by cases g <;> exact ⟨_, rfl⟩
        have h0 := congrArg (fun l => l[0]?) he2
        simp only [List.getElem?_map, hef, heg, Option.map_some, Option.some.injEq] at h0
        have hh := huniq hg hf heg hef (by rw [← (hem eg).1, ← (hem ef).1, h0]) (by rw [← (hem eg).2, ← (hem ef).2, h0])
        exact hgf hh.1
      · rw [hedges, ← hrev]
        exact List.mem_map.2 ⟨_, hrx, rfl⟩
  · intro e he
    obtain ⟨a, ha, rfl⟩ := List.mem_map.1 he
    obtain ⟨f, hf, hm⟩ := a_boundary hr (List.mem_range.1 ha)
    exact ⟨_, hmem f hf, by rw [hedges]; exact List.mem_map.2 ⟨_, hm, rfl⟩⟩
  · intro e he F hF e' he' hcon
    obtain ⟨a, ha, rfl⟩ := List.mem_map.1 he
    obtain ⟨f, hf, rfl⟩ := hmem' F hF
    rw [hedges] at he'
    obtain ⟨x, hx, rfl⟩ := List.mem_map.1 he'
    rw [List.mem_range] at ha
    have m1 := hedge f x hx
    rw [(hem x).1, (hem x).2, (hem _).1, (hem _).2] at hcon
    exact a_single h8 hr ha hf hx
      ⟨henc _ _ (hok f hf _ m1.1) (bok _ (nxt_lt ha)) (hlin f _ m1.1) (blin _ (nxt_lt ha)) hcon.1,
        henc _ _ (hok f hf _ m1.2) (bok _ ha) (hlin f _ m1.2) (blin _ ha) hcon.2⟩
  · rw [List.map_map]
    refine List.Nodup.map_on ?_ List.nodup_range
    intro x hx y hy hxy
    simp only [Function.comp, (hem _).1] at hxy
    rw [List.mem_range] at hx hy
    have := henc _ _ (bok x hx) (bok y hy) (blin x hx) (blin y hy) hxy
    simp only [PV.R.injEq] at this
    exact this.2
  · rw [List.map_map, List.map_map, ← List.map_rotate, ← rotate_range, List.map_map]
    refine List.map_congr_left ?_
    intro a _
    simp only [Function.comp, (hem _).1, (hem _).2, bEdge]

/-! ## The lists of the model -/

theorem flatMap_get {α : Type} {f : Nat → List α} {m : Nat} (n : Nat) (hl : ∀ i, (f i).length = m) {p : Nat} {x : α}
    (h : ((List.range n).flatMap f)[p]? = some x) : ∃ i < n, ∃ j < m, p = i * m + j ∧ (f i)[j]? = some x := by
  induction n with
  | zero => simp at h
  | succ n ih =>
    have hlen : ((List.range n).flatMap f).length = n * m := by
      clear ih h
      induction n with
      | zero => simp
      | succ n ih => rw [List.range_succ, List.flatMap_append, List.length_append, ih, List.flatMap_singleton, hl, Nat.succ_mul]
    rw [List.range_succ, List.flatMap_append, List.flatMap_singleton, List.getElem?_append] at h
    split at h
    · obtain ⟨i, hi, j, hj, e1, e2⟩ := ih h
      exact ⟨i, by omega, j, hj, e1, e2⟩
    · rename_i hp
      rw [hlen] at h hp
      have := (List.getElem?_eq_some_iff.1 h).1
      rw [hl] at this
      exact ⟨n, by omega, p - n * m, this, by omega, h⟩

theorem flatMap_len {α : Type} {f : Nat → List α} {m : Nat} (n : Nat) (hl : ∀ i, (f i).length = m) : ((List.range n).flatMap f).length = n * m := by
  induction n with
  | zero => simp
  | succ n ih => rw [List.range_succ, List.flatMap_append, List.length_append, ih, List.flatMap_singleton, hl, Nat.succ_mul]

theorem map_get {α : Type} {f : Nat → α} {n p : Nat} {x : α} (h : ((List.range n).map f)[p]? = some x) : p < n ∧ x = f p := by
  obtain ⟨h1, h2⟩ := List.getElem?_eq_some_iff.1 h
  rw [List.length_map, List.length_range] at h1
  rw [List.getElem_map, List.getElem_range] at h2
  exact ⟨h1, h2.symm⟩

theorem tri1_eq {na i : Nat} (h2 : na % 2 = 0) :
    [[0, 1 + na / 2 + i * 2, 1 + na / 2 + i * 2 + 1, 1 + i],
      [0, 1 + i, 1 + na / 2 + i * 2 + 1, if 1 + na / 2 + i * 2 + 2 = 1 + na / 2 + na then 1 + na / 2 else 1 + na / 2 + i * 2 + 2]] =
      [(corners na (.even i)).map (enc1 na), (corners na (.odd i)).map (enc1 na)] := by
  simp only [corners, List.map_cons, List.map_nil, enc1]
  rcases nxt_or na (2 * i + 1) with ⟨h, h'⟩ | ⟨h, h'⟩
  · rw [if_pos (by omega), h']
    simp; omega
  · rw [if_neg (by omega), h']
    simp; omega

theorem ring1_eq {na r a : Nat} (ha : a < na) :
    (if a + 1 = na then [1 + na / 2 + (r + 1 - 1) * na + a, 1 + na / 2 + (r + 1) * na + a, 1 + na / 2 + (r + 1) * na + a + 1 - na, 1 + na / 2 + (r + 1 - 1) * na + a + 1 - na]
      else [1 + na / 2 + (r + 1 - 1) * na + a, 1 + na / 2 + (r + 1) * na + a, 1 + na / 2 + (r + 1) * na + a + 1, 1 + na / 2 + (r + 1 - 1) * na + a + 1]) =
      (corners na (.ring r a)).map (enc1 na) := by
  simp only [corners, List.map_cons, List.map_nil, enc1, Nat.add_sub_cancel]
  rcases nxt_or na a with ⟨h, h'⟩ | ⟨h, h'⟩
  · rw [if_pos h, h']
    simp; omega
  · rw [if_neg h, h']
    simp; omega

theorem faces1_get {na nr : Nat} (h2 : na % 2 = 0) (p : Nat) (F : List Nat) (h : (Pin.faces1 na nr)[p]? = some F) :
    ∃ f : PF, f.ok na nr ∧ p = f.pos na ∧ F = (corners na f).map (enc1 na) := by
  unfold Pin.faces1 at h
  have hlen : (Pin.triFaces1 na).length = na := by
    unfold Pin.triFaces1
    rw [flatMap_len (m := 2) _ fun i => by simp]; omega
  rw [List.getElem?_append, hlen] at h
  split at h
  · rename_i hp
    unfold Pin.triFaces1 at h
    obtain ⟨i, hi, j, hj, hpp, hx⟩ := flatMap_get (m := 2) _ (fun i => by simp) h
    dsimp only at hx
    rw [tri1_eq h2] at hx
    have hj' : j = 0 ∨ j = 1 := by omega
    rcases hj' with rfl | rfl
    · exact ⟨.even i, by simp only [PF.ok]; omega, by simp only [PF.pos]; omega, (Option.some.inj hx).symm⟩
    · exact ⟨.odd i, by simp only [PF.ok]; omega, by simp only [PF.pos]; omega, (Option.some.inj hx).symm⟩
  · rename_i hp
    obtain ⟨r, hr, j, hj, hpp, hx⟩ := flatMap_get (m := na) _ (fun i => by simp [Pin.ringFaces1]) h
    unfold Pin.ringFaces1 at hx
    obtain ⟨-, rfl⟩ := map_get hx
    exact ⟨.ring r j, ⟨hr, hj⟩, by simp only [PF.pos]; omega, ring1_eq hj⟩

theorem faces1_mem {na nr : Nat} (h2 : na % 2 = 0) (f : PF) (hf : f.ok na nr) : (corners na f).map (enc1 na) ∈ Pin.faces1 na nr := by
  unfold Pin.faces1
  rw [List.mem_append]
  cases f with
  | even i =>
    left; unfold Pin.triFaces1; rw [List.mem_flatMap]
    simp only [PF.ok] at hf
    refine ⟨i, List.mem_range.2 (by omega), ?_⟩
    dsimp only; rw [tri1_eq h2]; simp
  | odd i =>
    left; unfold Pin.triFaces1; rw [List.mem_flatMap]
    simp only [PF.ok] at hf
    refine ⟨i, List.mem_range.2 (by omega), ?_⟩
    dsimp only; rw [tri1_eq h2]; simp
  | ring r a =>
    right; rw [List.mem_flatMap]
    refine ⟨r, List.mem_range.2 hf.1, ?_⟩
    unfold Pin.ringFaces1; rw [List.mem_map]
    exact ⟨a, List.mem_range.2 hf.2, ring1_eq hf.2⟩

theorem tri2_eq {na i : Nat} (h2 : na % 2 = 0) :
    [[0, 1 + 2 * na + 4 * i, 1 + 2 * na + 4 * i + 2, 3 + 4 * i, 1 + 4 * i, 1 + 2 * na + 4 * i + 1, 3 + 4 * i + 1, 3 + 4 * i - 1],
      [0, 3 + 4 * i, 1 + 2 * na + 4 * i + 2,
        if 3 + 4 * i + 1 + 1 = 1 + 2 * na then 1 + 2 * na + 4 * i + 2 + 2 - 2 * na else 1 + 2 * na + 4 * i + 2 + 2, 3 + 4 * i - 1, 3 + 4 * i + 1, 1 + 2 * na + 4 * i + 2 + 1,
        if 3 + 4 * i + 1 + 1 = 1 + 2 * na then 3 + 4 * i + 1 + 1 - 2 * na else 3 + 4 * i + 1 + 1]] =
      [(corners na (.even i) ++ mids na (.even i)).map (enc2 na), (corners na (.odd i) ++ mids na (.odd i)).map (enc2 na)] := by
  simp only [corners, mids, List.map_cons, List.map_nil, List.cons_append, List.nil_append, enc2]
  rcases nxt_or na (2 * i + 1) with ⟨h, h'⟩ | ⟨h, h'⟩
  · have h'' : nxt (na / 2) i = 0 := by rcases nxt_or (na / 2) i with g | g <;> omega
    rw [if_pos (by omega), if_pos (by omega), h', h'']
    simp; omega
  · have h'' : nxt (na / 2) i = i + 1 := by rcases nxt_or (na / 2) i with g | g <;> omega
    rw [if_neg (by omega), if_neg (by omega), h', h'']
    simp; omega

theorem ring2_eq {na r a : Nat} (ha : a < na) :
    (if a + 1 = na then
        [1 + 2 * na + 3 * na * (r + 1 - 1) + 2 * a, 1 + 2 * na + 3 * na * (r + 1 - 1) + 2 * a + 3 * na, 1 + 2 * na + 3 * na * (r + 1 - 1) + 2 * a + 3 * na + 2 - 2 * na,
          1 + 2 * na + 3 * na * (r + 1 - 1) + 2 * a + 2 - 2 * na, 1 + 2 * na + 3 * na * (r + 1 - 1) + 2 * na + a, 1 + 2 * na + 3 * na * (r + 1 - 1) + 2 * a + 3 * na + 1,
          1 + 2 * na + 3 * na * (r + 1 - 1) + 2 * na + a + 1 - na, 1 + 2 * na + 3 * na * (r + 1 - 1) + 2 * a + 1]
      else
        [1 + 2 * na + 3 * na * (r + 1 - 1) + 2 * a, 1 + 2 * na + 3 * na * (r + 1 - 1) + 2 * a + 3 * na, 1 + 2 * na + 3 * na * (r + 1 - 1) + 2 * a + 3 * na + 2,
          1 + 2 * na + 3 * na * (r + 1 - 1) + 2 * a + 2, 1 + 2 * na + 3 * na * (r + 1 - 1) + 2 * na + a, 1 + 2 * na + 3 * na * (r + 1 - 1) + 2 * a + 3 * na + 1,
          1 + 2 * na + 3 * na * (r + 1 - 1) + 2 * na + a + 1, 1 + 2 * na + 3 * na * (r + 1 - 1) + 2 * a + 1]) =
      (corners na (.ring r a) ++ mids na (.ring r a)).map (enc2 na) := by
  simp only [corners, mids, List.map_cons, List.map_nil, List.cons_append, List.nil_append, enc2, Nat.add_sub_cancel, Nat.mul_add (3 * na) r 1]
  rcases nxt_or na a with ⟨h, h'⟩ | ⟨h, h'⟩
  · rw [if_pos h, h']
    simp only [List.cons.injEq, and_true, true_and, Nat.mul_one]; generalize 3 * na * r = z; omega
  · rw [if_neg h, h']
    simp only [List.cons.injEq, and_true, true_and, Nat.mul_one]; generalize 3 * na * r = z; omega

theorem faces2_get {na nr : Nat} (h2 : na % 2 = 0) (p : Nat) (F : List Nat) (h : (Pin.faces2 na nr)[p]? = some F) :
    ∃ f : PF, f.ok na nr ∧ p = f.pos na ∧ F = (corners na f ++ mids na f).map (enc2 na) := by
  unfold Pin.faces2 at h
  have hlen : (Pin.triFaces2 na).length = na := by
    unfold Pin.triFaces2
    rw [flatMap_len (m := 2) _ fun i => by simp]; omega
  rw [List.getElem?_append, hlen] at h
  split at h
  · rename_i hp
    unfold Pin.triFaces2 at h
    obtain ⟨i, hi, j, hj, hpp, hx⟩ := flatMap_get (m := 2) _ (fun i => by simp) h
    dsimp only at hx
    rw [tri2_eq h2] at hx
    have hj' : j = 0 ∨ j = 1 := by omega
    rcases hj' with rfl | rfl
    · exact ⟨.even i, by simp only [PF.ok]; omega, by simp only [PF.pos]; omega, (Option.some.inj hx).symm⟩
    · exact ⟨.odd i, by simp only [PF.ok]; omega, by simp only [PF.pos]; omega, (Option.some.inj hx).symm⟩
  · rename_i hp
    obtain ⟨r, hr, j, hj, hpp, hx⟩ := flatMap_get (m := na) _ (fun i => by simp [Pin.ringFaces2]) h
    unfold Pin.ringFaces2 at hx
    obtain ⟨-, rfl⟩ := map_get hx
    exact ⟨.ring r j, ⟨hr, hj⟩, by simp only [PF.pos]; omega, ring2_eq hj⟩

theorem faces2_mem {na nr : Nat} (h2 : na % 2 = 0) (f : PF) (hf : f.ok na nr) :
    (corners na f ++ mids na f).map (enc2 na) ∈ Pin.faces2 na nr := by
  unfold Pin.faces2
  rw [List.mem_append]
  cases f with
  | even i =>
    left; unfold Pin.triFaces2; rw [List.mem_flatMap]
    simp only [PF.ok] at hf
    refine ⟨i, List.mem_range.2 (by omega), ?_⟩
    dsimp only; rw [tri2_eq h2]; simp
  | odd i =>
    left; unfold Pin.triFaces2; rw [List.mem_flatMap]
    simp only [PF.ok] at hf
    refine ⟨i, List.mem_range.2 (by omega), ?_⟩
    dsimp only; rw [tri2_eq h2]; simp
  | ring r a =>
    right; rw [List.mem_flatMap]
    refine ⟨r, List.mem_range.2 hf.1, ?_⟩
    unfold Pin.ringFaces2; rw [List.mem_map]
    exact ⟨a, List.mem_range.2 hf.2, ring2_eq hf.2⟩

theorem conform1 {na nr : Nat} (h2 : na % 2 = 0) (h8 : 8 ≤ na) (hr : 0 < nr) :
    Conforming (1 + na / 2 + (nr + 1) * na) quadEdges (Pin.faces1 na nr)
      ((List.range na).map fun a => ⟨enc1 na (.R nr a), enc1 na (.R nr (nxt na a)), none⟩) := by
  refine conform_of (em := fun e => ⟨enc1 na e.a, enc1 na e.b, none⟩) (vs := corners na) (lin := PV.lin) h2 h8 hr
    (fun e => ⟨rfl, rfl⟩) (fun e => rfl) ?_ ?_ ?_ ?_ (fun v w hv hw lv lw h => enc1_inj h2 hv hw lv lw h) (fun v hv => enc1_lt h8 hv) ?_ (faces1_get h2) (faces1_mem h2)
  · intro f; cases f <;> rfl
  · intro f _ v hv
    refine ⟨List.mem_append_left _ hv, ?_⟩
    cases f <;> simp only [corners, List.mem_cons, List.not_mem_nil, or_false] at hv <;> rcases hv with rfl | rfl | rfl | rfl <;> trivial
  · intro f hf
    exact (List.nodup_append.1 (a_nodup h8 hf)).1
  · intro f v hv
    cases f <;> simp only [corners, List.mem_cons, List.not_mem_nil, or_false] at hv <;> rcases hv with rfl | rfl | rfl | rfl <;> trivial
  · intro i hi
    obtain ⟨v, hv, lv, rfl⟩ := enc1_surj h2 (by omega) hi
    obtain ⟨f, hf, h | ⟨h1, h3, h4, -⟩⟩ := a_used h2 h8 hr hv
    · exact ⟨f, hf, List.mem_map.2 ⟨v, h, rfl⟩⟩
    · cases v <;> simp [PV.lin] at lv h1 h3 h4

theorem conform2 {na nr : Nat} (h2 : na % 2 = 0) (h8 : 8 ≤ na) (hr : 0 < nr) :
    Conforming (1 + 2 * na + (3 * na * nr + 2 * na)) quad8Edges (Pin.faces2 na nr)
      ((List.range na).map fun a => ⟨enc2 na (.R nr a), enc2 na (.R nr (nxt na a)), some (enc2 na (.M nr a))⟩) := by
  refine conform_of (em := fun e => ⟨enc2 na e.a, enc2 na e.b, e.mid.map (enc2 na)⟩) (vs := fun f => corners na f ++ mids na f) (lin := fun _ => True) h2 h8 hr
    (fun e => ⟨rfl, rfl⟩) (fun e => rfl) ?_ (fun f _ v hv => ⟨hv, trivial⟩) (fun f hf => a_nodup h8 hf) (fun _ _ _ => trivial)
    (fun v w hv hw _ _ h => enc2_inj h2 hv hw h) (fun v hv => enc2_lt h8 h2 hv) ?_ (faces2_get h2) (faces2_mem h2)
  · intro f; cases f <;> rfl
  · intro i hi
    obtain ⟨v, hv, rfl⟩ := enc2_surj h2 (by omega) hi
    obtain ⟨f, hf, h | ⟨-, -, -, h⟩⟩ := a_used h2 h8 hr hv
    · exact ⟨f, hf, List.mem_map.2 ⟨v, List.mem_append_left _ h, rfl⟩⟩
    · exact ⟨f, hf, List.mem_map.2 ⟨v, List.mem_append_right _ h, rfl⟩⟩

end Verif.PinTopo
