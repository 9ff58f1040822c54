import Verif.Model.XDMF
import Verif.Lemmas.Soup
import Verif.Props.Soup
import Verif.Props.ElementTypes
import Mathlib.Tactic.Ring

/-! Auxiliary facts for the XDMF round trip. -/

namespace Verif.XDMF

open Verif.Polytope Verif.ElemTypes

variable {R : Type}

theorem create_ok (g : Group R) (n : Name) (d : Data R) (h1 : n ≠ []) (h2 : '/' ∉ n) (hd : n ≠ ['.']) (h3 : n ∉ g.map (·.1)) :
    create g n d = some (g ++ [(n, d)]) := by
  unfold create
  rw [if_neg]
  tauto

theorem splitSlash_ne (p : Name) : splitSlash p ≠ [] := by
  cases p with
  | nil => simp [splitSlash]
  | cons c p => unfold splitSlash; split <;> simp

theorem splitSlash_append (a b : Name) : splitSlash (a ++ '/' :: b) = splitSlash a ++ splitSlash b := by
  induction a with
  | nil => simp [splitSlash]
  | cons c a ih =>
    rw [List.cons_append, splitSlash, splitSlash, ih]
    split
    · rfl
    · obtain ⟨x, xs, h⟩ := List.exists_cons_of_ne_nil (splitSlash_ne a)
      rw [h]
      rfl

theorem splitSlash_single (n : Name) (h : '/' ∉ n) : splitSlash n = [n] := by
  induction n with
  | nil => rfl
  | cons c n ih =>
    rw [List.mem_cons, not_or] at h
    rw [splitSlash, if_neg fun e => h.1 e.symm, ih h.2]
    rfl

theorem links_append (a b : Name) : links (a ++ '/' :: b) = links a ++ links b := by
  unfold links
  rw [splitSlash_append, List.filter_append]

theorem links_single (n : Name) (h1 : n ≠ []) (h2 : '/' ∉ n) (hd : n ≠ ['.']) : links n = [n] := by
  unfold links
  rw [splitSlash_single n h2]
  simp [h1, hd]

theorem openPath_links (h5path p n : Name) (d : Data R) (g more : Group R) (hp : links p = links h5path ++ [n]) (h : n ∉ g.map (·.1)) :
    openPath h5path (g ++ (n, d) :: more) p = some d := by
  unfold openPath
  simp only [hp, List.append_cancel_left_eq, List.cons.injEq, and_true]
  rw [List.find?_append]
  have h4 : g.find? (fun e => decide (n = e.1)) = none := by
    rw [List.find?_eq_none]
    intro x hx
    simp only [decide_eq_true_eq]
    rintro rfl
    exact h (List.mem_map_of_mem hx)
  rw [h4]
  simp

theorem openPath_ok (h5filename h5path n : Name) (d : Data R) (g more : Group R) (hn1 : n ≠ []) (hn2 : '/' ∉ n) (hd : n ≠ ['.'])
    (h : n ∉ g.map (·.1)) :
    openPath h5path (g ++ (n, d) :: more) ((dataPath h5filename h5path n).drop (h5filename.length + 1)) = some d := by
  have h1 : (dataPath h5filename h5path n).drop (h5filename.length + 1) = h5path ++ '/' :: n := by
    unfold dataPath
    have : h5filename ++ [':'] ++ h5path ++ ['/'] ++ n = (h5filename ++ [':']) ++ (h5path ++ '/' :: n) := by simp
    rw [this, List.drop_append_of_le_length (by simp)]
    simp
  rw [h1]
  exact openPath_links h5path _ n d g more (by rw [links_append, links_single n hn1 hn2 hd]) h

/-- Filling an array from position `pre.length` on. -/
theorem fill_run {α : Type} (l pre rest : List α) (c : Nat) (hc : pre.length = c) (f : Nat → Option α)
    (hf : ∀ j, (h : j < l.length) → f j = some l[j]) (hr : l.length ≤ rest.length) :
    (List.range l.length).foldlM (fun topo j => (f j).bind fun x => put topo (c + j) x) (pre ++ rest) =
      some (pre ++ l ++ rest.drop l.length) := by
  have key : ∀ m, m ≤ l.length →
      (List.range m).foldlM (fun topo j => (f j).bind fun x => put topo (c + j) x) (pre ++ rest) =
        some (pre ++ l.take m ++ rest.drop m) := by
    intro m
    induction m with
    | zero => intro _; simp
    | succ m ih =>
      intro hm
      have hm' : m < l.length := hm
      rw [List.range_succ, List.foldlM_append, ih (by omega)]
      simp only [Option.bind_eq_bind, Option.bind_some, List.foldlM_cons, List.foldlM_nil, hf m hm', put]
      have hlen : (pre ++ l.take m).length = c + m := by simp [hc]; omega
      have hd : rest.drop m = rest[m] :: rest.drop (m + 1) := List.drop_eq_getElem_cons (by omega)
      rw [if_pos (by simp; omega)]
      simp only [Option.bind_some]
      congr 1
      rw [hd, ← hlen, List.set_append_right _ _ (by omega)]
      simp only [Nat.sub_self, List.set_cons_zero]
      rw [List.take_add_one, List.getElem?_eq_getElem hm', Option.toList_some]
      simp only [List.append_assoc, List.cons_append, List.nil_append]
  have := key l.length le_rfl
  rwa [List.take_length] at this

/-- Reading one block of an array of equal blocks. -/
theorem read_equal {α : Type} (bs : List (List α)) (k i : Nat) (b : List α) (hk : ∀ b ∈ bs, b.length = k)
    (hb : bs[i]? = some b) : ((List.range k).mapM fun j => bs.flatten[i * k + j]?) = some b := by
  have hi : i < bs.length := (List.getElem?_eq_some_iff.1 hb).1
  have hbl : b.length = k := hk b (List.mem_of_getElem? hb)
  have hsum : ∀ l : List (List α), (∀ b ∈ l, b.length = k) → l.flatten.length = l.length * k := by
    intro l
    induction l with
    | nil => intro _; simp
    | cons a l ih =>
      intro h
      rw [List.flatten_cons, List.length_append, ih fun x hx => h x (by simp [hx]), h a (by simp), List.length_cons]
      ring
  have hpre : (bs.take i).flatten.length = i * k := by
    rw [hsum _ fun x hx => hk x (List.mem_of_mem_take hx), List.length_take, Nat.min_eq_left (by omega)]
  have := readBlock_append (bs.take i).flatten b (bs.drop (i + 1)).flatten
  rw [← block_split bs i b hb, hpre, hbl] at this
  unfold readBlock at this
  rw [if_neg (by omega), Nat.add_sub_cancel_left] at this
  exact this

/-- One entry of an array of equal blocks. -/
theorem get_equal {α : Type} (bs : List (List α)) (k i j : Nat) (b : List α) (hk : ∀ b ∈ bs, b.length = k)
    (hb : bs[i]? = some b) (hj : j < k) : bs.flatten[i * k + j]? = b[j]? := by
  have h := read_equal bs k i b hk hb
  have hget : ∀ (l : List Nat) (f : Nat → Option α) (r : List α), l.mapM f = some r → l.map f = r.map some := by
    intro l f
    induction l with
    | nil => intro r hr; simp at hr; subst hr; rfl
    | cons a l ih =>
      intro r hr
      rw [List.mapM_cons] at hr
      cases ha : f a with
      | none => rw [ha] at hr; simp at hr
      | some x =>
        rw [ha] at hr
        cases hl : l.mapM f with
        | none => rw [hl] at hr; simp at hr
        | some y =>
          rw [hl] at hr
          simp at hr
          subst hr
          rw [List.map_cons, List.map_cons, ha, ih y hl]
  have h2 := congrArg (fun l => l[j]?) (hget _ _ _ h)
  have hjb : j < b.length := by rw [hk b (List.mem_of_getElem? hb)]; exact hj
  simpa [List.getElem?_range hj, List.getElem?_eq_getElem hjb] using h2

theorem flatten_length_equal {α : Type} (bs : List (List α)) (k : Nat) (hk : ∀ b ∈ bs, b.length = k) :
    bs.flatten.length = bs.length * k := by
  induction bs with
  | nil => simp
  | cons a l ih =>
    rw [List.flatten_cons, List.length_append, ih fun x hx => hk x (by simp [hx]), hk a (by simp), List.length_cons]
    ring

/-- The stream of a mixed topology. -/
def enc (els : List (ℤ × List Nat)) : List ℤ :=
  els.flatMap fun e => vtkToXDMF e.1 :: e.2.map fun (c : Nat) => (c : ℤ)

theorem enc_append (a b : List (ℤ × List Nat)) : enc (a ++ b) = enc a ++ enc b := by
  simp [enc, List.flatMap_append]

theorem enc_single (e : ℤ × List Nat) : enc [e] = vtkToXDMF e.1 :: e.2.map fun (c : Nat) => (c : ℤ) := by
  simp [enc]

theorem enc_length (els : List (ℤ × List Nat)) : (enc els).length = els.length + (els.map (·.2)).flatten.length := by
  induction els with
  | nil => rfl
  | cons e els ih =>
    have : enc (e :: els) = enc [e] ++ enc els := enc_append [e] els
    rw [this, List.length_append, ih, enc_single]
    simp
    omega

theorem mixed_write {V D : Type} (s : Soup V ℤ Name D) (els : List (ℤ × List Nat)) (sets : List (ElSet Name D))
    (hrep : Rep s els sets) (hsup : ∀ e ∈ els, vtkToXDMF e.1 ≠ 0) :
    (List.range s.types.length).foldlM (mixedStep s)
      (some (List.replicate (s.types.length + s.conn.length) 0, 0)) = some (some (enc els, (enc els).length)) := by
  have hn : s.types.length = els.length := by rw [hrep.types]; simp
  have htot : s.types.length + s.conn.length = (enc els).length := by
    rw [enc_length, hn, hrep.conn]
  rw [htot, hn]
  have key : ∀ m, m ≤ els.length → (List.range m).foldlM (mixedStep s)
      (some (List.replicate (enc els).length 0, 0)) =
        some (some (enc (els.take m) ++ List.replicate (enc (els.drop m)).length 0, (enc (els.take m)).length)) := by
    intro m
    induction m with
    | zero => intro _; simp [enc]
    | succ m ih =>
      intro hm
      have hm' : m < els.length := hm
      have hme := List.getElem?_eq_getElem hm'
      rw [List.range_succ, List.foldlM_append, ih (by omega)]
      simp only [Option.bind_eq_bind, Option.bind_some, List.foldlM_cons, List.foldlM_nil]
      unfold mixedStep
      have ht : s.types[m]? = some els[m].1 := by rw [hrep.types]; simp [hme]
      obtain ⟨a, r1, r2, ra, -⟩ := offsOf_read (els.map (·.2)) m els[m].2 (by simp [hme])
      rw [← hrep.eoffs] at r1 r2
      have hdrop : els.drop m = [els[m]] ++ els.drop (m + 1) := by
        rw [List.drop_eq_getElem_cons hm']; rfl
      have htake : els.take (m + 1) = els.take m ++ [els[m]] := by
        rw [List.take_add_one, hme]; rfl
      have hlen : (enc (els.drop m)).length = 1 + els[m].2.length + (enc (els.drop (m + 1))).length := by
        rw [hdrop, enc_append, enc_single]; simp; omega
      dsimp only
      rw [ht]
      simp only [Option.bind_some]
      have hinv : ¬ vtkToXDMF els[m].1 = XDMF.Invalid := hsup _ (List.getElem_mem hm')
      rw [if_neg hinv]
      unfold put
      rw [if_pos (by simp; omega)]
      simp only [Option.bind_some]
      rw [r1, r2]
      simp only [Option.bind_some, Nat.add_sub_cancel_left]
      have hset : (enc (els.take m) ++ List.replicate (enc (els.drop m)).length 0).set (enc (els.take m)).length
          (vtkToXDMF els[m].1) = (enc (els.take m) ++ [vtkToXDMF els[m].1]) ++
            List.replicate (els[m].2.length + (enc (els.drop (m + 1))).length) 0 := by
        rw [List.set_append_right _ _ (by omega), Nat.sub_self, hlen,
          show 1 + els[m].2.length + (enc (els.drop (m + 1))).length =
            (els[m].2.length + (enc (els.drop (m + 1))).length) + 1 by omega, List.replicate_succ]
        simp
      rw [hset]
      have hfill := fill_run (els[m].2.map fun (c : Nat) => (c : ℤ)) (enc (els.take m) ++ [vtkToXDMF els[m].1])
        (List.replicate (els[m].2.length + (enc (els.drop (m + 1))).length) 0) ((enc (els.take m)).length + 1)
        (by simp) (fun j => (s.conn[a + j]?).map fun (c : Nat) => (c : ℤ)) ?_ (by simp)
      · rw [List.length_map] at hfill
        have hcongr : (fun (topo : List ℤ) j => (s.conn[a + j]?).bind fun (c : Nat) =>
              if (enc (els.take m)).length + 1 + j < topo.length then
                some (topo.set ((enc (els.take m)).length + 1 + j) (c : ℤ)) else none) =
            (fun topo j => ((s.conn[a + j]?).map fun (c : Nat) => (c : ℤ)).bind fun x =>
              put topo ((enc (els.take m)).length + 1 + j) x) := by
          funext topo j
          cases s.conn[a + j]? <;> simp [put]
        rw [hcongr, hfill]
        simp only [Option.map_some, Option.bind_some]
        rw [htake, enc_append, enc_single]
        simp
        omega
      · intro j hj
        have hj' : j < els[m].2.length := by simpa using hj
        have : s.conn[a + j]? = some els[m].2[j] := by
          rw [hrep.conn, block_split (els.map (·.2)) m els[m].2 (by simp [hme]), ra, List.append_assoc,
            List.getElem?_append_right (by omega), Nat.add_sub_cancel_left, List.getElem?_append_left hj',
            List.getElem?_eq_getElem hj']
        rw [this]
        simp
  have := key els.length le_rfl
  rw [List.take_length, List.drop_length] at this
  simpa [enc] using this

theorem int8_code (t : ℤ) : int8 (vtkToXDMF t) = vtkToXDMF t := by
  unfold vtkToXDMF
  split_ifs <;> decide

theorem npoints (t : ℤ) (h : vtkToXDMF t ≠ 0) : ¬ verticesPerElem t < 0 := by
  unfold vtkToXDMF at h
  unfold verticesPerElem
  split_ifs at h ⊢ <;> first | omega | exact absurd rfl h

theorem toNat_map (l : List Nat) : (l.map fun (c : Nat) => (c : ℤ)).map Int.toNat = l := by
  rw [List.map_map]
  have : (Int.toNat ∘ fun (c : Nat) => (c : ℤ)) = id := by funext c; simp
  rw [this, List.map_id]

theorem mixed_read {V D : Type} (els els0 : List (ℤ × List Nat)) (sets0 : List (ElSet Name D))
    (t : Soup V ℤ Name D) (hrep : Rep t els0 sets0) (hsup : ∀ e ∈ els, vtkToXDMF e.1 ≠ 0)
    (hlen : ∀ e ∈ els, (e.2.length : ℤ) = verticesPerElem e.1) :
    ∃ t' n, (List.range els.length).foldlM (fun st _ => readMixedStep (enc els) st) (0, t) = some (n, t') ∧
      Rep t' (els0 ++ els) sets0 ∧ t'.verts = t.verts := by
  have key : ∀ m, m ≤ els.length → ∃ t', (List.range m).foldlM (fun st _ => readMixedStep (enc els) st) (0, t) =
      some ((enc (els.take m)).length, t') ∧ Rep t' (els0 ++ els.take m) sets0 ∧ t'.verts = t.verts := by
    intro m
    induction m with
    | zero => intro _; exact ⟨t, by simp [enc], by simpa using hrep, rfl⟩
    | succ m ih =>
      intro hm
      have hm' : m < els.length := hm
      obtain ⟨t', h1, h2, h3⟩ := ih (by omega)
      have hmem := List.getElem_mem hm'
      have hme := List.getElem?_eq_getElem hm'
      have htake : els.take (m + 1) = els.take m ++ [els[m]] := by
        rw [List.take_add_one, hme]; rfl
      have hsplit : enc els = enc (els.take m) ++ enc [els[m]] ++ enc (els.drop (m + 1)) := by
        rw [← enc_append, ← enc_append, ← htake, List.take_append_drop]
      rw [List.range_succ, List.foldlM_append, h1]
      simp only [Option.bind_eq_bind, Option.bind_some, List.foldlM_cons, List.foldlM_nil]
      unfold readMixedStep
      dsimp only
      have hcode : (enc els)[(enc (els.take m)).length]? = some (vtkToXDMF els[m].1) := by
        rw [hsplit, enc_single, List.append_assoc, List.getElem?_append_right (by omega), Nat.sub_self]
        rfl
      rw [hcode]
      simp only [Option.bind_some]
      rw [int8_code, C40_vtk_roundtrip _ (hsup _ hmem), if_neg (npoints _ (hsup _ hmem)), ← hlen _ hmem]
      simp only [Int.toNat_natCast]
      have hblock : ((List.range els[m].2.length).mapM fun j => (enc els)[(enc (els.take m)).length + j + 1]?) =
          some (els[m].2.map fun (c : Nat) => (c : ℤ)) := by
        have := readBlock_append (enc (els.take m) ++ [vtkToXDMF els[m].1]) (els[m].2.map fun (c : Nat) => (c : ℤ))
          (enc (els.drop (m + 1)))
        have he : enc (els.take m) ++ [vtkToXDMF els[m].1] ++ (els[m].2.map fun (c : Nat) => (c : ℤ)) ++
            enc (els.drop (m + 1)) = enc els := by
          rw [hsplit, enc_single]; simp
        rw [he] at this
        unfold readBlock at this
        rw [if_neg (by omega), Nat.add_sub_cancel_left, List.length_map] at this
        rw [← this]
        congr 1
        funext j
        congr 1
        simp
        omega
      rw [hblock, Option.map_some, toNat_map]
      refine ⟨(addElement t' els[m].1 els[m].2).1, ?_, ?_, ?_⟩
      · simp only [Option.bind_some]
        congr 2
        rw [htake, enc_append, enc_single]
        simp
        omega
      · rw [htake, ← List.append_assoc]
        exact h2.addElement _ _
      · exact h3
  obtain ⟨t', h1, h2, h3⟩ := key els.length le_rfl
  rw [List.take_length] at h1 h2
  exact ⟨t', _, h1, h2, h3⟩

theorem homogeneous_read {V D : Type} (els els0 : List (ℤ × List Nat)) (sets0 : List (ElSet Name D))
    (t : Soup V ℤ Name D) (hrep : Rep t els0 sets0) (ty : ℤ) (k : Nat) (hty : ∀ e ∈ els, e.1 = ty)
    (hlen : ∀ e ∈ els, e.2.length = k) :
    ∃ t', (List.range els.length).foldlM (fun s i =>
      ((List.range k).mapM fun j => ((els.map (·.2)).flatten.map fun (c : Nat) => (c : ℤ))[i * k + j]?).map fun conn =>
        (addElement s ty (conn.map Int.toNat)).1) t = some t' ∧ Rep t' (els0 ++ els) sets0 ∧ t'.verts = t.verts := by
  have key : ∀ m, m ≤ els.length → ∃ t', (List.range m).foldlM (fun s i =>
      ((List.range k).mapM fun j => ((els.map (·.2)).flatten.map fun (c : Nat) => (c : ℤ))[i * k + j]?).map fun conn =>
        (addElement s ty (conn.map Int.toNat)).1) t = some t' ∧ Rep t' (els0 ++ els.take m) sets0 ∧
        t'.verts = t.verts := by
    intro m
    induction m with
    | zero => intro _; exact ⟨t, rfl, by simpa using hrep, rfl⟩
    | succ m ih =>
      intro hm
      have hm' : m < els.length := hm
      obtain ⟨t', h1, h2, h3⟩ := ih (by omega)
      have hmem := List.getElem_mem hm'
      have hme := List.getElem?_eq_getElem hm'
      have htake : els.take (m + 1) = els.take m ++ [els[m]] := by
        rw [List.take_add_one, hme]; rfl
      rw [List.range_succ, List.foldlM_append, h1]
      simp only [Option.bind_eq_bind, Option.bind_some, List.foldlM_cons, List.foldlM_nil]
      have hb := read_equal (els.map fun e => e.2.map fun (c : Nat) => (c : ℤ)) k m
        (els[m].2.map fun (c : Nat) => (c : ℤ)) ?_ ?_
      · have hf : (els.map fun e => e.2.map fun (c : Nat) => (c : ℤ)).flatten =
            (els.map (·.2)).flatten.map fun (c : Nat) => (c : ℤ) := by
          rw [List.map_flatten, List.map_map]; rfl
        rw [hf] at hb
        rw [hb, Option.map_some, toNat_map]
        refine ⟨_, rfl, ?_, h3⟩
        rw [htake, ← List.append_assoc]
        have := h2.addElement ty els[m].2
        rw [← hty _ hmem] at this
        rw [← hty _ hmem]
        exact this
      · intro b hb
        obtain ⟨e, he, rfl⟩ := List.mem_map.1 hb
        rw [List.length_map]
        exact hlen e he
      · simp [hme]
  obtain ⟨t', h1, h2, h3⟩ := key els.length le_rfl
  rw [List.take_length] at h2
  exact ⟨t', h1, h2, h3⟩

end Verif.XDMF
