import Verif.Lemmas.GmshInfo

/-! The info file keeps the physical groups and the colours of a Gmsh model (C96). -/

namespace Verif.InfoSpec

open Verif.Info
open Verif.XSLib (Res)
open Verif.Gmsh (Gm DimTag)
open Verif.GmshSpec (WF)
open Verif.Overlay (Name)
open Verif.Str (Byte)
open Verif.StrView (digits)
open Verif.Abaqus (isDigit digits_ne digits_digit)
open Verif.MFiles (str)
open Verif.InfoL

/-! ## Specification -/

/-- The number of entity `e` of dimension `d` when those of its dimension are numbered from one by increasing tag. -/
def newNumber (ents : List DimTag) (d e : ℤ) : ℤ := ((ents.filter fun x => x.1 = d ∧ x.2 < e).length : ℤ) + 1

/-- The models that can be stored: entities of dimension 0 to 3, groups of these entities, names without quotation mark and
newline, colours of bytes, and sizes that fit. -/
structure Storable (s : Gm Name Col) (ents : List DimTag) : Prop where
  wf : WF s
  dims : ∀ x ∈ ents, 0 ≤ x.1 ∧ x.1 ≤ 3
  known : ∀ g ∈ s.groups, ∀ e ∈ g.ents, (g.dim, e) ∈ ents
  names : ∀ g ∈ s.groups, (34 : Byte) ∉ g.name ∧ (10 : Byte) ∉ g.name ∧ g.name.length < 2 ^ 31
  colors : ∀ x ∈ ents, (0 ≤ (s.color x).1 ∧ (s.color x).1 < 256) ∧ (0 ≤ (s.color x).2.1 ∧ (s.color x).2.1 < 256) ∧
    (0 ≤ (s.color x).2.2.1 ∧ (s.color x).2.2.1 < 256) ∧ (0 ≤ (s.color x).2.2.2 ∧ (s.color x).2.2.2 < 256)
  count : s.groups.length < 2 ^ 31 ∧ ents.length + 1 < 2 ^ 31

theorem good {s : Gm Name Col} {ents : List DimTag} (h : Storable s ents) : ∀ g ∈ s.groups, GoodGroup ents g := by
  intro g hg
  obtain ⟨n1, n2, n3⟩ := h.names g hg
  obtain ⟨e1, e2⟩ := h.wf.ents g hg
  refine ⟨?_, n1, n2, n3, e1, e2, h.known g hg⟩
  obtain ⟨e, l, he⟩ := List.exists_cons_of_ne_nil e2
  exact h.dims _ (h.known g hg e (by rw [he]; simp))

theorem newNumber_rank (ents : List DimTag) (d e : ℤ) : newNumber ents d e = (rank ents d e : ℤ) := by
  rw [rank_eq, newNumber]; push_cast; rfl

/-! ## Round trip -/

/-- Reading the file that was written gives the groups, by dimension, name and entities, in the same order, and the colours of the
surfaces and volumes that do not have the default colour; no other colour changes. -/
theorem C96_roundtrip (s s0 : Gm Name Col) (ents : List DimTag) (h : Storable s ents) (h0 : s0.groups = []) :
    ∃ s', openInfo s0 (write s ents) = .ok s' ∧ WF s' ∧
      (s'.groups.map fun g => (g.dim, g.name, g.ents)) = (s.groups.map fun g => (g.dim, g.name, g.ents.map (newNumber ents g.dim))) ∧
      (∀ x ∈ ents, s'.color (x.1, newNumber ents x.1 x.2) =
        if 2 ≤ x.1 ∧ s.color x ≠ (0, 0, 255, 0) then s.color x else s0.color (x.1, newNumber ents x.1 x.2)) ∧
      ∀ y, (∀ x ∈ ents, y ≠ (x.1, newNumber ents x.1 x.2)) → s'.color y = s0.color y := by
  obtain ⟨hc1, hc2⟩ := h.count
  obtain ⟨b1, b2, b3, b4⟩ := byColor_spec s.color ents
  obtain ⟨L, hL⟩ : ∃ L, L = (byColor s.color ents).map fun p => (p.1, sortPairs p.2) := ⟨_, rfl⟩
  have hsort : ∀ l : List DimTag, (sortPairs l).Perm l := fun l => List.perm_insertionSort _ _
  have hLlen : L.length = (byColor s.color ents).length := by rw [hL, List.length_map]
  have hLmem : ∀ p ∈ L, ∀ y ∈ p.2, p.1 = s.color y ∧ Stored s.color y ∧ y ∈ ents := by
    intro p hp y hy
    rw [hL] at hp
    obtain ⟨q, hq, rfl⟩ := List.mem_map.1 hp
    obtain ⟨c1, c2, c3⟩ := b1 q hq y ((hsort q.2).mem_iff.1 hy)
    exact ⟨c1.trans (toColor_eq _ (h.colors y c3)), c2, c3⟩
  have hLall : ∀ y ∈ ents, Stored s.color y → ∃ p ∈ L, y ∈ p.2 := by
    intro y hy hs
    obtain ⟨p, hp, hyp⟩ := b4 y hy hs
    exact ⟨(p.1, sortPairs p.2), by rw [hL]; exact List.mem_map.2 ⟨p, hp, rfl⟩, (hsort p.2).mem_iff.2 hyp⟩
  have hLgood : ∀ p ∈ L, Byte4 p.1 ∧ p.2.length < 2 ^ 31 ∧ ∀ x ∈ p.2, 0 ≤ x.1 ∧ x.1 ≤ 3 := by
    intro p hp
    have hm := hLmem p hp
    rw [hL] at hp
    obtain ⟨q, hq, rfl⟩ := List.mem_map.1 hp
    have hlen : (sortPairs q.2).length = q.2.length := (hsort q.2).length_eq
    refine ⟨?_, by have := b2 q hq; dsimp only; omega, fun x hx => h.dims x (hm x hx).2.2⟩
    have hne : ∀ p ∈ byColor s.color ents, p.2 ≠ [] := byColor_ne s.color ents
    obtain ⟨z, l, hz⟩ := List.exists_cons_of_ne_nil (hne q hq)
    obtain ⟨c1, _, _⟩ := b1 q hq z (by rw [hz]; simp)
    dsimp only
    rw [c1]
    exact toColor_byte _
  -- the text
  have e1 : str "PHYSICAL_GROUPS " = str "PHYSICAL_GROUPS" ++ [32] := by decide +kernel
  have e2 : str "ENTITY_COLORS " = str "ENTITY_COLORS" ++ [32] := by decide +kernel
  have l1 : (str "PHYSICAL_GROUPS ").length = 16 := by decide +kernel
  have l2 : (str "ENTITY_COLORS ").length = 14 := by decide +kernel
  have htext : write s ents = (str "PHYSICAL_GROUPS " ++ digits s.groups.length) ++ 10 :: (s.groups.flatMap (groupText ents) ++
      ((str "ENTITY_COLORS " ++ digits L.length) ++ 10 :: ((L.flatMap fun p => colorText ents p.1 p.2) ++ []))) := by
    rw [hLlen, hL, List.flatMap_map]
    unfold write
    simp
  have hno1 : (10 : Byte) ∉ str "PHYSICAL_GROUPS " ++ digits s.groups.length := by
    rw [List.mem_append, not_or]; exact ⟨by decide +kernel, (digits_no _).2.1⟩
  have hno2 : (10 : Byte) ∉ str "ENTITY_COLORS " ++ digits L.length := by
    rw [List.mem_append, not_or]; exact ⟨by decide +kernel, (digits_no _).2.1⟩
  have hp1 : (str "PHYSICAL_GROUPS").isPrefixOf (str "PHYSICAL_GROUPS " ++ digits s.groups.length) = true := by
    rw [List.isPrefixOf_iff_prefix, e1, List.append_assoc]; exact List.prefix_append _ _
  have hp2 : (str "ENTITY_COLORS").isPrefixOf (str "ENTITY_COLORS " ++ digits L.length) = true := by
    rw [List.isPrefixOf_iff_prefix, e2, List.append_assoc]; exact List.prefix_append _ _
  have hf1 := substrFrom_at (str "PHYSICAL_GROUPS ") (digits s.groups.length)
  have hf2 := substrFrom_at (str "ENTITY_COLORS ") (digits L.length)
  rw [l1] at hf1
  rw [l2] at hf2
  have hw0 : WF s0 := ⟨by rw [h0]; simp, by rw [h0]; simp, by rw [h0]; simp⟩
  obtain ⟨s1, y1, g1, g2, g3, g4⟩ := readGroups_ok ents hc2 ((str "ENTITY_COLORS " ++ digits L.length) ++ 10 :: ((L.flatMap fun p => colorText ents p.1 p.2) ++ []))
    s.groups s0 (str "PHYSICAL_GROUPS " ++ digits s.groups.length) (good h) (h.wf.sorted.imp fun hab => by omega) (by rw [h0]; simp) hw0
  obtain ⟨s2, y2, k1, k2, k3⟩ := readColors_ok ents hc2 [] L s1 (str "ENTITY_COLORS " ++ digits L.length) hLgood
  have hopen : openInfo s0 (write s ents) = .ok s2 := by
    unfold openInfo addPhysicalGroups
    rw [htext, getline_line _ _ _ hno1]
    dsimp only
    rw [if_neg (by rw [hp1]; simp), hf1]
    show ((stoul (digits s.groups.length)).bind _).bind _ = _
    rw [stoul_end _ hc1]
    show (readGroups s.groups.length s0 _).bind _ = _
    rw [g1]
    simp only [Res.bind]
    rw [getline_line _ _ _ hno2]
    dsimp only
    rw [if_neg (by rw [hp2]; simp), hf2]
    show (stoul (digits L.length)).bind _ = _
    rw [stoul_end _ (by omega)]
    show (readColors L.length s1 _).bind _ = _
    rw [k1]
    rfl
  have hw2 : WF s2 := ⟨by rw [k2]; exact g4.sorted, by rw [k2]; exact g4.pos, by rw [k2]; exact g4.ents⟩
  refine ⟨s2, hopen, hw2, ?_, ?_, ?_⟩
  · show content s2.groups = _
    rw [k2, g2, h0]
    simp only [content, List.map_nil, List.nil_append]
    refine List.map_congr_left fun g _ => ?_
    have : newNumber ents g.dim = fun e => (rank ents g.dim e : ℤ) := funext fun e => newNumber_rank ents g.dim e
    rw [this]
  · intro x hx
    rw [newNumber_rank]
    -- an entity with this number is `x`
    have hinj : ∀ z ∈ ents, (x.1, (rank ents x.1 x.2 : ℤ)) = (z.1, (rank ents z.1 z.2 : ℤ)) → z = x := by
      rintro ⟨z1, z2⟩ hz he
      obtain ⟨x1, x2⟩ := x
      obtain ⟨he1, he2⟩ := Prod.mk.inj he
      dsimp only at he1 he2
      subst he1
      rw [rank_inj ents x1 x2 z2 hx hz (by exact_mod_cast he2)]
    obtain ⟨c1, c2⟩ := k3 (x.1, (rank ents x.1 x.2 : ℤ)) (s.color x) (by
      intro p hp hz
      obtain ⟨z, hz, hzx⟩ := List.mem_map.1 hz
      obtain ⟨a1, _, a3⟩ := hLmem p hp z hz
      rw [a1, hinj z a3 hzx.symm])
    split_ifs with hs
    · obtain ⟨p, hp, hxp⟩ := hLall x hx hs
      exact c1 ⟨p, hp, List.mem_map.2 ⟨x, hxp, rfl⟩⟩
    · rw [c2, g3]
      rintro ⟨p, hp, hz⟩
      obtain ⟨z, hz, hzx⟩ := List.mem_map.1 hz
      obtain ⟨_, a2, a3⟩ := hLmem p hp z hz
      rw [hinj z a3 hzx.symm] at a2
      exact hs a2
  · intro y hy
    have hn : ¬ ∃ p ∈ L, y ∈ p.2.map fun x => (x.1, (rank ents x.1 x.2 : ℤ)) := by
      rintro ⟨p, hp, hz⟩
      obtain ⟨z, hz, hzx⟩ := List.mem_map.1 hz
      refine hy z (hLmem p hp z hz).2.2 ?_
      rw [← hzx, newNumber_rank]
    have := (k3 y (0, 0, 0, 0) fun p hp hz => absurd ⟨p, hp, hz⟩ hn).2 hn
    rw [this, g3]

/-- If opening the model file leaves every entity with the default colour, all surfaces and volumes have their colour back. -/
theorem C96_colors (s s0 : Gm Name Col) (ents : List DimTag) (h : Storable s ents) (h0 : s0.groups = []) (hd : ∀ y, s0.color y = (0, 0, 255, 0)) :
    ∃ s', openInfo s0 (write s ents) = .ok s' ∧ ∀ x ∈ ents, 2 ≤ x.1 → s'.color (x.1, newNumber ents x.1 x.2) = s.color x := by
  obtain ⟨s', h1, _, _, h2, _⟩ := C96_roundtrip s s0 ents h h0
  refine ⟨s', h1, fun x hx hx2 => ?_⟩
  rw [h2 x hx]
  split_ifs with hs
  · rfl
  · rw [hd]
    by_contra hne
    exact hs ⟨hx2, fun he => hne he.symm⟩

/-- The numbers of the entities of one dimension: in the order of the tags, distinct, from one to their number. -/
theorem C96_numbers (ents : List DimTag) (d a b : ℤ) (ha : (d, a) ∈ ents) (hb : (d, b) ∈ ents) :
    (newNumber ents d a < newNumber ents d b ↔ a < b) ∧ 1 ≤ newNumber ents d a ∧ newNumber ents d a ≤ (ents.filter fun x => x.1 = d).length := by
  rw [newNumber_rank, newNumber_rank]
  refine ⟨⟨fun h => ?_, fun h => by exact_mod_cast rank_lt ents d a b ha h⟩, by rw [rank_eq]; push_cast; omega, ?_⟩
  · by_contra hn
    rcases lt_or_eq_of_le (not_lt.1 hn) with h1 | h1
    · have := rank_lt ents d b a hb h1; omega
    · rw [h1] at h; omega
  · rw [rank_eq]
    have hsub : (ents.filter fun x => x.1 = d ∧ x.2 < a).Sublist (ents.filter fun x => x.1 = d) :=
      List.monotone_filter_right _ fun x hx => by simp at hx ⊢; exact hx.1
    rcases Nat.lt_or_ge (ents.filter fun x => x.1 = d ∧ x.2 < a).length (ents.filter fun x => x.1 = d).length with h1 | h1
    · omega
    · have hm : (d, a) ∈ ents.filter fun x => x.1 = d := by simp [ha]
      rw [← hsub.eq_of_length_le h1] at hm
      simp at hm

/-- The name of the info file. -/
theorem C96_name (stem ext : List Byte) (h : (46 : Byte) ∉ ext) : infoName (stem ++ 46 :: ext) = stem ++ str ".info" := by
  unfold infoName
  rw [if_pos (by simp), List.reverse_append, List.reverse_cons, List.append_assoc]
  have : ∀ c ∈ ext.reverse, decide (c ≠ 46) = true := by
    intro c hc
    have : c ≠ 46 := fun he => h (he ▸ List.mem_reverse.1 hc)
    simpa using this
  rw [List.dropWhile_append_of_pos this]
  simp

/-! ## A case -/

def box : Gm Name Col where
  groups := [⟨2, 3, str "Material_UO2", [4, 9]⟩, ⟨2, 7, str "Cell 1", [2, 4, 5, 6, 7, 8, 9, 10, 12]⟩, ⟨3, 1, str "Core", [5]⟩]
  color := fun x => if x.1 = 2 ∧ x.2 < 6 then (255, 0, 0, 255) else if x.1 = 3 then (0, 128, 7, 255) else (0, 0, 255, 0)

def boxEnts : List DimTag := [(1, 3), (2, 2), (2, 4), (2, 5), (2, 6), (2, 7), (2, 8), (2, 9), (2, 10), (2, 12), (3, 5)]

def blank : Gm Name Col where
  groups := []
  color := fun _ => (0, 0, 255, 0)

example : Storable box boxEnts where
  wf := by constructor <;> decide +kernel
  dims := by decide +kernel
  known := by decide +kernel
  names := by decide +kernel
  colors := by decide +kernel
  count := by decide +kernel

/-- What is read back, without the tags and colours. -/
def contentOf (r : Res (Gm Name Col)) : Option (List (ℤ × Name × List ℤ)) :=
  match r with
  | .ok s => some (s.groups.map fun g => (g.dim, g.name, g.ents))
  | _ => none

example : contentOf (openInfo blank (write box boxEnts)) =
    some [(2, str "Material_UO2", [2, 7]), (2, str "Cell 1", [1, 2, 3, 4, 5, 6, 7, 8, 9]), (3, str "Core", [1])] := by decide +kernel

/-! ## What is not kept -/

def isRefused (r : Res (Gm Name Col)) : Bool :=
  match r with
  | .refused => true
  | _ => false

theorem of_isRefused {r : Res (Gm Name Col)} (h : isRefused r = true) : r = .refused := by
  cases r <;> simp_all [isRefused]

def one (name : Name) (tag : ℤ) : Gm Name Col := ⟨[⟨2, tag, name, [1]⟩], fun _ => (0, 0, 255, 0)⟩

/-- A name with a quotation mark, and one with a newline: the file that is written cannot be read. -/
theorem C96_quote_fails : openInfo blank (write (one (str "a\"b") 1) [(2, 1)]) = .refused ∧
    openInfo blank (write (one (str "a\nb") 1) [(2, 1)]) = .refused :=
  ⟨of_isRefused (by decide +kernel), of_isRefused (by decide +kernel)⟩

/-- The tags of the groups are not kept: group 7 comes back as group 1. -/
theorem C96_tags_fails : ∃ s', openInfo blank (write (one (str "a") 7) [(2, 1)]) = .ok s' ∧ s'.groups.map (·.tag) = [1] := by
  have h : (match openInfo blank (write (one (str "a") 7) [(2, 1)]) with | .ok s => some (s.groups.map (·.tag)) | _ => none) = some [1] := by decide +kernel
  cases hr : openInfo blank (write (one (str "a") 7) [(2, 1)]) with
  | ok s => rw [hr] at h; exact ⟨s, rfl, by simpa using h⟩
  | undef => rw [hr] at h; simp at h
  | refused => rw [hr] at h; simp at h

/-- The colour of a curve is not kept. -/
theorem C96_curve_fails : ∃ (s s' : Gm Name Col), Storable s [(1, 1)] ∧ openInfo blank (write s [(1, 1)]) = .ok s' ∧ s.color (1, 1) = (255, 0, 0, 255) ∧
    s'.color (1, newNumber [(1, 1)] 1 1) = (0, 0, 255, 0) := by
  have hst : Storable (⟨[], fun _ => (255, 0, 0, 255)⟩ : Gm Name Col) [(1, 1)] :=
    ⟨by constructor <;> simp, by simp, by simp, by simp, by simp, by simp⟩
  obtain ⟨s', h1, _, _, h2, _⟩ := C96_roundtrip _ blank _ hst rfl
  refine ⟨_, s', hst, h1, rfl, ?_⟩
  rw [h2 (1, 1) (by simp)]
  simp [blank]

/-- A file name without extension in a folder with a dot: the info file is another file, outside of the folder. -/
theorem C96_folder_fails : infoName (str "run.v2/core") = str "run.info" := by decide +kernel

/-! ## Numbers in the file -/

/-- A number of the file is read as it stands, with its sign, and ends the program when it does not fit; a negative count
wraps. -/
theorem C96_number (n : Nat) (r : List Byte) (hr : ∀ c ∈ r.head?, isDigit c = false) :
    stoi (digits n ++ r) = (if n < 2 ^ 31 then .ok (n : ℤ) else .refused) ∧
    stoi (45 :: (digits n ++ r)) = (if n ≤ 2 ^ 31 then .ok (-(n : ℤ)) else .refused) ∧
    stoul (digits n ++ r) = (if n < 2 ^ 64 then .ok n else .refused) ∧
    stoul (45 :: (digits n ++ r)) = (if n = 0 then .ok 0 else if n < 2 ^ 64 then .ok (2 ^ 64 - n) else .refused) := by
  have hneg : number (45 :: (digits n ++ r)) = some (true, n) := by
    have h1 := number_digits n r hr
    obtain ⟨c, t, hct⟩ := List.exists_cons_of_ne_nil (digits_ne n)
    have hc := digit_not (digits_digit n c (by rw [hct]; simp))
    unfold number at h1 ⊢
    rw [hct, List.cons_append, List.dropWhile_cons_of_neg (by rw [hc.1]; simp)] at h1
    rw [hct, List.cons_append, List.dropWhile_cons_of_neg (by decide)]
    simp only [hc.2.2.1, hc.2.2.2.1, or_self, if_false, List.head?_cons, Option.any_some, hc.2.1, if_true, decide_false,
      Option.some.injEq, Prod.mk.injEq, true_and] at h1
    simp [hc.2.1, h1]
  unfold stoi stoul
  rw [number_digits n r hr, hneg]
  simp only [Bool.false_eq_true, if_false, if_true]
  refine ⟨?_, ?_, ?_, ?_⟩
  · split_ifs <;> first | rfl | omega
  · split_ifs <;> first | rfl | omega
  · split_ifs <;> first | rfl | omega
  · split_ifs with h1 h2 h3 h2 h3
    · omega
    · omega
    · rfl
    · subst h2; rfl
    · rw [Nat.mod_eq_of_lt (by omega)]
    · omega

/-- A line that ends too early is not noticed: the position behind the missing blank wraps to the start of the line, whose number
is taken once more. -/
theorem C96_short_fails (n : Nat) (h : n < 2 ^ 31) : tokens (digits n) 2 0 = .ok [(n : ℤ), (n : ℤ)] := by
  have hf : find (digits n) 32 0 = npos := by
    unfold find
    rw [List.drop_zero, List.idxOf?_eq_none_iff.2 (digits_no n).1]
  have hlen : (digits n).length ≤ npos := by
    have h1 : (digits n).length ≤ 10 := StrView.digits_length n 10 (by omega) (by omega)
    unfold npos
    omega
  have h2 : sub64 npos 0 = npos := by decide
  have h3 : add64 npos 1 = 0 := by decide
  rw [tokens, hf, h2, h3]
  unfold substr
  rw [if_neg (by omega), List.drop_zero, List.take_of_length_le hlen]
  show (stoi (digits n)).bind _ = _
  rw [stoi_end n h]
  show (tokens (digits n) 1 0).bind _ = _
  rw [tokens]
  unfold substrFrom
  rw [if_neg (by omega), List.drop_zero]
  show ((stoi (digits n)).bind _).bind _ = _
  rw [stoi_end n h]
  rfl

/-- The entities of a colour are written in order of dimension, then tag, each as often as it was in the list. -/
theorem C96_sorted (l : List DimTag) :
    (sortPairs l).Perm l ∧
    (sortPairs l).Pairwise fun a b => a.1 < b.1 ∨ (a.1 = b.1 ∧ a.2 ≤ b.2) := by
  refine ⟨List.perm_insertionSort _ _, ?_⟩
  have : IsTrans DimTag (fun a b => a.1 < b.1 ∨ (a.1 = b.1 ∧ a.2 ≤ b.2)) := ⟨fun a b c h1 h2 => by omega⟩
  have : Std.Total (α := DimTag) (fun a b => a.1 < b.1 ∨ (a.1 = b.1 ∧ a.2 ≤ b.2)) := ⟨fun a b => by omega⟩
  exact List.pairwise_insertionSort _ _

example : sortPairs [(3, 1), (2, 7), (2, 4)] = [(2, 4), (2, 7), (3, 1)] := by decide +kernel

/-- A file is read line by line; a last line without newline is read too, and after it the stream has failed: every later `getline` leaves that line where it is. -/
theorem C96_stream (ls : List (List Byte)) (last prev : List Byte) (h : ∀ l ∈ ls, (10 : Byte) ∉ l) (hl : (10 : Byte) ∉ last) :
    (∀ (k : Nat) (l : List Byte), ls[k]? = some l →
      getline^[k + 1] ⟨(ls.flatMap fun l => l ++ [10]) ++ last, true, prev⟩ = ⟨((ls.drop (k + 1)).flatMap fun l => l ++ [10]) ++ last, true, l⟩) ∧
    ∀ n : Nat, getline^[ls.length + 1 + n] ⟨(ls.flatMap fun l => l ++ [10]) ++ last, true, prev⟩ = ⟨[], false, last⟩ := by
  induction ls generalizing prev with
  | nil =>
    refine ⟨fun k l hk => by simp at hk, fun n => ?_⟩
    have all : ∀ c ∈ last, decide (c ≠ 10) = true := fun c hc => decide_eq_true fun e => hl (e ▸ hc)
    have first : getline ⟨last, true, prev⟩ = ⟨[], false, last⟩ := by
      unfold getline
      rw [if_neg (by simp)]
      dsimp only
      rw [List.dropWhile_eq_nil_iff.2 all, List.takeWhile_eq_self_iff.2 all]
    have stay : ∀ n : Nat, getline^[n] ⟨[], false, last⟩ = ⟨[], false, last⟩ := by
      intro n
      induction n with
      | zero => rfl
      | succ n ih => rw [Function.iterate_succ_apply]; exact ih
    simp only [List.length_nil, List.flatMap_nil, List.nil_append]
    rw [Nat.zero_add, Nat.add_comm, Function.iterate_add_apply]
    rw [Function.iterate_one, first, stay]
  | cons a ls ih =>
    have ha := h a (by simp)
    have all : ∀ c ∈ a, decide (c ≠ 10) = true := fun c hc => decide_eq_true fun e => ha (e ▸ hc)
    have step : getline ⟨((a :: ls).flatMap fun l => l ++ [10]) ++ last, true, prev⟩ = ⟨(ls.flatMap fun l => l ++ [10]) ++ last, true, a⟩ := by
      unfold getline
      rw [if_neg (by simp)]
      dsimp only
      rw [List.flatMap_cons, List.append_assoc, List.append_assoc, List.dropWhile_append_of_pos all, List.takeWhile_append_of_pos all]
      simp
    obtain ⟨i1, i2⟩ := ih a fun l hl => h l (List.mem_cons_of_mem _ hl)
    refine ⟨fun k l hk => ?_, fun n => ?_⟩
    · rw [Function.iterate_succ_apply, step]
      cases k with
      | zero =>
        simp at hk
        subst hk
        rfl
      | succ k => exact i1 k l (by simpa using hk)
    · rw [show (a :: ls).length + 1 + n = (ls.length + 1 + n) + 1 by simp; omega, Function.iterate_succ_apply, step]
      exact i2 n

example : getline^[3] ⟨str "ab\ncd\ne", true, []⟩ = ⟨[], false, str "e"⟩ := by
  have := (C96_stream [str "ab", str "cd"] (str "e") [] (by decide +kernel) (by decide +kernel)).2 0
  rw [← this]
  congr 2

end Verif.InfoSpec
