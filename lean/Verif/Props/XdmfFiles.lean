import Verif.Lemmas.XdmfFiles

/-!
# C116 The two files of an XDMF mesh
-/

namespace Verif.XdmfFiles

open Verif.Polytope Verif.ElemTypes Verif.XDMF
open Verif.XSLib (Res)

set_option linter.unusedSectionVars false

variable {R : Type}

/-! ### Specification -/

/-- `p` is the file `name.xdmf` in the directory `dir`, which is empty or ends with a slash. -/
def Named (p dir name : Name) : Prop := p = dir ++ name ++ ".xdmf".toList ∧ '/' ∉ name ∧ (dir = [] ∨ ∃ d, dir = d ++ ['/'])

/-- The same, not in the root directory. -/
def NotRoot (p dir name : Name) : Prop := Named p dir name ∧ dir ≠ ['/']

/-- A name that HDF5 takes for a group. -/
def GroupName (name : Name) : Prop := name ≠ [] ∧ name ≠ ['.']

/-! ### Names -/

/-- **C116.**  The data are in the file beside, with `.h5` for `.xdmf`. -/
theorem C116_beside (p dir name : Name) (h : Named p dir name) :
    ∃ f d, h5names p = .ok (f, d) ∧ d ++ f = dir ++ name ++ ".h5".toList ∧ (dir ≠ ['/'] → f = name ++ ".h5".toList) := by
  obtain ⟨rfl, hn, rfl | ⟨d, rfl⟩⟩ := h
  · exact ⟨_, _, h5names_root [] name (Or.inl rfl) hn, rfl, fun _ => rfl⟩
  · by_cases hd : d = []
    · subst hd
      exact ⟨_, _, h5names_root ['/'] name (Or.inr rfl) hn, rfl, fun h => absurd rfl h⟩
    · refine ⟨name ++ ".h5".toList, d ++ ['/'], ?_, ?_, fun _ => rfl⟩
      · have := h5names_stem d name hd hn
        rw [show d ++ ['/'] ++ name = d ++ '/' :: name from by simp]
        exact this
      · simp

/-- The name of the group. -/
theorem group_name (f : Name) : (substr (f ++ ".h5".toList) 0 (((f ++ ".h5".toList).length : ℤ) - 3)) = .ok f := by
  have l : (f ++ ".h5".toList).length = f.length + 3 := by rw [List.length_append]; rfl
  rw [show (((f ++ ".h5".toList).length : ℤ) - 3) = (f.length : Nat) from by rw [l]; push_cast; ring, substr_zero _ _ (by rw [l]; omega),
    List.take_left]

theorem links_name {name : Name} (hn : '/' ∉ name) (hg : GroupName name) : links name = [name] := links_single name hg.1 hn hg.2

/-- What the program calls the data file, without `.h5`: the name, with the slash if it is in the root directory. -/
theorem h5names_form (p dir name : Name) (h : Named p dir name) :
    ∃ m d, h5names p = .ok (m ++ ".h5".toList, d) ∧ d ++ (m ++ ".h5".toList) = dir ++ name ++ ".h5".toList ∧ (m = name ∨ m = '/' :: name) ∧
      (dir ≠ ['/'] → m = name) := by
  obtain ⟨rfl, hn, rfl | ⟨d, rfl⟩⟩ := h
  · exact ⟨name, [], h5names_root [] name (Or.inl rfl) hn, rfl, Or.inl rfl, fun _ => rfl⟩
  · by_cases hd : d = []
    · subst hd
      exact ⟨'/' :: name, [], h5names_root ['/'] name (Or.inr rfl) hn, rfl, Or.inr rfl, fun h => absurd rfl h⟩
    · refine ⟨name, d ++ ['/'], ?_, by simp, Or.inl rfl, fun _ => rfl⟩
      have := h5names_stem d name hd hn
      rw [show d ++ ['/'] ++ name = d ++ '/' :: name from by simp]
      exact this

theorem ne_h5 (base : Name) : base ++ ".xdmf".toList ≠ base ++ ".h5".toList := by
  intro h
  have := List.append_cancel_left h
  exact absurd this (by decide)

section
variable [Ring R] [LinearOrder R]

/-- What is in the files after writing. -/
theorem write_eq (eps : R) (p dir name : Name) (h : Named p dir name) (hg : GroupName name) (s : XSoup R) (fs : Files R) :
    ∃ m d, h5names p = .ok (m ++ ".h5".toList, d) ∧ d ++ (m ++ ".h5".toList) = dir ++ name ++ ".h5".toList ∧ (dir ≠ ['/'] → m = name) ∧
      write eps p s fs = (Res.ofOption (writeGrid eps (m ++ ".h5".toList) ('/' :: m) s (0, 0, 0))).bind fun x =>
        .ok (save (save fs (dir ++ name ++ ".h5".toList) (.h5 ('/' :: m) x.2)) p (.xml ⟨"Xdmf", "Domain", "Grid", "Uniform", x.1⟩)) := by
  obtain ⟨m, d, h1, h2, h3, h4⟩ := h5names_form p dir name h
  refine ⟨m, d, h1, h2, h4, ?_⟩
  have hl : links ('/' :: m) ≠ [] := by
    rw [links_slash]
    rcases h3 with rfl | rfl
    · rw [links_name h.2.1 hg]; simp
    · rw [links_slash, links_name h.2.1 hg]; simp
  unfold write
  rw [if_pos ⟨dir ++ name, h.1.symm⟩]
  unfold writeXdmf
  rw [h1]
  show (substr (m ++ ".h5".toList) 0 _).bind _ = _
  rw [group_name]
  show (if links ('/' :: m) = [] then _ else _) = _
  rw [if_neg hl]
  simp only [h2]
  rfl

theorem read_eq (inp vtk : Name → Files R → XSoup R → Res (XSoup R)) (p dir name : Name) (h : Named p dir name) (fs : Files R) (s : XSoup R) (f d : Name)
    (hn : h5names p = .ok (f, d)) (hd : d ++ f = dir ++ name ++ ".h5".toList) (group : Name) (g : XDMF.Group R) (b : Grid)
    (h5 : fs (dir ++ name ++ ".h5".toList) = some (.h5 group g)) (hx : fs p = some (.xml ⟨"Xdmf", "Domain", "Grid", "Uniform", b⟩)) :
    read inp vtk p fs s = Res.ofOption (readGrid f group (b, g) s) := by
  have no : ∀ e : Name, e.length = 4 → ¬ (e <:+ ".xdmf".toList) → ¬ (e <:+ p) := by
    intro e he hs hp
    refine hs ?_
    have hx : ".xdmf".toList <:+ p := ⟨dir ++ name, h.1.symm⟩
    rcases List.suffix_or_suffix_of_suffix hp hx with h | h
    · exact h
    · have := h.length_le
      rw [he] at this
      exact absurd this (by decide)
  unfold read
  rw [if_neg (no ".inp".toList (by decide) (by decide)), if_neg (no ".vtk".toList (by decide) (by decide)), if_pos ⟨dir ++ name, h.1.symm⟩]
  unfold readXdmf
  rw [hn]
  show (match fs (d ++ f) with | some (.h5 group g) => _ | _ => _) = _
  rw [hd, h5]
  dsimp only
  rw [hx]
  dsimp only
  rw [if_neg (by simp), if_neg (by simp), if_neg (by simp), if_pos rfl]

/-- **C116.**  A mesh written to a file is read back from it (for the meshes for which C69 holds); only the file and its data file are touched. -/
theorem C116_round_trip_partial (inp vtk : Name → Files R → XSoup R → Res (XSoup R)) (eps : R) (p dir name : Name) (h : Named p dir name)
    (hg : GroupName name) (s : XSoup R) (els : List (ℤ × List Nat)) (sets : List (ElSet Name R)) (hrep : Rep s els sets) (hsets : GoodSets sets)
    (hsup : Supported els) (hedge : ¬ OnlyEdges els) (hnames : NamesOK sets) (fs : Files R) :
    ∃ fs' t, write eps p s fs = .ok fs' ∧ (∀ q, q ≠ p → q ≠ dir ++ name ++ ".h5".toList → fs' q = fs q) ∧
      read inp vtk p fs' empty = .ok t ∧ Rep t els sets ∧ comesBack eps s.verts (0, 0, 0) t.verts := by
  obtain ⟨m, d, h1, h2, -, h4⟩ := write_eq eps p dir name h hg s fs
  obtain ⟨x, t, w1, w2, w3, w4⟩ := C69_grid_partial eps (m ++ ".h5".toList) ('/' :: m) s (0, 0, 0) els sets hrep hsets hsup hedge hnames
  rw [w1] at h4
  refine ⟨_, t, h4, ?_, ?_, w3, w4⟩
  · intro q hq1 hq2
    unfold save
    rw [if_neg hq1, if_neg hq2]
  · rw [read_eq inp vtk p dir name h _ empty _ _ h1 h2 ('/' :: m) x.2 x.1, w2]
    · rfl
    · unfold save
      rw [if_neg, if_pos rfl]
      rw [h.1]
      exact (ne_h5 _).symm
    · unfold save
      rw [if_pos rfl]

/-- **C116.**  Without a name for the group nothing is written. -/
theorem C116_unnamed (eps : R) (p dir name : Name) (h : Named p dir name) (hg : ¬ GroupName name) (s : XSoup R) (fs : Files R) :
    write eps p s fs = .refused := by
  obtain ⟨m, d, h1, -, h3, -⟩ := h5names_form p dir name h
  have hl : links name = [] := by
    unfold GroupName at hg
    by_cases e : name = []
    · subst e; rfl
    · have : name = ['.'] := by
        by_contra hd
        exact hg ⟨e, hd⟩
      subst this
      rfl
  have hm : links ('/' :: m) = [] := by
    rw [links_slash]
    rcases h3 with rfl | rfl
    · exact hl
    · rw [links_slash]; exact hl
  unfold write
  rw [if_pos ⟨dir ++ name, h.1.symm⟩]
  unfold writeXdmf
  rw [h1]
  show (substr (m ++ ".h5".toList) 0 _).bind _ = _
  rw [group_name]
  exact if_pos hm

/-- **C116.**  After both files have been copied to other names, the mesh is read from the copies exactly as from the originals if the new name is
as long as the old one or one character longer, and cannot be read otherwise. -/
theorem C116_renamed (inp vtk : Name → Files R → XSoup R → Res (XSoup R)) (eps : R) (p dir name : Name) (h : NotRoot p dir name) (hg : GroupName name)
    (s : XSoup R) (fs fs' : Files R) (hw : write eps p s fs = .ok fs') (q dir' name' : Name) (h' : NotRoot q dir' name') (fs2 : Files R)
    (hx : fs2 q = fs' p) (h5 : fs2 (dir' ++ name' ++ ".h5".toList) = fs' (dir ++ name ++ ".h5".toList)) :
    (name'.length = name.length ∨ name'.length = name.length + 1 → read inp vtk q fs2 empty = read inp vtk p fs' empty) ∧
    (name'.length ≠ name.length → name'.length ≠ name.length + 1 → ∀ t, read inp vtk q fs2 empty ≠ .ok t) := by
  obtain ⟨m, d, h1, h2, h3, h4⟩ := write_eq eps p dir name h.1 hg s fs
  obtain rfl := h3 h.2
  obtain ⟨m', d', k1, k2, -, k3⟩ := h5names_form q dir' name' h'.1
  obtain rfl := k3 h'.2
  rw [hw] at h4
  cases hx' : writeGrid eps (m ++ ".h5".toList) ('/' :: m) s (0, 0, 0) with
  | none => rw [hx'] at h4; exact absurd h4 (by simp [Res.ofOption, Res.bind])
  | some x =>
    rw [hx'] at h4
    have h4 : fs' = save (save fs (dir ++ m ++ ".h5".toList) (.h5 ('/' :: m) x.2)) p (.xml ⟨"Xdmf", "Domain", "Grid", "Uniform", x.1⟩) := by
      simp only [Res.ofOption, Res.bind, Res.ok.injEq] at h4
      exact h4
    have e1 : fs' p = some (.xml ⟨"Xdmf", "Domain", "Grid", "Uniform", x.1⟩) := by rw [h4]; unfold save; rw [if_pos rfl]
    have e2 : fs' (dir ++ m ++ ".h5".toList) = some (.h5 ('/' :: m) x.2) := by
      rw [h4]
      unfold save
      rw [if_neg, if_pos rfl]
      rw [h.1.1]
      exact (ne_h5 _).symm
    have r1 := read_eq inp vtk p dir m h.1 fs' empty _ _ h1 h2 _ _ _ e2 e1
    have r2 := read_eq inp vtk q dir' m' h'.1 fs2 empty _ _ k1 k2 _ _ _ (h5.trans e2) (hx.trans e1)
    obtain ⟨hp, hgeom, hkind⟩ := writeGrid_points eps _ _ s (0, 0, 0) x hx'
    constructor
    · intro hl
      rw [r1, r2, readGrid_congr (m ++ ".h5".toList) (m' ++ ".h5".toList) ('/' :: m) x hp fun n => links_drop_same _ _ _ _ (by
        rw [List.length_append, List.length_append]
        omega)]
    · intro hl1 hl2 t
      rw [r2]
      have : readGeometry (m' ++ ".h5".toList) ('/' :: m) x.2 x.1.geom empty = none := by
        have ho : openPath ('/' :: m) x.2 (x.1.geom.path.drop ((m' ++ ".h5".toList).length + 1)) = none := by
          unfold openPath
          rw [Option.map_eq_none_iff, List.find?_eq_none]
          intro e _
          rw [decide_eq_true_eq, hgeom]
          refine links_drop_other _ m _ ?_ h.1.2.1 (by decide) hg.1 hg.2 (by decide) (by decide) _ ?_ ?_ _
          · rw [List.mem_append, not_or]
            exact ⟨h.1.2.1, by decide⟩
          · rw [List.length_append, List.length_append]; omega
          · rw [List.length_append, List.length_append]; omega
        unfold readGeometry
        rcases hkind with ⟨a, b⟩ | ⟨a, b⟩
        · rw [a, b, ho]; simp
        · rw [a, b, ho]; simp
      unfold readGrid
      rw [this]
      simp [Res.ofOption]

/-- **C116.**  In particular both files can be moved together to another directory. -/
theorem C116_moved_partial (inp vtk : Name → Files R → XSoup R → Res (XSoup R)) (eps : R) (p dir name : Name) (h : NotRoot p dir name)
    (hg : GroupName name) (s : XSoup R) (fs fs' : Files R) (hw : write eps p s fs = .ok fs') (q dir' : Name) (h' : NotRoot q dir' name)
    (fs2 : Files R) (hx : fs2 q = fs' p) (h5 : fs2 (dir' ++ name ++ ".h5".toList) = fs' (dir ++ name ++ ".h5".toList)) :
    read inp vtk q fs2 empty = read inp vtk p fs' empty :=
  (C116_renamed inp vtk eps p dir name h hg s fs fs' hw q dir' name h' fs2 hx h5).1 (Or.inl rfl)

/-! ### Formats -/

/-- **C116.**  The ending of the name decides on the format; without a known ending nothing is read or written. -/
theorem C116_formats (inp vtk : Name → Files R → XSoup R → Res (XSoup R)) (eps : R) (p : Name) (s : XSoup R) (fs : Files R) :
    (¬ (".xdmf".toList <:+ p) → write eps p s fs = .refused) ∧
    (".inp".toList <:+ p → read inp vtk p fs s = inp p fs s) ∧ (".vtk".toList <:+ p → read inp vtk p fs s = vtk p fs s) ∧
    (¬ (".inp".toList <:+ p) → ¬ (".vtk".toList <:+ p) → ¬ (".xdmf".toList <:+ p) → read inp vtk p fs s = .refused) := by
  refine ⟨fun h => if_neg h, fun h => if_pos h, fun h => ?_, fun h1 h2 h3 => ?_⟩
  · have : ¬ (".inp".toList <:+ p) := by
      intro h'
      have := List.suffix_of_suffix_length_le h h' (by decide)
      exact absurd this (by decide)
    unfold read
    rw [if_neg this, if_pos h]
  · unfold read
    rw [if_neg h1, if_neg h2, if_neg h3]

end

/-! ### Concrete files -/

/-- The vertices that are read from `q` after a triangle has been written to `p` and both files have been moved. -/
def moved (p q d d' : String) : Option (List (Vert ℤ)) :=
  match write 0 p.toList { triSoup "A".toList with verts := [(0, 0, 0), (1, 0, 0), (0, 1, 0)] } (fun _ => none) with
  | .ok fs =>
    match read (fun _ _ _ => .undef) (fun _ _ _ => .undef) q.toList (fun a => if a = q.toList then fs p.toList else if a = d'.toList then fs d.toList else none)
      empty with
    | .ok t => some t.verts
    | _ => none
  | _ => none

example : moved "a/m.xdmf" "/b/c/m.xdmf" "a/m.h5" "/b/c/m.h5" = some [(0, 0, 0), (1, 0, 0), (0, 1, 0)] := by decide +kernel

/-- A pair of files written to the root directory cannot be moved. -/
theorem C116_root_fails : moved "/m.xdmf" "/m.xdmf" "/m.h5" "/m.h5" = some [(0, 0, 0), (1, 0, 0), (0, 1, 0)] ∧
    moved "/m.xdmf" "/b/m.xdmf" "/m.h5" "/b/m.h5" = none := by
  constructor <;> decide +kernel

/-- A pair of files cannot be renamed, in general. -/
theorem C116_renamed_fails : moved "m.xdmf" "n.xdmf" "m.h5" "n.h5" = some [(0, 0, 0), (1, 0, 0), (0, 1, 0)] ∧
    moved "m.xdmf" "mm.xdmf" "m.h5" "mm.h5" = some [(0, 0, 0), (1, 0, 0), (0, 1, 0)] ∧
    moved "m.xdmf" "mmm.xdmf" "m.h5" "mmm.h5" = none := by
  refine ⟨?_, ?_, ?_⟩ <;> decide +kernel

example : NotRoot "a/m.xdmf".toList "a/".toList "m".toList := ⟨⟨rfl, by decide, Or.inr ⟨['a'], rfl⟩⟩, by decide⟩

example : Named "/m.xdmf".toList "/".toList "m".toList ∧ GroupName "m".toList := ⟨⟨rfl, by decide, Or.inr ⟨[], rfl⟩⟩, by decide, by decide⟩

end Verif.XdmfFiles
