import Mathlib.Data.List.Sort
import Mathlib.Order.Lattice
import Verif.Model.XSLib

/-!
# Physical groups under the boolean operations of Gmsh

Model of src/gmsh/model.cpp 38-70 and 112-655: `addToPhysicalGroup`, `colorMaterialPhysicalGroupEntities`,
`groupPreservingInputChecking`, `getPhysicalGroupInfo`, `getNewPhysicalGroups`, `processMaterialHierarchy`,
`groupPreservingFragment`, `groupPreservingIntersect`, `groupPreservingCut`.

The part of Gmsh that these functions use (include/um2/gmsh/base_gmsh_api.hpp) is the record `Gm` with the functions of its
namespace; this is an assumption about Gmsh, not code of UM2.  A physical group is kept while it has entities; the entities of a
group come out in increasing order and once each; the groups come out in the order of dimension and tag.  The kernel operation
itself (`occ::fragment`, `occ::intersect`, `occ::cut`) is an argument: the children `map` that it returns for each input.

Simplifications.  Names are a linearly ordered type `N`, compared only; a material is the name of its group (`"Material_"` and
its own name) and its colour.  `int` tags are integers.  `LOG_ERROR` ends the program (`exit_on_error`): `refused`.  `undef` is
undefined behaviour.  `std::lower_bound` gives the number of smaller elements, which it does on sorted data.
-/

namespace Verif.Gmsh

open Verif.XSLib (Res)

variable {N C : Type} [LinearOrder N]

/-- A dimension and a tag. -/
abbrev DimTag := ℤ × ℤ

/-! ## Gmsh -/

/-- A physical group. -/
structure Group (N : Type) where
  dim : ℤ
  tag : ℤ
  name : N
  ents : List ℤ
  deriving DecidableEq

/-- A Gmsh model: its physical groups, in the order of `getPhysicalGroups`, and the colours of its entities. -/
structure Gm (N C : Type) where
  groups : List (Group N)
  color : DimTag → C

namespace Gm

/-- The order of dimension and tag. -/
def before (g h : Group N) : Bool := g.dim < h.dim || (g.dim == h.dim && g.tag < h.tag)

/-- The entities of a group, in increasing order and once each. -/
def entSet (l : List ℤ) : List ℤ := l.dedup.insertionSort (· ≤ ·)

/-- `addPhysicalGroup` with a tag that is not in use, base_gmsh_api.hpp 103-105. A group without entities is not kept. -/
def addTagged (s : Gm N C) (dim : ℤ) (tags : List ℤ) (tag : ℤ) (name : N) : Gm N C :=
  if tags = [] then s else
    { s with groups := s.groups.takeWhile (fun g => before g ⟨dim, tag, name, []⟩) ++ ⟨dim, tag, name, entSet tags⟩ ::
        s.groups.dropWhile (fun g => before g ⟨dim, tag, name, []⟩) }

/-- A tag that is not in use: one more than the largest, starting at one. -/
def newTag (s : Gm N C) (dim : ℤ) : ℤ := ((s.groups.filter (·.dim == dim)).map (·.tag)).foldl max 0 + 1

/-- `addPhysicalGroup`: with a negative tag, Gmsh chooses one. -/
def add (s : Gm N C) (dim : ℤ) (tags : List ℤ) (tag : ℤ) (name : N) : Gm N C :=
  s.addTagged dim tags (if tag < 0 then s.newTag dim else tag) name

/-- `removePhysicalGroups` with one group. -/
def remove (s : Gm N C) (dim tag : ℤ) : Gm N C := { s with groups := s.groups.filter fun g => ¬ (g.dim = dim ∧ g.tag = tag) }

/-- `removePhysicalGroups` without arguments. -/
def removeAll (s : Gm N C) : Gm N C := { s with groups := [] }

/-- `setColor` with `recursive`: `clos` are the entities that are coloured with an entity, itself and its boundary. -/
def setColor (clos : DimTag → List DimTag) (s : Gm N C) (l : List DimTag) (c : C) : Gm N C :=
  { s with color := fun x => if x ∈ l.flatMap clos then c else s.color x }

end Gm

/-! ## The algorithms of the standard library -/

/-- `std::lower_bound` of a sorted vector, as an index. -/
def lowerBound {α : Type} [LinearOrder α] (l : List α) (x : α) : Nat := (l.takeWhile (· < x)).length

/-- `v.insert(v.begin() + k, x)`. -/
def insertAt {α : Type} (l : List α) (k : Nat) (x : α) : List α := l.take k ++ x :: l.drop k

/-- `std::merge`. -/
def stdMerge : List ℤ → List ℤ → List ℤ
  | [], bs => bs
  | a :: as, [] => a :: as
  | a :: as, b :: bs => if b < a then b :: stdMerge (a :: as) bs else a :: stdMerge as (b :: bs)
  termination_by as bs => as.length + bs.length

/-- `std::set_intersection`. -/
def setInter : List ℤ → List ℤ → List ℤ
  | [], _ => []
  | _ :: _, [] => []
  | a :: as, b :: bs =>
    if a < b then setInter as (b :: bs) else if b < a then setInter (a :: as) bs else a :: setInter as bs
  termination_by as bs => as.length + bs.length

/-- `std::set_difference`. -/
def setDiff : List ℤ → List ℤ → List ℤ
  | [], _ => []
  | a :: as, [] => a :: as
  | a :: as, b :: bs =>
    if a < b then a :: setDiff as (b :: bs) else if b < a then setDiff (a :: as) bs else setDiff as bs
  termination_by as bs => as.length + bs.length

/-! ## Adding to a group -/

/-- `addToPhysicalGroup`, model.cpp 38-71: `dim`, `tags`, `tag`, `name`. The merge of unsorted data is undefined. -/
def addToPhysicalGroup (s : Gm N C) (dim : ℤ) (tags : List ℤ) (tag : ℤ) (name : N) : Res (Gm N C) :=
  match s.groups.find? fun g => g.dim == dim && g.name == name with
  | some g =>
    if tags.Pairwise (· ≤ ·) then .ok ((s.remove dim g.tag).add dim (stdMerge tags g.ents) g.tag name) else .undef
  | none => .ok (s.add dim tags tag name)

/-! ## Colours -/

/-- `ptags`, model.cpp 130-150: the tag of the last group with the name, among the groups of the dimension. A second material with
the same name has no tag in the code; here it has the same tag, and is painted over by the first. -/
def ptag (groups : List (Group N)) (dim : ℤ) (name : N) : Option ℤ :=
  (groups.reverse.find? fun g => g.dim == dim && g.name == name).map (·.tag)

/-- The entities of the group with this dimension and tag (`getEntitiesForPhysicalGroup`). -/
def entsOf (groups : List (Group N)) (dim tag : ℤ) : List ℤ :=
  match groups.find? fun g => g.dim == dim && g.tag == tag with
  | some g => g.ents
  | none => []

/-- `colorMaterialPhysicalGroupEntities`, model.cpp 122-169: from the last material to the first. Without groups, `back` of an
empty vector is undefined. -/
def colorMaterials (clos : DimTag → List DimTag) (s : Gm N C) (mats : List (N × C)) : Res (Gm N C) :=
  match s.groups.getLast? with
  | none => .undef
  | some g => .ok (mats.reverse.foldl (fun s m =>
      match ptag s.groups g.dim m.1 with
      | none => s
      | some t => s.setColor clos ((entsOf s.groups g.dim t).map fun e => (g.dim, e)) m.2) s)

/-! ## The boolean operations -/

/-- Whether each pair of neighbours satisfies `r`. -/
def neighbours (r : DimTag → DimTag → Bool) : List DimTag → Bool
  | a :: b :: l => r a b && neighbours r (b :: l)
  | _ => true

/-- `operator<` of pairs. -/
def dtLt (a b : DimTag) : Bool := a.1 < b.1 || (a.1 == b.1 && a.2 < b.2)

/-- `groupPreservingInputChecking`, model.cpp 177-237. -/
def inputChecking (obj tool : List DimTag) : Res ℤ :=
  match obj.head?, obj.getLast?, tool.head?, tool.getLast? with
  | some of, some ob, some tf, some tb =>
    if ¬ neighbours (fun a b => !dtLt b a) obj then .refused else
    if ¬ neighbours (fun a b => !dtLt b a) tool then .refused else
    if ¬ neighbours (fun a b => a != b) obj then .refused else
    if ¬ neighbours (fun a b => a != b) tool then .refused else
    if of.1 ≠ ob.1 then .refused else
    if tf.1 ≠ tb.1 then .refused else
    if of.1 ≠ tf.1 then .refused else
    if of.1 ≠ 2 ∧ of.1 ≠ 3 then .refused else .ok of.1
  | _, _, _, _ => .refused

/-- Insertion of one group in `getPhysicalGroupInfo`, model.cpp 256-261. The three vectors are one list of groups. -/
def insertByName (acc : List (Group N)) (g : Group N) : List (Group N) := insertAt acc (lowerBound (acc.map (·.name)) g.name) g

/-- `getPhysicalGroupInfo`, model.cpp 243-268: the groups of the dimension, sorted by name. -/
def groupInfo (groups : List (Group N)) (dim : ℤ) : List (Group N) := (groups.filter (·.dim == dim)).foldl insertByName []

/-- `std::lower_bound` and `insert` unless present, for example model.cpp 326-331. -/
def insertTag (l : List ℤ) (x : ℤ) : List ℤ :=
  if l[lowerBound l x]? = some x then l else insertAt l (lowerBound l x) x

/-- The loop `while (idx < n && tags[idx] < etag) ++idx`, model.cpp 306-308. -/
def advance (tags : List ℤ) (idx : Nat) (etag : ℤ) : Nat := idx + ((tags.drop idx).takeWhile (· < etag)).length

/-- The loop over the entities of a group, model.cpp 304-341. The index into `out_dimtags_map` may be out of range. -/
def newTagsLoop (otags ttags : List ℤ) (map : List (List DimTag)) :
    List ℤ → Nat → Nat → List ℤ → Res (List ℤ)
  | [], _, _, acc => .ok acc
  | e :: es, oi, ti, acc =>
    let oi := advance otags oi e
    if otags[oi]? = some e then
      match map[oi]? with
      | none => .undef
      | some l => newTagsLoop otags ttags map es oi ti ((l.map (·.2)).foldl insertTag acc)
    else
      let ti := advance ttags ti e
      if ttags[ti]? = some e then
        match map[ti + otags.length]? with
        | none => .undef
        | some l => newTagsLoop otags ttags map es oi ti ((l.map (·.2)).foldl insertTag acc)
      else newTagsLoop otags ttags map es oi ti (insertTag acc e)

/-- `getNewPhysicalGroups`, model.cpp 274-350. -/
def newGroups (obj tool : List DimTag) (map : List (List DimTag)) : List (List ℤ) → Res (List (List ℤ))
  | [] => .ok []
  | tags :: rest =>
    (newTagsLoop (obj.map (·.2)) (tool.map (·.2)) map tags 0 0 []).bind fun l =>
    (newGroups obj tool map rest).bind fun ls => .ok (l :: ls)

/-- `mat_indices`, model.cpp 373-383. -/
def matIndex (names : List N) (name : N) : Option Nat :=
  if names[lowerBound names name]? = some name then some (lowerBound names name) else none

/-- The body of the loop over `j`, model.cpp 391-405. -/
def subtract (post : List (List ℤ)) (i j : Nat) : List (List ℤ) :=
  let a := post.getD i []
  let inter := setInter a (post.getD j [])
  if inter = [] then post else post.set i (setDiff a inter)

/-- One iteration of the loop over `j`: a material without a group is skipped, model.cpp 390-393. -/
def subtractOpt (i : Nat) (post : List (List ℤ)) : Option Nat → List (List ℤ)
  | none => post
  | some j => subtract post i j

/-- The loops of model.cpp 384-407: `done` are the indices of the materials before. -/
def hierLoop : List (Option Nat) → List (Option Nat) → List (List ℤ) → List (List ℤ)
  | _, [], post => post
  | done, none :: todo, post => hierLoop (done ++ [none]) todo post
  | done, some i :: todo, post =>
    hierLoop (done ++ [some i]) todo (done.foldl (subtractOpt i) post)

/-- `processMaterialHierarchy`, model.cpp 356-408. -/
def hierarchy (mats : List N) (names : List N) (post : List (List ℤ)) : List (List ℤ) :=
  hierLoop [] (mats.map (matIndex names)) post

/-- The loop that adds the groups again, for example model.cpp 477-494. -/
def addAll (dim : ℤ) : List (Group N) → List (List ℤ) → Gm N C → Gm N C
  | g :: gs, l :: ls, s => addAll dim gs ls (s.add dim l g.tag g.name)
  | _, _, s => s

/-- `groupPreservingFragment`, model.cpp 424-500, and `groupPreservingIntersect`, 515-592, which differ in the operation that
gives `map`; `groupPreservingCut`, 602-655, has no materials. -/
def groupPreserving (clos : DimTag → List DimTag) (s : Gm N C) (obj tool : List DimTag) (map : List (List DimTag))
    (mats : List (N × C)) : Res (Gm N C) :=
  (inputChecking obj tool).bind fun dim =>
  let info := groupInfo s.groups dim
  (newGroups obj tool map (info.map (·.ents))).bind fun post =>
  let post := hierarchy (mats.map (·.1)) (info.map (·.name)) post
  let s := addAll dim info post s.removeAll
  if mats = [] then .ok s else colorMaterials clos s mats

end Verif.Gmsh
