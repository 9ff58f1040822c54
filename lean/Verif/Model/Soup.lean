import Verif.Model.Mem
import Verif.Model.Algorithm

/-!
# PolytopeSoup

Model of `include/um2/mesh/polytope_soup.hpp` and `src/mesh/polytope_soup.cpp` 52-613 (everything but
file input/output).

`V`, `T`, `N`, `D` stand for `Point3F`, `VTKElemType`, `String` and `Float`; only equality of names and
types and the order of names are used.  `um2::Vector`s are lists (see C01-C03 for the vector itself).
Vertex and element ids are natural numbers: a negative id is never valid, and the 32-bit range of `Int`
is not modelled here.  Reading or writing outside an array is undefined behaviour (`none`).  `ASSERT`s are
compiled out.  Sorting is done by an arbitrary implementation of `std::sort`.
-/

namespace Verif.Polytope

/-- `class PolytopeSoup`, polytope_soup.hpp 32-43. -/
structure Soup (V T N D : Type) where
  verts : List V
  types : List T
  eoffs : List Nat
  conn : List Nat
  names : List N
  soffs : List Nat
  sids : List Nat
  sdata : List (List D)

variable {V T N D : Type}

/-- `PolytopeSoup()`, polytope_soup.hpp 50. -/
def empty : Soup V T N D := ⟨[], [], [], [], [], [], [], []⟩

/-- The elements of an array from position `a` up to `b`, read one by one.  `b < a` does not occur for
arrays of increasing offsets and is treated as undefined behaviour. -/
def readBlock {α : Type} (flat : List α) (a b : Nat) : Option (List α) :=
  if b < a then none else (List.range (b - a)).mapM fun j => flat[a + j]?

/-- `buf[i] = v`. -/
def put {α : Type} (buf : List α) (i : Nat) (v : α) : Option (List α) :=
  if i < buf.length then some (buf.set i v) else none

/-- `getElement`, polytope_soup.cpp 52-64. -/
def getElement (s : Soup V T N D) (i : Nat) : Option (T × List Nat) :=
  (s.types[i]?).bind fun t => (s.eoffs[i]?).bind fun a => (s.eoffs[i + 1]?).bind fun b =>
    (readBlock s.conn a b).map fun c => (t, c)

/-- `getElset(i, name, ids, data)`, polytope_soup.cpp 66-80; `old` is the content of the caller's
`data` vector, which is kept when the set has no data. -/
def getElset (s : Soup V T N D) (i : Nat) (old : List D) : Option (N × List Nat × List D) :=
  (s.names[i]?).bind fun n => (s.soffs[i]?).bind fun a => (s.soffs[i + 1]?).bind fun b =>
    (readBlock s.sids a b).bind fun c => (s.sdata[i]?).map fun d =>
      (n, c, if d.isEmpty then old else d)

/-- `getElset(name, ids, data)`, polytope_soup.cpp 82-100.  `none` in the inner option: not found, the
arguments are left as they are. -/
def getElsetByName [DecidableEq N] (s : Soup V T N D) (name : N) (old : List D) :
    Option (Option (List Nat × List D)) :=
  match s.names.findIdx? (fun n => decide (n = name)) with
  | none => some none
  | some i => (getElset s i old).map fun r => some r.2

/-- `addVertex`, polytope_soup.cpp 106-118. -/
def addVertex (s : Soup V T N D) (v : V) : Soup V T N D × Int :=
  ({ s with verts := s.verts ++ [v] }, ((s.verts ++ [v]).length : Int) - 1)

/-- The offset array to which `addElement` and `addElset` append, polytope_soup.cpp 124-126, 161-163. -/
def startOffsets (l : List Nat) : List Nat := if l.isEmpty then [0] else l

/-- `addElement`, polytope_soup.cpp 120-133. -/
def addElement (s : Soup V T N D) (t : T) (conn : List Nat) : Soup V T N D × Int :=
  ({ s with
      types := s.types ++ [t]
      eoffs := startOffsets s.eoffs ++ [(startOffsets s.eoffs).getLastD 0 + conn.length]
      conn := s.conn ++ conn }, ((s.types ++ [t]).length : Int) - 1)

/-- `addElset`, polytope_soup.cpp 135-177. -/
def addElset [DecidableEq N] (s : Soup V T N D) (name : N) (ids : List Nat) (data : List D) :
    Soup V T N D × Int :=
  if name ∈ s.names then (s, -1)
  else if ids.length = 0 then (s, -1)
  else if !data.isEmpty && decide (data.length ≠ ids.length) then (s, -1)
  else
    ({ s with
        names := s.names ++ [name]
        soffs := startOffsets s.soffs ++ [s.sids.length + ids.length]
        sids := s.sids ++ ids
        sdata := s.sdata ++ [data] }, ((s.names ++ [name]).length : Int) - 1)

/-- `translate`, polytope_soup.hpp 292-298. -/
def translate [Add V] (s : Soup V T N D) (v : V) : Soup V T N D :=
  { s with verts := s.verts.map (· + v) }

/-- `getElemTypes`, polytope_soup.hpp 269-286. -/
def getElemTypes [DecidableEq T] (s : Soup V T N D) : List T :=
  s.types.foldl (fun acc t => if t ∈ acc then acc else acc ++ [t]) []

/-! ### sortElsets -/

/-- The state of the loop of `sortElsets`, polytope_soup.cpp 216-246. -/
structure SortState (N D : Type) where
  names : List N
  offs : List Nat
  ids : List Nat
  data : List (List D)
  old : List (List D)
  offset : Nat

/-- One iteration, polytope_soup.cpp 223-246.  `sortPerm` stands for `sortPermutation` on ids. -/
def sortStep (sortPerm : List Nat → List Nat) (soffs sids : List Nat) (pairs : List (N × Nat))
    (st : SortState N D) (i : Nat) : Option (SortState N D) :=
  (pairs[i]?).bind fun pr =>
  (put st.names i pr.1).bind fun names =>
  (soffs[pr.2]?).bind fun a => (soffs[pr.2 + 1]?).bind fun b =>
  (readBlock sids a b).bind fun blk =>
  (put st.offs (i + 1) (st.offset + (b - a))).bind fun offs =>
  (offs[i]?).bind fun start =>
  (Alg.applyPermutation blk (sortPerm blk)).bind fun blk' =>
  if st.ids.length < start + (b - a) then none else
  (st.old[pr.2]?).bind fun d =>
  (if d.isEmpty then some d else Alg.applyPermutation d (sortPerm blk)).bind fun d' =>
  (put st.data i d').map fun data =>
    { names := names
      offs := offs
      ids := st.ids.take start ++ blk' ++ st.ids.drop (start + (b - a))
      data := data
      old := st.old.set pr.2 []
      offset := st.offset + (b - a) }

/-- `sortElsets`, polytope_soup.cpp 203-254.  The new vectors start with the sizes of the old ones; the
first statement after creating them writes `elset_offsets[0]`. -/
def sortElsets (sortPairs : List (N × Nat) → List (N × Nat)) (sortPerm : List Nat → List Nat)
    (s : Soup V T N D) : Option (Soup V T N D) :=
  (put (List.replicate s.soffs.length 0) 0 0).bind fun offs0 =>
    ((List.range s.names.length).foldlM (sortStep sortPerm s.soffs s.sids (sortPairs s.names.zipIdx))
      { names := s.names
        offs := offs0
        ids := List.replicate s.sids.length 0
        data := List.replicate s.sdata.length []
        old := s.sdata
        offset := 0 }).map fun st =>
      { s with names := st.names, soffs := st.offs, sids := st.ids, sdata := st.data }

/-! ### operator+= -/

/-- `Vector<Int>::resize`. -/
def resize0 (l : List Nat) (n : Nat) : List Nat := l.take n ++ List.replicate (n - l.length) 0

/-- The loop over the element offsets, polytope_soup.cpp 274-279. -/
def appendOffsets (this other : List Nat) (n m : Nat) : Option (List Nat) :=
  (List.range (m + 1)).foldlM
    (fun l i => (other[i]?).bind fun v => put l (n + i) (v + this.getLastD 0))
    (resize0 this (n + m + 1))

/-- The loop over the own element sets, polytope_soup.cpp 327-338. -/
def thisSets [DecidableEq N] (s : Soup V T N D) (name : N) : Option (List Nat × List D) :=
  (List.range s.names.length).foldlM
    (fun (acc : List Nat × List D) j => (s.names[j]?).bind fun nm =>
      if nm = name then
        (s.soffs[j]?).bind fun a => (s.soffs[j + 1]?).bind fun b => (readBlock s.sids a b).bind fun blk =>
          (s.sdata[j]?).map fun d => (acc.1 ++ blk, if d.isEmpty then acc.2 else d)
      else some acc) ([], [])

/-- The loop over the other element sets, polytope_soup.cpp 340-354. -/
def otherSets [DecidableEq N] (o : Soup V T N D) (n : Nat) (name : N) (acc : List Nat × List D) :
    Option (List Nat × List D) :=
  (List.range o.names.length).foldlM
    (fun (acc : List Nat × List D) j => (o.names[j]?).bind fun nm =>
      if nm = name then
        (o.soffs[j]?).bind fun a => (o.soffs[j + 1]?).bind fun b => (readBlock o.sids a b).bind fun blk =>
          (o.sdata[j]?).map fun d => (acc.1 ++ blk.map (· + n), acc.2 ++ d)
      else some acc) acc

/-- `operator+=` with another soup, polytope_soup.cpp 256-366. -/
def append [DecidableEq N] (sortNames : List N → List N) (s o : Soup V T N D) : Option (Soup V T N D) :=
  (appendOffsets s.eoffs o.eoffs s.types.length o.types.length).bind fun eoffs =>
    let s1 : Soup V T N D :=
      { s with
        verts := s.verts ++ o.verts
        types := s.types ++ o.types
        eoffs := eoffs
        conn := s.conn ++ o.conn.map (· + s.verts.length) }
    if o.names.isEmpty then some s1
    else
      let names := sortNames (s.names ++ o.names.filter fun n => decide (n ∉ s.names))
      (names.foldlM
        (fun (acc : List Nat × List Nat × List (List D)) name =>
          (thisSets s name).bind fun a => (otherSets o s.types.length name a).map fun b =>
            (acc.1 ++ [acc.1.getLastD 0 + b.1.length], acc.2.1 ++ b.1, acc.2.2 ++ [b.2]))
        ([0], [], [])).map fun r =>
          { s1 with names := names, soffs := r.1, sids := r.2.1, sdata := r.2.2 }

/-- `a += a`: the vertex copy, polytope_soup.cpp 260-265.  `other` is the vector that has just been resized
to twice its size (`pad` are the new entries), and its whole range is written from position `n` on. -/
def appendSelfVerts (verts : List V) (pad : List V) : Option (List V) :=
  let v := verts ++ pad
  (List.range v.length).foldlM (fun w i => (w[i]?).bind fun x => put w (verts.length + i) x) v

/-! ### getSubset -/

/-- `um2::is_sorted` on ids. -/
def isSorted : List Nat → Bool
  | a :: b :: l => decide (¬ b < a) && isSorted (b :: l)
  | _ => true

/-- `std::unique`: the elements up to the returned pointer. -/
def unique : List Nat → List Nat
  | a :: b :: l => if a = b then unique (b :: l) else a :: unique (b :: l)
  | l => l

/-- `std::lower_bound` on a sorted range, as an index. -/
def lowerBound (l : List Nat) (x : Nat) : Nat := l.findIdx fun y => decide (¬ y < x)

/-- `std::set_intersection`: elements of the first range. -/
def setIntersection : List Nat → List Nat → List Nat
  | [], _ => []
  | _ :: _, [] => []
  | a :: l, b :: m =>
    if a < b then setIntersection l (b :: m)
    else if b < a then setIntersection (a :: l) m
    else a :: setIntersection l m
termination_by l m => l.length + m.length

/-- Reading the elements of the subset, polytope_soup.cpp 476-512: types and connectivities. -/
def subsetElems (s : Soup V T N D) (ids : List Nat) : Option (List (T × List Nat)) :=
  ids.mapM fun e => (s.types[e]?).bind fun t => (s.eoffs[e]?).bind fun a => (s.eoffs[e + 1]?).bind fun b =>
    (readBlock s.conn a b).map fun c => (t, c)

/-- One iteration of the loop over the other element sets, polytope_soup.cpp 566-611. -/
def subsetSet [DecidableEq N] (s : Soup V T N D) (ids : List Nat) (self : Nat) (sub : Soup V T N D)
    (i : Nat) : Option (Soup V T N D) :=
  if i = self then some sub
  else
    (s.soffs[i]?).bind fun a => (s.soffs[i + 1]?).bind fun b => (readBlock s.sids a b).bind fun oids =>
    if (setIntersection ids oids).isEmpty then some sub
    else
      (s.names[i]?).bind fun name => (s.sdata[i]?).bind fun d =>
        if d.isEmpty then
          some (addElset sub name ((setIntersection ids oids).map (lowerBound ids)) []).1
        else
          ((setIntersection ids oids).mapM fun e => d[lowerBound oids e]?).map fun d' =>
            (addElset sub name ((setIntersection ids oids).map (lowerBound ids)) d').1

/-- `getSubset`, polytope_soup.cpp 441-613; `sub` is the soup handed in.  An unknown name and an unsorted
set leave it alone. -/
def getSubset [DecidableEq N] (sortIds : List Nat → List Nat) (s : Soup V T N D) (name : N)
    (sub : Soup V T N D) : Option (Soup V T N D) :=
  match s.names.findIdx? (fun n => decide (n = name)) with
  | none => some sub
  | some k =>
    (s.soffs[k]?).bind fun a => (s.soffs[k + 1]?).bind fun b => (readBlock s.sids a b).bind fun ids =>
      if !isSorted ids then some sub
      else
        (subsetElems s ids).bind fun els =>
          let uniq := unique (sortIds (els.map (·.2)).flatten)
          (uniq.mapM fun v => s.verts[v]?).bind fun vs =>
            let sub := vs.foldl (fun sub v => (addVertex sub v).1) sub
            let sub := els.foldl (fun sub e => (addElement sub e.1 (e.2.map (lowerBound uniq))).1) sub
            (List.range s.names.length).foldlM (subsetSet s ids k) sub

end Verif.Polytope
