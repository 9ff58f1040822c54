import Mathlib.Algebra.Order.Floor.Defs
import Mathlib.Data.Real.Archimedean
import Verif.Model.Soup
import Verif.Model.Names
import Verif.Model.XSec
import Verif.Model.ElementTypes

/-!
# Model of src/mpact/source.cpp: `getSource`

Exact arithmetic. The mesh built from the soup (source.cpp 32) is only asked for the number of faces,
which is the number of elements. A material is represented by its cross sections. Element set names are
lists of bytes.
-/

namespace Verif.Source

open Verif.Str (Byte)
open Verif.Polytope Verif.Phys Verif.ElemTypes

/-- `"material"`. -/
def materialName : List Byte := [109, 97, 116, 101, 114, 105, 97, 108]
/-- `"flux_"`. -/
def fluxPrefix : List Byte := [102, 108, 117, 120, 95]
/-- `"001"`. -/
def firstGroup : List Byte := [48, 48, 49]

/-- `static_cast<Int>(x)`: truncation; a value out of range is undefined behaviour. -/
noncomputable def toInt (x : ℝ) : Option Int :=
  let k : Int := if 0 ≤ x then ⌊x⌋ else ⌈x⌉
  if -2 ^ 31 ≤ k ∧ k < 2 ^ 31 then some k else none

/-- The access `v[i]` with a signed index. -/
def at? {α : Type} (v : List α) (i : Int) : Option α := if 0 ≤ i then v[i.toNat]? else none

/-- The data vector after `getElset(name, ids, data)`; it is left alone if there is no such set. -/
def readSet {V T : Type} (s : Soup V T (List Byte) ℝ) (name : List Byte) (old : List ℝ) : Option (List ℝ) :=
  (getElsetByName s name old).map fun r => r.elim old Prod.snd

/-- The material ids, source.cpp 35-47. -/
noncomputable def materialIds {V T : Type} (s : Soup V T (List Byte) ℝ) (n : Nat) : Option (List Int) := do
  let data ← readSet s materialName []
  (List.range n).mapM fun i => do
    let k ← toInt (← data[i]?)
    pure (k - 1)

/-- The loop over the faces for one group, source.cpp 67-78. -/
def addGroup (mats : List (XSec ℝ)) (ids : List Int) (flux : List ℝ) (ig : Nat) (src : List (ℝ × ℝ)) :
    Option (List (ℝ × ℝ)) :=
  (List.range ids.length).mapM fun i => do
    let m ← at? mats (← ids[i]?)
    let ss ← m.s[ig]?
    let nf ← m.nuf[ig]?
    let phi ← flux[i]?
    let q ← src[i]?
    pure (q.1 + phi * ss, q.2 + phi * nf)

/-- One group, source.cpp 61-82: state (set name, flux, source). -/
noncomputable def groupStep {V T : Type} (s : Soup V T (List Byte) ℝ) (mats : List (XSec ℝ)) (ids : List Int)
    (st : List Byte × List ℝ × List (ℝ × ℝ)) (ig : Nat) : Option (List Byte × List ℝ × List (ℝ × ℝ)) := do
  let flux ← readSet s st.1 st.2.1
  let src ← addGroup mats ids flux ig st.2.2
  let name ← Names.increment st.1
  pure (name, flux, src)

/-- `getSource<P, N>`, source.cpp 21-90. The flux vector holds indeterminate values at first, of which
there are as many as faces (`junk`). -/
noncomputable def getSourceOf {V T : Type} (s : Soup V T (List Byte) ℝ) (mats : List (XSec ℝ)) (junk : List ℝ) :
    Option (List (ℝ × ℝ)) := do
  let n := s.types.length
  let ids ← materialIds s n
  let m0 ← mats[0]?
  let st ← (List.range m0.ng).foldlM (groupStep s mats ids) (fluxPrefix ++ firstGroup, junk, List.replicate n (0, 0))
  pure st.2.2

/-- `getSource`, source.cpp 94-122. -/
noncomputable def getSource {V : Type} (s : Soup V VTK (List Byte) ℝ) (mats : List (XSec ℝ)) (junk : List ℝ) :
    Option (List (ℝ × ℝ)) :=
  match getElemTypes s with
  | [t] => if t = VTK.Triangle ∨ t = VTK.Quad ∨ t = VTK.QuadraticTriangle ∨ t = VTK.QuadraticQuad
      then getSourceOf s mats junk else some []
  | _ => some []

end Verif.Source
