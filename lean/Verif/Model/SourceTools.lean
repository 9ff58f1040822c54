import Verif.Model.Source
import Verif.Model.XSLib

/-!
# Model of the programs that extract the source

models/c5g7/2d/c5g7_extract_source.cpp, models/crocus/crocus_2d_extract_source.cpp, models/fnr/fnr_leu_2d_extract_source.cpp and
models/vera/problem_4/2d/vera_4_rodded_extract_source.cpp: they differ in the materials, `k_eff` and the name of the file.

* Exact arithmetic, as in the model of `getSource`.  Reading and writing the files is not part of the model (properties C50, C85).
* `LOG_ERROR` ends the program, as it does by default: the outcome is `refused`.
-/

namespace Verif.Source

open Verif.Str (Byte)
open Verif.Polytope Verif.Phys Verif.ElemTypes
open Verif.XSLib (Res)

/-- `soup.addElset(name, ids, data)`, whose errors end the program. -/
def addOr {V T : Type} (s : Soup V T (List Byte) ℝ) (name : List Byte) (ids : List Nat) (data : List ℝ) : Res (Soup V T (List Byte) ℝ) :=
  let r := addElset s name ids data
  if r.2 = -1 then .refused else .ok r.1

/-- `"scattering_source"`, c5g7_extract_source.cpp 46. -/
def scatteringName : List Byte := "scattering_source".toList.map fun c => UInt8.ofNat c.toNat
/-- `"fission_source"`, c5g7_extract_source.cpp 47. -/
def fissionName : List Byte := "fission_source".toList.map fun c => UInt8.ofNat c.toNat
/-- `"total_source"`, c5g7_extract_source.cpp 48. -/
def totalName : List Byte := "total_source".toList.map fun c => UInt8.ofNat c.toNat

/-- c5g7_extract_source.cpp 26-48 (crocus_2d_extract_source.cpp 80-102, fnr_leu_2d_extract_source.cpp 130-152,
vera_4_rodded_extract_source.cpp 184-206): the soup that is written. -/
noncomputable def sourceProgram {V : Type} (k : ℝ) (s : Soup V VTK (List Byte) ℝ) (mats : List (XSec ℝ)) (junk : List ℝ) :
    Res (Soup V VTK (List Byte) ℝ) :=
  (Res.ofOption (getSource s mats junk)).bind fun source =>
  let lambda := 1 / k
  let scattering := source.map fun q => q.1
  let fission := source.map fun q => lambda * q.2
  let total := List.zipWith (fun a b => a + b) scattering fission
  let ids := List.range source.length
  (addOr s scatteringName ids scattering).bind fun s =>
  (addOr s fissionName ids fission).bind fun s =>
  addOr s totalName ids total

end Verif.Source
