import Verif.Model.StrView
import Verif.Model.Abaqus
import Verif.Model.ModelFiles

/-! The tables of pins in the programs under models/: texts that `stringToLattice<Int>` reads. -/

namespace Verif.Bench

open Verif.MFiles (str)

/-- A text, given line by line. -/
def text (ls : List String) : List Str.Byte := List.intercalate [10] (ls.map str)

/-- `um2::stringToLattice<Int>` of a text, given line by line: string_to_lattice.hpp 15-57 with `strto<int32_t>`, strto.hpp 36-41. -/
def lattice (ls : List String) : Option (List (List ℤ)) := StrView.stringToLattice Abaqus.strto32 32 (text ls)

end Verif.Bench
