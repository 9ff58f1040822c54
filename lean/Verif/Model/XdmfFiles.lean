import Verif.Model.XDMF
import Verif.Model.XSLib

/-!
# The two files of an XDMF mesh

Model of src/mesh/polytope_soup.cpp 1436-1477 and 1997-2088: the names of the files, what is written to which of them, and the choice of
the reader.  The same names are computed in src/mpact/model.cpp 1698-1716 and 2300-2314.

* The file system is a map from paths, as texts, to files; creating and opening files succeeds if they exist.  A file that is missing, or
  not what the library expects, is refused: HDF5 throws, the parser of XML ends the program.
* The document is the names of the nested nodes and the grid of `Verif.XDMF`.  Names below 2^31 characters.
* An exception and an access outside an array are not told apart in the grid (see `Verif.XDMF`); both are `undef` here.
-/

namespace Verif.XdmfFiles

open Verif.XDMF
open Verif.XSLib (Res)

variable {R : Type}

/-! ### Names -/

/-- The loop of `find_last_of('/')`, string_view.hpp 412-416. -/
def lastSlashLoop (p : Name) : Nat → Option Nat
  | 0 => none
  | n + 1 => if p[n]? = some '/' then some n else lastSlashLoop p n

/-- `find_last_of('/')`, string.hpp 947-954; `npos` is larger than any size. -/
def lastSlash (p : Name) : Option Nat := lastSlashLoop p p.length

/-- `substr`, string.hpp 956-960 with the constructor 639-647: arguments outside the text are undefined. -/
def substr (p : Name) (pos count : ℤ) : Res Name :=
  let n := min count ((p.length : ℤ) - pos)
  if pos < 0 ∨ (p.length : ℤ) < pos ∨ n < 0 then .undef else .ok ((p.drop pos.toNat).take n.toNat)

/-- `h5filename` and `h5filepath`, polytope_soup.cpp 1443-1457, 2004-2014; model.cpp 1700-1714, 2303-2312. -/
def h5names (p : Name) : Res (Name × Name) :=
  let last := (lastSlash p).getD 0
  let e := if last = 0 then 0 else last + 1
  (substr p e ((p.length : ℤ) - 5 - e)).bind fun f => (substr p 0 e).bind fun d => .ok (f ++ ".h5".toList, d)

/-! ### Files -/

/-- The nodes of the document from the root to the grid, the attribute `GridType`, and the grid. -/
structure Doc where
  root : String
  domain : String
  grid : String
  kind : String
  body : Grid

inductive File (R : Type)
  | xml (d : Doc)
  | h5 (group : Name) (g : XDMF.Group R)
  | other

abbrev Files (R : Type) := Name → Option (File R)

/-- A file is created or overwritten. -/
def save (fs : Files R) (p : Name) (f : File R) : Files R := fun q => if q = p then some f else fs q

variable [Ring R] [LinearOrder R]

/-- `writeXDMFFile`, polytope_soup.cpp 1436-1480, with the group made in `writeXDMFUniformGrid`, 1422-1426: a path without links names the
root, which exists, and HDF5 throws. -/
def writeXdmf (eps : R) (p : Name) (s : XSoup R) (fs : Files R) : Res (Files R) :=
  (h5names p).bind fun n => (substr n.1 0 ((n.1.length : ℤ) - 3)).bind fun name =>
  let group := [] ++ ['/'] ++ name
  if links group = [] then .refused
  else (Res.ofOption (writeGrid eps n.1 group s (0, 0, 0))).bind fun x =>
    .ok (save (save fs (n.2 ++ n.1) (.h5 group x.2)) p (.xml ⟨"Xdmf", "Domain", "Grid", "Uniform", x.1⟩))

/-- `readXDMFFile`, polytope_soup.cpp 2000-2054. -/
def readXdmf (p : Name) (fs : Files R) (s : XSoup R) : Res (XSoup R) :=
  (h5names p).bind fun n =>
  match fs (n.2 ++ n.1) with
  | some (.h5 group g) =>
    match fs p with
    | some (.xml d) =>
      if d.root ≠ "Xdmf" then .refused
      else if d.domain ≠ "Domain" then .refused
      else if d.grid ≠ "Grid" then .refused
      else if d.kind = "Uniform" then Res.ofOption (readGrid n.1 group (d.body, g) s)
      else .refused
    | _ => .refused
  | _ => .refused

/-- `PolytopeSoup::write`, polytope_soup.cpp 2081-2089. -/
def write (eps : R) (p : Name) (s : XSoup R) (fs : Files R) : Res (Files R) :=
  if ".xdmf".toList <:+ p then writeXdmf eps p s fs else .refused

/-- `PolytopeSoup::read`, polytope_soup.cpp 2064-2078; the readers of the other formats are given. -/
def read (inp vtk : Name → Files R → XSoup R → Res (XSoup R)) (p : Name) (fs : Files R) (s : XSoup R) : Res (XSoup R) :=
  if ".inp".toList <:+ p then inp p fs s
  else if ".vtk".toList <:+ p then vtk p fs s
  else if ".xdmf".toList <:+ p then readXdmf p fs s
  else .refused

end Verif.XdmfFiles
