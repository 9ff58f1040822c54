import Verif.Model.Mpact
import Verif.Model.Stats
import Verif.Model.StrView

/-!
# The text files written with an MPACT model

Model of `writeInputFile`, `writeMaterialVolumes` and `writeCrossSections`, src/mpact/model.cpp 1951-2206, which
`Model::write`, 2216-2231, calls after the XDMF file: `name.input`, `name.volumes`, `name.xs`.

Simplifications.  `Float` is a linearly ordered field `K`; files can be opened; a file is the bytes written to it.  The
conversion of a `Float` to text is an argument (`String(x)`: `strF`; `stream << x`: `outF`); integers are written in decimal.
`std::sort` is an argument.  Names contain no NUL (they pass through `data()`).  `none` is undefined behaviour.
-/

namespace Verif.MFiles

open Verif.Pin (Mesh)
open Verif.Mpact (Model CoarseCell Assembly at? forIds)
open Verif.Str (Byte)
open Verif.StrView (findLastOf fmtInt)

variable {K M : Type} [Field K] [LinearOrder K]

/-- A string literal. -/
def str (s : String) : List Byte := s.toList.map fun c => UInt8.ofNat c.toNat

/-! ## Names -/

/-- `base_filename`, for example model.cpp 1955-1956: `substr(0, npos)` is the whole name. -/
def baseName (filename : List Byte) : List Byte :=
  match findLastOf filename 46 (2 ^ 31 - 1) with
  | none => filename
  | some i => filename.take i

/-- `model_name`, model.cpp 1968-1972; starting beyond the end is undefined. -/
def modelName (filename : List Byte) : Option (List Byte) :=
  let start := match findLastOf filename 47 (2 ^ 31 - 1) with
    | none => 0
    | some i => i + 1
  if start ≤ (baseName filename).length then some ((baseName filename).drop start) else none

/-! ## Volumes of the materials -/

/-- The loop over the faces `i, i + 1, …` of a coarse cell, for example model.cpp 2101-2104. -/
def volFaces (area : Mesh K → Nat → K) (mesh : Mesh K) (mats : List Int8) (dz : K) :
    Nat → Nat → List (List K) → Option (List (List K))
  | 0, _, vols => some vols
  | n + 1, i, vols => (mats[i]?).bind fun m => (at? vols m.toInt).bind fun l =>
    volFaces area mesh mats dz n (i + 1) (vols.set m.toInt.toNat (l ++ [area mesh i * dz]))

/-- One coarse cell, model.cpp 2093-2136: an unsupported mesh type is reported and skipped. -/
def volCell (area : Mesh K → Nat → K) (s : Model K M) (dz : K) (c : ℤ) (vols : List (List K)) : Option (List (List K)) :=
  (at? s.cells c).bind fun cell =>
  match s.meshes cell.meshType with
  | none => some vols
  | some l => (at? l cell.meshId).bind fun mesh => volFaces area mesh cell.mats dz mesh.faces.length 0 vols

/-- The loop over the lattices `k, k + 1, …` of an assembly, model.cpp 2083-2139. -/
def volLats (area : Mesh K → Nat → K) (s : Model K M) (asy : Assembly K) : Nat → Nat → List (List K) → Option (List (List K))
  | 0, _, vols => some vols
  | n + 1, k, vols => (asy.children[k]?).bind fun lat => (asy.zs[k]?).bind fun low => (asy.zs[k + 1]?).bind fun high =>
    (at? s.lattices lat).bind fun lat =>
    (forIds (fun r vols => (at? s.rtms r).bind fun rtm => forIds (volCell area s (high - low)) rtm.children vols)
      lat.children vols).bind fun vols => volLats area s asy n (k + 1) vols

/-- `total_volumes`, model.cpp 2076-2150; `area mesh i` is `mesh.getFace(i).area()`. The sum of nothing is undefined. -/
def totalVolumes (sorter : List K → List K) (area : Mesh K → Nat → K) (s : Model K M) : Option (List K) :=
  (forIds (fun a vols => (at? s.assemblies a).bind fun asy => volLats area s asy asy.children.length 0 vols) s.core.children
    (List.replicate s.materials.length [])).bind fun vols => vols.mapM fun v => Stats.pairwiseSum (sorter v)

/-- The file of the volumes, model.cpp 2152-2160. -/
def volumesText (outF : K → List Byte) (name : M → List Byte) (mats : List M) (vols : List K) : List Byte :=
  (mats.zip vols).flatMap fun p => name p.1 ++ [32] ++ outF p.2 ++ [10]

/-! ## Input -/

/-- `num_faces_rep`, model.cpp 2021: `1 - 0.9` is this number in double precision. The product is exact here; rounded, it
has the same integral part, since it lies at least one unit in the last place below the next multiple of 1/10. -/
def repIndex (n : Nat) : Nat := 900719925474099 * n / 9007199254740992

/-- The representative mean chord length, model.cpp 2016-2022. -/
def repChord (sorter : List K → List K) (mcls : List K) : Option K := (sorter mcls)[repIndex mcls.length]?

/-- What the input file needs of a material. -/
structure Mat (K : Type) where
  name : List Byte
  density : K
  temperature : K
  zaids : List ℤ
  dens : List K

/-- `mat_info`, model.cpp 1988-1989. -/
def matInfo (strF : K → List Byte) (i : Nat) (m : Mat K) : List Byte :=
  str "  mat " ++ fmtInt (i + 1) ++ str " <type> " ++ strF m.density ++ str " g/cc " ++ strF m.temperature ++ str " K \\ "

/-- The loop over the nuclides `i, i + 1, …`, model.cpp 2001-2007; `pad` is `mat_info_size`. -/
def nuclides (outF : K → List Byte) (pad : Nat) (m : Mat K) : Nat → Nat → Option (List Byte)
  | 0, _ => some []
  | n + 1, i => (m.zaids[i]?).bind fun z => (m.dens[i]?).bind fun d =>
    (nuclides outF pad m n (i + 1)).bind fun rest =>
      some (List.replicate pad 32 ++ fmtInt z ++ [32] ++ outF d ++ [10] ++ rest)

/-- One material, model.cpp 1983-2009. -/
def matText (strF outF : K → List Byte) (i : Nat) (m : Mat K) : Option (List Byte) :=
  let info := matInfo strF i m
  let start := str "  ! " ++ m.name ++ [10] ++ info
  if m.zaids.length = 0 then some start
  else (m.zaids[0]?).bind fun z => (m.dens[0]?).bind fun d =>
    (nuclides outF (info.length - 5) m (m.zaids.length - 1) 1).bind fun rest =>
      some (start ++ fmtInt z ++ [32] ++ outF d ++ [10] ++ rest)

/-- The loop over the materials `i, i + 1, …`, model.cpp 1982-2010. -/
def matsText (strF outF : K → List Byte) : Nat → List (Mat K) → Option (List Byte)
  | _, [] => some []
  | i, m :: ms => (matText strF outF i m).bind fun t => (matsText strF outF (i + 1) ms).bind fun ts => some (t ++ ts)

/-- `writeInputFile`, model.cpp 1951-2046. -/
def inputText (strF outF : K → List Byte) (sorter : List K → List K) (filename : List Byte) (mats : List (Mat K))
    (mcls : List K) : Option (List Byte) :=
  (modelName filename).bind fun name => (matsText strF outF 0 mats).bind fun mats => (repChord sorter mcls).bind fun mcl => some (
    str "CASEID MPACT_" ++ name ++ str "\n\n" ++
    str "STATE\n" ++ str "  edit fsr_flux fsr_power\n\n" ++
    str "MATERIAL\n" ++ mats ++
    str "GEOM\n" ++ str "  um2_core\n" ++ str "    " ++ filename ++ str "\n\n" ++
    str "XSEC\n" ++ str "  xslib ORNL mpact51g_71_v4.2m5_12062016_sph.fmt\n\n" ++
    str "OPTION\n" ++ str "  bound_cond <west_bc> <north_bc> <east_bc> <south_bc> <top_bc> <bottom_bc>\n" ++
    str "  solver 1 2\n" ++
    str "  ! ray spacing is set such that the expected number of intersections in the largest\n" ++
    str "  ! 90% of faces is 4+ for any given direction. (mean chord length / 4)\n" ++
    str "  ray " ++ outF (mcl / 4) ++ str " CHEBYSHEV-YAMAMOTO 16 3\n" ++
    str "  parallel 1 1 1 1\n" ++ str "  conv_crit 2*1.e-6\n" ++ str "  iter_lim 2000 1 1\n" ++ str "  vis_edits T T\n" ++
    str "  cmfd A mgnode F 0.0 1.0 150 F")

/-! ## Cross sections -/

/-- What the file of the cross sections needs of a material: the name, the number of groups, and the five vectors. -/
structure XMat (K : Type) where
  name : List Byte
  ng : Nat
  a : List K
  f : List K
  nuf : List K
  tr : List K
  s : List K

/-- The loop over the groups `g, g + 1, …` of a material, model.cpp 2198-2201. -/
def groups (outF : K → List Byte) (x : XMat K) : Nat → Nat → Option (List Byte)
  | 0, _ => some []
  | n + 1, g => (x.a[g]?).bind fun a => (x.f[g]?).bind fun f => (x.nuf[g]?).bind fun nuf => (x.tr[g]?).bind fun tr =>
    (x.s[g]?).bind fun s => (groups outF x n (g + 1)).bind fun rest =>
      some (outF a ++ [32] ++ outF f ++ [32] ++ outF nuf ++ [32] ++ outF tr ++ [32] ++ outF s ++ [10] ++ rest)

/-- The loop over the materials, model.cpp 2191-2202. -/
def xmats (outF : K → List Byte) (ng : Nat) : List (XMat K) → Option (List Byte)
  | [] => some []
  | x :: xs => (groups outF x ng 0).bind fun t => (xmats outF ng xs).bind fun ts => some (x.name ++ [10] ++ t ++ ts)

/-- `writeCrossSections`, model.cpp 2168-2208. -/
def xsText (outF : K → List Byte) (mats : List (XMat K)) : Option (List Byte) :=
  (mats[0]?).bind fun m0 => (xmats outF m0.ng mats).bind fun t =>
    some (fmtInt mats.length ++ [32] ++ fmtInt m0.ng ++ [10] ++ t)

end Verif.MFiles
