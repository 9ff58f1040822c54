import Verif.Model.ModelSoup
import Verif.Model.MeshSoup
import Verif.Model.Abaqus
import Verif.Model.Power
import Mathlib.Algebra.Order.Ring.Rat

/-!
# The post-processing programs

Model of post-process/extract_edge_length.cpp, extract_meanchordlength.cpp, extract_spectrum.cpp, extract_cmfd_info.cpp and
extract_powers.cpp.

* Numbers are exact.  The file that is read is given by the soup or the model that reading it gives (properties C47-C51, C85).
* `LOG_ERROR` ends the program, as it does by default: the outcome is `refused`.  `undef` is undefined behaviour.
* Opening, writing and closing the output file succeed.
-/

namespace Verif.Post

open Verif.Mpact Verif.Polytope Verif.CmfdInfo
open Verif.Pin (Mesh)
open Verif.ElemTypes (MeshType VTK)
open Verif.Str (Byte)
open Verif.XSLib (Res)
open Verif.StrView (digits)

/-! ## Numbers as text -/

/-- `num / den` rounded to the nearest integer, to the even one of two. -/
def roundEven (num den : Nat) : Nat :=
  let q := num / den
  let r := num % den
  if 2 * r < den then q else if den < 2 * r then q + 1 else if q % 2 = 0 then q else q + 1

/-- The last `w` decimal digits of `n`. -/
def lastDigits : Nat → Nat → List Byte
  | 0, _ => []
  | w + 1, n => lastDigits w (n / 10) ++ [UInt8.ofNat (48 + n % 10)]

/-- `fprintf(file, "%.16f", x)`, for example extract_edge_length.cpp 111: the C library prints the exact value of `x` rounded to
16 decimals.  There is no negative zero among the numbers of the model. -/
def fixed16 (x : ℚ) : List Byte :=
  let r := roundEven (x.num.natAbs * 10 ^ 16) x.den
  (if x < 0 then [45] else []) ++ digits (r / 10 ^ 16) ++ 46 :: lastDigits 16 r

/-- The lines `"%.16f\n"`, for example extract_edge_length.cpp 110-116. -/
def numberLines (l : List ℚ) : List Byte := l.flatMap fun x => fixed16 x ++ [10]

/-! ## Mean chord lengths and lengths of edges -/

section
variable {K M : Type} [Field K] [LinearOrder K]

/-- The mean chord lengths of one coarse cell, extract_meanchordlength.cpp 31-62; `junk` stands for the uninitialized entries of
the vector of `cc.numFaces()` entries. -/
def chordsOf (chord : Mesh K → Nat → K) (junk : K) (s : Model K M) (cell : CoarseCell K) : Res (List K) :=
  match s.meshes cell.meshType with
  | none => .refused
  | some l =>
    (Res.ofOption (at? l cell.meshId)).bind fun mesh =>
    Res.ofOption ((List.range mesh.faces.length).foldlM (fun buf f => put buf f (chord mesh f)) (List.replicate cell.mats.length junk))

/-- A list for every coarse cell. -/
def perCell (f : CoarseCell K → Res (List K)) (s : Model K M) : Res (List (List K)) :=
  loop (fun acc cell => (f cell).bind fun l => .ok (acc ++ [l])) [] s.cells

/-- The loops over the hierarchy, extract_meanchordlength.cpp 67-79. -/
def walk {σ : Type} (s : Model K M) (f : ℤ → σ → Option σ) (st : σ) : Option σ :=
  forIds (fun a st => (at? s.assemblies a).bind fun asy =>
    forIds (fun l st => (at? s.lattices l).bind fun lat =>
      forIds (fun r st => (at? s.rtms r).bind fun rtm => forIds f rtm.children st) lat.children st)
      asy.children st) s.core.children st

/-- `um2::copy(l.begin(), l.end(), buf.begin() + k)`. -/
def copyInto (buf : List K) (k : Nat) (l : List K) : Option (List K) :=
  if k + l.length ≤ buf.length then some (buf.take k ++ l ++ buf.drop (k + l.length)) else none

/-- The numbers that extract_meanchordlength.cpp writes, 23-79. -/
def chordList (chord : Mesh K → Nat → K) (junk : K) (s : Model K M) : Res (List K) :=
  (Res.ofOption (numFineCellsTotal s)).bind fun n =>
  (perCell (chordsOf chord junk s) s).bind fun lists =>
  (Res.ofOption (walk s (fun c st => (at? lists c).bind fun l => (copyInto st.1 st.2 l).map fun b => (b, st.2 + l.length))
    (List.replicate n.toNat junk, 0))).bind fun st => .ok st.1

/-- `num_edges_per_face`, extract_edge_length.cpp 37, 48, 59, 70. -/
def edgesPerFace (t : MeshType) : Nat :=
  if t = MeshType.Tri then 3 else if t = MeshType.Quad then 4 else if t = MeshType.QuadraticTri then 3 else 4

/-- The lengths of the edges of one coarse cell, extract_edge_length.cpp 33-84; `len mesh f e` stands for
`mesh.getEdge(f, e).length()`. -/
def edgesOf (len : Mesh K → Nat → Nat → K) (junk : K) (s : Model K M) (cell : CoarseCell K) : Res (List K) :=
  match s.meshes cell.meshType with
  | none => .refused
  | some l =>
    let w := edgesPerFace cell.meshType
    (Res.ofOption (chk ((w : ℤ) * cell.mats.length))).bind fun n =>
    (Res.ofOption (at? l cell.meshId)).bind fun mesh =>
    Res.ofOption ((List.range mesh.faces.length).foldlM (fun buf f =>
      (List.range w).foldlM (fun buf e => put buf (f * w + e) (len mesh f e)) buf) (List.replicate n.toNat junk))

/-- The numbers that extract_edge_length.cpp writes, 23-100. -/
def edgeList (len : Mesh K → Nat → Nat → K) (junk : K) (s : Model K M) : Res (List K) :=
  (Res.ofOption ((numFineCellsTotal s).bind fun n => chk (4 * n))).bind fun _ =>
  (perCell (edgesOf len junk s) s).bind fun lists =>
  Res.ofOption (walk s (fun c st => (at? lists c).map fun l => st ++ l) [])

end

/-! ## The spectrum -/

section
variable {K : Type} [Field K] [LinearOrder K]

/-- One group, extract_spectrum.cpp 103-114: sums of 128 faces are added up. -/
def groupFlux (areas flux : List K) (n : Nat) : Option K :=
  ((List.range n).foldlM (fun (st : K × K) i => (flux[i]?).bind fun f => (areas[i]?).bind fun a =>
    let acc := st.2 + f * a
    some (if i % 128 = 127 then (st.1 + acc, 0) else (st.1, acc))) (0, 0)).map fun st => st.1 + st.2

/-- The loop over the groups, extract_spectrum.cpp 94-117, with at most `fuel` rounds.  A set that is not there leaves the
cleared vector empty. -/
def spectrumLoop {V T : Type} (s : Soup V T (List Byte) K) (areas : List K) : Nat → List Byte → List K → Option (List K)
  | 0, _, _ => none
  | fuel + 1, name, acc =>
    (getElsetByName s name []).bind fun r =>
    match r with
    | none => some acc
    | some (ids, flux) =>
      if flux = [] then some acc else
      (groupFlux areas flux ids.length).bind fun g =>
      (Names.increment name).bind fun name' => spectrumLoop s areas fuel name' (acc ++ [g])

/-- `"flux_001"`, extract_spectrum.cpp 93. -/
def firstFlux : List Byte := "flux_001".toList.map fun c => UInt8.ofNat c.toNat

/-- `getSpectrum<P, N>(soup)`, extract_spectrum.cpp 81-122; `area` is that of a face. -/
def spectrumOf (N : Nat) (ty : VTK) (area : Geom.Poly N 2 K → K) (eps : K) (junk : Nat → Geom.Pt 2 K) (fuel : Nat)
    (s : Soup (Geom.Pt 3 K) VTK (List Byte) K) : Res (List K) :=
  (Res.ofOption (Mesh.ofSoup N ty true eps junk s)).bind fun r =>
  match r with
  | none => .refused
  | some m =>
    (Res.ofOption (m.fv.mapM (Mesh.loadFace m.v))).bind fun faces =>
    Res.ofOption (spectrumLoop s (faces.map area) fuel firstFlux [])

end

/-- `getSpectrum(filename)`, extract_spectrum.cpp 52-79. -/
noncomputable def spectrum (eps : ℝ) (junk : Nat → Geom.Pt 2 ℝ) (fuel : Nat) (s : Soup (Geom.Pt 3 ℝ) VTK (List Byte) ℝ) : Res (List ℝ) :=
  match getElemTypes s with
  | [t] =>
    if t = VTK.Triangle then spectrumOf 3 VTK.Triangle Geom.triArea eps junk fuel s
    else if t = VTK.Quad then spectrumOf 4 VTK.Quad Geom.quadArea eps junk fuel s
    else if t = VTK.QuadraticTriangle then spectrumOf 6 VTK.QuadraticTriangle Geom.tri6Area eps junk fuel s
    else if t = VTK.QuadraticQuad then spectrumOf 8 VTK.QuadraticQuad Geom.quad8Area eps junk fuel s
    else .refused
  | _ => .refused

/-! ## The data of the CMFD analysis -/

section
variable {V T K : Type}

/-- `soup.getElset(name, ids, tmp)`: the vectors are left alone if there is no such set. -/
def pull (s : Soup V T (List Byte) K) (name : List Byte) (st : List Nat × List K) : Option (List Nat × List K) :=
  (getElsetByName s name st.2).map fun r => r.elim st id

/-- `if (!ids.empty()) list.push_back(tmp)`. -/
def push (st : List Nat × List K) (l : List (List K)) : List (List K) := if st.1 = [] then l else l ++ [st.2]

/-- The loop of extract_cmfd_info.cpp, 33-59, with at most `fuel` rounds: the lists of the total cross sections, the scattering
ratios and the spectral radii. -/
def infoLoop (s : Soup V T (List Byte) K) : Nat → Nat → List (List K) × List (List K) × List (List K) →
    Option (List (List K) × List (List K) × List (List K))
  | 0, _, _ => none
  | fuel + 1, i, acc =>
    (pull s (preTotal ++ Names.getASCIINumber i) ([], [])).bind fun s1 =>
    (pull s (preRatio ++ Names.getASCIINumber i) s1).bind fun s2 =>
    (pull s (preRadius ++ Names.getASCIINumber i) s2).bind fun s3 =>
    let acc' := (push s1 acc.1, push s2 acc.2.1, push s3 acc.2.2)
    if s1.1 = [] ∧ s2.1 = [] ∧ s3.1 = [] then some acc' else infoLoop s fuel (i + 1) acc'

end

/-! ## The powers -/

/-- extract_powers.cpp 25-48: the file, and whether the sum of the powers is accepted. -/
def powerFile (l : List (ℚ × ℚ × ℚ)) : List Byte × Bool :=
  ("Power, x, y\n".toList.map (fun c => UInt8.ofNat c.toNat) ++
    l.flatMap fun p => fixed16 p.1 ++ [44, 32] ++ fixed16 p.2.1 ++ [44, 32] ++ fixed16 p.2.2 ++ [10],
   !decide (1 / 1000 < |l.foldl (fun acc p => acc + p.1) 0 - 1|))

end Verif.Post
