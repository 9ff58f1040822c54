import Verif.Model.Soup
import Mathlib.Algebra.Order.Field.Basic

/-!
# Comparison of soups

Model of `PolytopeSoup::compare`, `src/mesh/polytope_soup.cpp` 372-435. `Float` is an ordered field.
-/

namespace Verif.Polytope

variable {K T N : Type} [Field K] [LinearOrder K]

/-- `squaredDistanceTo`, vec.hpp 805-811, of two points in space. -/
def sqDist (a b : K × K × K) : K :=
  (a.1 - b.1) * (a.1 - b.1) + (a.2.1 - b.2.1) * (a.2.1 - b.2.1) + (a.2.2 - b.2.2) * (a.2.2 - b.2.2)

/-- `isApprox`, vec.hpp 820-825; `eps2` is `epsDistance2`. -/
def isApprox (eps2 : K) (a b : K × K × K) : Bool := decide (sqDist a b < eps2)

/-- The loops over the data, polytope_soup.cpp 421-433: of one array, then of all. -/
def compareData (eps : K) : List (List K) → List (List K) → Int
  | a :: as, b :: bs =>
    if a.length ≠ b.length then 10
    else if (a.zip b).any fun p => decide (eps < if p.1 - p.2 < 0 then -(p.1 - p.2) else p.1 - p.2) then 11
    else compareData eps as bs
  | _, _ => 0

/-- `PolytopeSoup::compare`, polytope_soup.cpp 372-435. -/
def compare [DecidableEq T] [DecidableEq N] (eps eps2 : K) (s t : Soup (K × K × K) T N K) : Int :=
  if s.verts.length ≠ t.verts.length then 1
  else if (s.verts.zip t.verts).any fun p => !isApprox eps2 p.1 p.2 then 2
  else if s.types ≠ t.types then 3
  else if s.eoffs ≠ t.eoffs then 4
  else if s.conn ≠ t.conn then 5
  else if s.names ≠ t.names then 6
  else if s.soffs ≠ t.soffs then 7
  else if s.sids ≠ t.sids then 8
  else if s.sdata.length ≠ t.sdata.length then 9
  else compareData eps s.sdata t.sdata

end Verif.Polytope
