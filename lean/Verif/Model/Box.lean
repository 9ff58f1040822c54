import Mathlib.Algebra.Order.Field.Basic
import Mathlib.Order.WithBot
import Mathlib.Data.List.FinRange
import Mathlib.Data.Fin.Basic

/-!
# Model of include/um2/geometry/axis_aligned_box.hpp

`Point<D, T>` is `Fin D → K`.  Operations that only compare are over any linear order (exact for
non-NaN floats); the others are over a linearly ordered field (exact arithmetic).
-/

namespace Verif.Box

/-- `um2::min`, stdlib/algorithm/min.hpp 8-13. -/
def cmin {K : Type} [LinearOrder K] (a b : K) : K := if b < a then b else a

/-- `um2::max`, stdlib/algorithm/max.hpp 8-13. -/
def cmax {K : Type} [LinearOrder K] (a b : K) : K := if a < b then b else a

/-- `AxisAlignedBox<D, T>`, axis_aligned_box.hpp 16-20. -/
@[ext]
structure AABB (D : Nat) (K : Type) where
  min : Fin D → K
  max : Fin D → K

section
variable {D : Nat} {K : Type} [LinearOrder K]

/-- `operator+=(point)`, axis_aligned_box.hpp 200-207 (`Vec::min`, `Vec::max`: vec.hpp 709-726). -/
def addPoint (a : AABB D K) (p : Fin D → K) : AABB D K :=
  ⟨fun i => cmin (a.min i) (p i), fun i => cmax (a.max i) (p i)⟩

/-- `operator+=(box)`, axis_aligned_box.hpp 209-216; `operator+`, 316-330. -/
def add (a b : AABB D K) : AABB D K :=
  ⟨fun i => cmin (a.min i) (b.min i), fun i => cmax (a.max i) (b.max i)⟩

/-- `empty()`, axis_aligned_box.hpp 222-232, with `inf` for `infDistance` and `ninf` for its
negation. -/
def empty (inf ninf : K) : AABB D K := ⟨fun _ => inf, fun _ => ninf⟩

/-- `contains(p)`, axis_aligned_box.hpp 257-267: the loop returns false at the first coordinate out
of range. -/
def contains (a : AABB D K) (p : Fin D → K) : Bool :=
  (List.finRange D).all fun i => !(decide (p i < a.min i) || decide (p i > a.max i))

/-- `intersects(other)`, axis_aligned_box.hpp 363-374. -/
def intersects (a b : AABB D K) : Bool :=
  (List.finRange D).all fun i => !(decide (a.max i < b.min i) || decide (a.min i > b.max i))

/-- `boundingBox(begin, end)`, axis_aligned_box.hpp 332-351; an empty range reads `*begin`
(`none`). -/
def boundingBox : List (Fin D → K) → Option (AABB D K)
  | [] => none
  | p :: ps => some (ps.foldl addPoint ⟨p, p⟩)

end

section
variable {D : Nat} {K : Type} [Field K] [LinearOrder K]

/-- `extents()`, axis_aligned_box.hpp 234-248. -/
def extents (a : AABB D K) : Fin D → K := fun i => a.max i - a.min i

/-- `centroid()`, axis_aligned_box.hpp 250-255; `midpoint`, point.hpp 41-48. -/
def centroid (a : AABB D K) : Fin D → K := fun i => (a.min i + a.max i) / 2

/-- `scale(s)`, axis_aligned_box.hpp 353-361. -/
def scale (a : AABB D K) (s : K) : AABB D K :=
  ⟨fun i => a.min i - extents a i * ((s - 1) / 2), fun i => a.max i + extents a i * ((s - 1) / 2)⟩

/-! ## Ray intersection, with IEEE infinities and NaN -/

/-- IEEE numbers without rounding: NaN (`none`), `-∞`, finite, `+∞`. -/
abbrev Ext (K : Type) := Option (WithBot (WithTop K))

/-- A finite value. -/
def fin (x : K) : Ext K := some ((x : WithTop K) : WithBot (WithTop K))

def pinf : Ext K := some ((⊤ : WithTop K) : WithBot (WithTop K))

def ninf : Ext K := some ⊥

/-- IEEE `<`: false if an operand is NaN. -/
def lt : Ext K → Ext K → Bool
  | some a, some b => decide (a < b)
  | _, _ => false

/-- IEEE `<=`. -/
def le : Ext K → Ext K → Bool
  | some a, some b => decide (a ≤ b)
  | _, _ => false

/-- `um2::min` on IEEE numbers. -/
def emin (a b : Ext K) : Ext K := if lt b a then b else a

/-- `um2::max` on IEEE numbers. -/
def emax (a b : Ext K) : Ext K := if lt a b then b else a

/-- `1 / d` (ray.hpp 62-66): infinite if `d` is zero, with the sign of the zero (`neg`). -/
def recip (d : K) (neg : Bool) : Ext K := if d = 0 then (if neg then ninf else pinf) else fin d⁻¹

/-- `x * y` for finite `x`: zero times infinity is NaN. -/
def emul (x : K) : Ext K → Ext K
  | none => none
  | some ⊥ => if x = 0 then none else if x < 0 then pinf else ninf
  | some (some ⊤) => if x = 0 then none else if x < 0 then ninf else pinf
  | some (some (some y)) => fin (x * y)

/-- One pass of the loop of `intersect`, axis_aligned_box.hpp 288-291. -/
def slab (vt1 vt2 : Ext K) (s : Ext K × Ext K) : Ext K × Ext K :=
  (emin (emax vt1 s.1) (emax vt2 s.1), emax (emin vt1 s.2) (emin vt2 s.2))

/-- `intersect(ray)`, axis_aligned_box.hpp 278-293, and `intersect(ray, inv_dir)`, 295-310. `inf` is
`infDistance`; `neg i` is the sign of the zero if the direction's component `i` is zero. -/
def intersect (a : AABB D K) (o d : Fin D → K) (neg : Fin D → Bool) (inf : K) : Ext K × Ext K :=
  let r := (List.finRange D).foldl (fun s i =>
    slab (emul (a.min i - o i) (recip (d i) (neg i))) (emul (a.max i - o i) (recip (d i) (neg i))) s)
    (fin 0, fin inf)
  if le r.1 r.2 then r else (fin (-1), fin (-1))

end

end Verif.Box
