import Verif.Model.FpGrid
import Verif.Model.Box

/-!
# Boxes in floating-point arithmetic

`include/um2/geometry/axis_aligned_box.hpp` with `float` or `double`; `Verif.Model.Box` has the same functions in exact arithmetic.  `contains`,
`intersects(box)`, `operator+=` and `boundingBox` only compare, so that they are the same in both.  The infinite and the invalid numbers
that a zero in the direction of a ray leads to are modelled; other overflows are not.
-/

namespace Verif.Fp

open Verif.Box (AABB Ext fin pinf ninf slab le)

variable {K : Type} [Field K] [LinearOrder K] {p D : ℕ}

/-- `extents()`, axis_aligned_box.hpp 234-248. -/
def boxExtents (R : Rounding K p) (a : AABB D K) : Fin D → K := fun i => R.rnd (a.max i - a.min i)

/-- `centroid()`, axis_aligned_box.hpp 250-255; `midpoint`, point.hpp 41-48. -/
def boxCentroid (R : Rounding K p) (a : AABB D K) : Fin D → K := fun i => R.rnd (R.rnd (a.min i + a.max i) / 2)

/-- `scale(s)`, axis_aligned_box.hpp 353-361; with `fused` the compiler has made one operation of the product and each of the sums. -/
def boxScale (R : Rounding K p) (fused : Bool) (a : AABB D K) (s : K) : AABB D K :=
  ⟨fun i =>
      let k := R.rnd (R.rnd (s - 1) / 2)
      if fused then R.rnd (a.min i - boxExtents R a i * k) else R.rnd (a.min i - R.rnd (boxExtents R a i * k)),
    fun i => mulAdd R fused (a.max i) (boxExtents R a i) (R.rnd (R.rnd (s - 1) / 2))⟩

/-- `1 / d`, ray.hpp 62-66: infinite if `d` is zero, with the sign of the zero (`neg`). -/
def recipR (R : Rounding K p) (d : K) (neg : Bool) : Ext K := if d = 0 then (if neg then ninf else pinf) else fin (R.rnd (1 / d))

/-- `x * y` for finite `x`: zero times infinity is NaN. -/
def emulR (R : Rounding K p) (x : K) : Ext K → Ext K
  | none => none
  | some ⊥ => if x = 0 then none else if x < 0 then pinf else ninf
  | some (some ⊤) => if x = 0 then none else if x < 0 then ninf else pinf
  | some (some (some y)) => fin (R.rnd (x * y))

/-- One component of `(_min - ray.origin()) * inv_dir` or `(_max - ray.origin()) * inv_dir`, axis_aligned_box.hpp 286-287 and 303-304: `x` is the
coordinate of the face. -/
def planeTime (R : Rounding K p) (o d : K) (neg : Bool) (x : K) : Ext K := emulR R (R.rnd (x - o)) (recipR R d neg)

/-- `intersect(ray)`, axis_aligned_box.hpp 278-293, and `intersect(ray, inv_dir)`, 295-310. `inf` is `infDistance`; `neg i` is the sign of
the zero if the direction's component `i` is zero. -/
def boxIntersect (R : Rounding K p) (a : AABB D K) (o d : Fin D → K) (neg : Fin D → Bool) (inf : K) : Ext K × Ext K :=
  let r := (List.finRange D).foldl (fun s i =>
    slab (planeTime R (o i) (d i) (neg i) (a.min i)) (planeTime R (o i) (d i) (neg i) (a.max i)) s) (fin 0, fin inf)
  if le r.1 r.2 then r else (fin (-1), fin (-1))

end Verif.Fp
