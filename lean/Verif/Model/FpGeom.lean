import Verif.Model.Fp

/-!
# Determinants and orientation in floating-point arithmetic

Model of vec.hpp 773-803, mat.hpp 265-289, point.hpp 49-73, quadratic_equation.hpp 48-60 and triangle.hpp 333-349 with every operation
rounded (see `Verif.Model.Fp`).  `std::fma` rounds once.
-/

namespace Verif.Fp

variable {K : Type} [Field K] [LinearOrder K] {p : ℕ} (R : Rounding K p)

/-- `um2::fma(x, y, z)`, stdlib/math/fma.hpp 16-21. -/
def fma (x y z : K) : K := R.rnd (x * y + z)

/-- `det2x2`, vec.hpp 773-783. -/
def det2x2 (a b c d : K) : K :=
  let w := R.rnd (b * c)
  let e := fma R (-b) c w
  let f := fma R a d (-w)
  R.rnd (f + e)

/-- A point or a vector of the plane. -/
abbrev P2 (K : Type) := K × K

/-- `operator-(Vec, Vec)`, vec.hpp 578-590, 964-969. -/
def sub (u v : P2 K) : P2 K := (R.rnd (u.1 - v.1), R.rnd (u.2 - v.2))

/-- `Vec<2, T>::cross`, vec.hpp 785-794. -/
def cross (u v : P2 K) : K := det2x2 R u.1 u.2 v.1 v.2

/-- `Vec<3, T>::cross`, vec.hpp 796-803. -/
def cross3 (u v : K × K × K) : K × K × K :=
  (det2x2 R u.2.1 u.2.2 v.2.1 v.2.2, det2x2 R u.2.2 u.1 v.2.2 v.1, det2x2 R u.1 u.2.1 v.1 v.2.1)

/-- `areCCW`, point.hpp 51-60. -/
def areCCW (a b c : P2 K) : Bool := decide (0 ≤ cross R (sub R b a) (sub R c a))

/-- `areApproxCCW`, point.hpp 64-73; `eps` is `epsDistance<T>()`. -/
def areApproxCCW (eps : K) (a b c : P2 K) : Bool := decide (-eps ≤ cross R (sub R b a) (sub R c a))

/-- `epsDistance<double>()` (`p = 53`) and `epsDistance<float>()` (`p = 24`), vec.hpp 42-53: the decimal literal is rounded to
`double`, and then to `float`. -/
def epsDistance (rd rf : K → K) (single : Bool) : K := if single then rf (rd (1 / 10000)) else rd (1 / 10000000)

/-- `Triangle2::contains`, triangle.hpp 337-349. -/
def triContains (a b c q : P2 K) : Bool := areCCW R a b q && areCCW R b c q && areCCW R c a q

/-- `inv(Mat2x2)`, mat.hpp 265-289: the four entries in the order in which they are stored, `m 0 = a`, `m 1 = c`, `m 2 = b`,
`m 3 = d`; `none` if the determinant is zero. -/
def inv2 (m : K × K × K × K) : Option (K × K × K × K) :=
  let (a, c, b, d) := m
  let det := det2x2 R a b c d
  if det = 0 then none else some (R.rnd (d / det), R.rnd (-c / det), R.rnd (-b / det), R.rnd (a / det))

/-- `quadraticDiscriminant`, quadratic_equation.hpp 50-60. -/
def disc (a b c : K) : K :=
  let a4 := R.rnd (4 * a)
  let w := R.rnd (a4 * c)
  let e := fma R (-c) a4 w
  let f := fma R b b (-w)
  R.rnd (f + e)

end Verif.Fp
