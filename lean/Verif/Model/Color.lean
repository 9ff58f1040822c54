import Verif.Model.Fp

/-! Colours: color.hpp. -/

namespace Verif.Colors

open Verif.Fp

/-- `Color`, color.hpp 15-20, with its default values. -/
structure Color where
  r : BitVec 8 := 0
  g : BitVec 8 := 0
  b : BitVec 8 := 0
  a : BitVec 8 := 255
deriving DecidableEq

/-- `Color(I r, I g, I b, I a)`, color.hpp 56-63, for an integral type with `w` bits, of either sign: the cast keeps the low byte of the representation (a value of a type
that is narrower than a byte does not exist). -/
def ofInt {w : ℕ} (r g b : BitVec w) (a : BitVec w := BitVec.ofInt w 255) : Color := ⟨r.setWidth 8, g.setWidth 8, b.setWidth 8, a.setWidth 8⟩

variable {K : Type} [Field K] [LinearOrder K] [FloorRing K] {p : ℕ} (R : Rounding K p)

/-- `static_cast<uint8_t>(x * 255)`, color.hpp 67-70: truncation towards zero; undefined if the result is no byte. -/
def channel (x : K) : Option (BitVec 8) :=
  let y := R.rnd (x * 255)
  if -1 < y ∧ y < 256 then some (BitVec.ofNat 8 ⌊y⌋.toNat) else none

/-- `Color(T r, T g, T b, T a)`, color.hpp 65-72. -/
def ofFloat (r g b : K) (a : K := 1) : Option Color := do
  return ⟨← channel R r, ← channel R g, ← channel R b, ← channel R a⟩

/-- `operator==`, color.hpp 106-117. -/
def eq (l r : Color) : Bool := l.r == r.r && l.g == r.g && l.b == r.b && l.a == r.a

/-- `operator!=`, color.hpp 119-123. -/
def ne (l r : Color) : Bool := !eq l r

end Verif.Colors
