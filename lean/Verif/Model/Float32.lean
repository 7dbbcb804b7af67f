import Verif.Model.Json
import Verif.Model.Equal
/-!
# IEEE 754 binary32 arithmetic

What `float` means in C++ on the supported platforms (SSE: every operation is rounded to `float`, to nearest, ties to even). Operands and results are
bit patterns. The value of a finite float is an integer multiple of `2^-149`; it is given here as that integer.
-/

namespace Verif
namespace F32

/-- `+inf`. (`F32.nan` stands for all NaN results; payloads are not modelled.) -/
def inf : F32 := 0x7F800000
def one : F32 := 0x3F800000
def two : F32 := 0x40000000

/-- `std::signbit` -/
def neg? (x : F32) : Bool := x.toNat ≥ 2 ^ 31
/-- The bits without the sign. -/
def magBits (x : F32) : Nat := x.toNat % 2 ^ 31
def isInf (x : F32) : Bool := x.magBits == 255 * 2 ^ 23

/-- The magnitude with the given bits, in units of `2^-149`: subnormals are the multiples below `2^23`, and so on. -/
def magVal (b : Nat) : Nat := if b / 2 ^ 23 = 0 then b else (2 ^ 23 + b % 2 ^ 23) * 2 ^ (b / 2 ^ 23 - 1)
/-- The value of a finite float, in units of `2^-149`. -/
def val (x : F32) : Int := if x.neg? then -(magVal x.magBits : Int) else magVal x.magBits

/-- Integer nearest to `p / q`, ties to even. -/
def nearest (p q : Nat) : Nat :=
  if 2 * (p % q) > q ∨ (2 * (p % q) = q ∧ p / q % 2 = 1) then p / q + 1 else p / q
/-- The number of binary digits beyond 24 of `p / q`. -/
def shiftOf (p q : Nat) : Nat := (p / q).log2 - 23
/-- The bits of the magnitude nearest to `p / q` units, ties to even, or of infinity. -/
def roundMag (p q : Nat) : Nat :=
  let s := shiftOf p q
  min (s * 2 ^ 23 + nearest p (q * 2 ^ s)) (255 * 2 ^ 23)

/-- Put a sign to a magnitude. -/
def pack (s : Bool) (b : Nat) : F32 := UInt32.ofNat (if s then 2 ^ 31 + b else b)

/-- unary minus -/
def neg (x : F32) : F32 := pack (!x.neg?) x.magBits
/-- `std::abs` -/
def abs (x : F32) : F32 := pack false x.magBits

/-- `x + y` -/
def add (x y : F32) : F32 :=
  if x.isNan || y.isNan then nan
  else if x.isInf then (if y.isInf && x.neg? != y.neg? then nan else x)
  else if y.isInf then y
  else if x.val + y.val = 0 then pack (x.neg? && y.neg?) 0
  else pack (x.val + y.val < 0) (roundMag (x.val + y.val).natAbs 1)
/-- `x - y` -/
def sub (x y : F32) : F32 := x.add y.neg
/-- `x * y` -/
def mul (x y : F32) : F32 :=
  let s := x.neg? != y.neg?
  if x.isNan || y.isNan then nan
  else if x.isInf then (if y.magBits = 0 then nan else pack s (255 * 2 ^ 23))
  else if y.isInf then (if x.magBits = 0 then nan else pack s (255 * 2 ^ 23))
  else pack s (roundMag (magVal x.magBits * magVal y.magBits) (2 ^ 149))
/-- `x / y` -/
def div (x y : F32) : F32 :=
  let s := x.neg? != y.neg?
  if x.isNan || y.isNan then nan
  else if x.isInf then (if y.isInf then nan else pack s (255 * 2 ^ 23))
  else if y.isInf then pack s 0
  else if y.magBits = 0 then (if x.magBits = 0 then nan else pack s (255 * 2 ^ 23))
  else pack s (roundMag (magVal x.magBits * 2 ^ 149) (magVal y.magBits))

/-- `x < y`: infinities are ordered like larger magnitudes. -/
def lt (x y : F32) : Bool := !x.isNan && !y.isNan && decide (x.val < y.val)
/-- `x <= y` -/
def le (x y : F32) : Bool := !x.isNan && !y.isNan && decide (x.val ≤ y.val)

end F32
end Verif
