/-
Times in nanoseconds and in ticks of 1/90000 s: libwebm_util.cc, with the arithmetic of `double`.

A nonnegative `double` (IEEE 754 binary64) is a whole number of units of 2^-1074, the smallest positive one, and is
modelled as that number.  Results are rounded to the nearest, ties to even, as is the default.  Infinities do not occur:
the numbers converted here are below 2^63.
-/
import Verif.Base.Res
import Verif.Base.Bytes

namespace Verif.Ticks
open Verif

/-- The number 1 in units of 2^-1074. -/
def one : Nat := 2 ^ 1074

/-- The distance of neighbouring doubles, for a number of this size: doubles have 53 bits. -/
def ulp (x : Nat) : Nat := 2 ^ (x.log2 - 52)

/-- The whole number next to `a / b`, of two that are equally near the even one. -/
def nearest (a b : Nat) : Nat :=
  if 2 * (a % b) < b ∨ (2 * (a % b) = b ∧ (a / b) % 2 = 0) then a / b else a / b + 1

/-- The double next to `a / b` (units). -/
def round (a b : Nat) : Nat := nearest a (b * ulp (a / b)) * ulp (a / b)

/-- Conversion of an integer to `double`. -/
def ofNat (n : Nat) : Nat := round (n * one) 1

/-- `x / c`, where `c` is a whole number. -/
def div (x c : Nat) : Nat := round x c

/-- `x * c`, where `c` is a whole number. -/
def mul (x c : Nat) : Nat := round (x * c) 1

/-- Conversion of a `double` to an integer: truncation. -/
def toNat (x : Nat) : Nat := x / one

/-- An odd function, from its values at nonnegative numbers: the operations round negative numbers like positive ones. -/
def odd (f : Nat → Nat) (x : Int) : Int := if x < 0 then -(f x.natAbs : Int) else (f x.natAbs : Int)

/-- `NanosecondsTo90KhzTicks`, common/libwebm_util.cc:17-20. -/
def nanosecondsTo90KhzTicks (ns : Int) : Int := odd (fun n => toNat (mul (div (ofNat n) 1000000000) 90000)) ns

/-- `Khz90TicksToNanoseconds`, common/libwebm_util.cc:22-25. -/
def khz90TicksToNanoseconds (ticks : Int) : Int := odd (fun n => toNat (mul (div (ofNat n) 90000) 1000000000)) ticks

end Verif.Ticks
