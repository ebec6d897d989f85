/-
The duration of a file, as a number.
-/
import Verif.Spec.Headers

namespace Verif.Spec
open Verif

/-- The float with these bits is positive and finite, and is `ns / scale` up to one part in 2²³. (`floatUnits b / 2¹⁴⁹` is its
value.) -/
def IsAbout (bits : Nat) (ns scale : Nat) : Prop :=
  bits < 255 * 2 ^ 23 ∧ 0 < floatUnits (UInt32.ofNat bits) ∧
    2 ^ 23 * (floatUnits (UInt32.ofNat bits) * scale) ≤ (2 ^ 23 + 1) * (ns * 2 ^ 149 : Nat) ∧
    (2 ^ 23 - 1) * (ns * 2 ^ 149 : Nat) ≤ 2 ^ 23 * (floatUnits (UInt32.ofNat bits) * scale)

/-- The float with these bits is not less than `ns / scale`, up to one part in 2²³. -/
def IsAtLeast (bits : Nat) (ns scale : Nat) : Prop :=
  bits < 255 * 2 ^ 23 ∧ (2 ^ 23 - 1) * (ns * 2 ^ 149 : Nat) ≤ 2 ^ 23 * (floatUnits (UInt32.ofNat bits) * scale)

end Verif.Spec
