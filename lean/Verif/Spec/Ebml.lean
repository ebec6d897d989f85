/-
Specification of the EBML encoding (RFC 8794), independent of libwebm's code.
-/
import Verif.Base.Bytes

namespace Verif.Spec

/-- A variable-size integer of width `n` bytes with value `v`: the bits
`0…0 1 v` with `n - 1` zeros, the marker, and `7 n` value bits (RFC 8794, section 4). -/
def vint (n v : Nat) : Bytes := beBytes n (2 ^ (7 * n) + v)

/-- `bs` is the variable-size integer encoding of `v` on one to eight bytes. -/
def IsVint (bs : Bytes) (v : Nat) : Prop :=
  1 ≤ bs.length ∧ bs.length ≤ 8 ∧ v < 2 ^ (7 * bs.length) ∧ bs = vint bs.length v

/-- A well-formed `n`-byte element ID, marker bit included, at most four bytes. -/
def IsId (n id : Nat) : Prop := 1 ≤ n ∧ n ≤ 4 ∧ 2 ^ (7 * n) ≤ id ∧ id < 2 ^ (7 * n + 1)

/-- Least number of bytes (at least one) that can hold `v` as an unsigned number. -/
def byteWidth (v : Nat) : Nat := if v < 256 then 1 else byteWidth (v / 256) + 1
  termination_by v
  decreasing_by omega

/-- Width of the shortest size field (of at least `n`, at most eight bytes) for `v` that is
not the reserved all-ones pattern; eight when none can hold `v`. -/
def sizeWidthFrom (v n : Nat) : Nat :=
  if v + 1 < 2 ^ (7 * n) ∨ 8 ≤ n then n else sizeWidthFrom v (n + 1)
  termination_by 8 - n

/-- Width of the shortest size field for `v`. -/
def sizeWidth (v : Nat) : Nat := sizeWidthFrom v 1

/-- The two's complement encoding of `v` on `n` bytes. -/
def twosBytes (n : Nat) (v : Int) : Bytes := beBytes n (v % 2 ^ (8 * n)).toNat

/-- The signed number denoted by a big-endian two's complement byte string. -/
def twosVal (bs : Bytes) : Int :=
  if beVal bs < 2 ^ (8 * bs.length - 1) then beVal bs else (beVal bs : Int) - 2 ^ (8 * bs.length)

/-- `v` fits in `n` bytes of two's complement. -/
def FitsSigned (n : Nat) (v : Int) : Prop := -(2 : Int) ^ (8 * n - 1) ≤ v ∧ v < 2 ^ (8 * n - 1)

/-- A whole element: ID, shortest size field, payload. -/
def element (id : Nat) (payload : Bytes) : Bytes :=
  beBytes (byteWidth id) id ++ vint (sizeWidth payload.length) payload.length ++ payload

end Verif.Spec
