/-
VPx codec private data (common/hdr_util.cc:143-220).
-/
import Verif.Base.Res
import Verif.Base.Bytes

namespace Verif.Vp9
open Verif

/-- `Vp9CodecFeatures` (common/hdr_util.h:34-48): `none` is `kValueNotPresent`. -/
structure Features where
  profile : Option Nat := none
  level : Option Nat := none
  bitDepth : Option Nat := none
  chroma : Option Nat := none
  deriving DecidableEq, Repr

/-- `levels` (common/hdr_util.cc:178-179). -/
def kLevels : List Nat := [10, 11, 20, 21, 30, 31, 40, 41, 50, 51, 52, 60, 61, 62]

/-- The test `present ≠ kValueNotPresent && present ≠ value` of every branch. -/
def conflicts (present : Option Nat) (value : Nat) : Bool :=
  match present with
  | none => false
  | some v => v ≠ value

/-- One turn of the loop on a record (common/hdr_util.cc:166-216), after the length byte has been
checked. -/
def feature (f : Features) (id value : Nat) : Option Features :=
  if id = 1 then
    if value > 3 then none
    else if conflicts f.profile value then none
    else some { f with profile := some value }
  else if id = 2 then
    if value ∈ kLevels then
      if conflicts f.level value then none else some { f with level := some value }
    else if f.level = none then none
    else some f
  else if id = 3 then
    if value ≠ 8 ∧ value ≠ 10 ∧ value ≠ 12 then none
    else if conflicts f.bitDepth value then none
    else some { f with bitDepth := some value }
  else if id = 4 then
    if value ≠ 0 ∧ value ≠ 1 ∧ value ≠ 2 ∧ value ≠ 3 then none
    else if conflicts f.chroma value then none
    else some { f with chroma := some value }
  else none

/-- The `do` loop (common/hdr_util.cc:161-217).  Every access `private_data[offset]` outside
`data` is `ub`; `length` is the value passed by the caller.  A refusal is `err`. -/
def privateLoop (data : Bytes) (length : Nat) (offset : Nat) (f : Features) : Res Features :=
  match data[offset]?, data[offset + 1]? with
  | some id, some len =>
    if len.toNat ≠ 1 then .err 0
    else if id.toNat = 1 ∨ id.toNat = 2 ∨ id.toNat = 3 ∨ id.toNat = 4 then
      match data[offset + 2]? with
      | some v =>
        match feature f id.toNat v.toNat with
        | none => .err 0
        | some f' => if offset + 3 + 3 ≤ length then privateLoop data length (offset + 3) f'
                     else .ok f'
      | none => .ub
    else .err 0
  | _, _ => .ub
termination_by length - offset

/-- `ParseVpxCodecPrivate` (common/hdr_util.cc:143-220), for a non-null pointer to `data` and a
`length` given by the caller. -/
def parsePrivate (data : Bytes) (length : Int) : Res Features :=
  if length < 3 then .err 0 else privateLoop data length.toNat 0 {}

end Verif.Vp9
