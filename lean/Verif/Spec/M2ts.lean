/-
Reference notions for the MPEG-2 output: start codes, the demultiplexing of transport
packets, and the layout of a VP9 superframe.  Of the model, only the type of ranges is used.
-/
import Verif.Base.Bytes
import Verif.Model.Superframe

namespace Verif.Spec

/-- The byte string contains the start code prefix `00 00 01`. -/
def HasStartCode (bs : Bytes) : Prop := [0, 0, 1] <:+: bs

/-- A run of three zeros is followed by `01` or `03` somewhere in the byte string. -/
def LongRun (bs : Bytes) : Prop := [0, 0, 0, 1] <:+: bs ∨ [0, 0, 0, 3] <:+: bs

instance (bs : Bytes) : Decidable (HasStartCode bs) := by unfold HasStartCode; infer_instance
instance (bs : Bytes) : Decidable (LongRun bs) := by unfold LongRun; infer_instance

/-- What a receiver sees in a transport packet (ISO/IEC 13818-1, 2.4.3.2): sync byte 0x47,
payload-unit-start flag (bit 6 of byte 1), 13-bit PID, adaptation field flag (bit 5 of byte 3),
payload flag (bit 4), continuity counter (low four bits), and the payload, which follows the
adaptation field if there is one (a length byte and that many bytes). -/
structure TsView where
  start : Bool
  pid : Nat
  counter : Nat
  payload : Bytes
  deriving DecidableEq, Repr

/-- A receiver's reading of 188 bytes as a transport packet. -/
def tsView (pkt : Bytes) : Option TsView :=
  match pkt with
  | b0 :: b1 :: b2 :: b3 :: body =>
    if pkt.length = 188 ∧ b0 = 0x47 ∧ b1.toNat / 128 = 0 ∧ b3.toNat / 64 = 0 ∧
        b3.toNat / 16 % 2 = 1 then
      let view := fun payload =>
        { start := b1.toNat / 64 % 2 = 1, pid := b1.toNat % 32 * 256 + b2.toNat,
          counter := b3.toNat % 16, payload := payload : TsView }
      if b3.toNat / 32 % 2 = 1 then
        match body with
        | n :: rest => if n.toNat ≤ rest.length then some (view (rest.drop n.toNat)) else none
        | [] => none
      else some (view body)
    else none
  | _ => none

/-- A presentation time below `2^31` whose bits 22 to 29 are all among its bits 7 to 14. -/
def PtsKept (pts : Nat) : Prop :=
  pts < 2147483648 ∧ pts / 128 % 256 ||| pts / 4194304 % 256 = pts / 128 % 256

instance (pts : Nat) : Decidable (PtsKept pts) := by unfold PtsKept; infer_instance

/-- The number denoted by a byte string, least significant byte first. -/
def leVal : Bytes → Nat
  | [] => 0
  | b :: bs => b.toNat + 256 * leVal bs

/-- The superframe made of a body and an index of `sizes`, each stored in `mag` bytes, least
significant first, between two copies of the marker byte `110 mm nnn`. -/
def SuperframeLayout (frame body : Bytes) (mag : Nat) (sizes : List Nat) : Prop :=
  ∃ fields : List Bytes,
    1 ≤ mag ∧ mag ≤ 4 ∧ 1 ≤ sizes.length ∧ sizes.length ≤ 8 ∧
    fields.map leVal = sizes ∧ (∀ f ∈ fields, f.length = mag) ∧
    let marker := UInt8.ofNat (0xc0 + 8 * (mag - 1) + (sizes.length - 1))
    frame = body ++ [marker] ++ fields.flatten ++ [marker]

/-- Ranges of the given sizes, one after the other from `off` on. -/
def consecutive : Nat → List Nat → List Vp9.Range
  | _, [] => []
  | off, n :: ns => ⟨off, n⟩ :: consecutive (off + n) ns

end Verif.Spec
