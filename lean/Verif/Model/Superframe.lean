/-
VP9 superframe index parsing, transcribed from `common/libwebm_util.cc`.
-/
import Verif.Base.Res
import Verif.Base.Bytes

namespace Verif.Vp9

/-- A range of a frame (`Range`, common/libwebm_util.h:33-41). -/
structure Range where
  offset : Nat
  length : Nat
  deriving DecidableEq, Repr

/-- What `ParseVP9SuperFrameIndex` reports: no index (returns false, `*error` untouched), an
index (returns true with the ranges), or an error (returns false, `*error` set). -/
inductive SfRes where
  | noIndex
  | index (rs : List Range)
  | error
  deriving DecidableEq, Repr

/-- The inner loop reading one length, least significant byte first, with
`child_frame_length |= byte << (j * 8)` on `uint32` (common/libwebm_util.cc:66-70).  Reads
past the frame do not occur: see `parseSuperframe`. -/
def childLength (j : Nat) (acc : Nat) : Bytes → Nat
  | [] => acc
  | b :: bs => childLength (j + 1) (acc ||| (b.toNat <<< (j * 8)) % 2 ^ 32) bs

/-- The loop over the index entries (common/libwebm_util.cc:64-81).  `bytes` are the bytes
from `*byte` on; `length` is the number of bytes before the index. -/
def sfLoop (length fieldSize : Nat) : Nat → Nat → Bytes → SfRes
  | 0, _, _ => .index []
  | n + 1, off, bytes =>
    let child := childLength 0 0 (bytes.take fieldSize)
    if length - off < child then .error
    else
      match sfLoop length fieldSize n (off + child) (bytes.drop fieldSize) with
      | .index rs => .index (⟨off, child⟩ :: rs)
      | other => other

/-- `ParseVP9SuperFrameIndex` (common/libwebm_util.cc:27-96).  Simplified: the output vector
is taken to be empty on entry (as in the only caller, m2ts/webm2pes.cc:440), so the check of
its size at lines 83-88 always passes; pointers are not null.  Every index used is inside the
frame: `frame_length - 1` since the frame is not empty, and the `index_length` bytes at
`length` since `length + index_length = frame_length`. -/
def parseSuperframe (frame : Bytes) : SfRes :=
  if frame.length = 0 then .noIndex
  else
    let marker := (frame.getLastD 0).toNat
    if marker &&& 0xe0 = 0xc0 then
      let numFrames := (marker &&& 0x7) + 1
      let fieldSize := ((marker >>> 3) &&& 0x3) + 1
      let indexLength := 2 + fieldSize * numFrames
      if frame.length < indexLength then .error
      else
        let length := frame.length - indexLength
        if length ≥ indexLength ∧ (frame.drop length).headD 0 = frame.getLastD 0 then
          sfLoop length fieldSize numFrames 0 (frame.drop (length + 1))
        else .error
    else .noIndex

end Verif.Vp9
