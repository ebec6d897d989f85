/-
Model of the muxer's frames and of how a frame becomes a block,
mkvmuxer/mkvmuxer.cc:178-285 and mkvmuxer/mkvmuxerutil.cc:35-180, 550-569.
-/
import Verif.Model.MuxerUtil

namespace Verif.Mux
open Verif

/-- `mkvmuxer::Frame`, mkvmuxer/mkvmuxer.h:84-176.  `frame` and `additional` are the buffers
(`length_` and `additional_length_` are their lengths); a null `frame_` goes with length 0
(`Init` is the only way to set either) and is the empty list. -/
structure Frame where
  addId : Nat := 0
  additional : Option Bytes := none
  duration : Nat := 0
  durationSet : Bool := false
  frame : Bytes := []
  isKey : Bool := false
  trackNumber : Nat := 0
  timestamp : Nat := 0
  discardPadding : Int := 0
  referenceBlockTimestamp : Int := 0
  referenceBlockTimestampSet : Bool := false
  deriving DecidableEq, Repr

/-- `kMaxTrackNumber`, mkvmuxer/mkvmuxer.h:33. -/
def kMaxTrackNumber : Nat := 126

/-- `kMaxBlockTimecode`, mkvmuxer/mkvmuxerutil.h:29. -/
def kMaxBlockTimecode : Int := 0x7FFF

/-- `Frame::CanBeSimpleBlock`, mkvmuxer/mkvmuxer.cc:273-275. -/
def Frame.canBeSimpleBlock (f : Frame) : Bool :=
  f.additional.isNone && f.discardPadding == 0 && f.duration == 0

/-- `Frame::IsValid`, mkvmuxer/mkvmuxer.cc:256-271. -/
def Frame.isValid (f : Frame) : Bool :=
  if f.frame.length = 0 then false
  else if f.additional = some [] then false
  else if f.trackNumber = 0 ∨ f.trackNumber > kMaxTrackNumber then false
  else if !f.canBeSimpleBlock && !f.isKey && !f.referenceBlockTimestampSet then false
  else true

/-- `Frame::CopyFrom` into a fresh frame, mkvmuxer/mkvmuxer.cc:201-228 (allocation succeeds):
additional data of length 0 is not copied. -/
def Frame.copy (f : Frame) : Frame :=
  match f.additional with
  | some (b :: bs) => { f with additional := some (b :: bs) }
  | _ => { f with additional := none, addId := 0 }

/-- Sizes computed at the head of `WriteBlock`, mkvmuxer/mkvmuxerutil.cc:37-97.
Simplification: the `uint64` sums do not wrap (they are sizes of buffers in memory). -/
structure BlockSizes where
  morePayload : Nat
  additionsPayload : Nat
  blockPayload : Nat
  groupPayload : Nat

/-- `frame->reference_block_timestamp() / timecode_scale`: the `int64` is converted to `uint64`,
mkvmuxer/mkvmuxerutil.cc:69-70. -/
def Frame.refTime (f : Frame) (scale : Nat) : Nat := toU64 f.referenceBlockTimestamp / scale

def Frame.blockSizes (f : Frame) (scale : Nat) : BlockSizes :=
  let additionalSize := ebmlElementSizeBinary 0xA5 f.additional
  let addIdSize := ebmlElementSizeUInt 0xEE f.addId
  let morePayload := if f.additional.isSome then addIdSize + additionalSize else 0
  let additionsPayload :=
    if f.additional.isSome then ebmlMasterElementSize 0xA6 morePayload + morePayload else 0
  let additionsElem :=
    if f.additional.isSome then
      ebmlMasterElementSize 0x75A1 additionsPayload + additionsPayload else 0
  let discardElem := if f.discardPadding ≠ 0 then ebmlElementSizeInt 0x75A2 f.discardPadding else 0
  let refElem := if !f.isKey then ebmlElementSizeUInt 0xFB (f.refTime scale) else 0
  let dur := f.duration / scale
  let durElem := if dur > 0 then ebmlElementSizeUInt 0x9B dur else 0
  let blockPayload := 4 + f.frame.length
  let blockElem := ebmlMasterElementSize 0xA1 blockPayload + blockPayload
  { morePayload := morePayload
    additionsPayload := additionsPayload
    blockPayload := blockPayload
    groupPayload := blockElem + additionsElem + durElem + discardElem + refElem }

/-- A write made only under a condition. -/
def W.when (c : Bool) (w : W Unit) : W Unit := if c then w else pure ()

/-- Writing of the BlockAdditions, mkvmuxer/mkvmuxerutil.cc:121-141. -/
def writeAdditions (f : Frame) (z : BlockSizes) : W Unit :=
  if f.additional.isSome then do
    writeEbmlMasterElement 0x75A1 z.additionsPayload
    writeEbmlMasterElement 0xA6 z.morePayload
    writeEbmlElementUInt 0xEE f.addId
    writeEbmlElementBinary 0xA5 f.additional
  else pure ()

/-- `WriteBlock`, mkvmuxer/mkvmuxerutil.cc:35-151.  The returned size is 0 on failure; the
model returns an error then. -/
def writeBlock (f : Frame) (timecode : Int) (scale : Nat) : W Nat := do
  let z := f.blockSizes scale
  writeEbmlMasterElement 0xA0 z.groupPayload
  writeEbmlMasterElement 0xA1 z.blockPayload
  writeUInt f.trackNumber
  serializeInt timecode 2
  serializeInt 0 1
  writeBuf32 f.frame
  writeAdditions f z
  W.when (f.discardPadding ≠ 0) (writeEbmlElementInt 0x75A2 f.discardPadding)
  W.when (!f.isKey) (writeEbmlElementUInt 0xFB (f.refTime scale))
  W.when (f.duration / scale > 0) (writeEbmlElementUInt 0x9B (f.duration / scale))
  pure (ebmlMasterElementSize 0xA0 z.groupPayload + z.groupPayload)

/-- `WriteSimpleBlock`, mkvmuxer/mkvmuxerutil.cc:153-180.  The size is computed in `int32`:
adding 4 may overflow (undefined), and a negative size is converted to `uint64`. -/
def writeSimpleBlock (f : Frame) (timecode : Int) : W Nat := do
  writeID 0xA3
  let size : Int := toI32 f.frame.length + 4
  if size > 2 ^ 31 - 1 then W.ub
  else do
    writeUInt (toU64 size)
    writeUInt f.trackNumber
    serializeInt timecode 2
    serializeInt (if f.isKey then 0x80 else 0) 1
    writeBuf32 f.frame
    pure (getUIntSize 0xA3 + getCodedUIntSize (toU64 size) + 4 + f.frame.length)

/-- `Cluster::GetRelativeTimecode`, mkvmuxer/mkvmuxer.cc:2642-2651.  (`uint64` values are
converted to `int64`.) -/
def getRelativeTimecode (clusterTimecode : Nat) (absTimecode : Int) : Int :=
  let rel := absTimecode - toI64 clusterTimecode
  if rel < 0 ∨ rel > kMaxBlockTimecode then -1 else rel

/-- `WriteFrame`, mkvmuxer/mkvmuxerutil.cc:550-569, for a cluster with the given time code and
scale; failure is returned as 0 in the code, as an error here. -/
def writeFrame (f : Frame) (clusterTimecode scale : Nat) : W Nat :=
  if !f.isValid ∨ scale = 0 then W.fail 0
  else
    let rel := getRelativeTimecode clusterTimecode (toI64 (f.timestamp / scale))
    if rel < 0 ∨ rel > kMaxBlockTimecode then W.fail 0
    else if f.canBeSimpleBlock then writeSimpleBlock f rel
    else writeBlock f rel scale

end Verif.Mux
