/-
Model of the EBML writing utilities, mkvmuxer/mkvmuxerutil.cc.

`uint64` values are naturals (meant to be `< 2^64`), `int64` values are integers.
The `!writer` null checks are not modelled: a `W` routine always has a sink.
-/
import Verif.Model.Sink

namespace Verif.Mux
open Verif

/-- `GetCodedUIntSize`, mkvmuxer/mkvmuxerutil.cc:184-200. -/
def getCodedUIntSize (value : Nat) : Nat :=
  if value < 0x7F then 1
  else if value < 0x3FFF then 2
  else if value < 0x1FFFFF then 3
  else if value < 0xFFFFFFF then 4
  else if value < 0x7FFFFFFFF then 5
  else if value < 0x3FFFFFFFFFF then 6
  else if value < 0x1FFFFFFFFFFFF then 7
  else 8

/-- `GetUIntSize`, mkvmuxer/mkvmuxerutil.cc:202-218. -/
def getUIntSize (value : Nat) : Nat :=
  if value < 0x100 then 1
  else if value < 0x10000 then 2
  else if value < 0x1000000 then 3
  else if value < 0x100000000 then 4
  else if value < 0x10000000000 then 5
  else if value < 0x1000000000000 then 6
  else if value < 0x100000000000000 then 7
  else 8

/-- `GetIntSize`, mkvmuxer/mkvmuxerutil.cc:220-225.  `value ^ -1` is the bitwise
complement, i.e. `-1 - value`; `2 * v` is `uint64` arithmetic (wraps). -/
def getIntSize (value : Int) : Nat :=
  let v : Nat := if value < 0 then (-1 - value).toNat else value.toNat
  getUIntSize (2 * v % 2 ^ 64)

/-- `EbmlMasterElementSize`, mkvmuxer/mkvmuxerutil.cc:227-235. -/
def ebmlMasterElementSize (type value : Nat) : Nat := getUIntSize type + getCodedUIntSize value

/-- `EbmlElementSize(uint64, int64)`, mkvmuxer/mkvmuxerutil.cc:237-248. -/
def ebmlElementSizeInt (type : Nat) (value : Int) : Nat := getUIntSize type + getIntSize value + 1

/-- `EbmlElementSize(uint64, uint64, uint64 fixed_size)`, mkvmuxer/mkvmuxerutil.cc:254-265. -/
def ebmlElementSizeUIntFixed (type value fixedSize : Nat) : Nat :=
  getUIntSize type + (if fixedSize > 0 then fixedSize else getUIntSize value) + 1

/-- `EbmlElementSize(uint64, uint64)`, mkvmuxer/mkvmuxerutil.cc:250-252. -/
def ebmlElementSizeUInt (type value : Nat) : Nat := ebmlElementSizeUIntFixed type value 0

/-- `EbmlElementSize(uint64, float)`, mkvmuxer/mkvmuxerutil.cc:267-278. -/
def ebmlElementSizeFloat (type : Nat) : Nat := getUIntSize type + 4 + 1

/-- `EbmlElementSize(uint64, const char*)`, mkvmuxer/mkvmuxerutil.cc:280-294.
A C string is `none` (null pointer) or the list of its characters before the
terminating NUL, so `strlen` is the list length. -/
def ebmlElementSizeString (type : Nat) (value : Option Bytes) : Nat :=
  match value with
  | none => 0
  | some v => getUIntSize type + v.length + getCodedUIntSize v.length

/-- `EbmlElementSize(uint64, const uint8*, uint64)`, mkvmuxer/mkvmuxerutil.cc:296-310.
A buffer is `none` (null pointer) or its contents; `size` is its length. -/
def ebmlElementSizeBinary (type : Nat) (value : Option Bytes) : Nat :=
  match value with
  | none => 0
  | some v => getUIntSize type + v.length + getCodedUIntSize v.length

/-- `kDateElementSize`, mkvmuxer/mkvmuxerutil.cc:33. -/
def kDateElementSize : Nat := 8

/-- `EbmlDateElementSize`, mkvmuxer/mkvmuxerutil.cc:312-323. -/
def ebmlDateElementSize (type : Nat) : Nat := getUIntSize type + kDateElementSize + 1

/-- One iteration of the loop of `SerializeInt`: `static_cast<uint8>(value >> (8 * n))`,
mkvmuxer/mkvmuxerutil.cc:331-333.  `>>` on `int64` is the arithmetic shift, i.e. floor
division. -/
def byteAt (value : Int) (n : Nat) : UInt8 := UInt8.ofNat ((value / 256 ^ n) % 256).toNat

/-- Loop of `SerializeInt`, mkvmuxer/mkvmuxerutil.cc:329-340; the argument is the number
of bytes still to write (`byte_count + 1`). -/
def serializeLoop (value : Int) : Nat → W Unit
  | 0 => pure ()
  | n + 1 => do
    Sink.write [byteAt value n]
    serializeLoop value n

/-- `SerializeInt`, mkvmuxer/mkvmuxerutil.cc:325-343.  A `uint64` argument is passed as the
non-negative integer; the conversion to `int64` in the code changes it by a multiple of
`2^64`, which no byte written depends on. -/
def serializeInt (value : Int) (size : Int) : W Unit :=
  if size < 1 ∨ size > 8 then W.fail (-1) else serializeLoop value size.toNat

/-- Loop of `SerializeFloat`, mkvmuxer/mkvmuxerutil.cc:358-368. -/
def serializeFloatLoop (bits : Nat) : Nat → W Unit
  | 0 => pure ()
  | n + 1 => do
    Sink.write [UInt8.ofNat (bits >>> (8 * n))]
    serializeFloatLoop bits n

/-- `SerializeFloat`, mkvmuxer/mkvmuxerutil.cc:345-371.  A `float` is represented by its
32-bit pattern. -/
def serializeFloat (bits : Nat) : W Unit := serializeFloatLoop bits 4

/-- Search loop of `WriteUIntSize` with `size == 0`, mkvmuxer/mkvmuxerutil.cc:396-407.
`none`: the loop reaches `size == 9`, where `1LL << 63` and `bit - 2` overflow `int64`. -/
def uintSizeLoop (value : Nat) : (fuel size : Nat) → Option Nat
  | 0, _ => none
  | f + 1, size => if value ≤ 2 ^ (size * 7) - 2 then some size else uintSizeLoop value f (size + 1)

/-- `WriteUIntSize`, mkvmuxer/mkvmuxerutil.cc:382-414. -/
def writeUIntSize (value : Nat) (size : Int) : W Unit :=
  if size < 0 ∨ size > 8 then W.fail (-1)
  else if size > 0 then
    let bit := 2 ^ (size.toNat * 7)
    if value > bit - 2 then W.fail (-1)
    else serializeInt ((value ||| bit : Nat) : Int) size
  else
    match uintSizeLoop value 8 1 with
    | none => W.ub
    | some sz => serializeInt ((value ||| 2 ^ (sz * 7) : Nat) : Int) sz

/-- `WriteUInt`, mkvmuxer/mkvmuxerutil.cc:373-380. -/
def writeUInt (value : Nat) : W Unit := writeUIntSize value (getCodedUIntSize value)

/-- `WriteID`, mkvmuxer/mkvmuxerutil.cc:416-425.  `ElementStartNotify` has no effect on the
output and is not modelled. -/
def writeID (type : Nat) : W Unit := serializeInt type (getUIntSize type)

/-- `WriteEbmlMasterElement`, mkvmuxer/mkvmuxerutil.cc:427-438. -/
def writeEbmlMasterElement (type size : Nat) : W Unit := do
  writeID type
  writeUInt size

/-- `WriteEbmlElement(uint64, uint64, uint64 fixed_size)`, mkvmuxer/mkvmuxerutil.cc:444-465. -/
def writeEbmlElementUIntFixed (type value fixedSize : Nat) : W Unit := do
  writeID type
  let size := getUIntSize value
  if fixedSize > 0 then
    if size > fixedSize then W.fail (-1)
    else do
      writeUInt fixedSize
      serializeInt value (toI32 fixedSize)
  else do
    writeUInt size
    serializeInt value (toI32 size)

/-- `WriteEbmlElement(uint64, uint64)`, mkvmuxer/mkvmuxerutil.cc:440-442. -/
def writeEbmlElementUInt (type value : Nat) : W Unit := writeEbmlElementUIntFixed type value 0

/-- `WriteEbmlElement(uint64, int64)`, mkvmuxer/mkvmuxerutil.cc:467-482. -/
def writeEbmlElementInt (type : Nat) (value : Int) : W Unit := do
  writeID type
  writeUInt (getIntSize value)
  serializeInt value (getIntSize value)

/-- `WriteEbmlElement(uint64, float)`, mkvmuxer/mkvmuxerutil.cc:484-498. -/
def writeEbmlElementFloat (type bits : Nat) : W Unit := do
  writeID type
  writeUInt 4
  serializeFloat bits

/-- `writer->Write(p, static_cast<uint32>(length))` as used for strings and binary data
(mkvmuxer/mkvmuxerutil.cc:511, 528): the length is truncated to 32 bits. -/
def writeBuf32 (v : Bytes) : W Unit := Sink.write (v.take (v.length % 2 ^ 32))

/-- `WriteEbmlElement(uint64, const char*)`, mkvmuxer/mkvmuxerutil.cc:500-515. -/
def writeEbmlElementString (type : Nat) (value : Option Bytes) : W Unit :=
  match value with
  | none => W.fail (-1)
  | some v => do
    writeID type
    writeUInt v.length
    writeBuf32 v

/-- `WriteEbmlElement(uint64, const uint8*, uint64)`, mkvmuxer/mkvmuxerutil.cc:517-532. -/
def writeEbmlElementBinary (type : Nat) (value : Option Bytes) : W Unit :=
  match value with
  | none => W.fail (-1)
  | some v =>
    if v.length < 1 then W.fail (-1)
    else do
      writeID type
      writeUInt v.length
      writeBuf32 v

/-- `WriteEbmlDateElement`, mkvmuxer/mkvmuxerutil.cc:534-548. -/
def writeEbmlDateElement (type : Nat) (value : Int) : W Unit := do
  writeID type
  writeUInt kDateElementSize
  serializeInt value kDateElementSize

/-- `libwebm::kMkvVoid`, common/webmids.h:23. -/
def kMkvVoid : Nat := 0xEC

/-- Zero-filling loop of `WriteVoidElement`, mkvmuxer/mkvmuxerutil.cc:593-597. -/
def voidFill : Nat → W Unit
  | 0 => pure ()
  | n + 1 => do
    Sink.write [0]
    voidFill n

/-- `WriteVoidElement`, mkvmuxer/mkvmuxerutil.cc:571-605.  All sums and differences are
`uint64` arithmetic; the loop bound is `static_cast<int32>(void_entry_size)`. -/
def writeVoidElement (size : Nat) : W Nat :=
  let voidEntrySize := subU64 (subU64 size 1) (getCodedUIntSize (subU64 size 1))
  let voidSize := (ebmlMasterElementSize kMkvVoid voidEntrySize + voidEntrySize) % 2 ^ 64
  if voidSize ≠ size then W.fail 0
  else do
    let payloadPosition ← Sink.position
    writeID kMkvVoid
    writeUInt voidEntrySize
    voidFill (toI32 voidEntrySize).toNat
    let stopPosition ← Sink.position
    if (stopPosition : Int) - payloadPosition ≠ toI64 voidSize then W.fail 0
    else pure voidSize

end Verif.Mux
