/-
The PES writer (`m2ts/webm2pes.{h,cc}`) and the PES reader (`m2ts/vpxpes_parser.{h,cc}`).
-/
import Verif.Base.Res
import Verif.Base.Bytes
import Verif.Model.Superframe

namespace Verif.Pes
open Vp9

/-! ### Escaping -/

/-- The loop of `CopyAndEscapeStartCodes` (m2ts/webm2pes.cc:533-547): `zeros` is
`num_zeros`.  Simplified: `num_zeros` is an `int` and would overflow on a run of `2^31`
zeros; here it does not. -/
def escapeLoop : Nat → Bytes → Bytes
  | _, [] => []
  | zeros, b :: bs =>
    if b = 0 then b :: escapeLoop (zeros + 1) bs
    else if zeros ≥ 2 ∧ (b = 1 ∨ b = 3) then 3 :: b :: escapeLoop 0 bs
    else b :: escapeLoop 0 bs

/-- `CopyAndEscapeStartCodes` (m2ts/webm2pes.cc:527-550): the bytes appended to the packet,
or `none` where it returns false. -/
def escape (raw : Bytes) : Option Bytes :=
  if raw.length < 1 then none else some (escapeLoop 0 raw)

/-! ### Headers -/

/-- The 40 PTS bits as assembled by `PesOptionalHeader::SetPtsBits`
(m2ts/webm2pes.cc:35-78), a `uint64`.  Arithmetic right shift followed by a mask below bit 33
reads the same bits of the two's complement representation, which is what is used here. -/
def ptsBits (pts90khz : Int) : Nat :=
  let u := toU64 pts90khz
  let pts1 := (u >>> 30) &&& 0x7
  let pts2 := (u >>> 15) &&& 0x7FFF
  let pts3 := u &&& 0x7FFF
  let bits := 0
  let bits := bits ||| ((pts3 <<< 1) &&& 0xff)
  let bits := bits ||| 1
  let bits := bits <<< 8
  let bits := bits ||| ((pts3 >>> 7) &&& 0xff)
  let bits := bits <<< 8
  let bits := bits ||| (pts2 <<< 1)
  let bits := bits ||| 1
  let bits := bits <<< 8
  let bits := bits ||| ((pts2 >>> 7) &&& 0xff)
  let bits := bits <<< 8
  let bits := bits ||| (1 <<< 5)
  let bits := bits ||| (pts1 <<< 1)
  let bits := bits ||| 1
  bits

/-- The five PTS bytes stored by `PesOptionalHeader::Write` (m2ts/webm2pes.cc:125-131). -/
def ptsBytes (pts90khz : Int) : Bytes :=
  let bits := ptsBits pts90khz
  [UInt8.ofNat (bits &&& 0xff), UInt8.ofNat ((bits >>> 8) &&& 0xff),
   UInt8.ofNat ((bits >>> 16) &&& 0xff), UInt8.ofNat ((bits >>> 24) &&& 0xff),
   UInt8.ofNat ((bits >>> 32) &&& 0xff)]

/-- The nine bytes assembled by `PesOptionalHeader::Write` (m2ts/webm2pes.cc:82-138), with
the constant fields of m2ts/webm2pes.h:64-110: marker 2 shifted by 6, `has_pts` 1 shifted by
7, remaining size 6, and one or six stuffing bytes.  The `Check()`s of lines 92-99 hold for
these constants. -/
def optionalHeader (writePts : Bool) (pts90khz : Int) : Bytes :=
  [UInt8.ofNat (2 <<< 6), if writePts then UInt8.ofNat (1 <<< 7) else 0, 6] ++
    if writePts then ptsBytes pts90khz ++ [0xff] else List.replicate 6 0xff

/-- `PesHeader::Write` (m2ts/webm2pes.cc:177-208).  `packetLength` is the `uint16` field. -/
def pesHeader (writePts : Bool) (packetLength : Nat) (pts90khz : Int) : Option Bytes :=
  let headerLength := packetLength + 9
  if headerLength > 0xFFFF then none
  else do
    let opt ← escape (optionalHeader writePts pts90khz)
    some ([0x00, 0x00, 0x01, 0xE0] ++ beBytes 2 headerLength ++ opt)

/-- `BCMVHeader::Write` (m2ts/webm2pes.cc:148-169); `length` is the `uint32` frame length. -/
def bcmvHeader (length : Nat) : Option Bytes := do
  let total := (length + 10) % 2 ^ 32
  let rest ← escape (beBytes 4 total ++ [0, 0])
  some ([0x42, 0x43, 0x4D, 0x56] ++ rest)

/-- `Webm2Pes::kMaxPayloadSize` (m2ts/webm2pes.cc:21). -/
def kMaxPayloadSize : Nat := 32768

/-- The `while (extra_bytes)` loop of `WritePesPacket` (m2ts/webm2pes.cc:501-521): fragments
without PTS and BCMV header.  `rest` are the bytes from `payload_start + bytes_copied` on. -/
def fragments (pts90khz : Int) (extra : Nat) (rest : Bytes) : Option Bytes :=
  if h : extra = 0 then some []
  else do
    let n := min kMaxPayloadSize extra
    let hdr ← pesHeader false (n % 2 ^ 16) pts90khz
    let body ← escape (rest.take n)
    let more ← fragments pts90khz (extra - n) (rest.drop n)
    some (hdr ++ body ++ more)
termination_by extra
decreasing_by
  have : 0 < kMaxPayloadSize := by decide
  omega

/-- The body of the loop over the ranges in `WritePesPacket` (m2ts/webm2pes.cc:463-522). -/
def writeRange (data : Bytes) (pts90khz : Int) (r : Range) : Option Bytes :=
  let extra := if r.length > kMaxPayloadSize then r.length - kMaxPayloadSize else 0
  if r.length + r.offset > data.length then none
  else do
    let hdr ← pesHeader true ((r.length - extra + 10) % 2 ^ 16) pts90khz
    let bcmv ← bcmvHeader (r.length % 2 ^ 32)
    let payload := data.drop r.offset
    let body ← escape (payload.take (r.length - extra))
    let more ← fragments pts90khz extra (payload.drop (r.length - extra))
    some (hdr ++ bcmv ++ body ++ more)

/-- The loop over the ranges (m2ts/webm2pes.cc:463-523). -/
def writeRanges (data : Bytes) (pts90khz : Int) : List Range → Option Bytes
  | [] => some []
  | r :: rs => do
    let a ← writeRange data pts90khz r
    let b ← writeRanges data pts90khz rs
    some (a ++ b)

/-- `Webm2Pes::WritePesPacket` (m2ts/webm2pes.cc:435-525).  The frame is given by its codec,
its bytes and its time in 90 kHz ticks (for the conversion from nanoseconds see `Verif.Ticks`). -/
def writePesPacket (isVp9 : Bool) (data : Bytes) (pts90khz : Int) : Option Bytes :=
  if data.length < 1 then none
  else if isVp9 then
    match parseSuperframe data with
    | .error => none
    | .index rs => writeRanges data pts90khz rs
    | .noIndex => writeRanges data pts90khz [⟨0, data.length⟩]
  else writeRanges data pts90khz [⟨0, data.length⟩]

/-! ### The reader -/

/-- The loop of `RemoveStartCodeEmulationPreventionBytes` (m2ts/vpxpes_parser.cc:308-331):
`required` bytes still to copy, from the bytes at the read position.  The bound check at line
314 is `raw_data + i > end_of_input`, so the loop reads one byte past the data before it
notices: that read is `ub` here. -/
def unescapeLoop : Nat → Nat → Bytes → Res (Bytes × Nat)
  | _, 0, _ => .ok ([], 0)
  | _, _ + 1, [] => .ub
  | zeros, required + 1, b :: bs =>
    if b = 0 then do
      let (out, n) ← unescapeLoop (zeros + 1) required bs
      .ok (b :: out, n + 1)
    else if b = 3 ∧ zeros = 2 then do
      let (out, n) ← unescapeLoop 0 (required + 1) bs
      .ok (out, n + 1)
    else do
      let (out, n) ← unescapeLoop 0 required bs
      .ok (b :: out, n + 1)

/-- `RemoveStartCodeEmulationPreventionBytes` (m2ts/vpxpes_parser.cc:301-335): the bytes
appended to the output and the number of bytes consumed. -/
def unescape (required : Nat) (raw : Bytes) : Res (Bytes × Nat) :=
  if required = 0 then .err 0 else unescapeLoop 0 required raw

/-- `VpxPesParser::ParseState` (m2ts/vpxpes_parser.h:29-34). -/
inductive PState where
  | findStartCode | parsePesHeader | parsePesOptionalHeader | parseBcmvHeader
  deriving DecidableEq, Repr

/-- The parser object (m2ts/vpxpes_parser.h:172-176).  `pes_file_size_` equals
`pes_file_data_.size()` once `Open` has succeeded (m2ts/vpxpes_parser.cc:40-61). -/
structure Parser where
  data : Bytes
  payload : Bytes := []
  pos : Nat := 0
  state : PState := .findStartCode
  deriving DecidableEq, Repr

/-- `VpxPesParser::PesHeader` with the fields of its optional and BCMV headers that are
checked or used (m2ts/vpxpes_parser.h:36-82).  The remaining ones (marker, scrambling,
priority, data alignment, copyright, original, unused, stuffing) are stored by the code and
never looked at. -/
structure Header where
  packetLength : Nat := 0
  streamId : Nat := 0
  hasPts : Nat := 0
  hasDts : Nat := 0
  pts : Nat := 0
  bcmvLength : Nat := 0
  deriving DecidableEq, Repr

/-- Bytes from position `pos` on. -/
def Parser.rest (p : Parser) : Bytes := p.data.drop p.pos

/-- `VerifyPacketStartCode` (m2ts/vpxpes_parser.cc:63-75).  The bound check is off by one, so
with exactly two bytes left the third is read past the end. -/
def Parser.verifyStartCode (p : Parser) : Res Bool :=
  if p.pos + 2 > p.data.length then .ok false
  else
    match p.rest with
    | a :: b :: c :: _ => .ok (decide (a = 0 ∧ b = 0 ∧ c = 1))
    | [a, b] => if a ≠ 0 ∨ b ≠ 0 then .ok false else .ub
    | _ => .ub

/-- `BytesAvailable` (m2ts/vpxpes_parser.cc:337-339). -/
def Parser.bytesAvailable (p : Parser) : Int := toI32 (subU64 p.data.length p.pos)

/-- `ParsePesHeader` (m2ts/vpxpes_parser.cc:94-120), with `ReadStreamId` (lines 77-83) and
`ReadPacketLength` (lines 85-92).  Line 103 copies four bytes before any length is known to
be there. -/
def Parser.parsePesHeader (p : Parser) (h : Header) : Res Header × Parser :=
  if p.state ≠ .parsePesHeader then (.err 0, p)
  else
    match p.verifyStartCode with
    | .ub => (.ub, p)
    | .err c => (.err c, p)
    | .ok false => (.err 0, p)
    | .ok true =>
      if p.data.length < p.pos + 4 then (.ub, p)
      else if p.bytesAvailable < 4 then (.err 0, p)
      else
        let streamId := (p.rest.getD 3 0).toNat
        if streamId < 0xE0 ∨ streamId > 0xEF then (.err 0, p)
        else if p.bytesAvailable < 6 then (.err 0, p)
        else
          let len := ((p.rest.getD 4 0).toNat <<< 8) ||| (p.rest.getD 5 0).toNat
          (.ok { h with streamId := streamId, packetLength := len },
           { p with pos := p.pos + 6, state := .parsePesOptionalHeader })

/-- `ReadUint16` (common/libwebm_util.cc:104-108). -/
def readUint16 (a b : UInt8) : Nat := (a.toNat <<< 8) ||| b.toNat

/-- The PTS as computed at m2ts/vpxpes_parser.cc:176-178.  The shifts are done in 32-bit
`int` (taken modulo `2^32`, as every compiler does and C++20 requires; earlier standards leave
`0xe << 29` undefined) and the result is converted to `uint64`. -/
def readPts (b0 b1 b2 b3 b4 : UInt8) : Nat :=
  let v : Nat := ((((b0.toNat &&& 0xe) <<< 29) ||| ((readUint16 b1 b2 &&& 0xFFFE) <<< 14)) |||
    (readUint16 b3 b4 >>> 1)) % 2 ^ 32
  toU64 (toI32 v)

/-- The optional header fields read from the nine unescaped bytes
(m2ts/vpxpes_parser.cc:138-188).  The caller passes exactly nine bytes. -/
def readOptional (h : Header) : Bytes → Res Header
  | [_, f, rem, b0, b1, b2, b3, b4, s] =>
    let h := { h with hasPts := (f.toNat &&& 0x80) >>> 7, hasDts := (f.toNat &&& 0x40) >>> 6 }
    if rem ≠ 6 then .err 0
    else if h.hasPts ≠ 0 then
      if b0.toNat &&& 1 ≠ 1 ∨ b2.toNat &&& 1 ≠ 1 ∨ b4.toNat &&& 1 ≠ 1 then .err 0
      else if s ≠ 0xff then .err 0
      else .ok { h with pts := readPts b0 b1 b2 b3 b4 }
    else if b0 ≠ 0xff ∨ b1 ≠ 0xff ∨ b2 ≠ 0xff ∨ b3 ≠ 0xff ∨ b4 ≠ 0xff ∨ s ≠ 0xff then .err 0
    else .ok h
  | _ => .ub

/-- `ParsePesOptionalHeader` (m2ts/vpxpes_parser.cc:123-196). -/
def Parser.parseOptionalHeader (p : Parser) (h : Header) : Res Header × Parser :=
  if p.state ≠ .parsePesOptionalHeader ∨ p.pos ≥ p.data.length then (.err 0, p)
  else
    match unescape 9 p.rest with
    | .ub => (.ub, p)
    | .err c => (.err c, p)
    | .ok (buf, consumed) =>
      match readOptional h buf with
      | .ok h' => (.ok h', { p with pos := p.pos + consumed, state := .parseBcmvHeader })
      | .err c => (.err c, p)
      | .ub => (.ub, p)

/-- The BCMV fields read from the ten unescaped bytes (m2ts/vpxpes_parser.cc:211-229), with
`BcmvHeader::Valid` (lines 32-35). -/
def readBcmv (h : Header) : Bytes → Res Header
  | [i0, i1, i2, i3, l0, l1, l2, l3, z0, z1] =>
    let len := (((l0.toNat <<< 24) ||| (l1.toNat <<< 16)) ||| (l2.toNat <<< 8)) ||| l3.toNat
    if z0 ≠ 0 ∨ z1 ≠ 0 then .err 0
    else if 0 < len ∧ i0 = 0x42 ∧ i1 = 0x43 ∧ i2 = 0x4D ∧ i3 = 0x56 then
      .ok { h with bcmvLength := len }
    else .err 0
  | _ => .ub

/-- `ParseBcmvHeader` (m2ts/vpxpes_parser.cc:199-234). -/
def Parser.parseBcmvHeader (p : Parser) (h : Header) : Res Header × Parser :=
  if p.state ≠ .parseBcmvHeader then (.err 0, p)
  else
    match unescape 10 p.rest with
    | .ub => (.ub, p)
    | .err c => (.err c, p)
    | .ok (buf, consumed) =>
      match readBcmv h buf with
      | .ok h' => (.ok h', { p with pos := p.pos + consumed, state := .findStartCode })
      | .err c => (.err c, p)
      | .ub => (.ub, p)

/-- The search loop of `FindStartCode` (m2ts/vpxpes_parser.cc:246-251): `i < length - 3`, so
at least four bytes are looked at and the last possible position is never tried. -/
def findLoop : Nat → Bytes → Option Nat
  | off, a :: b :: c :: d :: r =>
    if a = 0 ∧ b = 0 ∧ c = 1 then some off else findLoop (off + 1) (b :: c :: d :: r)
  | _, _ => none

/-- `FindStartCode` with `origin = read_pos_`, as in both calls
(m2ts/vpxpes_parser.cc:236-254). -/
def Parser.findStartCode (p : Parser) : Option Nat :=
  if p.pos + 2 ≥ p.data.length then none
  else if p.data.length - p.pos < 3 then none
  else findLoop p.pos p.rest

/-- The `while` loop of `AccumulateFragmentedPayload` (m2ts/vpxpes_parser.cc:272-297).  Every
turn reads at least one byte of data, which is what `fuel` (the number of bytes left plus one)
counts; running out of fuel is reported as undefined behaviour. -/
def Parser.accumulate (payloadLength : Nat) : Nat → Parser → Res Unit × Parser
  | 0, p => (.ub, p)
  | fuel + 1, p =>
    if p.payload.length < payloadLength then
      match p.findStartCode with
      | none => (.err 0, p)
      | some start =>
        let p := { p with state := .parsePesHeader, pos := start }
        match p.parsePesHeader {} with
        | (.err c, p) => (.err c, p)
        | (.ub, p) => (.ub, p)
        | (.ok h, p) =>
          match p.parseOptionalHeader h with
          | (.err c, p) => (.err c, p)
          | (.ub, p) => (.ub, p)
          | (.ok h, p) =>
            match unescape (subU64 h.packetLength 9) p.rest with
            | .ub => (.ub, p)
            | .err c => (.err c, p)
            | .ok (out, consumed) =>
              Parser.accumulate payloadLength fuel
                { p with payload := p.payload ++ out, pos := p.pos + consumed }
    else (.ok (), p)

/-- `AccumulateFragmentedPayload` (m2ts/vpxpes_parser.cc:262-299).  The first fragment is
copied as is (escape bytes included) and without a bound check. -/
def Parser.accumulateFragmented (p : Parser) (pesPacketLength payloadLength : Nat) :
    Res Unit × Parser :=
  let first := subU64 pesPacketLength 19
  if p.rest.length < first then (.ub, p)
  else
    Parser.accumulate payloadLength (p.data.length + 1)
      { p with payload := p.payload ++ p.rest.take first, pos := p.pos + first,
               state := .findStartCode }

/-- `ParseNextPacket` (m2ts/vpxpes_parser.cc:341-407): the header and the frame's bytes.  Not
modelled: the conversion of the PTS to nanoseconds (through `double`) and the frame buffer's
allocation. -/
def Parser.parseNextPacket (p : Parser) : Res (Header × Bytes) × Parser :=
  if p.state ≠ .findStartCode ∨ p.bytesAvailable = 0 then (.err 0, p)
  else
    match p.findStartCode with
    | none => (.err 0, p)
    | some start =>
      let p := { p with state := .parsePesHeader, pos := start }
      match p.parsePesHeader {} with
      | (.err c, p) => (.err c, p)
      | (.ub, p) => (.ub, p)
      | (.ok h, p) =>
        match p.parseOptionalHeader h with
        | (.err c, p) => (.err c, p)
        | (.ub, p) => (.ub, p)
        | (.ok h, p) =>
          match p.parseBcmvHeader h with
          | (.err c, p) => (.err c, p)
          | (.ub, p) => (.ub, p)
          | (.ok h, p) =>
            let payloadLength := subU64 h.bcmvLength 10
            if (p.pos + payloadLength) % two64 > p.data.length then
              (.err 0, { p with state := .findStartCode, pos := start })
            else if h.packetLength ≠ 0 ∧ subU64 h.packetLength 9 ≠ h.bcmvLength then
              match p.accumulateFragmented h.packetLength payloadLength with
              | (.err c, p) => (.err c, p)
              | (.ub, p) => (.ub, p)
              | (.ok _, p) =>
                (.ok (h, p.payload), { p with payload := [], state := .findStartCode })
            else
              match unescape payloadLength p.rest with
              | .ub => (.ub, p)
              | .err c => (.err c, p)
              | .ok (out, consumed) =>
                (.ok (h, p.payload ++ out),
                 { p with payload := [], pos := p.pos + consumed, state := .findStartCode })

end Verif.Pes
