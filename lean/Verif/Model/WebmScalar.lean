/-
Model of the scalar parsers of webm_parser.  Every parser is a resumable state machine:
`feed` takes the parser state and the reader and returns a status, the new state, the reader
afterwards and the number of bytes read by this call.
The `assert`s on null pointers are not modelled.
-/
import Verif.Model.WebmReader

namespace Verif.Web
open Verif

/-- Result of one `Feed` call: status, parser, reader, `*num_bytes_read`. -/
abbrev Fed (σ : Type) := Status × σ × Src × Nat

/-- Loop of `AccumulateIntegerBytes<T>`, webm_parser/src/parser_utils.h:62-71, for a type of
`bits` bits; the integer is its unsigned bit pattern. -/
def accumLoop (bits : Nat) : Nat → Nat → Src → Fed Nat
  | 0, i, s => (.okCompleted, i, s, 0)
  | n + 1, i, s =>
    match s.readByte with
    | (_, some b, s') =>
      let (st, i', s'', k) := accumLoop bits n (((i <<< 8) ||| b.toNat) % 2 ^ bits) s'
      (st, i', s'', k + 1)
    | (st, none, s') => (st, i, s', 0)

/-- `AccumulateIntegerBytes`, webm_parser/src/parser_utils.h:37-74. -/
def accumulate (bits n i : Nat) (s : Src) : Fed Nat :=
  if n > bits / 8 then (.invalidElementSize, i, s, 0) else accumLoop bits n i s

/-- Loop of `CountLeadingZeros`, webm_parser/src/bit_utils.cc:19-22. -/
def clzLoop (value : UInt8) (count : Nat) : Nat → Nat
  | 0 => count
  | f + 1 => if value &&& (0x80 >>> UInt8.ofNat count) = 0 then clzLoop value (count + 1) f
             else count

/-- `CountLeadingZeros`, webm_parser/src/bit_utils.cc:14-24. -/
def countLeadingZeros (value : UInt8) : Nat := if value = 0 then 8 else clzLoop value 0 8

/-- `VarIntParser`, webm_parser/src/var_int_parser.h; `remaining = none` stands for the
initial `num_bytes_remaining_ == -1`. -/
structure VarInt where
  remaining : Option Nat := none
  total : Nat := 0
  value : Nat := 0
  deriving DecidableEq, Repr

/-- Second half of `VarIntParser::Feed`, webm_parser/src/var_int_parser.cc:51-66. -/
def VarInt.tail (p : VarInt) (rem : Nat) (s : Src) : Fed VarInt :=
  let (st, v, s', k) := accumulate 64 rem p.value s
  if st.completedOk then
    (.okCompleted,
      { p with remaining := some (rem - k), value := v &&& ((2 ^ 64 - 1) >>> (57 - 7 * p.total)) },
      s', k)
  else (st, { p with remaining := some (rem - k), value := v }, s', k)

/-- `VarIntParser::Feed`, webm_parser/src/var_int_parser.cc:21-67. -/
def VarInt.feed (p : VarInt) (s : Src) : Fed VarInt :=
  match p.remaining with
  | some rem => p.tail rem s
  | none =>
    match s.readByte with
    | (st, none, s') => (st, p, s', 0)
    | (_, some b, s') =>
      if b = 0 then (.invalidElementValue, p, s', 1)
      else
        let n := countLeadingZeros b
        let (st, p', s'', k) := VarInt.tail { remaining := some n, total := n, value := b.toNat } n s'
        (st, p', s'', k + 1)

/-- `VarIntParser::encoded_length`, webm_parser/src/var_int_parser.h. -/
def VarInt.encodedLength (p : VarInt) : Nat := p.total + 1

/-- `IdParser`, webm_parser/src/id_parser.h. -/
structure IdP where
  remaining : Option Nat := none
  id : Nat := 0
  deriving DecidableEq, Repr

/-- Second half of `IdParser::Feed`, webm_parser/src/id_parser.cc:62-68. -/
def IdP.tail (p : IdP) (rem : Nat) (s : Src) : Fed IdP :=
  let (st, v, s', k) := accumulate 32 rem p.id s
  (st, { remaining := some (rem - k), id := v }, s', k)

/-- `IdParser::Feed`, webm_parser/src/id_parser.cc:21-69. -/
def IdP.feed (p : IdP) (s : Src) : Fed IdP :=
  match p.remaining with
  | some rem => p.tail rem s
  | none =>
    match s.readByte with
    | (st, none, s') => (st, p, s', 0)
    | (_, some b, s') =>
      if b &&& 0xf0 = 0 then (.invalidElementId, p, s', 1)
      else
        let n := countLeadingZeros b
        let (st, p', s'', k) := IdP.tail { remaining := some n, id := b.toNat } n s'
        (st, p', s'', k + 1)

/-- `SizeParser`, webm_parser/src/size_parser.h: wraps a `VarIntParser`. -/
abbrev SizeP := VarInt

/-- `SizeParser::Feed`, webm_parser/src/size_parser.cc:22-39. -/
def SizeP.feed (p : SizeP) (s : Src) : Fed SizeP :=
  let (st, p', s', k) := VarInt.feed p s
  (if st = .invalidElementValue then .invalidElementSize else st, p', s', k)

/-- `kUnknownElementSize`, webm_parser/include/webm/element.h:27-28. -/
def kUnknownElementSize : Nat := 2 ^ 64 - 1

/-- `SizeParser::size`, webm_parser/src/size_parser.cc:41-52. -/
def SizeP.size (p : SizeP) : Nat :=
  if p.value = (2 ^ 64 - 1) >>> (57 - 7 * (VarInt.encodedLength p - 1)) then kUnknownElementSize
  else p.value

/-- `IntParser<T>`, webm_parser/src/int_parser.h:24-122: `value` is the 64-bit pattern. -/
structure IntP where
  size : Nat
  remaining : Nat
  value : Nat
  deriving DecidableEq, Repr

/-- `IntParser::Init`, webm_parser/src/int_parser.h:46-65 (`default` is a bit pattern). -/
def IntP.init (default size : Nat) : Except Status IntP :=
  if size > 8 then .error .invalidElementSize
  else .ok { size := size, remaining := size, value := if size = 0 then default else 0 }

/-- Sign extension in `IntParser::Feed`, webm_parser/src/int_parser.h:79-87. -/
def IntP.signExtend (size value : Nat) : Nat :=
  let signBits := ((2 ^ 64 - 1) <<< (8 * size - 1)) % 2 ^ 64
  if value &&& signBits ≠ 0 then value ||| signBits else value

/-- `IntParser::Feed`, webm_parser/src/int_parser.h:67-90. -/
def IntP.feed (signed : Bool) (p : IntP) (s : Src) : Fed IntP :=
  let (st, v, s', k) := accumulate 64 p.remaining p.value s
  let rem := p.remaining - k
  let v' := if signed ∧ rem = 0 ∧ p.size > 0 then IntP.signExtend p.size v else v
  (st, { p with remaining := rem, value := v' }, s', k)

/-- `BoolParser`, webm_parser/src/bool_parser.h:28-91. -/
structure BoolP where
  size : Nat
  remaining : Nat
  value : Bool
  deriving DecidableEq, Repr

/-- `BoolParser::Init`, webm_parser/src/bool_parser.h:33-47. -/
def BoolP.init (default : Bool) (size : Nat) : Except Status BoolP :=
  if size > 8 then .error .invalidElementSize
  else .ok { size := size, remaining := size, value := default }

/-- `BoolParser::Feed`, webm_parser/src/bool_parser.h:49-70. -/
def BoolP.feed (p : BoolP) (s : Src) : Fed BoolP :=
  let (st, v, s', k) := accumulate 64 p.remaining 0 s
  let rem := p.remaining - k
  if (rem ≠ 0 ∧ v ≠ 0) ∨ v > 1 then (.invalidElementValue, { p with remaining := rem }, s', k)
  else (st, { p with remaining := rem, value := if p.size > 0 then v == 1 else p.value }, s', k)

/-- `FloatParser`, webm_parser/src/float_parser.h:23-61.  `value` is the stored result: the
width (4 or 8) and the bit pattern, or `none` for the default value. -/
structure FloatP where
  remaining : Nat
  use32 : Bool
  acc : Nat
  value : Option (Nat × Nat)
  deriving DecidableEq, Repr

/-- `FloatParser::Init`, webm_parser/src/float_parser.cc:25-41. -/
def FloatP.init (size : Nat) : Except Status FloatP :=
  if size = 0 ∨ size = 4 ∨ size = 8 then
    .ok { remaining := size, use32 := size == 4, acc := 0, value := none }
  else .error .invalidElementSize

/-- `FloatParser::Feed`, webm_parser/src/float_parser.cc:43-75.  When nothing remains the code
leaves `*num_bytes_read` unset; the model reports 0 (the callers initialise it to 0). -/
def FloatP.feed (p : FloatP) (s : Src) : Fed FloatP :=
  if p.remaining = 0 then (.okCompleted, p, s, 0)
  else
    let (st, v, s', k) := accumulate 64 p.remaining p.acc s
    let rem := p.remaining - k
    if rem = 0 then
      (st, { p with remaining := rem, acc := v,
                    value := some (if p.use32 then (4, v % 2 ^ 32) else (8, v)) }, s', k)
    else (st, { p with remaining := rem, acc := v }, s', k)

/-- `DateParser`, webm_parser/src/date_parser.h:24-60 (`value`: 64-bit pattern). -/
structure DateP where
  remaining : Nat
  value : Nat
  deriving DecidableEq, Repr

/-- `DateParser::Init`, webm_parser/src/date_parser.cc:27-57. -/
def DateP.init (default size : Nat) : Except Status DateP :=
  if size ≠ 0 ∧ size ≠ 8 then .error .invalidElementSize
  else .ok { remaining := size, value := if size = 0 then default else 0 }

/-- `DateParser::Feed`, webm_parser/src/date_parser.cc:59-70. -/
def DateP.feed (p : DateP) (s : Src) : Fed DateP :=
  let (st, v, s', k) := accumulate 64 p.remaining p.value s
  (st, { remaining := p.remaining - k, value := v }, s', k)

/-- `IdElementParser` (webm_parser/src/id_element_parser.cc:22-47) uses the same loop on a
32-bit value. -/
abbrev IdElemP := DateP

/-- `IdElementParser::Init`, webm_parser/src/id_element_parser.cc:22-34. -/
def IdElemP.init (size : Nat) : Except Status IdElemP :=
  if size = 0 ∨ size > 4 then .error .invalidElementSize
  else .ok { remaining := size, value := 0 }

/-- `IdElementParser::Feed`, webm_parser/src/id_element_parser.cc:36-47. -/
def IdElemP.feed (p : IdElemP) (s : Src) : Fed IdElemP :=
  let (st, v, s', k) := accumulate 32 p.remaining p.value s
  (st, { remaining := p.remaining - k, value := v }, s', k)

/-- `ByteParser<T>`, webm_parser/src/byte_parser.h:29-137: `got` is the part of `value_` read
so far (`total_read_ = got.length`), `size` is `value_.size()` while reading, `result` the
value after completion. -/
structure ByteP where
  size : Nat
  got : Bytes
  result : Bytes
  deriving DecidableEq, Repr

/-- `ByteParser::Init`, webm_parser/src/byte_parser.h:48-80.  The memory limit tests are not
modelled (`size_t` is 64 bits wide, allocation succeeds). -/
def ByteP.init (default : Bytes) (size : Nat) : Except Status ByteP :=
  if size = kUnknownElementSize then .error .invalidElementSize
  else if size = 0 then .ok { size := default.length, got := default, result := default }
  else .ok { size := size, got := [], result := [] }

/-- The read loop of `ByteParser::Feed`, webm_parser/src/byte_parser.h:94-106 (`fuel` bounds
the number of iterations; each partial read delivers at least one byte, so the number of
missing bytes is enough). -/
def byteLoop (size : Nat) : (fuel : Nat) → Bytes → Src → Fed Bytes
  | 0, got, s => (.okPartial, got, s, 0)
  | f + 1, got, s =>
    match s.read (size - got.length) with
    | (st, bs, s') =>
      if st = .okPartial then
        let (st', got', s'', k) := byteLoop size f (got ++ bs) s'
        (st', got', s'', k + bs.length)
      else (st, got ++ bs, s', bs.length)

/-- Removal of trailing NULs of a `std::string`, webm_parser/src/byte_parser.h:110-114. -/
def stripNul (bs : Bytes) : Bytes := (bs.reverse.dropWhile (· == 0)).reverse

/-- `ByteParser::Feed`, webm_parser/src/byte_parser.h:82-117. -/
def ByteP.feed (isString : Bool) (p : ByteP) (s : Src) : Fed ByteP :=
  if p.got.length = p.size then (.okCompleted, p, s, 0)
  else
    let (st, got, s', k) := byteLoop p.size (p.size - p.got.length + 1) p.got s
    if st.completedOk then
      (st, { p with got := got, result := if isString then stripNul got else got }, s', k)
    else (st, { p with got := got }, s', k)

/-- `BlockHeaderParser` states, webm_parser/src/block_header_parser.h:52-60. -/
inductive BHState where
  | readingTrackNumber | readingTimecode | readingFlags | done
  deriving DecidableEq, Repr

/-- `BlockHeaderParser`, webm_parser/src/block_header_parser.h:33-61 (`timecode` is the 16-bit
pattern; it is uninitialised in the code, so the model leaves its initial value open). -/
structure BlockHdr where
  state : BHState := .readingTrackNumber
  uint : VarInt := {}
  tcRemaining : Nat := 2
  track : Nat := 0
  timecode : Nat := 0
  flags : Nat := 0
  deriving DecidableEq, Repr

/-- State `kReadingFlags`, webm_parser/src/block_header_parser.cc:58-67, then `kDone`. -/
def BlockHdr.feedFlags (p : BlockHdr) (s : Src) : Fed BlockHdr :=
  match s.readByte with
  | (_, some b, s') => (.okCompleted, { p with flags := b.toNat, state := .done }, s', 1)
  | (st, none, s') => (st, p, s', 0)

/-- State `kReadingTimecode`, webm_parser/src/block_header_parser.cc:45-56, and onwards. -/
def BlockHdr.feedTimecode (p : BlockHdr) (s : Src) : Fed BlockHdr :=
  let (st, v, s', k) := accumulate 16 p.tcRemaining p.timecode s
  let p' := { p with timecode := v, tcRemaining := p.tcRemaining - k }
  if st.completedOk then
    let (st', p'', s'', k') := BlockHdr.feedFlags { p' with state := .readingFlags } s'
    (st', p'', s'', k + k')
  else (st, p', s', k)

/-- State `kReadingTrackNumber`, webm_parser/src/block_header_parser.cc:34-43, and onwards. -/
def BlockHdr.feedTrack (p : BlockHdr) (s : Src) : Fed BlockHdr :=
  let (st, u, s', k) := p.uint.feed s
  if st.completedOk then
    let (st', p', s'', k') :=
      BlockHdr.feedTimecode { p with uint := u, track := u.value, state := .readingTimecode } s'
    (st', p', s'', k + k')
  else (st, { p with uint := u }, s', k)

/-- `BlockHeaderParser::Feed`, webm_parser/src/block_header_parser.cc:21-74. -/
def BlockHdr.feed (p : BlockHdr) (s : Src) : Fed BlockHdr :=
  match p.state with
  | .readingTrackNumber => p.feedTrack s
  | .readingTimecode => p.feedTimecode s
  | .readingFlags => p.feedFlags s
  | .done => (.okCompleted, p, s, 0)

end Verif.Web
