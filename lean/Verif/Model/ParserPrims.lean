/-
Model of mkvparser's primitive readers, mkvparser/mkvparser.cc:62-393.
-/
import Verif.Base.Bytes
import Verif.Base.Res

namespace Verif.Par
open Verif

/-- Error codes of mkvparser, mkvparser/mkvparser.h:15-17. -/
def E_PARSE_FAILED : Int := -1
def E_FILE_FORMAT_INVALID : Int := -2
def E_BUFFER_NOT_FULL : Int := -3

/-- The object behind an `IMkvReader*` (mkvparser/mkvparser.h:19-26): the bytes that are
available from the start of the file, the status `Read` answers when the requested range is
not available (negative: error, positive: underflow; `MkvReader` answers -1), and the total
length reported by `Length` (negative: unknown).
Simplification: apart from that, reads do not fail. -/
structure Rdr where
  data : Bytes
  short : Int := -1
  short_ne : short ≠ 0 := by decide
  total : Int := -1

/-- `IMkvReader::Read(pos, 1, &b)`. -/
def Rdr.byte (r : Rdr) (pos : Nat) : Except Int UInt8 :=
  match r.data[pos]? with
  | some b => .ok b
  | none => .error r.short

/-- `IMkvReader::Read(pos, len, buf)` (mkvparser/mkvreader.cc:100-139). -/
def Rdr.read (r : Rdr) (pos len : Nat) : Except Int Bytes :=
  if len = 0 ∨ pos + len ≤ r.data.length then .ok (slice r.data pos len) else .error r.short

/-- The loop `while (!(b & m)) { m >>= 1; ++len; }`, mkvparser/mkvparser.cc:81-84 (also
197-200).  The fuel is 8 at every use: a nonzero byte has a set bit. -/
def markerLoop (b m : UInt8) (len : Nat) : Nat → UInt8 × Nat
  | 0 => (m, len)
  | f + 1 => if b &&& m = 0 then markerLoop b (m >>> 1) (len + 1) f else (m, len)

/-- The accumulation loop of `ReadUInt`, mkvparser/mkvparser.cc:89-106: `n` bytes are left. -/
def readUIntLoop (r : Rdr) (result : Nat) (pos : Nat) : Nat → Res Nat
  | 0 => .ok result
  | n + 1 =>
    match r.byte pos with
    | .error status => if status < 0 then .err status else .err E_BUFFER_NOT_FULL
    | .ok b => readUIntLoop r ((result <<< 8) ||| b.toNat) (pos + 1) n

/-- `ReadUInt`, mkvparser/mkvparser.cc:62-109.  Returns the value and `len`.  (On failure the
code also sets `len = 1`; no caller reads it then.) -/
def readUInt (r : Rdr) (pos : Int) : Res (Nat × Nat) :=
  if pos < 0 then .err E_FILE_FORMAT_INVALID
  else
    match r.byte pos.toNat with
    | .error status => if status < 0 then .err status else .err E_BUFFER_NOT_FULL
    | .ok b =>
      if b = 0 then .err E_FILE_FORMAT_INVALID
      else
        let (m, len) := markerLoop b 0x80 1 8
        match readUIntLoop r (b &&& ~~~m).toNat (pos.toNat + 1) (len - 1) with
        | .ok v => .ok (v, len)
        | .err c => .err c
        | .ub => .ub

/-- The bit search of `ReadID`, mkvparser/mkvparser.cc:140-146: `some bit_pos` when found. -/
def idBitLoop (b : UInt8) (bitPos : Nat) : Nat → Option Nat
  | 0 => none
  | f + 1 => if (0x80 >>> (UInt8.ofNat bitPos)) &&& b = 0 then idBitLoop b (bitPos + 1) f
             else some bitPos

/-- The accumulation loop of `ReadID`, mkvparser/mkvparser.cc:156-166. -/
def readIDLoop (r : Rdr) (id : Nat) (pos : Nat) : Nat → Res Nat
  | 0 => .ok id
  | n + 1 =>
    match r.byte pos with
    | .error status => if status < 0 then .err E_FILE_FORMAT_INVALID else .err E_BUFFER_NOT_FULL
    | .ok b => readIDLoop r ((id <<< 8) ||| b.toNat) (pos + 1) n

/-- `ReadID`, mkvparser/mkvparser.cc:118-170.  Returns the ID and `len`. -/
def readID (r : Rdr) (pos : Int) : Res (Nat × Nat) :=
  if pos < 0 then .err E_FILE_FORMAT_INVALID
  else
    match r.byte pos.toNat with
    | .error status => if status < 0 then .err E_FILE_FORMAT_INVALID else .err E_BUFFER_NOT_FULL
    | .ok b =>
      if b = 0 then .err E_FILE_FORMAT_INVALID
      else
        match idBitLoop b 0 4 with
        | none => .err E_FILE_FORMAT_INVALID
        | some bitPos =>
          match readIDLoop r b.toNat (pos.toNat + 1) bitPos with
          | .ok v => .ok (v, bitPos + 1)
          | .err c => .err c
          | .ub => .ub

/-- `GetUIntLength`, mkvparser/mkvparser.cc:172-205.  Result: the returned value and `len`.
A result equal to `pos` means "too few bytes available", 0 means success. -/
def getUIntLength (r : Rdr) (pos : Int) : Res (Int × Nat) :=
  if pos < 0 then .err E_FILE_FORMAT_INVALID
  else if r.total ≥ 0 ∧ (r.data.length : Int) > r.total then .err E_FILE_FORMAT_INVALID
  else if pos ≥ r.data.length then .ok (pos, 1)
  else
    match r.byte pos.toNat with
    | .error status => .err status
    | .ok b =>
      if b = 0 then .err E_FILE_FORMAT_INVALID
      else .ok (0, (markerLoop b 0x80 1 8).2)

/-- Loop of `UnserializeUInt`, mkvparser/mkvparser.cc:215-227.  A positive status is not
treated as a failure by the code: it then uses an indeterminate byte, hence `ub`. -/
def unserializeUIntLoop (r : Rdr) (result : Nat) (pos : Nat) : Nat → Res Nat
  | 0 => .ok result
  | n + 1 =>
    match r.byte pos with
    | .error status => if status < 0 then .err status else .ub
    | .ok b => unserializeUIntLoop r ((result <<< 8) ||| b.toNat) (pos + 1) n

/-- `UnserializeUInt`, mkvparser/mkvparser.cc:209-230.  The accumulator is a `long long`: the
64 accumulated bits are read as a signed number (two's complement left shift). -/
def unserializeUInt (r : Rdr) (pos size : Int) : Res Int :=
  if pos < 0 ∨ size ≤ 0 ∨ size > 8 then .err E_FILE_FORMAT_INVALID
  else match unserializeUIntLoop r 0 pos.toNat size.toNat with
    | .ok v => .ok (toI64 v)
    | .err c => .err c
    | .ub => .ub

/-- `UnserializeFloat`, mkvparser/mkvparser.cc:232-290.  Floats are bit patterns; the result
is the pattern and its width in bytes (4: a `float` widened to `double`; 8: a `double`).
Infinities and NaNs (exponent all ones) are refused. -/
def unserializeFloat (r : Rdr) (pos size : Int) : Res (Nat × Nat) :=
  if pos < 0 ∨ (size ≠ 4 ∧ size ≠ 8) then .err E_FILE_FORMAT_INVALID
  else match r.read pos.toNat size.toNat with
    | .error status => if status < 0 then .err status else .ub
    | .ok buf =>
      let bits := buf.foldl (fun acc b => (acc <<< 8) ||| b.toNat) 0
      if size = 4 then
        if bits / 2 ^ 23 % 2 ^ 8 = 255 then .err E_FILE_FORMAT_INVALID else .ok (bits, 4)
      else
        if bits / 2 ^ 52 % 2 ^ 11 = 2047 then .err E_FILE_FORMAT_INVALID else .ok (bits, 8)

/-- `UnserializeInt`, mkvparser/mkvparser.cc:292-322: the first byte is sign-extended to 64
bits, the others are shifted in, modulo `2^64`. -/
def unserializeInt (r : Rdr) (pos size : Int) : Res Int :=
  if pos < 0 ∨ size < 1 ∨ size > 8 then .err E_FILE_FORMAT_INVALID
  else match r.byte pos.toNat with
    | .error status =>
      if status < 0 then .err status
      else match unserializeUIntLoop r 0 (pos.toNat + 1) (size.toNat - 1) with
        | .ok v => .ok (toI64 v)
        | .err c => .err c
        | .ub => .ub
    | .ok b =>
      let first : Nat := if b.toNat < 128 then b.toNat else 2 ^ 64 - 256 + b.toNat
      match unserializeUIntLoop r first (pos.toNat + 1) (size.toNat - 1) with
      | .ok v => .ok (toI64 v)
      | .err c => .err c
      | .ub => .ub

/-- `kStringElementSizeLimit`, mkvparser/mkvparser.cc:26. -/
def kStringElementSizeLimit : Int := 20 * 1000 * 1000

/-- `UnserializeString`, mkvparser/mkvparser.cc:324-352.  The result is the buffer without the
terminator the code appends (allocation succeeds). -/
def unserializeString (r : Rdr) (pos : Nat) (size : Int) : Res Bytes :=
  if size < 0 ∨ size > kStringElementSizeLimit then .err E_FILE_FORMAT_INVALID
  else match r.read pos size.toNat with
    | .error status => .err status
    | .ok buf => .ok buf

/-- The outcome of `ParseElementHeader`: position of the payload, ID, payload size. -/
structure Hdr where
  pos : Nat
  id : Nat
  size : Nat
  deriving DecidableEq, Repr

/-- `ParseElementHeader`, mkvparser/mkvparser.cc:354-393.  `stop < 0` means "no limit". -/
def parseElementHeader (r : Rdr) (pos stop : Int) : Res Hdr :=
  if stop ≥ 0 ∧ pos ≥ stop then .err E_FILE_FORMAT_INVALID
  else match readID r pos with
    | .err _ => .err E_FILE_FORMAT_INVALID
    | .ub => .ub
    | .ok (id, len) =>
      let pos1 := pos + len
      if stop ≥ 0 ∧ pos1 ≥ stop then .err E_FILE_FORMAT_INVALID
      else match readUInt r pos1 with
        | .err _ => .err E_FILE_FORMAT_INVALID
        | .ub => .ub
        | .ok (size, len) =>
          if pos1 + len > llongMax then .err E_FILE_FORMAT_INVALID
          else
            let pos2 := pos1 + len
            if stop ≥ 0 ∧ pos2 > stop then .err E_FILE_FORMAT_INVALID
            else .ok ⟨pos2.toNat, id, size⟩

end Verif.Par
