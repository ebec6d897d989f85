/-
Model of the file header: `WriteEbmlHeader` (mkvmuxer/mkvmuxer.cc:96-149) and `EBMLHeader`
(mkvparser/mkvparser.cc:492-659).
-/
import Verif.Model.ParserWalk
import Verif.Model.MuxerUtil

namespace Verif

/-- IDs of the header, common/webmids.h:15-22. -/
def kMkvEBML : Nat := 0x1A45DFA3
def kMkvEBMLVersion : Nat := 0x4286
def kMkvEBMLReadVersion : Nat := 0x42F7
def kMkvEBMLMaxIDLength : Nat := 0x42F2
def kMkvEBMLMaxSizeLength : Nat := 0x42F3
def kMkvDocType : Nat := 0x4282
def kMkvDocTypeVersion : Nat := 0x4287
def kMkvDocTypeReadVersion : Nat := 0x4285

namespace Mux

/-- `size` in `WriteEbmlHeader`, mkvmuxer/mkvmuxer.cc:98-110. -/
def ebmlHeaderSize (version : Nat) (docType : Option Bytes) : Nat :=
  ebmlElementSizeUInt kMkvEBMLVersion 1 + ebmlElementSizeUInt kMkvEBMLReadVersion 1 +
    ebmlElementSizeUInt kMkvEBMLMaxIDLength 4 + ebmlElementSizeUInt kMkvEBMLMaxSizeLength 8 +
    ebmlElementSizeString kMkvDocType docType + ebmlElementSizeUInt kMkvDocTypeVersion version +
    ebmlElementSizeUInt kMkvDocTypeReadVersion 2

/-- The elements written by `WriteEbmlHeader`, mkvmuxer/mkvmuxer.cc:114-137. -/
def ebmlHeaderFields (version : Nat) (docType : Option Bytes) : W Unit := do
  writeEbmlElementUInt kMkvEBMLVersion 1
  writeEbmlElementUInt kMkvEBMLReadVersion 1
  writeEbmlElementUInt kMkvEBMLMaxIDLength 4
  writeEbmlElementUInt kMkvEBMLMaxSizeLength 8
  writeEbmlElementString kMkvDocType docType
  writeEbmlElementUInt kMkvDocTypeVersion version
  writeEbmlElementUInt kMkvDocTypeReadVersion 2

/-- `WriteEbmlHeader`, mkvmuxer/mkvmuxer.cc:96-141. -/
def writeEbmlHeader (version : Nat) (docType : Option Bytes) : W Unit :=
  writeEbmlMasterElement kMkvEBML (ebmlHeaderSize version docType) >>= fun _ =>
    ebmlHeaderFields version docType

end Mux

namespace Par

/-- Members of `EBMLHeader`, mkvparser/mkvparser.h:52-66, with the values `Init` gives them
(mkvparser/mkvparser.cc:496-509). -/
structure EbmlHead where
  version : Int := 1
  readVersion : Int := 1
  maxIdLength : Int := 4
  maxSizeLength : Int := 8
  docType : Option Bytes := none
  docTypeVersion : Int := 1
  docTypeReadVersion : Int := 1
  deriving DecidableEq, Repr

/-- Scanning for the first byte, mkvparser/mkvparser.cc:524-541; `n` bytes are left to scan. -/
def scanByte (r : Rdr) (pos : Nat) : Nat → Res Nat
  | 0 => .ok pos
  | n + 1 =>
    match r.byte pos with
    | .error status => if status < 0 then .err status else .err E_BUFFER_NOT_FULL
    | .ok b => if b = 0x1A then .ok pos else scanByte r (pos + 1) n

/-- A number that must be positive, mkvparser/mkvparser.cc:606-608 and the like. -/
def positiveUInt (r : Rdr) (pos size : Nat) : Res Int :=
  match unserializeUInt r pos size with
  | .err _ => .err E_FILE_FORMAT_INVALID
  | .ub => .ub
  | .ok v => if v ≤ 0 then .err E_FILE_FORMAT_INVALID else .ok v

/-- One element of the header, mkvparser/mkvparser.cc:599-643. -/
def ebmlHeadStep (r : Rdr) (_ : Nat) (h : Hdr) (e : EbmlHead) : Res EbmlHead :=
  if h.size = 0 then .err E_FILE_FORMAT_INVALID
  else if h.id = kMkvEBMLVersion then
    (positiveUInt r h.pos h.size).map fun v => { e with version := v }
  else if h.id = kMkvEBMLReadVersion then
    (positiveUInt r h.pos h.size).map fun v => { e with readVersion := v }
  else if h.id = kMkvEBMLMaxIDLength then
    (positiveUInt r h.pos h.size).map fun v => { e with maxIdLength := v }
  else if h.id = kMkvEBMLMaxSizeLength then
    (positiveUInt r h.pos h.size).map fun v => { e with maxSizeLength := v }
  else if h.id = kMkvDocType then
    if e.docType.isSome then .err E_FILE_FORMAT_INVALID
    else (unserializeString r h.pos h.size).map fun s => { e with docType := some s }
  else if h.id = kMkvDocTypeVersion then
    (positiveUInt r h.pos h.size).map fun v => { e with docTypeVersion := v }
  else if h.id = kMkvDocTypeReadVersion then
    (positiveUInt r h.pos h.size).map fun v => { e with docTypeReadVersion := v }
  else .ok e

/-- The final checks, mkvparser/mkvparser.cc:648-656. -/
def ebmlHeadCheck (e : EbmlHead) : Bool :=
  e.docType.isSome && decide (0 < e.docTypeReadVersion) && decide (0 < e.docTypeVersion) &&
    decide (0 < e.maxIdLength) && decide (e.maxIdLength ≤ 4) && decide (0 < e.maxSizeLength) &&
    decide (e.maxSizeLength ≤ 8)

/-- What `EBMLHeader::Parse` answers: 0 (then `pos` is behind the header), or the position up to
which data must become available. -/
inductive HeadResult where
  | done (pos : Nat) (e : EbmlHead)
  | need (upTo : Nat)
  deriving DecidableEq, Repr

/-- The payload of the header, mkvparser/mkvparser.cc:580-658. -/
def ebmlHeadPayload (r : Rdr) (pos size : Nat) : Res HeadResult :=
  if r.total ≥ 0 ∧ r.total - pos < size then .err E_FILE_FORMAT_INVALID
  else if (r.data.length : Int) - pos < size then .ok (.need (pos + size))
  else
    match walk r (pos + size) (ebmlHeadStep r) pos {} with
    | .err c => .err c
    | .ub => .ub
    | .ok e => if ebmlHeadCheck e then .ok (.done (pos + size) e) else .err E_FILE_FORMAT_INVALID

/-- The size of the header, mkvparser/mkvparser.cc:555-578. -/
def ebmlHeadSize (r : Rdr) (pos : Nat) : Res HeadResult :=
  match getUIntLength r pos with
  | .err _ => .err E_FILE_FORMAT_INVALID
  | .ub => .ub
  | .ok (result, len) =>
    if result > 0 then .err E_BUFFER_NOT_FULL
    else if len < 1 ∨ len > 8 then .err E_FILE_FORMAT_INVALID
    else if r.total ≥ 0 ∧ r.total - pos < len then .err E_FILE_FORMAT_INVALID
    else if (r.data.length : Int) - pos < len then .ok (.need (pos + len))
    else
      match readUInt r pos with
      | .err c => .err c
      | .ub => .ub
      | .ok (size, len) => ebmlHeadPayload r (pos + len) size

/-- `EBMLHeader::Parse`, mkvparser/mkvparser.cc:511-659.  (`Length` does not fail.) -/
def ebmlHeadParse (r : Rdr) : Res HeadResult :=
  match scanByte r 0 (min 1024 r.data.length) with
  | .err c => .err c
  | .ub => .ub
  | .ok pos =>
    match readID r pos with
    | .err c => if c = E_BUFFER_NOT_FULL then .err c else .err E_FILE_FORMAT_INVALID
    | .ub => .ub
    | .ok (id, len) =>
      if len ≠ 4 ∨ id ≠ kMkvEBML then .err E_FILE_FORMAT_INVALID
      else ebmlHeadSize r (pos + 4)

end Par

end Verif
