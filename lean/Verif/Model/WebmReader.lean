/-
Model of the incremental input of webm_parser: `webm::Reader` and `webm::Status`.
-/
import Verif.Base.Bytes

namespace Verif.Web
open Verif

/-- `webm::Status`, webm_parser/include/webm/status.h:35-106. -/
inductive Status where
  | okCompleted | okPartial | wouldBlock | endOfFile | seekFailed
  | invalidElementId | invalidElementSize | indefiniteUnknownElement | elementOverflow
  | notEnoughMemory | invalidElementValue | exceededRecursionDepthLimit
  | switchToSkip
  /-- a positive code `c + 1` returned by a user callback (status.h:108-113) -/
  | user (c : Nat)
  /-- not a libwebm status: what the model's loop guard (`loopFeed`) answers if a parser's
  `while (true)` loop were to go round for ever; shown unreachable for the modelled parsers -/
  | diverged
  deriving DecidableEq, Repr

/-- The numeric codes, webm_parser/include/webm/status.h:37-106. -/
def Status.code : Status → Int
  | okCompleted => 0 | okPartial => -1 | wouldBlock => -2 | endOfFile => -3 | seekFailed => -4
  | invalidElementId => -1025 | invalidElementSize => -1026
  | indefiniteUnknownElement => -1027 | elementOverflow => -1028
  | notEnoughMemory => -1029 | invalidElementValue => -1030
  | exceededRecursionDepthLimit => -1031
  | switchToSkip => -2147483648
  | user c => c + 1
  | diverged => -2147483647

/-- `Status::completed_ok`, webm_parser/include/webm/status.h:148. -/
def Status.completedOk (s : Status) : Bool := s == .okCompleted

/-- `Status::ok`: completed or partial, webm_parser/include/webm/status.h:141-143. -/
def Status.isOk (s : Status) : Bool := s == .okCompleted || s == .okPartial

/-- `Status::is_parsing_error`, webm_parser/include/webm/status.h:155-157. -/
def Status.isParsingError (s : Status) : Bool := -2048 ≤ s.code && s.code ≤ -1025

/-- A status after which the caller is expected to feed the parser again. -/
def Status.isStall (s : Status) : Bool := s == .wouldBlock || s == .okPartial

/-- A `webm::Reader` (webm_parser/include/webm/reader.h): what it will deliver.  `some b` is a
byte, `none` is a point where the reader has nothing available yet: a read that meets it
returns what it has so far (`kOkPartial`) or `kWouldBlock` if it has nothing; the reader has
more data the next time.  The end of the list is the end of the file.  `pos` is what
`Position()` reports.  Any way of splitting a file into available chunks, with any number of
"would block" answers in between, is such a list. -/
structure Src where
  evs : List (Option UInt8)
  pos : Nat := 0
  deriving DecidableEq, Repr

/-- `Reader::Read(1, &b, &n)` (`ReadByte`, webm_parser/src/parser_utils.cc:18-32). -/
def Src.readByte (s : Src) : Status × Option UInt8 × Src :=
  match s.evs with
  | [] => (.endOfFile, none, s)
  | none :: es => (.wouldBlock, none, { s with evs := es })
  | some b :: es => (.okCompleted, some b, { evs := es, pos := s.pos + 1 })

/-- Take up to `n` bytes, stopping at an unavailable point (which is consumed) or at the end.
Returns the bytes, the remaining events, and whether it stopped at an unavailable point. -/
def takeAvail : Nat → List (Option UInt8) → Bytes × List (Option UInt8) × Bool
  | 0, es => ([], es, false)
  | _ + 1, [] => ([], [], false)
  | _ + 1, none :: es => ([], es, true)
  | n + 1, some b :: es =>
    let (bs, es', st) := takeAvail n es
    (b :: bs, es', st)

/-- `Reader::Read` with a requested length `n > 0` (contract in
webm_parser/include/webm/reader.h:39-58; e.g. `BufferReader::Read`,
webm_parser/src/buffer_reader.cc:52-79). -/
def Src.read (s : Src) (n : Nat) : Status × Bytes × Src :=
  let (bs, es, stalled) := takeAvail n s.evs
  let s' : Src := { evs := es, pos := s.pos + bs.length }
  if bs.length = n then (.okCompleted, bs, s')
  else if bs.length > 0 then (.okPartial, bs, s')
  else if stalled then (.wouldBlock, bs, s')
  else (.endOfFile, bs, s')

/-- The same input with all data available at once. -/
def Src.flat (s : Src) : Src := { s with evs := s.evs.filter Option.isSome }

/-- Number of unavailable points. -/
def Src.stalls (s : Src) : Nat := s.evs.countP Option.isNone

/-- All the bytes, available or not yet. -/
def Src.bytes (s : Src) : Bytes := s.evs.filterMap id

end Verif.Web
