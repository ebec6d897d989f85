/-
What is asked of the readers and writers, and what they answer: to compare those that come with the library with the ideal ones
that the parsers and the muxer are modelled with.
-/
import Verif.Model.Readers

namespace Verif.Io
open Verif

/-- A call of a `webm::Reader`: for some number of bytes, more than none. -/
inductive Call where
  | read (n : Nat)
  | skip (n : Nat)
  deriving DecidableEq, Repr

/-- How many bytes are asked for. -/
def Call.wanted : Call → Nat
  | .read n => n
  | .skip n => n

/-- What a `webm::Reader` answers: the status, the bytes in the buffer, the number reported, and what `Position()` says then. -/
structure Answer where
  status : Web.Status
  bytes : Bytes
  number : Nat
  position : Nat
  deriving DecidableEq, Repr

/-- The answers to a series of calls. -/
def answers {σ : Type} (step : Call → σ → Answer × σ) : List Call → σ → List Answer
  | [], _ => []
  | c :: cs, s => (step c s).1 :: answers step cs (step c s).2

/-- The ideal reader of Model/WebmReader.lean; to skip is to read and forget. -/
def onSrc (c : Call) (s : Web.Src) : Answer × Web.Src :=
  match c with
  | .read n => let (st, bs, s') := s.read n; (⟨st, bs, bs.length, s'.pos⟩, s')
  | .skip n => let (st, bs, s') := s.read n; (⟨st, [], bs.length, s'.pos⟩, s')

/-- `BufferReader`. -/
def onBuffer (c : Call) (r : BufferReader) : Answer × BufferReader :=
  match c with
  | .read n => let (st, bs, r') := r.read n; (⟨st, bs, bs.length, r'.pos⟩, r')
  | .skip n => let (st, m, r') := r.skip n; (⟨st, [], m, r'.pos⟩, r')

/-- `FileReader`, `IstreamReader`. -/
def onStream (c : Call) (r : StreamReader) : Answer × StreamReader :=
  match c with
  | .read n => let (st, bs, r') := r.read n; (⟨st, bs, bs.length, r'.position⟩, r')
  | .skip n => let (st, m, r') := r.skip n; (⟨st, [], m, r'.position⟩, r')

/-- A fresh `FileReader` or `IstreamReader` for a file, a pipe or a string stream at its beginning. -/
def freshReader (data : Bytes) (seekable pastEnd istream : Bool) : StreamReader :=
  { stream := some { data := data, seekable := seekable, pastEnd := pastEnd }, istream := istream }

/-- The bytes that an ideal reader delivers in the end. -/
def delivered (evs : List (Option UInt8)) : Bytes := evs.filterMap id

/-- After a series of reads. -/
def afterReads : List (Int × Int) → MkvReader → MkvReader
  | [], r => r
  | (offset, len) :: rest, r => afterReads rest (r.read offset len).2

/-- A call of an `IMkvWriter`. -/
inductive WCall where
  | write (bs : Bytes)
  | position
  | seek (p : Nat)

/-- What an open `MkvWriter` answers, and the file then. -/
def onFile (c : WCall) (f : OutFile) : Int × OutFile :=
  match c with
  | .write bs => ((mkvWrite (some f) bs).1, ((mkvWrite (some f) bs).2).getD f)
  | .position => (mkvPosition (some f), f)
  | .seek p => ((mkvSeek (some f) p).1, ((mkvSeek (some f) p).2).getD f)

/-- What the ideal writer of Model/Sink.lean answers. -/
def onSink (c : WCall) (s : Sink) : Int × Sink :=
  match c with
  | .write bs => (match (Sink.write bs s).1 with | .ok _ => 0 | .err e => e | .ub => -2, (Sink.write bs s).2)
  | .position => (match (Sink.position s).1 with | .ok p => p | .err e => e | .ub => -2, (Sink.position s).2)
  | .seek p => (match (Sink.seek p s).1 with | .ok _ => 0 | .err e => e | .ub => -2, (Sink.seek p s).2)

/-- The answers to a series of calls, and the object then. -/
def writerRun {σ : Type} (step : WCall → σ → Int × σ) : List WCall → σ → List Int × σ
  | [], s => ([], s)
  | c :: cs, s => ((step c s).1 :: (writerRun step cs (step c s).2).1, (writerRun step cs (step c s).2).2)

/-- Nothing is written behind the end of the file: the position is inside it before every call. -/
def NeverBehind (cs : List WCall) (f : OutFile) : Prop :=
  ∀ pre, pre <+: cs → (writerRun onFile pre f).2.pos ≤ (writerRun onFile pre f).2.data.length

end Verif.Io
