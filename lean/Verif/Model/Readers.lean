/-
The readers and writers that come with the library: `MkvReader`, `MkvWriter` (mkvparser/mkvreader.cc, mkvmuxer/mkvwriter.cc) and,
of webm_parser, `BufferReader`, `FileReader`, `IstreamReader`; with a model of the C and C++ streams under them.
-/
import Verif.Model.ParserPrims
import Verif.Model.Sink
import Verif.Model.WebmReader

namespace Verif.Io
open Verif

/-! ### Input streams -/

/-- A `FILE*` or `std::istream` open for reading: its bytes, the position, whether one can seek (not in a pipe), and whether one
can seek behind the end (so in a file, not in a string stream).  Simplification: no I/O errors. -/
structure Stream where
  data : Bytes
  pos : Nat := 0
  seekable : Bool := true
  pastEnd : Bool := true
  deriving Repr

/-- `fread(buffer, 1, n, file)` and `istream::read`: as many bytes as there are. -/
def Stream.read (s : Stream) (n : Nat) : Bytes × Stream :=
  (slice s.data s.pos n, { s with pos := s.pos + (slice s.data s.pos n).length })

/-- `fseek(file, n, SEEK_CUR)` and `istream::seekg(n, std::ios_base::cur)`; positions are numbers below 2⁶³.  `none`: failed. -/
def Stream.skip (s : Stream) (n : Nat) : Option Stream :=
  if s.seekable = true ∧ s.pos + n < 2 ^ 63 ∧ (s.pastEnd = true ∨ s.pos + n ≤ s.data.length) then some { s with pos := s.pos + n } else none

/-- `fseek(file, 0, SEEK_END)` with `ftell(file)`; -1 if one cannot seek. -/
def Stream.length (s : Stream) : Int := if s.seekable then s.data.length else -1

/-- `fseeko(file, p, SEEK_SET)`, whose result the callers ignore. -/
def Stream.seek (s : Stream) (p : Nat) : Stream := if s.seekable then { s with pos := p } else s

/-! ### webm_parser -/

/-- `BufferReader`, webm_parser/include/webm/buffer_reader.h. -/
structure BufferReader where
  data : Bytes
  pos : Nat := 0

/-- `BufferReader::Read`, webm_parser/src/buffer_reader.cc:52-79, for `n > 0`. -/
def BufferReader.read (r : BufferReader) (n : Nat) : Web.Status × Bytes × BufferReader :=
  let remaining := r.data.length - r.pos
  if remaining = 0 then (.endOfFile, [], r)
  else
    let m := if n > remaining then remaining else n
    (if m ≠ n then .okPartial else .okCompleted, slice r.data r.pos m, { r with pos := r.pos + m })

/-- `BufferReader::Skip`, webm_parser/src/buffer_reader.cc:81-106, for `n > 0`. -/
def BufferReader.skip (r : BufferReader) (n : Nat) : Web.Status × Nat × BufferReader :=
  let remaining := r.data.length - r.pos
  if remaining = 0 then (.endOfFile, 0, r)
  else
    let m := if n > remaining then remaining else n
    (if m ≠ n then .okPartial else .okCompleted, m, { r with pos := r.pos + m })

/-- `FileReader` and `IstreamReader`, webm_parser/include/webm/file_reader.h:102-113, webm_parser/include/webm/istream_reader.h: the
stream if there is one, the position, and for `IstreamReader` whether the stream is in a good state (always `true` for
`FileReader`). -/
structure StreamReader where
  stream : Option Stream
  position : Nat := 0
  good : Bool := true
  istream : Bool := false

/-- `FileReader::Read`, webm_parser/src/file_reader.cc:50-75, and `IstreamReader::Read`, webm_parser/src/istream_reader.cc:35-70, for
`n > 0`.  A stream that is not good reads nothing; reading behind the end makes an `istream` bad.  Simplification: `n` below 2⁶³. -/
def StreamReader.read (r : StreamReader) (n : Nat) : Web.Status × Bytes × StreamReader :=
  match r.stream with
  | none => (.endOfFile, [], r)
  | some s =>
    let (bs, s') := if r.good then s.read n else ([], s)
    let good := r.good && (!r.istream || bs.length == n)
    let r' := { r with stream := some s', position := r.position + bs.length, good := good }
    if bs.length = 0 then (.endOfFile, bs, r')
    else if bs.length = n then (.okCompleted, bs, r')
    else (.okPartial, bs, r')

/-- `FileReader::Skip`, webm_parser/src/file_reader.cc:77-130, and `IstreamReader::Skip`, webm_parser/src/istream_reader.cc:72-129, for
`n > 0`.  If seeking fails, up to 1024 bytes are read; *once only*, for the `actual` in the condition of the loop is not the one
that is assigned in it. -/
def StreamReader.skip (r : StreamReader) (n : Nat) : Web.Status × Nat × StreamReader :=
  match r.stream with
  | none => (.endOfFile, 0, r)
  | some s =>
    if r.good = false then (.endOfFile, 0, r)
    else
      let off := if n < 2 ^ 63 - 1 then n else 2 ^ 63 - 1
      match s.skip off with
      | some s' =>
        (if off = n then .okCompleted else .okPartial, off, { r with stream := some s', position := r.position + off })
      | none =>
        let m := if n < 1024 then n else 1024
        let (bs, s') := s.read m
        let r' := { r with stream := some s', position := r.position + bs.length, good := !r.istream || bs.length == m }
        if bs.length = 0 then (.endOfFile, 0, r')
        else if n - bs.length = 0 then (.okCompleted, bs.length, r')
        else (.okPartial, bs.length, r')

/-- `FileReader::Seek`, webm_parser/src/file_reader.cc:132-138, with a file. -/
def StreamReader.seek (r : StreamReader) (p : Nat) : Web.Status × StreamReader :=
  match r.stream with
  | none => (.seekFailed, r)
  | some s => if s.seekable ∧ p < 2 ^ 63 then (.okCompleted, { r with stream := some (s.seek p), position := p }) else (.seekFailed, r)

/-! ### mkvparser -/

/-- `MkvReader`, mkvparser/mkvreader.h. -/
structure MkvReader where
  file : Option Stream := none
  length : Int := 0

/-- `MkvReader::Open`, mkvparser/mkvreader.cc:28-47, with `GetFileSize`, 49-78; `file` is what `fopen` gives.  Returns what `Open`
returns.  Simplification: the assertion at 64 is not compiled in. -/
def MkvReader.open (r : MkvReader) (file : Option Stream) : Int × MkvReader :=
  match r.file with
  | some _ => (-1, r)
  | none =>
    match file with
    | none => (-1, r)
    | some s => if s.length < 0 then (1, { file := some s, length := s.length })
      else (0, { file := some (s.seek 0), length := s.length })

/-- `MkvReader::Length`, mkvparser/mkvreader.cc:87-98: the result, `*total` and `*available`. -/
def MkvReader.getLength (r : MkvReader) : Int × Option (Int × Int) :=
  match r.file with
  | none => (-1, none)
  | some _ => (0, some (r.length, r.length))

/-- `MkvReader::Read`, mkvparser/mkvreader.cc:100-139: the result, the buffer if it is 0. -/
def MkvReader.read (r : MkvReader) (offset len : Int) : Except Int Bytes × MkvReader :=
  match r.file with
  | none => (.error (-1), r)
  | some s =>
    if offset < 0 then (.error (-1), r)
    else if len < 0 then (.error (-1), r)
    else if len = 0 then (.ok [], r)
    else if offset ≥ r.length then (.error (-1), r)
    else
      let (bs, s') := (s.seek offset.toNat).read len.toNat
      (if bs.length < len.toNat then .error (-1) else .ok bs, { r with file := some s' })

/-! ### mkvmuxer -/

/-- A `FILE*` open for writing: its contents, the position, and how many bytes the `n`th call of `fwrite` or `fseeko` stores before it
fails, if it does. -/
structure OutFile where
  data : Bytes := []
  pos : Nat := 0
  calls : Nat := 0
  faults : Nat → Option Nat

/-- `fwrite(buffer, 1, length, file)`: the number of bytes stored.  What is written behind the end is preceded by zeros. -/
def OutFile.fwrite (f : OutFile) (bs : Bytes) : Nat × OutFile :=
  let stored := match f.faults f.calls with
    | none => bs
    | some n => bs.take (min n (bs.length - 1))
  (stored.length, { f with data := overwrite (f.data ++ List.replicate (f.pos - f.data.length) 0) f.pos stored,
                           pos := f.pos + stored.length, calls := f.calls + 1 })

/-- `fseeko(file, position, SEEK_SET)`: the result. -/
def OutFile.fseek (f : OutFile) (p : Int) : Int × OutFile :=
  match f.faults f.calls with
  | none => if p < 0 then (-1, { f with calls := f.calls + 1 }) else (0, { f with pos := p.toNat, calls := f.calls + 1 })
  | some _ => (-1, { f with calls := f.calls + 1 })

/-- `MkvWriter::Write`, mkvmuxer/mkvwriter.cc:25-38; the buffer is not null.  The file is that of the writer, if it is open. -/
def mkvWrite (file : Option OutFile) (bs : Bytes) : Int × Option OutFile :=
  match file with
  | none => (-1, none)
  | some f =>
    if bs.length = 0 then (0, some f)
    else (if (f.fwrite bs).1 = bs.length then 0 else -1, some (f.fwrite bs).2)

/-- `MkvWriter::Position() const`, mkvmuxer/mkvwriter.cc:64-73. -/
def mkvPosition (file : Option OutFile) : Int :=
  match file with
  | none => 0
  | some f => f.pos

/-- `MkvWriter::Position(int64)`, mkvmuxer/mkvwriter.cc:75-92. -/
def mkvSeek (file : Option OutFile) (p : Int) : Int × Option OutFile :=
  match file with
  | none => (-1, none)
  | some f => ((f.fseek p).1, some (f.fseek p).2)

end Verif.Io
