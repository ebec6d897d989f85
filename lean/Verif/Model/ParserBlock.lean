/-
Model of mkvparser's block parsing, mkvparser/mkvparser.cc:7624-8107.

Positions and sizes of type `long long` are naturals where the code asserts or has checked
that they are not negative; sums of positions do not overflow (the callers check positions
against the available length).  `new (std::nothrow)` succeeds.
-/
import Verif.Model.ParserPrims

namespace Verif.Par
open Verif

/-- `Block::Frame`, mkvparser/mkvparser.h:72-77. -/
structure BFrame where
  pos : Nat
  len : Nat
  deriving DecidableEq, Repr

/-- `Block`, mkvparser/mkvparser.h:44-103, after a successful `Parse`. -/
structure Block where
  start : Nat
  size : Nat
  track : Nat
  timecode : Int
  flags : UInt8
  frames : List BFrame
  discardPadding : Int
  deriving DecidableEq, Repr

/-- `LONG_MAX` (64-bit `long`). -/
def longMax : Nat := 2 ^ 63 - 1

/-- Single byte read where any nonzero status is a format error, e.g.
mkvparser/mkvparser.cc:7707-7710. -/
def readFlag (r : Rdr) (pos : Nat) : Res UInt8 :=
  match r.byte pos with
  | .ok b => .ok b
  | .error _ => .err E_FILE_FORMAT_INVALID

/-- Inner loop of Xiph lacing, mkvparser/mkvparser.cc:7767-7785: one frame size.  The fuel is
`stop - pos`, so running out of it is the test `pos >= stop`. -/
def xiphSize (r : Rdr) : (fuel : Nat) → (pos frameSize : Nat) → Res (Nat × Nat)
  | 0, _, _ => .err E_FILE_FORMAT_INVALID
  | f + 1, pos, frameSize => do
    let val ← readFlag r pos
    if val.toNat < 255 then .ok (frameSize + val.toNat, pos + 1)
    else xiphSize r f (pos + 1) (frameSize + val.toNat)

/-- Outer loop of Xiph lacing, mkvparser/mkvparser.cc:7764-7801: the sizes of all frames but
the last (`n` of them), and the position after them. -/
def xiphSizes (r : Rdr) (stop : Nat) : (n : Nat) → (pos : Nat) → Res (List Nat × Nat)
  | 0, pos => .ok ([], pos)
  | n + 1, pos => do
    let (sz, pos) ← xiphSize r (stop - pos) pos 0
    Res.refuse (sz ≤ 0) E_FILE_FORMAT_INVALID
    let (szs, pos) ← xiphSizes r stop n pos
    .ok (sz :: szs, pos)

/-- The loop that patches frame positions, mkvparser/mkvparser.cc:7828-7839 (also 8005-8013):
the frames and the final position. -/
def layFrames (stop : Nat) : List Nat → Nat → Res (List BFrame × Nat)
  | [], pos => .ok ([], pos)
  | len :: lens, pos => do
    Res.refuse (pos + len > stop) E_FILE_FORMAT_INVALID
    let (fs, p) ← layFrames stop lens (pos + len)
    .ok (⟨pos, len⟩ :: fs, p)

/-- Delta loop of EBML lacing, mkvparser/mkvparser.cc:7917-7976: `n` more sizes after
`frameSize`; `size` is the sum so far.  `frame_size` cannot overflow: it is below `2^56` at
the start and each of at most 254 deltas is below `2^55`. -/
def ebmlSizes (r : Rdr) (stop : Nat) :
    (n : Nat) → (pos frameSize size : Nat) → Res (List Nat × Nat × Nat)
  | 0, pos, _, size => .ok ([], pos, size)
  | n + 1, pos, frameSize, size => do
    Res.refuse (pos ≥ stop) E_FILE_FORMAT_INVALID
    let (delta, len) ← (readUInt r pos).orErr E_FILE_FORMAT_INVALID
    Res.refuse (pos + len > stop) E_FILE_FORMAT_INVALID
    let pos := pos + len
    let bias : Int := 2 ^ (7 * len - 1) - 1
    let fs : Int := frameSize + (delta - bias)
    Res.refuse (fs ≤ 0) E_FILE_FORMAT_INVALID
    Res.refuse (fs > longMax) E_FILE_FORMAT_INVALID
    Res.refuse ((size : Int) > llongMax - fs) E_FILE_FORMAT_INVALID
    let (szs, pos, total) ← ebmlSizes r stop n pos fs.toNat (size + fs.toNat)
    .ok (fs.toNat :: szs, pos, total)

/-- Last frame of a Xiph or EBML lace, mkvparser/mkvparser.cc:7806-7826 and 7979-8003. -/
def lastSize (stop pos size : Nat) : Res Nat := do
  Res.refuse (pos > stop) E_FILE_FORMAT_INVALID
  Res.refuse (stop - pos < size) E_FILE_FORMAT_INVALID
  let frameSize := stop - pos - size
  Res.refuse (frameSize > longMax ∨ frameSize ≤ 0) E_FILE_FORMAT_INVALID
  .ok frameSize

/-- Patching followed by the test `pos != stop`, mkvparser/mkvparser.cc:7828-7844 and
8005-8017. -/
def finishLace (stop : Nat) (sizes : List Nat) (pos : Nat) : Res (List BFrame) := do
  let (fs, p) ← layFrames stop sizes pos
  Res.refuse (p ≠ stop) E_FILE_FORMAT_INVALID
  .ok fs

/-- Lacing kind 1 (Xiph), mkvparser/mkvparser.cc:7757-7844. -/
def xiphLace (r : Rdr) (stop count pos : Nat) : Res (List BFrame) := do
  let (szs, pos) ← xiphSizes r stop (count - 1) pos
  let last ← lastSize stop pos szs.sum
  finishLace stop (szs ++ [last]) pos

/-- Lacing kind 2 (fixed size), mkvparser/mkvparser.cc:7846-7880. -/
def fixedLace (stop count pos : Nat) : Res (List BFrame) := do
  Res.refuse (pos ≥ stop) E_FILE_FORMAT_INVALID
  let total := stop - pos
  Res.refuse (total % count ≠ 0) E_FILE_FORMAT_INVALID
  let frameSize := total / count
  Res.refuse (frameSize > longMax ∨ frameSize ≤ 0) E_FILE_FORMAT_INVALID
  finishLace stop (List.replicate count frameSize) pos

/-- Lacing kind 3 (EBML), mkvparser/mkvparser.cc:7882-8017. -/
def ebmlLace (r : Rdr) (stop count pos : Nat) : Res (List BFrame) := do
  Res.refuse (pos ≥ stop) E_FILE_FORMAT_INVALID
  let (first, len) ← (readUInt r pos).orErr E_FILE_FORMAT_INVALID
  Res.refuse (first ≤ 0) E_FILE_FORMAT_INVALID
  Res.refuse (first > longMax) E_FILE_FORMAT_INVALID
  Res.refuse (pos + len > stop) E_FILE_FORMAT_INVALID
  let pos := pos + len
  Res.refuse (pos + first > stop) E_FILE_FORMAT_INVALID
  if count = 1 then finishLace stop [first] pos
  else do
    let (szs, pos, size) ← ebmlSizes r stop (count - 2) pos first first
    let last ← lastSize stop pos size
    finishLace stop (first :: szs ++ [last]) pos

/-- Lacing part of `Block::Parse`, mkvparser/mkvparser.cc:7717-8019; `pos` is after the flags. -/
def parseFrames (r : Rdr) (stop : Nat) (flags : UInt8) (pos : Nat) : Res (List BFrame) := do
  let lacing := (flags &&& 0x06) >>> 1
  if lacing = 0 then do
    Res.refuse (pos > stop) E_FILE_FORMAT_INVALID
    let frameSize := stop - pos
    Res.refuse (frameSize > longMax ∨ frameSize ≤ 0) E_FILE_FORMAT_INVALID
    .ok [⟨pos, frameSize⟩]
  else do
    Res.refuse (pos ≥ stop) E_FILE_FORMAT_INVALID
    let biased ← readFlag r pos
    let pos := pos + 1
    Res.refuse (pos > stop) E_FILE_FORMAT_INVALID
    let count := biased.toNat + 1
    if lacing = 1 then xiphLace r stop count pos
    else if lacing = 2 then fixedLace stop count pos
    else ebmlLace r stop count pos

/-- `Block::Parse`, mkvparser/mkvparser.cc:7653-8025. -/
def blockParse (r : Rdr) (start size : Nat) (discardPadding : Int) : Res Block := do
  let stop := start + size
  let (track, len) ← (readUInt r start).orErr E_FILE_FORMAT_INVALID
  Res.refuse (track ≤ 0) E_FILE_FORMAT_INVALID
  Res.refuse (start + len > stop) E_FILE_FORMAT_INVALID
  let pos := start + len
  Res.refuse ((stop : Int) - pos < 2) E_FILE_FORMAT_INVALID
  let value ← (unserializeInt r pos 2).orErr E_FILE_FORMAT_INVALID
  Res.refuse (value < -2 ^ 15) E_FILE_FORMAT_INVALID
  Res.refuse (value > 2 ^ 15 - 1) E_FILE_FORMAT_INVALID
  let pos := pos + 2
  Res.refuse ((stop : Int) - pos ≤ 0) E_FILE_FORMAT_INVALID
  let flags ← readFlag r pos
  let frames ← parseFrames r stop flags (pos + 1)
  .ok ⟨start, size, track, value, flags, frames, discardPadding⟩

/-- `Block::IsKey`, mkvparser/mkvparser.cc:8067-8069. -/
def Block.isKey (b : Block) : Bool := b.flags &&& 0x80 != 0

/-- `Block::SetKey`, mkvparser/mkvparser.cc:8071-8076. -/
def Block.setKey (b : Block) (key : Bool) : Block :=
  { b with flags := if key then b.flags ||| 0x80 else b.flags &&& 0x7F }

/-- `Block::IsInvisible`, mkvparser/mkvparser.cc:8078. -/
def Block.isInvisible (b : Block) : Bool := b.flags &&& 0x08 != 0

/-- `Block::GetLacing`, mkvparser/mkvparser.cc:8080-8083. -/
def Block.lacing (b : Block) : UInt8 := (b.flags &&& 0x06) >>> 1

/-- `Block::Frame::Read`, mkvparser/mkvparser.cc:8097-8103. -/
def BFrame.read (f : BFrame) (r : Rdr) : Except Int Bytes := r.read f.pos f.len

/-- A parsed `BlockEntry`: `SimpleBlock` or `BlockGroup` with its times,
mkvparser/mkvparser.h:105-164. -/
inductive Entry where
  | simple (b : Block)
  | group (b : Block) (prev next duration : Int)
  deriving DecidableEq, Repr

def Entry.block : Entry → Block
  | .simple b => b
  | .group b _ _ _ => b

/-- State of the loop of `CreateBlockGroup`, mkvparser/mkvparser.cc:7221-7226. -/
structure GroupAcc where
  prev : Int := 1
  next : Int := 0
  duration : Int := -1
  blk : Option (Nat × Nat) := none
  deriving DecidableEq, Repr

/-- `UnserializeUInt` used where the result is tested for being negative; an underflow or
indeterminate read is kept apart. -/
def unserializeNonneg (r : Rdr) (pos size : Int) : Res Int :=
  match unserializeUInt r pos size with
  | .ok v => if v < 0 then .err E_FILE_FORMAT_INVALID else .ok v
  | .err _ => .err E_FILE_FORMAT_INVALID
  | .ub => .ub

/-- What the loop of `CreateBlockGroup` does with a child once its header is read,
mkvparser/mkvparser.cc:7243-7272. -/
def groupField (r : Rdr) (id pos size : Nat) (a : GroupAcc) : Res GroupAcc :=
  if id = 0xA1 then
    .ok (if a.blk.isNone then { a with blk := some (pos, size) } else a)
  else if id = 0x9B then do
    Res.refuse (size > 8) E_FILE_FORMAT_INVALID
    let d ← unserializeNonneg r pos size
    .ok { a with duration := d }
  else if id = 0xFB then do
    Res.refuse (size > 8 ∨ size ≤ 0) E_FILE_FORMAT_INVALID
    let time ← (match unserializeInt r pos size with
      | .ok x => .ok x
      | _ => .ub : Res Int)
    .ok (if time ≤ 0 then { a with prev := time } else { a with next := time })
  else .ok a

/-- Loop of `CreateBlockGroup`, mkvparser/mkvparser.cc:7228-7278.  The fuel bounds the number
of children (each takes at least two bytes). -/
def groupLoop (r : Rdr) (stop : Nat) : (fuel : Nat) → (pos : Nat) → GroupAcc → Res (Nat × GroupAcc)
  | 0, pos, a => .ok (pos, a)
  | f + 1, pos, a =>
    if pos < stop then do
      let (id, len) ← (readID r pos).orErr E_FILE_FORMAT_INVALID
      Res.refuse (pos + len > stop) E_FILE_FORMAT_INVALID
      let pos := pos + len
      let (size, len) ← (match readUInt r pos with
        | .ok x => .ok x
        | _ => .ub : Res (Nat × Nat))
      Res.assert (pos + len ≤ stop)
      let pos := pos + len
      let a ← groupField r id pos size a
      let pos := pos + size
      Res.refuse (pos > stop) E_FILE_FORMAT_INVALID
      groupLoop r stop f pos a
    else .ok (pos, a)

/-- `Cluster::CreateBlockGroup` and `BlockGroup::Parse`, mkvparser/mkvparser.cc:7205-7310 and
7624-7633. -/
def createBlockGroup (r : Rdr) (start size : Nat) (discardPadding : Int) : Res Entry := do
  let stop := start + size
  let (pos, a) ← groupLoop r stop size start {}
  match a.blk with
  | none => .err E_FILE_FORMAT_INVALID
  | some (bpos, bsize) => do
    Res.refuse (pos ≠ stop) E_FILE_FORMAT_INVALID
    let b ← blockParse r bpos bsize discardPadding
    .ok (.group (b.setKey (a.prev > 0 && a.next ≤ 0)) a.prev a.next a.duration)

/-- `Cluster::CreateSimpleBlock`, mkvparser/mkvparser.cc:7312-7341. -/
def createSimpleBlock (r : Rdr) (start size : Nat) : Res Entry := do
  let b ← blockParse r start size 0
  .ok (.simple b)

/-- The sequence `GetUIntLength`, `> limit`, `> avail`, used before every variable-length
field of a cluster, e.g. mkvparser/mkvparser.cc:6493-6507: the length of the field. -/
def fieldLength (r : Rdr) (pos limit : Nat) : Res Nat := do
  Res.refuse (pos + 1 > r.data.length) E_BUFFER_NOT_FULL
  let (result, len) ← getUIntLength r pos
  Res.refuse (result < 0) result
  Res.refuse (result > 0) E_BUFFER_NOT_FULL
  Res.refuse (pos + len > limit) E_FILE_FORMAT_INVALID
  Res.refuse (pos + len > r.data.length) E_BUFFER_NOT_FULL
  .ok len

/-- Track number, time code and flags checks shared by `ParseSimpleBlock`
(mkvparser/mkvparser.cc:6490-6554) and `ParseBlockGroup` (6695-6759). -/
def checkBlockHead (r : Rdr) (pos blockStop : Nat) : Res Unit := do
  let _ ← fieldLength r pos blockStop
  let (track, len) ← readUInt r pos
  Res.refuse (track = 0) E_FILE_FORMAT_INVALID
  let pos := pos + len
  Res.refuse (pos + 2 > blockStop) E_FILE_FORMAT_INVALID
  Res.refuse (pos + 2 > r.data.length) E_BUFFER_NOT_FULL
  let pos := pos + 2
  Res.refuse (pos + 1 > blockStop) E_FILE_FORMAT_INVALID
  Res.refuse (pos + 1 > r.data.length) E_BUFFER_NOT_FULL
  let flags ← (match r.byte pos with
    | .ok b => .ok b
    | .error status => if status < 0 then .err status else .ub : Res UInt8)
  let pos := pos + 1
  Res.refuse (pos ≥ blockStop) E_FILE_FORMAT_INVALID
  let lacing := (flags &&& 0x06) >>> 1
  Res.refuse (lacing ≠ 0 ∧ blockStop > r.data.length) E_BUFFER_NOT_FULL

/-- `Cluster::ParseSimpleBlock`, mkvparser/mkvparser.cc:6473-6569: the entry and the new
`m_pos`. -/
def parseSimpleBlock (r : Rdr) (blockSize pos : Nat) : Res (Entry × Nat) := do
  Res.assert (r.total < 0 ∨ (r.data.length : Int) ≤ r.total)
  checkBlockHead r pos (pos + blockSize)
  let e ← createSimpleBlock r pos blockSize
  .ok (e, pos + blockSize)

/-- Loop of `Cluster::ParseBlockGroup`, mkvparser/mkvparser.cc:6598-6766: the final position
and the discard padding. -/
def blockGroupLoop (r : Rdr) (stop : Nat) : (fuel : Nat) → (pos : Nat) → (dp : Int) → Res (Nat × Int)
  | 0, pos, dp => .ok (pos, dp)
  | f + 1, pos, dp =>
    if pos < stop then do
      let _ ← fieldLength r pos stop
      let (id, len) ← readID r pos
      Res.refuse (id = 0) E_FILE_FORMAT_INVALID
      let pos := pos + len
      let _ ← fieldLength r pos stop
      let (size, len) ← readUInt r pos
      let pos := pos + len
      Res.refuse (pos > stop) E_FILE_FORMAT_INVALID
      if size = 0 then blockGroupLoop r stop f pos dp
      else do
        Res.refuse (size = 2 ^ (7 * len) - 1) E_FILE_FORMAT_INVALID
        let dp ← (if id = 0x75A2 then unserializeInt r pos size else .ok dp : Res Int)
        if id ≠ 0xA1 then do
          let pos := pos + size
          Res.refuse (pos > stop) E_FILE_FORMAT_INVALID
          blockGroupLoop r stop f pos dp
        else do
          Res.refuse (pos + size > stop) E_FILE_FORMAT_INVALID
          checkBlockHead r pos (pos + size)
          blockGroupLoop r stop f (pos + size) dp
    else .ok (pos, dp)

/-- `Cluster::ParseBlockGroup`, mkvparser/mkvparser.cc:6571-6778: the entry and the new
`m_pos`. -/
def parseBlockGroup (r : Rdr) (payloadSize pos : Nat) : Res (Entry × Nat) := do
  Res.assert (r.total < 0 ∨ (r.data.length : Int) ≤ r.total)
  let stop := pos + payloadSize
  Res.refuse (r.total ≥ 0 ∧ (stop : Int) > r.total) E_FILE_FORMAT_INVALID
  Res.refuse (stop > r.data.length) E_BUFFER_NOT_FULL
  let (p, dp) ← blockGroupLoop r stop payloadSize pos 0
  Res.refuse (p ≠ stop) E_FILE_FORMAT_INVALID
  let e ← createBlockGroup r pos payloadSize dp
  .ok (e, stop)

end Verif.Par
