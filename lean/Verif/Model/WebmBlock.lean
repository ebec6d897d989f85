/-
Model of `BasicBlockParser<T>` (webm_parser/src/block_parser.cc): Block and SimpleBlock elements
read incrementally, with the three kinds of lacing.

The callback is part of the modelled system.  `OnBlockBegin`/`OnSimpleBlockBegin` decides
whether to skip (a parameter `skip`), `OnFrame` reads the bytes of the frame it is handed until
none remain (like `Callback::Skip`, webm_parser/src/callback.cc:138-153, but keeping the
bytes), and every completed call is recorded in `log`.  Callbacks that return an error, or
"would block" of their own accord, are not modelled.
-/
import Verif.Model.WebmLoop
import Verif.Base.Res

namespace Verif.Web
open Verif

/-- `ElementMetadata`, webm_parser/include/webm/element.h:136-178. -/
structure Meta where
  id : Nat
  headerSize : Nat
  size : Nat
  position : Nat
  deriving DecidableEq, Repr

/-- `Lacing`, webm_parser/include/webm/dom_types.h:159-179. -/
inductive Lacing where
  | none | xiph | fixed | ebml
  deriving DecidableEq, Repr

/-- `static_cast<Lacing>(flags & 0x06)`, webm_parser/src/block_parser.cc:103. -/
def lacingOf (flags : Nat) : Lacing :=
  if flags &&& 6 = 0 then .none else if flags &&& 6 = 2 then .xiph
  else if flags &&& 6 = 4 then .fixed else .ebml

/-- `Block` and `SimpleBlock`, webm_parser/include/webm/dom_types.h:184-242 (`timecode` is the
16-bit pattern; `isKey` and `isDiscardable` only for `SimpleBlock`). -/
structure BlockVal where
  track : Nat := 0
  numFrames : Nat := 0
  timecode : Nat := 0
  lacing : Lacing := .none
  isVisible : Bool := false
  isKey : Bool := false
  isDiscardable : Bool := false
  deriving DecidableEq, Repr

/-- What the callback has seen of a block. -/
inductive BlockEv where
  /-- `OnBlockBegin` / `OnSimpleBlockBegin` -/
  | start (v : BlockVal)
  /-- `OnFrame`: the announced position and size, the reader's position when the frame began,
  and the bytes read -/
  | frame (pos size truePos : Nat) (data : Bytes)
  /-- `OnBlockEnd` / `OnSimpleBlockEnd` -/
  | done (v : BlockVal)
  deriving DecidableEq, Repr

/-- `BasicBlockParser::State`, webm_parser/src/block_parser.h:92-112. -/
inductive BPState where
  | readingHeader | readingLaceCount | gettingAction | readingXiph | readingFirstEbml
  | readingEbml | calculatingFixed | validatingSize | skipping | readingFrames | done
  deriving DecidableEq, Repr

/-- `BasicBlockParser<T>`, webm_parser/src/block_parser.h:37-116, with the callback's record.
`lace_sizes_[current_lace_]` counts down in the code while a frame is read; here it keeps its
value and `buf`, the part of the current frame already handed over, counts up. -/
structure BlockP where
  elem : Meta
  state : BPState := .readingHeader
  /-- `header_bytes_read_` -/
  hdrRead : Nat := 0
  value : BlockVal := {}
  hdr : BlockHdr := {}
  uint : VarInt := {}
  xiph : Nat := 0
  laces : List Nat := []
  cur : Nat := 0
  framePos : Nat := 0
  frameSize : Nat := 0
  buf : Bytes := []
  log : List BlockEv := []
  deriving DecidableEq, Repr

/-- `BasicBlockParser::Init`, webm_parser/src/block_parser.cc:62-75. -/
def BlockP.init (m : Meta) : Except Status BlockP :=
  if m.size = kUnknownElementSize ∨ m.size < 5 then .error .invalidElementSize
  else .ok { elem := m }

/-- State `kReadingHeader`, webm_parser/src/block_parser.cc:91-113 (`simple`: whether `T` is
`SimpleBlock`, webm_parser/src/block_parser.cc:25-32). -/
def BlockP.afterHeader (simple : Bool) (p : BlockP) (h : BlockHdr) (k : Nat) : BlockP :=
  let l := lacingOf h.flags
  let v : BlockVal := {
    track := h.track
    numFrames := if l = .none then 1 else p.value.numFrames
    timecode := h.timecode
    lacing := l
    isVisible := h.flags &&& 8 == 0
    isKey := simple && h.flags &&& 0x80 != 0
    isDiscardable := simple && h.flags &&& 1 != 0 }
  { p with
    hdr := h
    hdrRead := p.hdrRead + k
    value := v
    state := if l = .none then .gettingAction else .readingLaceCount }

/-- State `kReadingLaceCount`, webm_parser/src/block_parser.cc:115-128. -/
def BlockP.afterLaceCount (p : BlockP) (b : UInt8) : BlockP :=
  { p with
    hdrRead := p.hdrRead + 1
    value := { p.value with numFrames := b.toNat + 1 }
    state := .gettingAction }

/-- State `kGettingAction`, webm_parser/src/block_parser.cc:130-149. -/
def BlockP.afterAction (skip : Bool) (p : BlockP) : BlockP :=
  { p with
    log := p.log ++ [.start p.value]
    state :=
      if skip then .skipping
      else if p.value.lacing = .none ∨ p.value.numFrames = 1 then .validatingSize
      else if p.value.lacing = .xiph then .readingXiph
      else if p.value.lacing = .ebml then .readingFirstEbml
      else .calculatingFixed }

/-- One byte of the Xiph lace sizes, webm_parser/src/block_parser.cc:156-166. -/
def BlockP.xiphByte (p : BlockP) (b : UInt8) : BlockP :=
  let x := (p.xiph + b.toNat) % two64
  if b = 255 then { p with hdrRead := p.hdrRead + 1, xiph := x }
  else { p with hdrRead := p.hdrRead + 1, laces := p.laces ++ [x], xiph := 0 }

/-- State `kReadingFirstEbmlLaceSize` after the parser completed,
webm_parser/src/block_parser.cc:175-182. -/
def BlockP.firstEbml (p : BlockP) (u : VarInt) (k : Nat) : BlockP :=
  { p with
    hdrRead := p.hdrRead + k, laces := p.laces ++ [u.value], uint := {}, state := .readingEbml }

/-- One delta of the EBML lace sizes, webm_parser/src/block_parser.cc:190-200.  All arithmetic
is on `uint64`. -/
def BlockP.nextEbml (p : BlockP) (u : VarInt) (k : Nat) : BlockP :=
  let offset := 2 ^ (u.encodedLength * 7 - 1) - 1
  { p with
    hdrRead := p.hdrRead + k
    laces := p.laces ++ [((p.laces.getLast?.getD 0) + u.value + (two64 - offset)) % two64]
    uint := {} }

/-- State `kCalculatingFixedLaceSizes`, webm_parser/src/block_parser.cc:205-223. -/
def BlockP.fixedLaces (p : BlockP) : Option BlockP :=
  if p.hdrRead ≥ p.elem.size then .none
  else
    let laced := p.elem.size - p.hdrRead
    if laced % p.value.numFrames ≠ 0 then .none
    else some { p with
      laces := List.replicate p.value.numFrames (laced / p.value.numFrames)
      framePos := (p.elem.position + p.hdrRead) % two64
      frameSize := laced / p.value.numFrames
      state := .readingFrames }

/-- State `kValidatingSize`, webm_parser/src/block_parser.cc:225-238. -/
def BlockP.validate (p : BlockP) : Option BlockP :=
  let sum := p.laces.foldl (fun a x => (a + x) % two64) p.hdrRead
  if sum ≥ p.elem.size then .none
  else
    let laces := p.laces ++ [p.elem.size - sum]
    some { p with
      laces := laces
      framePos := (p.elem.position + p.elem.headerSize + p.hdrRead) % two64
      frameSize := laces.head?.getD 0
      state := .readingFrames }

/-- The callback's `OnFrame`: read until nothing of the frame remains. -/
def onFrame (size : Nat) (buf : Bytes) (s : Src) : Fed Bytes :=
  if buf.length = size then (.okCompleted, buf, s, 0)
  else byteLoop size (size - buf.length + 1) buf s

/-- After a completed frame, webm_parser/src/block_parser.cc:262-267. -/
def BlockP.frameDone (p : BlockP) (data : Bytes) (posAfter : Nat) : BlockP :=
  let p := { p with
    log := p.log ++ [BlockEv.frame p.framePos p.frameSize (posAfter - data.length) data]
    buf := [] }
  if p.cur + 1 < p.laces.length then
    { p with
      framePos := (p.framePos + p.frameSize) % two64
      frameSize := (p.laces[p.cur + 1]?).getD 0
      cur := p.cur + 1 }
  else { p with cur := p.cur + 1 }

/-- One pass of `BasicBlockParser::Feed`, webm_parser/src/block_parser.cc:77-275.  The inner
loops over lace sizes and frames go round once per pass.  In `kSkipping` the code asks the
reader to skip `size - header_bytes_read_` bytes (a `uint64` subtraction); the reader's contract
does not cover a request for 0 bytes, which the model lets succeed. -/
def BlockP.body (simple skip : Bool) (p : BlockP) (s : Src) : Pass BlockP :=
  match p.state with
  | .readingHeader =>
    match p.hdr.feed s with
    | (st, h, s', k) =>
      if st.completedOk then (none, p.afterHeader simple h k, s', k)
      else (some st, { p with hdr := h, hdrRead := p.hdrRead + k }, s', k)
  | .readingLaceCount =>
    match s.readByte with
    | (_, some b, s') => (none, p.afterLaceCount b, s', 1)
    | (st, none, s') => (some st, p, s', 0)
  | .gettingAction => (none, p.afterAction skip, s, 0)
  | .readingXiph =>
    if p.laces.length < p.value.numFrames - 1 then
      match s.readByte with
      | (_, some b, s') => (none, p.xiphByte b, s', 1)
      | (st, none, s') => (some st, p, s', 0)
    else (none, { p with state := .validatingSize }, s, 0)
  | .readingFirstEbml =>
    match p.uint.feed s with
    | (st, u, s', k) =>
      if st.completedOk then (none, p.firstEbml u k, s', k)
      else (some st, { p with uint := u, hdrRead := p.hdrRead + k }, s', k)
  | .readingEbml =>
    if p.laces.length < p.value.numFrames - 1 then
      match p.uint.feed s with
      | (st, u, s', k) =>
        if st.completedOk then (none, p.nextEbml u k, s', k)
        else (some st, { p with uint := u, hdrRead := p.hdrRead + k }, s', k)
    else (none, { p with state := .validatingSize }, s, 0)
  | .calculatingFixed =>
    match p.fixedLaces with
    | some p' => (none, p', s, 0)
    | none => (some .invalidElementValue, p, s, 0)
  | .validatingSize =>
    match p.validate with
    | some p' => (none, p', s, 0)
    | none => (some .invalidElementValue, p, s, 0)
  | .skipping =>
    match skipFeed ((p.elem.size + (two64 - p.hdrRead % two64)) % two64) s with
    | (st, _, s', k) => (some st, { p with hdrRead := p.hdrRead + k }, s', k)
  | .readingFrames =>
    if p.cur < p.laces.length then
      match onFrame p.frameSize p.buf s with
      | (st, buf, s', k) =>
        if st.completedOk then (none, p.frameDone buf s'.pos, s', k)
        else (some st, { p with buf := buf }, s', k)
    else (none, { p with state := .done }, s, 0)
  | .done => (some .okCompleted, { p with log := p.log ++ [.done p.value] }, s, 0)

/-- Phase numbers, only used for the loop measure. -/
def BPState.rank : BPState → Nat
  | .readingHeader => 10 | .readingLaceCount => 9 | .gettingAction => 8 | .readingFirstEbml => 7
  | .readingXiph => 6 | .readingEbml => 5 | .calculatingFixed => 4 | .validatingSize => 3
  | .skipping => 2 | .readingFrames => 1 | .done => 0

/-- Loop measure: phase, sizes or frames left, bytes left. -/
def BlockP.measure (p : BlockP) (n : Nat) : Nat :=
  p.state.rank * 600 + n +
    (if p.state = .readingFrames then p.laces.length - p.cur
     else if p.state = .readingEbml then 256 - p.laces.length else 0)

/-- `BasicBlockParser::Feed`, webm_parser/src/block_parser.cc:77-275. -/
def BlockP.feed (simple skip : Bool) : BlockP → Src → Fed BlockP :=
  loopFeed (BlockP.body simple skip) BlockP.measure

end Verif.Web
