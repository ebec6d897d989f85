/-
Using a muxer segment: what is asked of the settings and of the frames handed over, and the vocabulary
for the outcome.
-/
import Verif.Model.MuxerSegment
import Verif.Lemmas.Sink

namespace Verif.Mux
open Verif

/-- The frame's buffers have realistic sizes (the block is below 2 GiB). -/
def SmallFrame (f : Frame) : Prop :=
  f.frame.length + 4 < 2 ^ 31 ∧ ∀ a, f.additional = some a → a.length < 2 ^ 32

/-- No output call ever fails. -/
def _root_.Verif.Sink.Sure (s : Sink) : Prop := ∀ i, s.plan i = none

/-- A frame whose buffers have realistic sizes and whose time the arithmetic can handle. -/
def Seg.Fine (g : Seg) (f : Frame) : Prop := SmallFrame f ∧ f.timestamp / g.info.scale < 2 ^ 63

/-- All these times are within the range of a block's relative time. -/
def Span (scale : Nat) (ts : List Nat) : Prop := ∀ a ∈ ts, ∀ b ∈ ts, a / scale ≤ b / scale + 0x7FFF

/-- A track's frames wait for a later video frame. -/
def Seg.queues (g : Seg) (f : Frame) : Bool :=
  g.hasVideo && (g.tracks.byNumber f.trackNumber).any fun e => e.kind == .audio

/-- The track of the frame is one of the segment's. -/
def Seg.knows (g : Seg) (f : Frame) : Bool := (g.tracks.byNumber f.trackNumber).isSome

/-- A frame the muxer can be expected to write: it has data, its sizes and its time are in range; on a
track whose frames wait, it must need no reference or have one. -/
structure Seg.Sound (g : Seg) (f : Frame) : Prop where
  data : f.frame ≠ []
  additional : f.additional ≠ some []
  fine : g.Fine f
  reference : g.queues f = true → (f.canBeSimpleBlock = true ∨ f.isKey = true ∨
    f.referenceBlockTimestampSet = true)

/-- The tracks have numbers that fit the tables. -/
def Seg.Numbered (g : Seg) : Prop := ∀ e ∈ g.tracks.entries, 1 ≤ e.number ∧ e.number ≤ 126

/-- Times of the frames that wait in the queue. -/
def Seg.waitTimes (g : Seg) : List SegCall → List Nat
  | [] => []
  | .force :: xs => g.waitTimes xs
  | .frame f :: xs => if g.queues f then f.timestamp :: g.waitTimes xs else g.waitTimes xs

/-- Times of the frames handed over until the first cluster is started; `forced` says that a new
cluster has been asked for. -/
def Seg.opening (g : Seg) : Bool → List SegCall → List Nat
  | _, [] => []
  | _, .force :: xs => g.opening true xs
  | forced, .frame f :: xs =>
    if !g.knows f then g.opening forced xs
    else if g.queues f && !forced then f.timestamp :: g.opening forced xs
    else [f.timestamp]

/-- Frames of a call. -/
def SegCall.frames : SegCall → List Frame
  | .frame f => [f]
  | .force => []

/-- The frames of the calls that succeeded. -/
def acceptedFrames : List SegCall → List (Res Unit) → List Frame
  | x :: xs, .ok () :: rs => x.frames ++ acceptedFrames xs rs
  | _ :: xs, _ :: rs => acceptedFrames xs rs
  | _, _ => []

/-- Why a frame is refused, in terms of the frames accepted before it: its track is unknown, an
accepted frame is later, or one of the frames that wait is too early for a common cluster. -/
def Seg.RefusedAfter (g : Seg) (acc : List Frame) (f : Frame) : Prop :=
  g.knows f = false ∨ (∃ a ∈ acc, f.timestamp < a.timestamp) ∨
    ∃ a b, acc = a ++ b ∧ (∀ y ∈ b, g.queues y = true) ∧
      ∃ w ∈ b, w.timestamp / g.info.scale + 0x7FFF < f.timestamp / g.info.scale

/-- Outcomes of a history: each call succeeds, or is refused for a reason. -/
def Outcomes (g : Seg) : List Frame → List SegCall → List (Res Unit) → Prop
  | _, [], [] => True
  | acc, x :: xs, r :: rs =>
    (r = .ok () ∧ Outcomes g (acc ++ x.frames) xs rs) ∨
    ((∃ e, r = .err e) ∧ (∃ f, x = .frame f ∧ g.RefusedAfter acc f) ∧ Outcomes g acc xs rs)
  | _, _, _ => False

/-- What the bytes of an optional header element are. -/
def OptEmits : Option (W Unit) → Option Bytes → Prop
  | none, none => True
  | some w, some b => Emits w () b
  | _, _ => False

/-- The settings of a segment and the bytes its header elements consist of. -/
structure Seg.Settings (g : Seg) (muxing writing tr : Bytes) (ch tg : Option Bytes) : Prop where
  muxing : g.info.muxingApp = some muxing ∧ muxing.length < 2 ^ 32
  writing : g.info.writingApp = some writing ∧ writing.length < 2 ^ 32
  scale : 0 < g.info.scale ∧ g.info.scale < 2 ^ 64
  docType : g.docType.length < 2 ^ 32
  version : g.docVersion = 4
  tracks : Emits g.tracksW () tr
  chapters : OptEmits g.chaptersW ch
  tags : OptEmits g.tagsW tg
  cues : g.outputCues = true → g.cuesTrack ≠ 0 ∨ g.tracks.entries ≠ []

/-- A segment no frame has been handed to. -/
structure Seg.Unused (g : Seg) : Prop where
  header : g.headerWritten = false
  seekHead : g.seekHead = {}
  cues : g.cues.entries = []
  newCuepoint : g.newCuepoint = false
  closed : g.closed = []
  cur : g.cur = none
  queue : g.queue = []
  queueUsed : g.queueUsed = false
  dangling : g.dangling = false
  lastTs : g.lastTs = 0

/-- The track the cues are for. -/
def Seg.cuesOn (g : Seg) : Nat :=
  if g.outputCues && g.cuesTrack == 0 then (Seg.pickCuesTrack g.tracks).getD 0 else g.cuesTrack

/-- What the frames of a history must satisfy at the beginning. -/
structure Seg.WellFed (g : Seg) (xs : List SegCall) : Prop where
  sound : ∀ f, .frame f ∈ xs → g.Sound f
  waiting : (g.waitTimes xs).Pairwise (· ≤ ·)
  start : Span g.info.scale (g.opening g.forceNew xs)

/-- There is room in the seek head for everything the file will have. -/
def Seg.Room (g : Seg) (ch tg : Option Bytes) : Prop := ¬ (g.outputCues = true ∧ ch.isSome = true ∧ tg.isSome = true)

/-- The duration in the finished file. -/
def Seg.lastDuration (g : Seg) (d : Option Nat) : Option Nat :=
  if g.seekable then some (d.getD 0x3F800000) else g.info.duration

end Verif.Mux
