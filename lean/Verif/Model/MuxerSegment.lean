/-
Model of the muxer's `Segment`, mkvmuxer/mkvmuxer.cc:3047-4180, and of `SegmentInfo`,
mkvmuxer/mkvmuxer.cc:2892-3015, without chunking (`chunking_` false: one writer for everything).
-/
import Verif.Model.MuxerCluster
import Verif.Model.MuxerTracks
import Verif.Model.MuxerCues
import Verif.Model.EbmlHeader

namespace Verif.Mux
open Verif

/-- IDs of the segment and of its header elements, common/webmids.h:33-46, 63, 172, 184. -/
def kMkvSegment : Nat := 0x18538067
def kMkvInfo : Nat := 0x1549A966
def kMkvTimecodeScale : Nat := 0x2AD7B1
def kMkvDuration : Nat := 0x4489
def kMkvDateUTC : Nat := 0x4461
def kMkvMuxingApp : Nat := 0x4D80
def kMkvWritingApp : Nat := 0x5741
def kMkvTracks : Nat := 0x1654AE6B
def kMkvChapters : Nat := 0x1043A770
def kMkvTags : Nat := 0x1254C367

/-- Members of `mkvmuxer::SegmentInfo`, mkvmuxer/mkvmuxer.h:1475-1488, constructor at
mkvmuxer/mkvmuxer.cc:2892-2898.  `duration` is `none` if `duration_` is not positive, else the bits
of `static_cast<float>(duration_)`; `date` is `none` for `INT64_MIN`; `durationPos` is `none` for -1.
Simplification: floating-point arithmetic is not modelled, only the bits that are written. -/
structure SegInfo where
  scale : Nat := 1000000
  duration : Option Nat := none
  muxingApp : Option Bytes := none
  writingApp : Option Bytes := none
  date : Option Int := none
  durationPos : Option Nat := none
  deriving DecidableEq, Repr

/-- The size computed by `SegmentInfo::Write`, mkvmuxer/mkvmuxer.cc:2967-2975. -/
def SegInfo.payloadSize (i : SegInfo) : Nat :=
  ebmlElementSizeUInt kMkvTimecodeScale i.scale +
    (if i.duration.isSome then ebmlElementSizeFloat kMkvDuration else 0) +
    (if i.date.isSome then ebmlDateElementSize kMkvDateUTC else 0) +
    ebmlElementSizeString kMkvMuxingApp i.muxingApp + ebmlElementSizeString kMkvWritingApp i.writingApp

/-- The duration part of `SegmentInfo::Write`, mkvmuxer/mkvmuxer.cc:2988-2996. -/
def SegInfo.writeDuration : M SegInfo Unit := do
  let i ← M.get
  match i.duration with
  | none => pure ()
  | some bits => do
    let p ← M.lift Sink.position
    M.modify fun i => { i with durationPos := some p }
    M.lift (writeEbmlElementFloat kMkvDuration bits)

/-- The date part of `SegmentInfo::Write`, mkvmuxer/mkvmuxer.cc:2998-2999: the result of the call is
not looked at. -/
def SegInfo.writeDate : M SegInfo Unit := fun i s =>
  match i.date with
  | none => (.ok (), i, s)
  | some d =>
    match writeEbmlDateElement kMkvDateUTC d s with
    | (.ub, s') => (.ub, i, s')
    | (_, s') => (.ok (), i, s')

/-- `SegmentInfo::Write`, mkvmuxer/mkvmuxer.cc:2963-3012. -/
def SegInfo.write : M SegInfo Unit := do
  let i ← M.get
  if i.muxingApp.isNone || i.writingApp.isNone then M.fail
  else do
    M.lift (writeEbmlMasterElement kMkvInfo i.payloadSize)
    let start ← M.lift Sink.position
    M.lift (writeEbmlElementUInt kMkvTimecodeScale i.scale)
    SegInfo.writeDuration
    SegInfo.writeDate
    M.lift (writeEbmlElementString kMkvMuxingApp i.muxingApp)
    M.lift (writeEbmlElementString kMkvWritingApp i.writingApp)
    let stop ← M.lift Sink.position
    if (stop : Int) - start ≠ toI64 i.payloadSize then M.fail else pure ()

/-- `SegmentInfo::Finalize`, mkvmuxer/mkvmuxer.cc:2938-2961. -/
def SegInfo.finalize (seekable : Bool) (i : SegInfo) : W Unit :=
  match i.duration with
  | none => pure ()
  | some bits =>
    if !seekable then pure ()
    else
      match i.durationPos with
      | none => W.fail 0
      | some p => do
        let pos ← Sink.position
        Sink.seek p
        writeEbmlElementFloat kMkvDuration bits
        Sink.seek pos

/-- Members of `mkvmuxer::Segment`, mkvmuxer/mkvmuxer.h:1785-1917, constructor at
mkvmuxer/mkvmuxer.cc:3047-3088, and what the model needs of the objects it owns.

Settings.  `live` is `mode_ == kLive`; `seekable` is the answer of the writer's `Seekable()`;
`docType` is the string chosen by `DocTypeIsWebm` (which looks only at the tracks' codecs);
`tracksW`, `chaptersW`, `tagsW` stand for `Tracks::Write`, `Chapters::Write`, `Tags::Write` (`none`:
`Count()` is 0), whose contents are not modelled here.  Simplification: the user does not change
settings once the first frame has been handed over.

State.  The list of clusters is `closed ++ cur.toList`: `cur` is its last element.  `queue` is
`frames_[0 .. frames_size_)`, `queueUsed` is `frames_ != NULL`, and `dangling` (not a member) says
that the queue holds pointers to deleted frames.  `lastTrackTs` is `last_track_timestamp_`, indexed by
track number.  `clusterEnd` is `cluster_end_offset_` (`none`: not initialised).
`last_block_duration_` and `track_frames_written_` are used only to compute the duration, which is not
modelled. -/
structure Seg where
  info : SegInfo := {}
  tracks : Tracks := {}
  hasVideo : Bool := false
  live : Bool := false
  seekable : Bool := true
  outputCues : Bool := true
  accurate : Bool := false
  fixedTimecode : Bool := false
  maxDuration : Nat := 30000000000
  maxSize : Nat := 0
  docType : Bytes := [0x77, 0x65, 0x62, 0x6D]
  tracksW : W Unit := pure ()
  chaptersW : Option (W Unit) := none
  tagsW : Option (W Unit) := none
  cuesTrack : Nat := 0
  docVersion : Nat := 4
  docVersionWritten : Nat := 0
  ebmlHeaderSize : Nat := 0
  sizePosition : Nat := 0
  payloadPos : Nat := 0
  headerWritten : Bool := false
  seekHead : SeekHead := {}
  cues : Cues := {}
  newCuepoint : Bool := false
  forceNew : Bool := false
  closed : List Cluster := []
  cur : Option Cluster := none
  queue : List Frame := []
  queueUsed : Bool := false
  dangling : Bool := false
  lastTs : Nat := 0
  lastTrackTs : Nat → Nat := fun _ => 0
  clusterEnd : Option Nat := none

/-- A call made only under a condition. -/
def M.when {σ} (c : Bool) (m : M σ Unit) : M σ Unit := if c then m else pure ()

/-- A call on the last cluster. -/
def Seg.onCur (m : M Cluster Unit) : M Seg Unit := fun g s =>
  match g.cur with
  | none => (.err 0, g, s)
  | some c =>
    match m c s with
    | (r, c', s') => (r, { g with cur := some c' }, s')

/-- A call on `segment_info_`. -/
def Seg.onInfo (m : M SegInfo Unit) : M Seg Unit := fun g s =>
  match m g.info s with
  | (r, i', s') => (r, { g with info := i' }, s')

/-- A call on `seek_head_`. -/
def Seg.onSeekHead (m : M SeekHead Unit) : M Seg Unit := fun g s =>
  match m g.seekHead s with
  | (r, h', s') => (r, { g with seekHead := h' }, s')

/-- `Segment::MaxOffset`, mkvmuxer/mkvmuxer.cc:4026-4043. -/
def Seg.maxOffset : M Seg Int := fun g s => (.ok ((s.pos : Int) - g.payloadPos), g, s)

/-- `seek_head_.AddSeekEntry(id, MaxOffset())`, for example mkvmuxer/mkvmuxer.cc:3738. -/
def Seg.addSeekEntry (id : Nat) : M Seg Unit := do
  let off ← Seg.maxOffset
  let g ← M.get
  match g.seekHead.addSeekEntry id (toU64 off) with
  | none => M.fail
  | some h => M.modify fun g => { g with seekHead := h }

/-- An optional element of the header with its seek entry, mkvmuxer/mkvmuxer.cc:3743-3755. -/
def Seg.writeOptional (id : Nat) : Option (W Unit) → M Seg Unit
  | none => pure ()
  | some w => do
    Seg.addSeekEntry id
    M.lift w

/-- Reserving space for the seek head, mkvmuxer/mkvmuxer.cc:3722-3730: the duration is set to 1.0
(bits 0x3F800000) so that it is written and can be updated later. -/
def Seg.reserve : M Seg Unit := do
  let g ← M.get
  if !g.live && g.seekable then do
    M.modify fun g => { g with info := { g.info with duration := some 0x3F800000 } }
    Seg.onSeekHead SeekHead.write
  else pure ()

/-- `Segment::WriteSegmentHeader`, mkvmuxer/mkvmuxer.cc:3698-3768.  `UpdateDocTypeVersion` can only
raise the version to 4, its initial value. -/
def Seg.writeSegmentHeader : M Seg Unit := do
  let g ← M.get
  M.lift (writeEbmlHeader g.docVersion (some g.docType))
  let p ← M.lift Sink.position
  M.modify fun g => { g with docVersionWritten := g.docVersion, ebmlHeaderSize := p }
  M.lift (writeID kMkvSegment)
  let p ← M.lift Sink.position
  M.modify fun g => { g with sizePosition := p }
  M.lift (serializeInt kEbmlUnknownValue 8)
  let p ← M.lift Sink.position
  M.modify fun g => { g with payloadPos := p }
  Seg.reserve
  Seg.addSeekEntry kMkvInfo
  Seg.onInfo SegInfo.write
  Seg.addSeekEntry kMkvTracks
  M.lift g.tracksW
  Seg.writeOptional kMkvChapters g.chaptersW
  Seg.writeOptional kMkvTags g.tagsW
  M.modify fun g => { g with headerWritten := true }

/-- Choosing the track for cues, mkvmuxer/mkvmuxer.cc:3960-3981: the first video track, else the
first track. -/
def Seg.pickCuesTrack (t : Tracks) : Option Nat :=
  match t.entries.find? (fun e => (t.byNumber e.number).any fun e' => e'.kind == .video) with
  | some e => some e.number
  | none => t.entries.head?.map (·.number)

/-- The cues part of `Segment::CheckHeaderInfo`, mkvmuxer/mkvmuxer.cc:3960-3981. -/
def Seg.chooseCuesTrack : M Seg Unit := do
  let g ← M.get
  if g.outputCues && g.cuesTrack == 0 then
    match Seg.pickCuesTrack g.tracks with
    | none => M.fail
    | some n => M.modify fun g => { g with cuesTrack := n }
  else pure ()

/-- `Segment::CheckHeaderInfo`, mkvmuxer/mkvmuxer.cc:3952-3985. -/
def Seg.checkHeaderInfo : M Seg Unit := do
  let g ← M.get
  if g.headerWritten then pure ()
  else do
    Seg.writeSegmentHeader
    Seg.addSeekEntry kMkvCluster
    Seg.chooseCuesTrack

/-- `Segment::AddCuePoint`, mkvmuxer/mkvmuxer.cc:3393-3416 (allocation succeeds). -/
def Seg.addCuePoint (timestamp track : Nat) : M Seg Unit := fun g s =>
  match g.cur with
  | none => (.err 0, g, s)
  | some c =>
    let cue : CuePoint := ⟨timestamp / g.info.scale, track, toU64 c.positionForCues, c.blocksAdded, true⟩
    (.ok (), { g with cues := g.cues.addCue cue, newCuepoint := false }, s)

/-- `if (new_cuepoint_ && cues_track_ == …) AddCuePoint(…)`, mkvmuxer/mkvmuxer.cc:3583-3586,
4097-4102, 4149-4154. -/
def Seg.maybeCue (f : Frame) : M Seg Unit := do
  let g ← M.get
  if g.newCuepoint && g.cuesTrack == f.trackNumber then Seg.addCuePoint f.timestamp g.cuesTrack
  else pure ()

/-- `if (frame->discard_padding() != 0) doc_type_version_ = 4;`, mkvmuxer/mkvmuxer.cc:3515-3516,
4090-4091, 4142-4143. -/
def Seg.noteDiscard (f : Frame) : M Seg Unit :=
  M.modify fun g => if f.discardPadding ≠ 0 then { g with docVersion := 4 } else g

/-- Writing one queued frame to the last cluster: the body of the loops,
mkvmuxer/mkvmuxer.cc:4090-4110 and 4141-4162; failure is `continue` there. -/
def Seg.writeQueued (f : Frame) : M Seg Unit := do
  Seg.noteDiscard f
  Seg.onCur (Cluster.addFrame f)
  Seg.maybeCue f
  M.modify fun g =>
    if f.timestamp > g.lastTs then
      { g with lastTs := f.timestamp, lastTrackTs := upd g.lastTrackTs f.trackNumber f.timestamp }
    else g

/-- The loop of `Segment::WriteFramesAll`, mkvmuxer/mkvmuxer.cc:4086-4111: failures are passed
over. -/
def Seg.writeAllLoop : List Frame → M Seg Unit
  | [] => pure ()
  | f :: fs => do
    let _ ← M.attempt (Seg.writeQueued f)
    Seg.writeAllLoop fs

/-- `Segment::WriteFramesAll`, mkvmuxer/mkvmuxer.cc:4074-4117; failure stands for a negative
result. -/
def Seg.writeFramesAll : M Seg Unit := do
  let g ← M.get
  if !g.queueUsed then pure ()
  else if g.cur.isNone then M.fail
  else if g.dangling then M.ub
  else do
    Seg.writeAllLoop g.queue
    M.modify fun g => { g with queue := [] }

/-- The loop of `Segment::WriteFramesLessThan`, mkvmuxer/mkvmuxer.cc:4135-4163, over the queue; the
result is the number of frames written (`shift_left`) and whether a frame was deleted without being
counted. -/
def Seg.lessLoop (timestamp : Nat) : List Frame → M Seg (Nat × Bool)
  | prev :: next :: rest =>
    if next.timestamp > timestamp then pure (0, false)
    else do
      let r ← M.attempt (Seg.writeQueued prev)
      let n ← Seg.lessLoop timestamp (next :: rest)
      pure (if r then (n.1 + 1, n.2) else (n.1, true))
  | _ => pure (0, false)

/-- `Segment::WriteFramesLessThan`, mkvmuxer/mkvmuxer.cc:4119-4179.  All frames the loop went over
are deleted, but only those counted are removed from the queue. -/
def Seg.writeFramesLessThan (timestamp : Nat) : M Seg Unit := do
  let g ← M.get
  if g.queue.isEmpty || g.cur.isNone then pure ()
  else if g.dangling then M.ub
  else do
    let n ← Seg.lessLoop timestamp g.queue
    M.modify fun g => { g with queue := g.queue.drop n.1, dangling := n.2 }

/-- Time code of a new cluster, mkvmuxer/mkvmuxer.cc:3888-3900. -/
def Seg.clusterTimecode (scale : Nat) (queue : List Frame) (timestamp : Nat) : Nat :=
  match queue with
  | [] => timestamp / scale
  | f :: _ => if f.timestamp / scale < timestamp / scale then f.timestamp / scale else timestamp / scale

/-- Ending the last cluster, mkvmuxer/mkvmuxer.cc:3868-3874. -/
def Seg.endCluster (timestamp : Nat) : M Seg Unit := do
  let g ← M.get
  if g.cur.isNone then pure () else Seg.onCur (Cluster.finalize g.seekable true timestamp)

/-- Starting a new cluster, mkvmuxer/mkvmuxer.cc:3876-3917.  (`Cluster::Init` only records the
writer, mkvmuxer/mkvmuxer.cc:2478-2485.) -/
def Seg.startCluster (timestamp : Nat) : M Seg Unit := do
  M.modify fun g => if g.outputCues then { g with newCuepoint := true } else g
  let g ← M.get
  if g.info.scale = 0 then M.ub
  else if g.dangling then M.ub
  else do
    let off ← Seg.maxOffset
    M.modify fun g => { g with
      closed := g.closed ++ g.cur.toList
      cur := some { timecode := Seg.clusterTimecode g.info.scale g.queue timestamp
                    positionForCues := off
                    scale := g.info.scale
                    writeLast := g.accurate
                    fixedTimecode := g.fixedTimecode } }

/-- `Segment::MakeNewCluster`, mkvmuxer/mkvmuxer.cc:3845-3918 (allocation succeeds). -/
def Seg.makeNewCluster (timestamp : Nat) : M Seg Unit := do
  Seg.writeFramesLessThan timestamp
  Seg.endCluster timestamp
  Seg.startCluster timestamp

/-- `Segment::TestFrame`, mkvmuxer/mkvmuxer.cc:3773-3843, for a frame of the given kind of track:
-1 is an error, 0 keeps the cluster, 1 starts a new one, 2 does so and asks for another test. -/
def Seg.testFrame (g : Seg) (kind : TrackKind) (timestamp : Nat) (isKey : Bool) : Int :=
  if g.forceNew then 1
  else
    match g.cur with
    | none => 1
    | some c =>
      let tc := timestamp / g.info.scale
      if tc < c.timecode then -1
      else
        let delta := toI64 (tc - c.timecode)
        if delta > kMaxBlockTimecode then 2
        else if isKey && kind == .video then 1
        else if g.maxDuration > 0 ∧ toU64 delta * g.info.scale % 2 ^ 64 ≥ g.maxDuration then 1
        else if g.maxSize > 0 ∧ c.payloadSize ≥ g.maxSize then 1
        else 0

/-- `Segment::DoNewClusterProcessing`, mkvmuxer/mkvmuxer.cc:3920-3950.  The first argument bounds the
number of rounds of the `for (;;)` loop; running out of it stands for a loop that goes on
(theorem `doNewCluster_one` shows that one round suffices whenever it is called). -/
def Seg.doNewCluster (kind : TrackKind) (timestamp : Nat) (isKey : Bool) : Nat → M Seg Unit
  | 0 => M.ub
  | n + 1 => do
    let g ← M.get
    let result := g.testFrame kind timestamp isKey
    if result < 0 then M.fail
    else do
      M.modify fun g => { g with forceNew := false }
      M.when (decide (result > 0)) (Seg.makeNewCluster timestamp)
      Seg.writeFramesAll
      if result ≤ 1 then pure () else Seg.doNewCluster kind timestamp isKey n

/-- `Segment::QueueFrame` with the copy made by its caller, mkvmuxer/mkvmuxer.cc:3537-3549,
4045-4072 (allocation succeeds).  `track_frames_written_` has 126 entries. -/
def Seg.queueFrame (f : Frame) : M Seg Unit :=
  if f.trackNumber > kMaxTrackNumber then M.ub
  else M.modify fun g => { g with queue := g.queue ++ [f.copy], queueUsed := true }

/-- The frame handed to the cluster, mkvmuxer/mkvmuxer.cc:3563-3578: a frame that needs a reference
and has none refers to the previous frame of its track. -/
def Seg.withReference (g : Seg) (f : Frame) : Frame :=
  if !f.canBeSimpleBlock && !f.isKey && !f.referenceBlockTimestampSet then
    { f.copy with referenceBlockTimestamp := toI64 (g.lastTrackTs f.trackNumber)
                  referenceBlockTimestampSet := true }
  else f

/-- The last part of `Segment::AddGenericFrame`, mkvmuxer/mkvmuxer.cc:3556-3596.
`last_track_timestamp_` has 126 entries. -/
def Seg.writeDirect (f : Frame) : M Seg Unit := do
  let g ← M.get
  if (g.withReference f).referenceBlockTimestampSet != f.referenceBlockTimestampSet &&
      decide (f.trackNumber > kMaxTrackNumber) then M.ub
  else do
    Seg.onCur (Cluster.addFrame (g.withReference f))
    Seg.maybeCue f
    M.modify fun g => { g with
      lastTs := f.timestamp
      lastTrackTs := upd g.lastTrackTs f.trackNumber f.timestamp }

/-- The test for a frame too far from the last cluster, mkvmuxer/mkvmuxer.cc:3518-3529. -/
def Seg.noteFar (f : Frame) : M Seg Unit := M.modify fun g =>
  match g.cur with
  | none => g
  | some c =>
    if subU64 (f.timestamp / g.info.scale) c.timecode > kMaxBlockTimecode.toNat then
      { g with forceNew := true }
    else g

/-- `Segment::AddGenericFrame`, mkvmuxer/mkvmuxer.cc:3503-3596.  (`AddFrame`,
`AddFrameWithAdditional`, `AddFrameWithDiscardPadding` and `AddMetadata`, 3438-3501, build a frame and
call it.) -/
def Seg.addGenericFrame (f : Frame) : M Seg Unit := do
  Seg.checkHeaderInfo
  let g ← M.get
  if f.timestamp < g.lastTs then M.fail
  else
    match g.tracks.byNumber f.trackNumber with
    | none => M.fail
    | some t => do
      Seg.noteDiscard f
      Seg.noteFar f
      let g ← M.get
      if g.hasVideo && t.kind == .audio && !g.forceNew then Seg.queueFrame f
      else do
        Seg.doNewCluster t.kind f.timestamp f.isKey 4
        Seg.writeDirect f

/-- `Segment::ForceNewClusterOnNextFrame`, mkvmuxer/mkvmuxer.cc:3692. -/
def Seg.forceNewCluster (g : Seg) : Seg := { g with forceNew := true }

/-- Writing the EBML header again, mkvmuxer/mkvmuxer.cc:3318-3328. -/
def Seg.rewriteEbmlHeader (g : Seg) : W Unit := do
  Sink.seek 0
  writeEbmlHeader g.docVersion (some g.docType)
  let p ← Sink.position
  if p ≠ g.ebmlHeaderSize then W.fail 0 else pure ()

/-- Patching the segment size, mkvmuxer/mkvmuxer.cc:3309-3341. -/
def Seg.patchSegmentSize (g : Seg) : W Unit := do
  let pos ← Sink.position
  let size : Int := (pos : Int) - g.payloadPos
  if size < 1 then W.fail 0
  else do
    W.when (g.docVersion != g.docVersionWritten) g.rewriteEbmlHeader
    Sink.seek g.sizePosition
    writeUIntSize (toU64 size) 8
    Sink.seek pos

/-- The part of `Segment::Finalize` for files, mkvmuxer/mkvmuxer.cc:3246-3352; `duration` is what
`segment_info_.set_duration` is given (its bits as a float, `none` if it is not positive). -/
def Seg.finalizeFile (duration : Option Nat) : M Seg Unit := do
  M.modify fun g => { g with info := { g.info with duration := duration } }
  let g ← M.get
  M.lift (SegInfo.finalize g.seekable g.info)
  M.when g.outputCues (Seg.addSeekEntry kMkvCues)
  let p ← M.lift Sink.position
  M.modify fun g => { g with clusterEnd := some p }
  M.lift (W.when g.outputCues g.cues.write)
  let g ← M.get
  M.lift (g.seekHead.finalize g.seekable)
  M.lift (W.when g.seekable g.patchSegmentSize)

/-- Ending the last cluster at finalisation, mkvmuxer/mkvmuxer.cc:3233-3244. -/
def Seg.endLast : M Seg Unit := do
  let g ← M.get
  if (if g.live then g.accurate else true) && g.cur.isSome then
    Seg.onCur (Cluster.finalize g.seekable false 0)
  else pure ()

/-- `Segment::Finalize`, mkvmuxer/mkvmuxer.cc:3229-3354. -/
def Seg.finalize (duration : Option Nat) : M Seg Unit := do
  Seg.writeFramesAll
  Seg.endLast
  let g ← M.get
  if g.live then pure () else Seg.finalizeFile duration

/-- A step of a history: a frame handed over, or a request for a new cluster. -/
inductive SegCall where
  | frame (f : Frame)
  | force

/-- One call; `ForceNewClusterOnNextFrame` always succeeds. -/
def Seg.call : SegCall → M Seg Unit
  | .frame f => Seg.addGenericFrame f
  | .force => M.modify Seg.forceNewCluster

/-- A history of calls; the outcomes, the segment and the output. -/
def Seg.run : List SegCall → Seg → Sink → List (Res Unit) × Seg × Sink
  | [], g, s => ([], g, s)
  | x :: xs, g, s =>
    match Seg.call x g s with
    | (r, g', s') =>
      match Seg.run xs g' s' with
      | (rs, g'', s'') => (r :: rs, g'', s'')

end Verif.Mux
