/-
Model of the muxer's cues (mkvmuxer/mkvmuxer.cc:288-480) and of moving them in front of the
clusters (mkvmuxer/mkvmuxer.cc:3126-3177).
-/
import Verif.Model.SeekHead

namespace Verif.Mux
open Verif

/-- The check made around the payload of a master element:
`payload_position = writer->Position(); …; stop_position = writer->Position();
if (stop_position - payload_position != static_cast<int64_t>(size)) return false;`
(for example mkvmuxer/mkvmuxer.cc:318-350). -/
def counted (size : Nat) (w : W Unit) : W Unit := do
  let start ← Sink.position
  w
  let stop ← Sink.position
  if (stop : Int) - start ≠ toI64 size then W.fail 0 else pure ()

/-- IDs of the cues, common/webmids.h:164-170. -/
def kMkvCues : Nat := 0x1C53BB6B
def kMkvCuePoint : Nat := 0xBB
def kMkvCueTime : Nat := 0xB3
def kMkvCueTrackPositions : Nat := 0xB7
def kMkvCueTrack : Nat := 0xF7
def kMkvCueClusterPosition : Nat := 0xF1
def kMkvCueBlockNumber : Nat := 0x5378

/-- Members of `mkvmuxer::CuePoint`, mkvmuxer/mkvmuxer.h:212-225; constructor at
mkvmuxer/mkvmuxer.cc:290-295. -/
structure CuePoint where
  time : Nat := 0
  track : Nat := 0
  clusterPos : Nat := 0
  blockNumber : Nat := 1
  outputBlockNumber : Bool := true
  deriving DecidableEq, Repr

/-- `output_block_number_ && block_number_ > 1`. -/
def CuePoint.numbered (c : CuePoint) : Bool := c.outputBlockNumber && decide (1 < c.blockNumber)

/-- `size`, mkvmuxer/mkvmuxer.cc:303-308 (and 356-361). -/
def CuePoint.positionsSize (c : CuePoint) : Nat :=
  ebmlElementSizeUInt kMkvCueClusterPosition c.clusterPos + ebmlElementSizeUInt kMkvCueTrack c.track +
    (if c.numbered then ebmlElementSizeUInt kMkvCueBlockNumber c.blockNumber else 0)

/-- `CuePoint::PayloadSize`, mkvmuxer/mkvmuxer.cc:355-369 (and 309-313). -/
def CuePoint.payloadSize (c : CuePoint) : Nat :=
  ebmlElementSizeUInt kMkvCueTime c.time +
    (ebmlMasterElementSize kMkvCueTrackPositions c.positionsSize + c.positionsSize)

/-- `CuePoint::Size`, mkvmuxer/mkvmuxer.cc:371-375. -/
def CuePoint.size (c : CuePoint) : Nat :=
  ebmlMasterElementSize kMkvCuePoint c.payloadSize + c.payloadSize

/-- The optional block number, mkvmuxer/mkvmuxer.cc:337-342. -/
def CuePoint.writeNumber (c : CuePoint) : W Unit :=
  if c.numbered then writeEbmlElementUInt kMkvCueBlockNumber c.blockNumber else pure ()

/-- The payload of the cue point, mkvmuxer/mkvmuxer.cc:322-342. -/
def CuePoint.writePayload (c : CuePoint) : W Unit := do
  writeEbmlElementUInt kMkvCueTime c.time
  writeEbmlMasterElement kMkvCueTrackPositions c.positionsSize
  writeEbmlElementUInt kMkvCueTrack c.track
  writeEbmlElementUInt kMkvCueClusterPosition c.clusterPos
  c.writeNumber

/-- `CuePoint::Write`, mkvmuxer/mkvmuxer.cc:299-353. -/
def CuePoint.write (c : CuePoint) : W Unit :=
  if c.track < 1 ∨ c.clusterPos < 1 then W.fail 0
  else do
    writeEbmlMasterElement kMkvCuePoint c.payloadSize
    counted c.payloadSize c.writePayload

/-- Members of `mkvmuxer::Cues`, mkvmuxer/mkvmuxer.h:254-268. -/
structure Cues where
  entries : List CuePoint := []
  outputBlockNumber : Bool := true
  deriving DecidableEq, Repr

/-- `Cues::AddCue`, mkvmuxer/mkvmuxer.cc:397-428, as long as the table can be enlarged. -/
def Cues.addCue (q : Cues) (c : CuePoint) : Cues :=
  { q with entries := q.entries ++ [{ c with outputBlockNumber := q.outputBlockNumber }] }

/-- The sum of the sizes of all cue points, mkvmuxer/mkvmuxer.cc:441-443 (and 3154-3156). -/
def cuesPayload : List CuePoint → Nat
  | [] => 0
  | c :: cs => c.size + cuesPayload cs

/-- `Cues::Size`, mkvmuxer/mkvmuxer.cc:440-446. -/
def Cues.size (q : Cues) : Nat :=
  cuesPayload q.entries + ebmlMasterElementSize kMkvCues (cuesPayload q.entries)

/-- The writing loop, mkvmuxer/mkvmuxer.cc:469-474. -/
def writeCuePoints : List CuePoint → W Unit
  | [] => pure ()
  | c :: cs => do
    c.write
    writeCuePoints cs

/-- `Cues::Write`, mkvmuxer/mkvmuxer.cc:448-484. -/
def Cues.write (q : Cues) : W Unit := do
  writeEbmlMasterElement kMkvCues (cuesPayload q.entries)
  counted (cuesPayload q.entries) (writeCuePoints q.entries)

/-- State of the recursion of `MoveCuesBeforeClustersHelper`: the cue points and `*cues_size`. -/
structure Moving where
  cues : List CuePoint
  total : Nat
  deriving DecidableEq, Repr

/-- `for (i…) Helper(diff, i, cues_size)` over the given indices, mkvmuxer/mkvmuxer.cc:3146-3148
(and 3157-3158); `helper` is the recursive call. -/
def moveEach (helper : Nat → Moving → Option Moving) : List Nat → Moving → Option Moving
  | [], m => some m
  | i :: is, m =>
    match helper i m with
    | none => none
    | some m' => moveEach helper is m'

/-- `Segment::MoveCuesBeforeClustersHelper`, mkvmuxer/mkvmuxer.cc:3126-3150.  The first argument
bounds the depth of the recursion: `none` says that the code recurses at least that deep.
Arithmetic is that of `uint64_t`. -/
def moveHelper : (depth diff index : Nat) → Moving → Option Moving
  | 0, _, _, _ => none
  | depth + 1, diff, index, m =>
    match m.cues[index]? with
    | none => some m
    | some c =>
      let c' := { c with clusterPos := (c.clusterPos + diff) % 2 ^ 64 }
      let b := subU64 c'.size c.size
      let e := (m.total + b) % 2 ^ 64
      let grow := subU64 (getCodedUIntSize e) (getCodedUIntSize m.total)
      let d := (grow + b) % 2 ^ 64
      let m' : Moving := ⟨m.cues.set index c', e⟩
      if d > 0 then moveEach (moveHelper depth d) (List.range m.cues.length) m'
      else some m'

/-- The loop over all cue points in `Segment::MoveCuesBeforeClusters`,
mkvmuxer/mkvmuxer.cc:3153-3158. -/
def Cues.move (depth : Nat) (q : Cues) : Option Moving :=
  moveEach (moveHelper depth q.size) (List.range q.entries.length) ⟨q.entries, cuesPayload q.entries⟩

/-- The search for a seek entry, mkvmuxer/mkvmuxer.cc:3162-3169: the last slot with that ID, 0 if
there is none. -/
def SeekHead.lastIndex (id : Nat) (h : SeekHead) : Nat :=
  (List.range kSeekEntryCount).foldl (fun found i => if h.getId i = id then i else found) 0

/-- The seek head part of `Segment::MoveCuesBeforeClusters`, mkvmuxer/mkvmuxer.cc:3160-3176.
`clusterId` and `cuesId` are `kMkvCluster` and `kMkvCues`; `size` is `cues_.Size()` after the loop. -/
def SeekHead.moveCues (h : SeekHead) (size : Nat) : SeekHead :=
  let clusterIndex := h.lastIndex 0x1F43B675
  let cuesIndex := h.lastIndex kMkvCues
  let h := h.setSeekEntry cuesIndex kMkvCues (h.getPosition clusterIndex)
  h.setSeekEntry clusterIndex 0x1F43B675 ((size + h.getPosition cuesIndex) % 2 ^ 64)

/-- `Segment::MoveCuesBeforeClusters`, mkvmuxer/mkvmuxer.cc:3152-3177. -/
def moveCuesBeforeClusters (depth : Nat) (q : Cues) (h : SeekHead) : Option (Cues × SeekHead) :=
  match q.move depth with
  | none => none
  | some m =>
    let q' := { q with entries := m.cues }
    some (q', h.moveCues q'.size)

end Verif.Mux
