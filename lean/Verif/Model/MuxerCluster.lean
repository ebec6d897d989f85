/-
Model of the muxer's `Cluster`, mkvmuxer/mkvmuxer.cc:2453-2751, mkvmuxer/mkvmuxer.h:1201-1391.
-/
import Verif.Model.MuxerBlock

namespace Verif.Mux
open Verif

/-- `libwebm::kMkvCluster`, `kMkvTimecode` (common/webmids.h:48-49). -/
def kMkvCluster : Nat := 0x1F43B675
def kMkvTimecode : Nat := 0xE7

/-- `kEbmlUnknownValue`, mkvmuxer/mkvmuxerutil.h:28. -/
def kEbmlUnknownValue : Nat := 0x01FFFFFFFFFFFFFF

/-- Members of `mkvmuxer::Cluster`, mkvmuxer/mkvmuxer.h:1338-1388.
`stored` is `stored_frames_`: the queue of each track (a track without an entry has the empty
queue; entries of the map are erased when they become empty, and only valid frames are queued, so
the keys lie in 1..126).  `lastTs` is `last_block_timestamp_` (a missing entry reads as 0).
`dangling` is not a member: it says that `stored_frames_` holds pointers to deleted frames, after
which every use of the queues is undefined behaviour. -/
structure Cluster where
  timecode : Nat
  positionForCues : Int := 0
  scale : Nat
  writeLast : Bool := false
  fixedTimecode : Bool := false
  blocksAdded : Nat := 0
  finalized : Bool := false
  headerWritten : Bool := false
  payloadSize : Nat := 0
  sizePosition : Option Nat := none
  stored : Nat → List Frame := fun _ => []
  lastTs : Nat → Nat := fun _ => 0
  dangling : Bool := false

/-- Map update. -/
def upd {α : Type} (f : Nat → α) (t : Nat) (a : α) : Nat → α := fun u => if u = t then a else f u

/-- The third argument of the Timecode calls, mkvmuxer/mkvmuxer.cc:2743, 2747. -/
def Cluster.tcSize (c : Cluster) : Nat := if c.fixedTimecode then 8 else 0

/-- `Cluster::WriteClusterHeader`, mkvmuxer/mkvmuxer.cc:2726-2751. -/
def Cluster.writeClusterHeader : M Cluster Unit := do
  let c ← M.get
  if c.finalized then M.fail
  else do
    M.lift (writeID kMkvCluster)
    let p ← M.lift Sink.position
    M.modify fun c => { c with sizePosition := some p }
    M.lift (serializeInt kEbmlUnknownValue 8)
    M.lift (writeEbmlElementUIntFixed kMkvTimecode c.timecode c.tcSize)
    M.modify fun c => { c with
      payloadSize := c.payloadSize + ebmlElementSizeUIntFixed kMkvTimecode c.timecode c.tcSize
      headerWritten := true }

/-- `Cluster::PreWriteBlock`, mkvmuxer/mkvmuxer.cc:2625-2635. -/
def Cluster.preWriteBlock : M Cluster Unit := do
  let c ← M.get
  if c.finalized then M.fail
  else if !c.headerWritten then Cluster.writeClusterHeader
  else pure ()

/-- `Cluster::DoWriteFrame` with `PostWriteBlock`, mkvmuxer/mkvmuxer.cc:2637-2640, 2653-2667.
Simplification: `payload_size_` and `blocks_added_` do not overflow. -/
def Cluster.doWriteFrame (f : Frame) : M Cluster Unit :=
  if !f.isValid then M.fail
  else do
    Cluster.preWriteBlock
    let c ← M.get
    let n ← M.lift (writeFrame f c.timecode c.scale)
    M.modify fun c => { c with
      payloadSize := c.payloadSize + n
      blocksAdded := c.blocksAdded + 1
      lastTs := upd c.lastTs f.trackNumber f.timestamp }

/-- Keys the frame map can have, in its iteration order. -/
def trackKeys : List Nat := List.range' 1 126

/-- First frames of the queues, in iteration order of the map. -/
def Cluster.fronts (st : Nat → List Frame) : List Frame := trackKeys.filterMap fun t => (st t).head?

/-- Whether another track has a held-back frame that must come first,
mkvmuxer/mkvmuxer.cc:2697-2706. -/
def Cluster.mustWait (st : Nat → List Frame) (t : Nat) (f : Frame) : Bool :=
  trackKeys.any fun u => u != t &&
    match st u with
    | [] => false
    | g :: _ => decide (g.timestamp < f.timestamp)

/-- The release loop of `Cluster::QueueOrWriteFrame`, mkvmuxer/mkvmuxer.cc:2690-2722, over the
queue of track `t` (the last frame is always kept).  The code erases the written frames after the
loop; as the loop looks only at other queues, erasing at once is the same, except on a failure:
then the queue keeps pointers to deleted frames. -/
def Cluster.releaseLoop (t : Nat) : List Frame → M Cluster Unit
  | f :: g :: rest => do
    let c ← M.get
    if Cluster.mustWait c.stored t f then pure ()
    else do
      let r ← M.attempt (Cluster.doWriteFrame f)
      if r then do
        M.modify fun c => { c with stored := upd c.stored t (g :: rest) }
        Cluster.releaseLoop t (g :: rest)
      else do
        M.modify fun c => { c with dangling := true }
        M.fail
  | _ => pure ()

/-- `Cluster::AddFrame` / `QueueOrWriteFrame`, mkvmuxer/mkvmuxer.cc:2489-2491, 2669-2724.
(Allocation succeeds.) -/
def Cluster.addFrame (f : Frame) : M Cluster Unit := do
  let c ← M.get
  if !f.isValid then M.fail
  else if !c.writeLast then Cluster.doWriteFrame f
  else if c.dangling then M.ub
  else do
    M.modify fun c => { c with stored := upd c.stored f.trackNumber (c.stored f.trackNumber ++ [f.copy]) }
    Cluster.releaseLoop f.trackNumber (c.stored f.trackNumber ++ [f.copy])

/-- The frame written next by `Finalize`: the first one with least timestamp among the first
frames of the queues, mkvmuxer/mkvmuxer.cc:2561-2570. -/
def Cluster.pick (st : Nat → List Frame) : Option Frame :=
  match Cluster.fronts st with
  | [] => none
  | f :: rest => some (rest.foldl (fun m g => if g.timestamp < m.timestamp then g else m) f)

/-- Setting the duration of the last frame of a track, mkvmuxer/mkvmuxer.cc:2572-2583. -/
def Cluster.closeFrame (c : Cluster) (setLast : Bool) (duration : Nat) (f : Frame) : Frame :=
  if setLast && (c.stored f.trackNumber).length == 1 && !f.durationSet then
    let f' := { f with duration := subU64 duration f.timestamp, durationSet := true }
    if !f'.isKey && !f'.referenceBlockTimestampSet then
      { f' with referenceBlockTimestamp := toI64 (c.lastTs f.trackNumber)
                referenceBlockTimestampSet := true }
    else f'
  else f

/-- Number of held-back frames. -/
def Cluster.heldBack (st : Nat → List Frame) : Nat := (trackKeys.map fun t => (st t).length).sum

/-- The k-way merge of `Cluster::Finalize`, mkvmuxer/mkvmuxer.cc:2558-2594.  The first argument
bounds the number of rounds; the caller passes the number of held-back frames
(`mergeLoop_empties` shows that the bound is never what ends the loop). -/
def Cluster.mergeLoop (setLast : Bool) (duration : Nat) : Nat → M Cluster Unit
  | 0 => pure ()
  | n + 1 => do
    let c ← M.get
    match Cluster.pick c.stored with
    | none => pure ()
    | some f => do
      let r ← M.attempt (Cluster.doWriteFrame (c.closeFrame setLast duration f))
      M.modify fun c => { c with stored := upd c.stored f.trackNumber (c.stored f.trackNumber).tail }
      if r then Cluster.mergeLoop setLast duration n else M.fail

/-- Patching the size field, mkvmuxer/mkvmuxer.cc:2600-2611. -/
def Cluster.patchSize (sizePosition payloadSize : Nat) : W Unit := do
  let pos ← Sink.position
  Sink.seek sizePosition
  writeUIntSize payloadSize 8
  Sink.seek pos

/-- Writing the held-back frames, mkvmuxer/mkvmuxer.cc:2558-2595. -/
def Cluster.flush (setLast : Bool) (duration : Nat) : M Cluster Unit := fun c s =>
  if !c.writeLast then (.ok (), c, s)
  else if c.dangling then (.ub, c, s)
  else Cluster.mergeLoop setLast duration (Cluster.heldBack c.stored) c s

/-- The rest of `Cluster::Finalize`, mkvmuxer/mkvmuxer.cc:2597-2615. -/
def Cluster.close (seekable : Bool) : M Cluster Unit := do
  let c ← M.get
  match c.sizePosition with
  | none => M.fail
  | some p => do
    M.lift (if seekable then Cluster.patchSize p c.payloadSize else pure ())
    M.modify fun c => { c with finalized := true }

/-- `Cluster::Finalize(bool, uint64_t)`, mkvmuxer/mkvmuxer.cc:2554-2616. -/
def Cluster.finalize (seekable : Bool) (setLast : Bool) (duration : Nat) : M Cluster Unit := do
  let c ← M.get
  if c.finalized then M.fail
  else do
    Cluster.flush setLast duration
    Cluster.close seekable

/-- `Cluster::Finalize()`, mkvmuxer/mkvmuxer.cc:2550-2552. -/
def Cluster.finalizePlain (seekable : Bool) : M Cluster Unit := do
  let c ← M.get
  if c.writeLast then M.fail else Cluster.finalize seekable false 0

/-- `Cluster::Size`, mkvmuxer/mkvmuxer.cc:2618-2623. -/
def Cluster.size (c : Cluster) : Nat :=
  ebmlMasterElementSize kMkvCluster 0xFFFFFFFFFFFFFFFF + c.payloadSize

end Verif.Mux
