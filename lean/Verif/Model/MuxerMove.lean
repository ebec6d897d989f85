/-
Making a second file, with the cues before the clusters.
-/
import Verif.Model.MuxerSegment

namespace Verif.Mux
open Verif

/-- A `Write` whose result is not looked at, mkvmuxer/mkvmuxer.cc:166. -/
def writeIgnored (bs : Bytes) : W Unit := fun s => (.ok (), (Sink.write bs s).2)

/-- `ChunkedCopy`, mkvmuxer/mkvmuxer.cc:151-172: copy `size` bytes from `start` on, at most 2048 at a
time.  `src` is what is behind the reader; `Read` succeeds exactly if all bytes asked for are there
(mkvparser/mkvreader.cc:100-139).  Simplification: the buffer is always obtained. -/
def chunkedCopy (src : Bytes) (start : Int) (size : Nat) : W Unit :=
  if h : size = 0 then pure ()
  else
    let n := if 2048 < size then 2048 else size
    if start < 0 ∨ src.length < start.toNat + n then W.fail 0
    else do
      writeIgnored (slice src start.toNat n)
      chunkedCopy src (start + n) (size - n)
termination_by size
decreasing_by split <;> omega

/-- Storing the size of the segment, mkvmuxer/mkvmuxer.cc:3219-3224. -/
def Seg.patchCopySize (g : Seg) : W Unit := do
  let pos ← Sink.position
  Sink.seek g.sizePosition
  writeUIntSize (toU64 ((pos : Int) - g.payloadPos)) 8
  Sink.seek pos

/-- `Segment::CopyAndMoveCuesBeforeClusters`, mkvmuxer/mkvmuxer.cc:3193-3227.  `src` is the finished
file behind the reader, the output is the new file, `seekable` is `writer->Seekable()`.  The first
element of the list of clusters is used whether there is one or not; `size_position()` is -1 as long
as the cluster's header has not been written (`none` in the model); `cluster_end_offset_` is not
initialised before `Finalize` (`none` in the model).  `depth` bounds the recursion of
`MoveCuesBeforeClusters`; if it is not enough the outcome is `ub` (the stack overflows).
Simplification: no chunking. -/
def Seg.copyAndMoveCues (depth : Nat) (seekable : Bool) (src : Bytes) : M Seg Unit := do
  let g ← M.get
  if !seekable then M.fail
  else
    match (g.closed ++ g.cur.toList).head? with
    | none => M.ub
    | some k => do
      let offset : Int := (k.sizePosition.elim (-1) Int.ofNat) - getUIntSize kMkvCluster
      M.lift (chunkedCopy src 0 offset.toNat)
      match moveCuesBeforeClusters depth g.cues g.seekHead with
      | none => M.ub
      | some (q, h) => do
        M.modify fun g => { g with cues := q, seekHead := h }
        M.lift q.write
        M.lift (h.finalize seekable)
        match g.clusterEnd with
        | none => M.ub
        | some e => do
          M.lift (chunkedCopy src offset ((e : Int) - offset).toNat)
          M.lift g.patchCopySize

end Verif.Mux
