/-
An application that shows a file through mkvparser, as the sample in /repo/mkvparser_sample.cc does: it
parses the header, creates and loads the segment, and then asks for the clusters, the block entries of
each cluster and the frames of each block, one after the other.
-/
import Verif.Model.ParserSegment
import Verif.Model.ParserTable
import Verif.Spec.Timeline
import Verif.Spec.Reading

namespace Verif.Spec
open Verif Verif.Par Verif.Mux

/-- `BlockGroup::GetDurationTimeCode` for a BlockGroup (negative if there is none); a SimpleBlock has none. -/
def shownDuration : Entry → Nat
  | .group _ _ _ d => d.toNat
  | .simple _ => 0

/-- The frames of one block: `GetTimeCode`, `GetTrackNumber`, `Read`, `IsKey`, `GetDiscardPadding` and the
duration.  `tc` is the time of the cluster. -/
def watchFrames (r : Rdr) (tc : Int) (e : Entry) : List BFrame → Res (List SeenFrame)
  | [] => .ok []
  | f :: fs => do
    let time ← blockGetTimeCode tc e.block.timecode
    let data ← (match f.read r with
      | .ok d => .ok d
      | .error c => .err c : Res Bytes)
    let rest ← watchFrames r tc e fs
    .ok ({ time := time, track := e.block.track, data := data, key := e.block.isKey, duration := shownDuration e,
           padding := e.block.discardPadding } :: rest)

/-- The frames of a block. -/
def watchEntry (r : Rdr) (tc : Int) (e : Entry) : Res (List SeenFrame) := watchFrames r tc e e.block.frames

/-- The loop over the entries of a cluster, from entry `e` with index `idx` on. -/
def watchFrom (r : Rdr) (tc : Int) : (fuel : Nat) → ReadCluster → (idx : Nat) → Entry → Res (List SeenFrame)
  | 0, _, _, _ => .ub
  | f + 1, c, idx, e => do
    let fs ← watchEntry r tc e
    match ← c.getNext r idx with
    | (_, none) => .ok fs
    | (c', some e') => do
      let rest ← watchFrom r tc f c' (idx + 1) e'
      .ok (fs ++ rest)

/-- The frames of a cluster. -/
def watchCluster (r : Rdr) (fuel : Nat) (c : ReadCluster) : Res (List SeenFrame) := do
  let (c, tc) ← c.getTimeCode r
  match ← c.getFirst r with
  | (_, none) => .ok []
  | (c, some e) => watchFrom r tc fuel c 0 e

/-- The loop over the clusters, from the one with index `idx` on. -/
def watchClusters (r : Rdr) (g : ReadSegment) (rounds : Nat) : (fuel : Nat) → (idx : Option Nat) → Res (List SeenFrame)
  | _, none => .ok []
  | 0, some _ => .ub
  | f + 1, some idx => do
    match g.clusters[idx]? with
    | none => .ub
    | some c => do
      let fs ← watchCluster r rounds c
      let rest ← watchClusters r g rounds f (g.getNext idx)
      .ok (fs ++ rest)

/-- All frames of a loaded segment. -/
def watch (r : Rdr) (fuel : Nat) (g : ReadSegment) : Res (List SeenFrame) := watchClusters r g fuel fuel g.getFirst

/-- What mkvparser shows of the header of a file. -/
structure Shown where
  docType : Bytes
  info : ReadInfo
  tracks : List ReadTrack
  chapters : Option (List (List ReadAtom))
  tags : Option (List (List ReadSimpleTag))

/-- **mkvparser shows this of a file**: when the whole file is there, `EBMLHeader::Parse`, `CreateInstance` and
`Load` succeed, the header says `h`, and the frames of all blocks of all clusters are `fs`, in this order.
All loops end: they need not more rounds than the file has bytes. -/
def WatchedAs (file : Bytes) (h : Shown) (fs : List SeenFrame) : Prop :=
  ∀ r : Rdr, r.data = file → r.total = file.length → ∀ fuel, file.length < fuel →
    ∃ pos head g g', ebmlHeadParse r = .ok (.done pos head) ∧ head.docType = some h.docType ∧
      createInstance r pos = .ok g ∧ g.load r fuel = (g', .ok ()) ∧
      g'.info = some h.info ∧ g'.tracks = some h.tracks ∧ g'.chapters = h.chapters ∧ g'.tags = h.tags ∧
      watch r fuel g' = .ok fs

/-- What mkvparser can show of a frame handed to the muxer: all but the additional data. -/
def _root_.Verif.Mux.Frame.asWatched (scale : Nat) (f : Frame) : SeenFrame :=
  { f.asSeen scale with additional := none }

/-- The frame's numbers are values mkvparser can represent: the padding is a value of its type in the API, the
duration is below 2⁶³ ticks. -/
structure _root_.Verif.Mux.Frame.Showable (scale : Nat) (f : Frame) : Prop where
  padding : -2 ^ 63 ≤ f.discardPadding ∧ f.discardPadding < 2 ^ 63
  duration : f.duration / scale < 2 ^ 63

/-- What mkvparser should show of the header of a file with these settings. -/
def shownAs (docType : Bytes) (scale : Nat) (duration : Option UInt32) (muxing writing : Bytes) (ts : List Track)
    (ch : Option (List Chapter)) (tg : Option (List Tag)) : Shown where
  docType := docType
  info := seenInfo scale duration muxing writing
  tracks := ts.map seenTrack
  chapters := ch.map seenChapters
  tags := tg.map seenTags

/-- Settings within what mkvparser reads. -/
structure Viewable (docType : Bytes) (scale : Nat) (duration : Option UInt32) (muxing writing : Bytes) (ts : List Track)
    (ch : Option (List Chapter)) (tg : Option (List Tag)) : Prop where
  docType : docType ≠ [] ∧ docType.length ≤ 20000000
  info : ReadableInfo scale duration muxing writing
  tracks : (tracksTree ts).Fits ∧ ∀ t ∈ ts, ReadableTrack t
  numbers : (ts.map (·.number)).Nodup
  chapters : ∀ cs ∈ ch, (chaptersTree cs).Fits ∧ ∀ c ∈ cs, ChapterOk c ∧ ReadableChapter c ∧ ReadsUnsigned c.uid
  tags : ∀ t ∈ tg, (tagsTree t).Fits ∧ ∀ x ∈ t, TagOk x ∧ ReadableTag x

end Verif.Spec
