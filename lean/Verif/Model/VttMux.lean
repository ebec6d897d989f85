/-
Putting WebVTT cues into a WebM file: sample_muxer_metadata.{h,cc}, as used by the muxer sample.

A `bool` result of false is `err (-1)`.  Opening the WebVTT file is not modelled: a file is what the reader delivers.
-/
import Verif.Model.WebVtt
import Verif.Model.MuxerSegment
import Verif.Model.MuxerHeaders

namespace Verif.Vtt
open Verif

/-! ### The data of a block -/

/-- `WriteCueIdentifier`, sample_muxer_metadata.cc:312-316. -/
def cueIdentifier (ident : Bytes) : Bytes := ident ++ [0x0A]

/-- The loop of `WriteCueSettings`, sample_muxer_metadata.cc:330-341. -/
def settingsLine : List Setting → Bytes
  | [] => []
  | [g] => g.name ++ 0x3A :: g.value
  | g :: gs => g.name ++ 0x3A :: g.value ++ 0x20 :: settingsLine gs

/-- `WriteCueSettings`, sample_muxer_metadata.cc:318-344. -/
def cueSettings (gs : List Setting) : Bytes :=
  if gs.isEmpty then [0x0A] else settingsLine gs ++ [0x0A]

/-- `WriteCuePayload`, sample_muxer_metadata.cc:346-358. -/
def cuePayload : List Bytes → Bytes
  | [] => []
  | l :: ls => l ++ 0x0A :: cuePayload ls

/-- `MakeFrame`, sample_muxer_metadata.cc:305-310. -/
def makeFrame (c : Cue) : Bytes := cueIdentifier c.identifier ++ cueSettings c.settings ++ cuePayload c.payload

/-! ### The cues waiting to be written -/

/-- `SortableCue`, sample_muxer_metadata.h:53-80. -/
structure TrackCue where
  track : Nat
  cue : Cue
  deriving DecidableEq, Repr

/-- `SortableCue::operator<`, sample_muxer_metadata.h:64-72. -/
def TrackCue.lt (a b : TrackCue) : Bool :=
  if a.cue.start.lt b.cue.start then true
  else if a.cue.start.gt b.cue.start then false
  else decide (a.track < b.track)

/-- `multiset::insert` for `cues_set_`, sample_muxer_metadata.cc:301: behind everything that is not greater. -/
def insertCue (x : TrackCue) : List TrackCue → List TrackCue
  | [] => [x]
  | y :: ys => if x.lt y then x :: y :: ys else y :: insertCue x ys

/-- A time of a cue in nanoseconds, sample_muxer_metadata.cc:361-371 and sample_muxer_metadata.h:54-62; the product must
fit `int64_t`. -/
def Time.ns (t : Time) : Res Int := i64 (t.presentation * 1000000)

/-- The frame `SortableCue::Write` makes, sample_muxer_metadata.cc:360-391; times are converted to `uint64_t`. -/
def TrackCue.frame (x : TrackCue) : Res Mux.Frame := do
  let start ← x.cue.start.ns
  let stop ← x.cue.stop.ns
  let duration ← i64 (stop - start)
  .ok { frame := makeFrame x.cue, trackNumber := x.track, timestamp := toU64 start, duration := toU64 duration,
        durationSet := true, isKey := true }

/-- The loop of `Parse`, sample_muxer_metadata.cc:277-302: the cues, sorted in, and the result.  `t` is the last start
time; at first only its hours are set, to -1, which is below those of all times, so the other fields do not matter.
Every cue takes characters from the stream, so its length bounds the rounds; running out of fuel is `ub`. -/
def parseCues (track : Nat) : (fuel : Nat) → Parser → Time → List TrackCue → List TrackCue × Res Unit
  | 0, _, _, set => (set, .ub)
  | n + 1, p, t, set =>
    match p.parse with
    | (.ub, _) => (set, .ub)
    | (.err e, _) => (set, if e < 0 then .err (-1) else .ok ())
    | (.ok c, p') =>
      if c.start.ge t = false then (set, .err (-1))
      else if c.stop.lt c.start then (set, .err (-1))
      else parseCues track n p' c.start (insertCue ⟨track, c⟩ set)

/-- `Parse`, sample_muxer_metadata.cc:252-303, after the file has been opened. -/
def loadCues (track : Nat) (file : Parser) (set : List TrackCue) : List TrackCue × Res Unit :=
  match file.init with
  | (e, p) => if e < 0 then (set, .err (-1)) else parseCues track (file.size + 1) p ⟨-1, 0, 0, 0⟩ set

/-- `Write`, sample_muxer_metadata.cc:59-80 with `SortableCue::Write`, sample_muxer_metadata.cc:360-391: the cues that are
due go to the segment, a cue that is refused stays. -/
def writeCues (time : Int) : List TrackCue → Mux.Seg → Sink → Res Unit × List TrackCue × Mux.Seg × Sink
  | [], g, s => (.ok (), [], g, s)
  | x :: xs, g, s =>
    match (if time ≥ 0 then x.cue.start.ns.map fun n => decide (n > time) else .ok false) with
    | .ub => (.ub, x :: xs, g, s)
    | .err e => (.err e, x :: xs, g, s)
    | .ok true => (.ok (), x :: xs, g, s)
    | .ok false =>
      match x.frame with
      | .ub => (.ub, x :: xs, g, s)
      | .err e => (.err e, x :: xs, g, s)
      | .ok f =>
        match Mux.Seg.addGenericFrame f g s with
        | (.ok (), g', s') => writeCues time xs g' s'
        | (.err _, g', s') => (.err (-1), x :: xs, g', s')
        | (.ub, g', s') => (.ub, x :: xs, g', s')

/-! ### Chapters -/

/-- The loop of `ParseChapters`, sample_muxer_metadata.cc:123-147: as `parseCues`, the cues in the order of the file. -/
def parseChapters : (fuel : Nat) → Parser → Time → List Cue → Res (List Cue)
  | 0, _, _, _ => .ub
  | n + 1, p, t, cues =>
    match p.parse with
    | (.ub, _) => .ub
    | (.err e, _) => if e < 0 then .err (-1) else .ok cues
    | (.ok c, p') =>
      if c.start.lt t then .err (-1)
      else if c.stop.lt c.start then .err (-1)
      else parseChapters n p' c.start (cues ++ [c])

/-- `LoadChapters` and `ParseChapters`, sample_muxer_metadata.cc:82-148, after the file has been opened: the chapters
already there must be none. -/
def loadChapters (file : Parser) (chapters : List Cue) : Res (List Cue) := do
  Res.refuse (chapters ≠ []) (-1)
  match file.init with
  | (e, p) => if e < 0 then .err (-1) else parseChapters (file.size + 1) p ⟨-1, 0, 0, 0⟩ []

/-- The bytes before the first NUL: a `std::string` passed on through `c_str()`. -/
def cText (s : Bytes) : Bytes := s.takeWhile (· ≠ 0)

/-- The loop that makes the title of a chapter, sample_muxer_metadata.cc:184-194; it must not be entered without payload. -/
def chapterTitle : List Bytes → Res Bytes
  | [] => .ub
  | [l] => .ok l
  | l :: ls => (chapterTitle ls).map fun t => l ++ 0x0A :: t

/-- `AddChapter`, sample_muxer_metadata.cc:150-202, for a segment with this timecode scale, where `MakeUID` gives this
UID. -/
def addChapter (scale uid : UInt64) (c : Cue) : Res Mux.Chapter := do
  let start ← c.start.ns
  let stop ← c.stop.ns
  let title ← chapterTitle c.payload
  let ch : Mux.Chapter := { uid := uid, id := if c.identifier.isEmpty then none else some (cText c.identifier) }
  .ok ((ch.setTime scale (UInt64.ofNat (toU64 start)) (UInt64.ofNat (toU64 stop))).addString (some (cText title)) none none)

end Verif.Vtt
