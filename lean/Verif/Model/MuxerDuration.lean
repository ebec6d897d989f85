/-
The duration that `Segment::Finalize` writes, mkvmuxer/mkvmuxer.cc:3252-3276, with the members it is computed from,
`last_block_duration_` and `track_frames_written_`, and the arithmetic of `double` and `float`.

A nonnegative `double` is modelled as the number of units of 2^-1074 it has, as in Model/Ticks.lean.
-/
import Verif.Model.MuxerSegment
import Verif.Model.Ticks

namespace Verif.Ticks

/-- `x + y`, two doubles. -/
def add (x y : Nat) : Nat := round (x + y) 1

/-- `x / y`, two doubles. -/
def quot (x y : Nat) : Nat := round (x * one) y

/-- The distance of neighbouring floats, as a power of two, for a number of this size: floats have 24 bits, and the smallest
positive one is 2^-149. -/
def floatStep (x : Nat) : Nat := max (x.log2 - 23) 925

/-- `static_cast<float>(x)`: the bits of the float next to `x`, of two that are equally near the even one.  Simplification: the
number is below 2^127, so that the result is not an infinity. -/
def floatBits (x : Nat) : Nat := (floatStep x - 925) * 2 ^ 23 + nearest x (2 ^ floatStep x)

end Verif.Ticks

namespace Verif.Mux
open Verif

/-- The members `last_block_duration_` and `track_frames_written_` (by track number), mkvmuxer/mkvmuxer.h:1852, 1861;
initially 0, mkvmuxer/mkvmuxer.cc:3066, 3186-3187. -/
structure Counts where
  lastBlockDuration : Nat := 0
  written : Nat → Nat := fun _ => 0

/-- The frame waits in the queue, if it is accepted: the tests at mkvmuxer/mkvmuxer.cc:3518-3535. -/
def Seg.waits (g : Seg) (f : Frame) : Bool :=
  let far := g.cur.any fun c => decide (subU64 (f.timestamp / g.info.scale) c.timecode > kMaxBlockTimecode.toNat)
  g.hasVideo && (g.tracks.byNumber f.trackNumber).any (fun t => t.kind == .audio) && !(g.forceNew || far)

/-- The members after a call: only a call that succeeds changes them, mkvmuxer/mkvmuxer.cc:3548, 3590-3591. -/
def Counts.after (n : Counts) (g : Seg) : SegCall → Res Unit → Counts
  | .frame f, .ok () =>
    let written := upd n.written f.trackNumber (n.written f.trackNumber + 1)
    if g.waits f then { n with written := written } else { lastBlockDuration := f.duration, written := written }
  | _, _ => n

/-- The members after a history of calls. -/
def Seg.counted : List SegCall → Seg → Sink → Counts → Counts
  | [], _, _, n => n
  | x :: xs, g, s, n =>
    match Seg.call x g s with
    | (r, g', s') => Seg.counted xs g' s' (n.after g x r)

/-- `Segment::duration_` (a double; 0 stands for those that are not positive) and `estimate_file_duration_`,
mkvmuxer/mkvmuxer.h:1695-1701, 1892, 1912, set with `set_duration` and `set_estimate_file_duration`. -/
structure DurationSettings where
  duration : Nat := 0
  estimate : Bool := false

/-- The estimate for a track, mkvmuxer/mkvmuxer.cc:3264-3270. -/
def Seg.trackDuration (g : Seg) (n : Counts) (i : Nat) : Nat :=
  let last := g.lastTrackTs (i + 1)
  let nanoPerFrame := Ticks.quot (Ticks.ofNat last) (Ticks.ofNat (n.written (i + 1) - 1))
  Ticks.quot (Ticks.add (Ticks.ofNat last) nanoPerFrame) (Ticks.ofNat g.info.scale)

/-- The loop over the tracks, mkvmuxer/mkvmuxer.cc:3259-3273: `i` is the index in the arrays, which have the track with the
number `i + 1` there. -/
def Seg.estimateLoop (g : Seg) (n : Counts) : List Nat → Nat → Nat
  | [], d => d
  | i :: is, d =>
    if n.written (i + 1) < 2 then g.estimateLoop n is d
    else g.estimateLoop n is (if g.trackDuration n i > d then g.trackDuration n i else d)

/-- The duration given to `segment_info_`, mkvmuxer/mkvmuxer.cc:3252-3276. -/
def Seg.fileDuration (o : DurationSettings) (n : Counts) (g : Seg) : Nat :=
  let duration := Ticks.quot (Ticks.add (Ticks.ofNat g.lastTs) (Ticks.ofNat n.lastBlockDuration)) (Ticks.ofNat g.info.scale)
  if o.duration > 0 then o.duration
  else if n.lastBlockDuration = 0 ∧ o.estimate then g.estimateLoop n (List.range g.tracks.entries.length) duration
  else duration

/-- `if (duration_ > 0.0)` and `static_cast<float>(duration_)`, mkvmuxer/mkvmuxer.cc:2941-2953. -/
def durationBits (d : Nat) : Option Nat := if d > 0 then some (Ticks.floatBits d) else none

/-- `Segment::Finalize`, mkvmuxer/mkvmuxer.cc:3229-3354, with the duration it computes itself, after the frames that wait have been
written. -/
def Seg.finalizeNow (o : DurationSettings) (n : Counts) : M Seg Unit := fun g s =>
  Seg.finalize (durationBits (Seg.fileDuration o n (Seg.writeFramesAll g s).2.1)) g s

end Verif.Mux
