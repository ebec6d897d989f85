/-
What copying a file with cues between the frames should do, said without the program that does it.
-/
import Verif.Spec.VttMux
import Verif.Spec.Watching
import Verif.Model.Sample

namespace Verif.Sample
open Verif Verif.Mux Verif.Spec Verif.Vtt Verif.Vtt.Spec

/-- The start of a cue in nanoseconds. -/
def startNs (x : TrackCue) : Int := millisOf x.cue.start * 1000000

/-- The frame a cue becomes. -/
def cueAsFrame (x : TrackCue) : Frame where
  frame := makeFrame x.cue
  trackNumber := x.track
  timestamp := (millisOf x.cue.start * 1000000).toNat
  duration := ((millisOf x.cue.stop - millisOf x.cue.start) * 1000000).toNat
  durationSet := true
  isKey := true

/-- The frames of the new file, from the frames to copy, each with the time of its block (`none` for a frame that is not
copied, whose time counts all the same), and the cues, in order of their start: every cue comes before the first block that
does not start before it, the others at the end. -/
def interleave : List (Int × Option Frame) → List TrackCue → List Frame
  | [], cues => cues.map cueAsFrame
  | (t, f) :: bs, cues =>
    (cues.takeWhile fun x => startNs x ≤ t).map cueAsFrame ++ f.toList ++ interleave bs (cues.dropWhile fun x => startNs x ≤ t)

/-- The number of the track in the new file, if frames of the track with this number are to be copied: video has type 1, audio
type 2. -/
def newTrack (o : Choice) (tracks : List Par.ReadTrack) (number : Nat) : Option Nat :=
  match tracks.find? fun t => t.info.number == (number : Int) with
  | none => none
  | some t =>
    if t.info.type = 1 ∧ o.video then some o.videoTrack
    else if t.info.type = 2 ∧ o.audio then some o.audioTrack
    else none

/-- The copy of a frame that is shown, where `scale` is the length of a tick in nanoseconds. -/
def copyFor (o : Choice) (tracks : List Par.ReadTrack) (scale : Int) (s : SeenFrame) : Option Frame :=
  (newTrack o tracks s.track).map fun n =>
    { frame := s.data, trackNumber := n, discardPadding := s.padding, timestamp := (s.time * scale).toNat, isKey := s.key }

/-- The frames of the new file, when these frames are shown of the old one and these cues are waiting. -/
def schedule (o : Choice) (tracks : List Par.ReadTrack) (scale : Int) (fs : List SeenFrame) (cues : List TrackCue) : List Frame :=
  interleave (fs.map fun s => (s.time * scale, copyFor o tracks scale s)) cues

/-- The cues of a track. -/
def cuesOn (n : Nat) (set : List TrackCue) : List Vtt.Cue := (set.filter fun x => x.track == n).map (·.cue)

/-- In order of their start, and of their track's number when they start together. -/
def InTurn (set : List TrackCue) : Prop :=
  set.Pairwise fun a b => millisOf a.cue.start < millisOf b.cue.start ∨
    (millisOf a.cue.start = millisOf b.cue.start ∧ a.track ≤ b.track)

end Verif.Sample
