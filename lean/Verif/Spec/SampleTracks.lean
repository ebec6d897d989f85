/-
What is left of the tracks of a file when mkvmuxer_sample copies them into a new one.
-/
import Verif.Spec.Reading

namespace Verif.Spec
open Verif Verif.Par Verif.Mux

/-- The number for "not set" among the angles of a projection is the largest float; such an angle becomes zero. -/
def keptAngle (v : Nat) : Nat := if v = 0x7F7FFFFF then 0 else v

/-- Video: the size in pixels, the frame rate, the colour and the projection.  (Not the size of the display, the stereo mode,
the colour space.) -/
def keptVideo (v : ReadVideo) : ReadVideo where
  width := v.width
  height := v.height
  rate := v.rate
  colour := v.colour
  projection := v.projection.map fun p => { p with yaw := keptAngle p.yaw, pitch := keptAngle p.pitch, roll := keptAngle p.roll }

/-- A track in the new file, with its number and UID there: type, name, codec, the data of the codec and what is kept for
video; for audio everything, and codec delay and seek pre-roll.  (Not the language, the default duration, the encodings.) -/
def keptTrack (number uid : Nat) (t : ReadTrack) : ReadTrack where
  info := { type := t.info.type, number := number, uid := uid, name := t.info.name, codecId := t.info.codecId,
            codecPrivate := t.info.codecPrivate, codecDelay := if t.info.type = 2 then t.info.codecDelay else 0,
            seekPreRoll := if t.info.type = 2 then t.info.seekPreRoll else 0, lacing := true }
  part := match t.part with
    | .video v => .video (keptVideo v)
    | p => p

/-- Video and audio tracks are copied. -/
def IsAv (t : ReadTrack) : Bool := t.info.type == 1 || t.info.type == 2

/-- The tracks of the new file: those of the old file that are video or audio, in that order, numbered from `n` on.  The track
that is the `i`th in the old file, counted from `i`, has the UID `uid i`. -/
def keptTracks (uid : Nat → UInt64) : (i n : Nat) → List ReadTrack → List ReadTrack
  | _, _, [] => []
  | i, n, t :: ts => if IsAv t then keptTrack n (uid i).toNat t :: keptTracks uid (i + 1) (n + 1) ts else keptTracks uid (i + 1) n ts

/-- A track whose settings survive: the sides of a video are less than 2³¹ pixels long, the sampling rate of audio is a whole
number below 2³¹, and there are less than 2³¹ channels. -/
def Copyable (t : Mux.Track) : Prop :=
  match t.part with
  | .video v => (if v.pixelWidth = 0 then v.width else v.pixelWidth).toNat < 2 ^ 31 ∧
    (if v.pixelHeight = 0 then v.height else v.pixelHeight).toNat < 2 ^ 31
  | .audio a => (∃ n : Nat, n < 2 ^ 31 ∧ floatUnits a.sampleRate = n * 2 ^ 149) ∧ a.channels.toNat < 2 ^ 31
  | .plain => True

end Verif.Spec
