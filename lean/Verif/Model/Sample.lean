/-
Copying the frames of a file into a new one, with WebVTT cues between them: the loop of mkvmuxer_sample.cc.

Not modelled: the command line, and how the segment and its tracks are set up from it (mkvmuxer_sample.cc:186-678); opening and
closing files.
-/
import Verif.Model.VttMux
import Verif.Model.VttDemux

namespace Verif.Sample
open Verif Verif.Par Verif.Vtt

/-- What the loop changes: the cues that wait (`metadata`), the muxer's segment and its output. -/
structure St where
  set : List TrackCue
  seg : Mux.Seg
  sink : Sink

/-- One thing after the other, as long as there is no error. -/
def St.andThen (x : Res Unit × St) (f : St → Res Unit × St) : Res Unit × St :=
  match x with
  | (.ok (), st) => f st
  | (.err e, st) => (.err e, st)
  | (.ub, st) => (.ub, st)

/-- `metadata.Write`, mkvmuxer_sample.cc:714-715 and 764-765. -/
def St.flush (time : Int) (st : St) : Res Unit × St :=
  match writeCues time st.set st.seg st.sink with
  | (r, set, g, s) => (r, ⟨set, g, s⟩)

/-- `AddGenericFrame`, mkvmuxer_sample.cc:744-747; `EXIT_FAILURE` is `err (-1)`. -/
def St.add (f : Mux.Frame) (st : St) : Res Unit × St :=
  match Mux.Seg.addGenericFrame f st.seg st.sink with
  | (.ok (), g, s) => (.ok (), { st with seg := g, sink := s })
  | (.err _, g, s) => (.err (-1), { st with seg := g, sink := s })
  | (.ub, g, s) => (.ub, { st with seg := g, sink := s })

/-- What to copy, `output_audio` and `output_video`, and the tracks to copy it to, `aud_track` and `vid_track`. -/
structure Choice where
  audio : Bool := true
  video : Bool := true
  audioTrack : Nat
  videoTrack : Nat

/-- `GetTrackByNumber` and `GetType`, mkvmuxer_sample.cc:698-709 with mkvparser/mkvparser.cc:6029-6047. -/
def typeOf (tracks : List ReadTrack) (number : Nat) : Option Int :=
  (tracks.find? fun t => t.info.number == (number : Int)).map (·.info.type)

/-- The condition mkvmuxer_sample.cc:717-718. -/
def Choice.copies (o : Choice) (type : Int) : Bool := (type == 2 && o.audio) || (type == 1 && o.video)

/-- The track in the new file, mkvmuxer_sample.cc:738-739. -/
def Choice.track (o : Choice) (type : Int) : Nat := if type = 2 then o.audioTrack else o.videoTrack

/-- The frame for the muxer, mkvmuxer_sample.cc:735-743. -/
def copyOf (track : Nat) (time : Int) (b : Block) (data : Bytes) : Mux.Frame :=
  { frame := data, trackNumber := track, discardPadding := b.discardPadding, timestamp := toU64 time, isKey := b.isKey }

/-- The loop over the frames of a block, mkvmuxer_sample.cc:719-748.  An empty frame would be copied from a null pointer if
nothing has been read before; copying nothing is taken to do nothing. -/
def copyFrames (r : Rdr) (track : Nat) (time : Int) (b : Block) : List BFrame → St → Res Unit × St
  | [], st => (.ok (), st)
  | f :: fs, st =>
    match f.read r with
    | .error _ => (.err (-1), st)
    | .ok data => St.andThen (st.add (copyOf track time b data)) (copyFrames r track time b fs)

/-- The body of the loop over the blocks, mkvmuxer_sample.cc:697-749; a file without track entries or information does not get
this far. -/
def copyEntry (r : Rdr) (o : Choice) (tracks : List ReadTrack) (scale tc : Int) (e : Entry) (st : St) : Res Unit × St :=
  match typeOf tracks e.block.track with
  | none => (.err (-1), st)
  | some type =>
    match blockGetTime scale tc e.block.timecode with
    | .err c => (.err c, st)
    | .ub => (.ub, st)
    | .ok time =>
      St.andThen (st.flush time) fun st =>
        if o.copies type then copyFrames r (o.track type) time e.block e.block.frames st else (.ok (), st)

/-- The loop over the blocks of a cluster, mkvmuxer_sample.cc:696-757, from entry `e` with index `idx` on. -/
def copyFrom (r : Rdr) (o : Choice) (tracks : List ReadTrack) (scale tc : Int) : (fuel : Nat) → ReadCluster → (idx : Nat) → Entry →
    St → Res Unit × St
  | 0, _, _, _, st => (.ub, st)
  | n + 1, c, idx, e, st =>
    St.andThen (copyEntry r o tracks scale tc e st) fun st =>
      match c.getNext r idx with
      | .err _ => (.err (-1), st)
      | .ub => (.ub, st)
      | .ok (_, none) => (.ok (), st)
      | .ok (c', some e') => copyFrom r o tracks scale tc n c' (idx + 1) e' st

/-- The body of the loop over the clusters, mkvmuxer_sample.cc:687-757.  The time of the cluster is asked for with each block;
it is the same each time. -/
def copyCluster (r : Rdr) (o : Choice) (tracks : List ReadTrack) (scale : Int) (fuel : Nat) (c : ReadCluster) (st : St) :
    Res Unit × St :=
  match c.getTimeCode r with
  | .err _ => (.err (-1), st)
  | .ub => (.ub, st)
  | .ok (c, tc) =>
    match c.getFirst r with
    | .err _ => (.err (-1), st)
    | .ub => (.ub, st)
    | .ok (_, none) => (.ok (), st)
    | .ok (c, some e) => copyFrom r o tracks scale tc fuel c 0 e st

/-- The loop over the clusters, mkvmuxer_sample.cc:684-760. -/
def copyClusters (r : Rdr) (o : Choice) (tracks : List ReadTrack) (scale : Int) (g : ReadSegment) (rounds : Nat) : (fuel : Nat) →
    (idx : Option Nat) → St → Res Unit × St
  | _, none, st => (.ok (), st)
  | 0, some _, st => (.ub, st)
  | n + 1, some idx, st =>
    match g.clusters[idx]? with
    | none => (.ub, st)
    | some c => St.andThen (copyCluster r o tracks scale rounds c st) (copyClusters r o tracks scale g rounds n (g.getNext idx))

/-- All the frames, and then the cues that are left, mkvmuxer_sample.cc:680-765, for a file that has been loaded. -/
def copyAll (r : Rdr) (o : Choice) (fuel : Nat) (g : ReadSegment) (st : St) : Res Unit × St :=
  match g.tracks, g.info with
  | some tracks, some info =>
    St.andThen (copyClusters r o tracks info.timecodeScale g fuel fuel g.getFirst st) (St.flush (-1))
  | _, _ => (.err (-1), st)

end Verif.Sample
