/-
An application that seeks in a file with mkvparser: it loads the cue points, looks up the time it wants to
go to, asks for the block the cue point names, and plays on from there.
-/
import Verif.Spec.Watching
import Verif.Model.ParserSeek

namespace Verif.Spec
open Verif Verif.Par Verif.Mux

/-- `while (!cues->DoneParsing()) cues->LoadCuePoint();` -/
def loadCuePoints (r : Rdr) : (fuel : Nat) → Par.Cues → Res Par.Cues
  | 0, _ => .ub
  | f + 1, q =>
    if q.doneParsing then .ok q
    else match q.loadCuePoint r with
      | .ok (_, q') => loadCuePoints r f q'
      | .err c => .err c
      | .ub => .ub

/-- Playing on from entry number `idx` of cluster number `k`, through the rest of the cluster and all clusters
behind it. -/
def playOn (r : Rdr) (fuel : Nat) (g : ReadSegment) (k idx : Nat) (e : Entry) : Res (List SeenFrame) :=
  match g.clusters[k]? with
  | none => .ub
  | some c => do
    let (c, tc) ← c.getTimeCode r
    let here ← watchFrom r tc fuel c idx e
    let rest ← watchClusters r g fuel fuel (g.getNext k)
    .ok (here ++ rest)

/-- A seek to `time` (in nanoseconds) by the cue points of a track of the file, `Cues::Find` and `Cues::GetBlock`: the
frames shown from there on, or `none` if there is nothing to be found. -/
def seekTo (r : Rdr) (fuel : Nat) (g : ReadSegment) (time track : Nat) : Res (Option (List SeenFrame)) :=
  match g.cues, g.info with
  | some (start, size), some info => do
    let q ← loadCuePoints r fuel (Par.Cues.new start size)
    match ← q.find info.timecodeScale time track with
    | none => .ok none
    | some (cp, tp) => do
      match ← g.getBlock r fuel cp tp with
      | (g, .entry k idx e) => do
        let fs ← playOn r fuel g k idx e
        .ok (some fs)
      | _ => .ok none
  | _, _ => .ok none

/-- The places in a recording at which a seek can arrive: the first frame of the track in each cluster that has one.
`cs` are the frames of each cluster; each place is given by all that follows it. -/
def landings (track : Nat) : List (List SeenFrame) → List (List SeenFrame)
  | [] => []
  | c :: cs =>
    match c.dropWhile fun f => decide (f.track ≠ track) with
    | [] => landings track cs
    | f :: fs => ((f :: fs) ++ cs.flatten) :: landings track cs

/-- The time in nanoseconds of the first of these frames. -/
def startTime (scale : Nat) (fs : List SeenFrame) : Int := fs.head?.elim 0 fun f => f.time * scale

/-- Where a seek to `time` should arrive: at the first place if that is not earlier than `time`, otherwise at the last
place that is not later. -/
def landing (scale track time : Nat) (cs : List (List SeenFrame)) : Option (List SeenFrame) :=
  match landings track cs with
  | [] => none
  | first :: others =>
    if (time : Int) ≤ startTime scale first then some first
    else ((first :: others).filter fun l => decide (startTime scale l ≤ time)).getLast?

/-- **A seek in a file arrives where it should**, for a file with clusters showing these frames: when the whole
file is there and has been loaded, every seek to a time by the cue points of the track succeeds, and playing on
from there shows what follows. -/
def SeeksAs (file : Bytes) (scale track : Nat) (cs : List (List SeenFrame)) : Prop :=
  ∀ r : Rdr, r.data = file → r.total = file.length → ∀ fuel, file.length < fuel →
    ∃ pos head g g', ebmlHeadParse r = .ok (.done pos head) ∧ createInstance r pos = .ok g ∧
      g.load r fuel = (g', .ok ()) ∧ g'.clusters.map (watchCluster r fuel) = cs.map .ok ∧
      ∀ time, seekTo r fuel g' time track = .ok (landing scale track time cs)

end Verif.Spec
