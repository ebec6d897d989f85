/-
An application that opens a file it knows nothing about with mkvparser, and then calls the API as it likes.
-/
import Verif.Spec.Watching
import Verif.Model.ParserCues
import Verif.Model.ParserTrack

namespace Verif.Spec
open Verif Verif.Par

/-- A call an application may make once it has a segment.  A cluster is named by its index in the segment, an
entry by its index in the cluster. -/
inductive ApiCall where
  /-- `Segment::ParseHeaders` -/
  | headers
  /-- `Segment::LoadCluster` -/
  | loadCluster
  /-- `Segment::Load` -/
  | load
  /-- `Cluster::GetTimeCode` -/
  | timeCode (cluster : Nat)
  /-- `Cluster::GetFirst` -/
  | first (cluster : Nat)
  /-- `Cluster::GetNext`, after that entry -/
  | next (cluster entry : Nat)
  /-- `Cluster::GetLast` -/
  | last (cluster : Nat)
  /-- `Track::GetFirst` of a track, by its index -/
  | trackFirst (track : Nat)
  /-- `Track::GetNext` after an entry of that track -/
  | trackNext (track cluster entry : Nat)
  deriving DecidableEq, Repr

/-- The segment with another state of one of its clusters. -/
def _root_.Verif.Par.ReadSegment.withCluster (g : ReadSegment) (i : Nat) (c : ReadCluster) : ReadSegment :=
  { g with clusters := g.clusters.set i c }

/-- The outcome of a call on cluster `i`, which was `c`. -/
def settle (r : Rdr) (g : ReadSegment) (i : Nat) (c : ReadCluster) :
    Res (ReadCluster × Option Entry) → ReadSegment × Res (Option Entry)
  | .ok (c', e) => (g.withCluster i c', .ok e)
  | .err code => (g.withCluster i (c.kept r), .err code)
  | .ub => (g, .ub)

/-- The entry at a place. -/
def _root_.Verif.Par.Place.here : Place → Option Entry
  | .eos => none
  | .entry _ _ e => some e

/-- A call: the segment afterwards, and the answer: an error code, or success with the entry handed out, if
any.  An application cannot name a cluster, track or entry it has not been given, and hands a track only entries of that
track; nothing happens otherwise. -/
def perform (r : Rdr) (fuel : Nat) (g : ReadSegment) : ApiCall → ReadSegment × Res (Option Entry)
  | .headers => ((g.parseHeaders r).1, (g.parseHeaders r).2.map fun _ => none)
  | .loadCluster => ((ReadSegment.loadCluster r fuel g).1, (ReadSegment.loadCluster r fuel g).2.map fun _ => none)
  | .load => ((g.load r fuel).1, (g.load r fuel).2.map fun _ => none)
  | .timeCode i =>
    match g.clusters[i]? with
    | none => (g, .ok none)
    | some c => settle r g i c ((c.getTimeCode r).map fun x => (x.1, none))
  | .first i =>
    match g.clusters[i]? with
    | none => (g, .ok none)
    | some c => settle r g i c (c.getFirst r)
  | .next i idx =>
    match g.clusters[i]? with
    | none => (g, .ok none)
    | some c => if idx < (c.entries.getD []).length then settle r g i c (c.getNext r idx) else (g, .ok none)
  | .last i =>
    match g.clusters[i]? with
    | none => (g, .ok none)
    | some c => (g.withCluster i (ReadCluster.getLast r fuel c).1, (ReadCluster.getLast r fuel c).2)
  | .trackFirst n =>
    match g.tracks.bind (·[n]?) with
    | none => (g, .ok none)
    | some t => ((g.trackFirst r fuel t).1, (g.trackFirst r fuel t).2.map Place.here)
  | .trackNext n i idx =>
    match g.tracks.bind (·[n]?), g.clusters[i]?.bind fun c => (c.entries.getD [])[idx]? with
    | some t, some e =>
      if t.has e then ((g.trackNext r fuel t i idx e).1, (g.trackNext r fuel t i idx e).2.map Place.here) else (g, .ok none)
    | _, _ => (g, .ok none)

/-- The answers to a series of calls. -/
def answers (r : Rdr) (fuel : Nat) : ReadSegment → List ApiCall → List (Res (Option Entry))
  | _, [] => []
  | g, call :: calls => (perform r fuel g call).2 :: answers r fuel (perform r fuel g call).1 calls

/-- The answer is not undefined behaviour (a failed assertion, a read of an indeterminate value, an overflow, or
a loop that does not end), and if an entry is handed out it has frames, each of them has at least one byte, lies
inside the file, and can be read. -/
def Sound (r : Rdr) (file : Bytes) (x : Res (Option Entry)) : Prop :=
  x ≠ .ub ∧ ∀ e, x = .ok (some e) → e.block.frames ≠ [] ∧ ∀ f ∈ e.block.frames,
    0 < f.len ∧ f.pos + f.len ≤ file.length ∧ f.read r = .ok ((file.drop f.pos).take f.len)

/-- A file read through `MkvReader`: all of it is there, and reading beyond its end fails. -/
structure Opened (r : Rdr) (file : Bytes) : Prop where
  data : r.data = file
  total : r.total = file.length
  fails : r.short < 0

/-- Any number of calls of `Cues::LoadCuePoint`, one after the other: the object then, unless one of them went
wrong.  (The answer `false` does not keep an application from calling again.) -/
def loadCues (r : Rdr) : Nat → Cues → Res Cues
  | 0, q => .ok q
  | n + 1, q =>
    match q.loadCuePoint r with
    | .ok (_, q') => loadCues r n q'
    | .err c => .err c
    | .ub => .ub

end Verif.Spec
