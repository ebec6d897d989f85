/-
Seeking with mkvparser: from a cue point to the block it names.
-/
import Verif.Model.ParserSegment
import Verif.Model.ParserTable
import Verif.Model.ParserCues

namespace Verif.Par
open Verif

/-- `m_entries[idx]`, where `Parse` is called until there is such an entry, mkvparser/mkvparser.cc:7511-7526 and
7542-7559 (where one call must be enough; every successful one adds an entry).  `none` for `return NULL`: nothing
remains, or `Parse` fails.  The fuel bounds the rounds; a loop that does not end within it is `ub`. -/
def ReadCluster.entryAt (r : Rdr) : (fuel : Nat) → ReadCluster → (idx : Nat) → Res (ReadCluster × Option Entry)
  | 0, _, _ => .ub
  | f + 1, c, idx =>
    match (c.entries.getD [])[idx]? with
    | some e => .ok (c, some e)
    | none =>
      match c.parse r with
      | .ok (c', false) => ReadCluster.entryAt r f c' idx
      | .ok (c', true) => .ok (c', none)
      | .err _ => .ok (c.kept r, none)
      | .ub => .ub

/-- `Block::GetTimeCode(this)` for a block of the cluster, mkvparser/mkvparser.cc:8027-8042: the cluster is asked for
its own time. -/
def ReadCluster.blockTime (r : Rdr) (c : ReadCluster) (e : Entry) : Res (ReadCluster × Int) := do
  let (c, tc) ← c.getTimeCode r
  let t ← blockGetTimeCode tc e.block.timecode
  .ok (c, t)

/-- What is asked of the track when the time fits, mkvparser/mkvparser.cc:7580-7600 (with `GetTrackByNumber`,
mkvparser/mkvparser.cc:6029-6047): any block of an audio track will do, of a video track only a key frame.
`assert(pTracks)` is `ub` when it fails. -/
def vetCue (tracks : Option (List ReadTrack)) (tp : TrackPosition) (e : Entry) : Res Bool :=
  match tracks with
  | none => .ub
  | some ts =>
    match ts.find? fun t => decide (t.info.number = tp.track) with
    | none => .ok false
    | some t => .ok (t.info.type == 2 || (t.info.type == 1 && e.block.isKey))

/-- The loop of `Cluster::GetEntry`, mkvparser/mkvparser.cc:7539-7601: the index of the entry, and the entry. -/
def ReadCluster.scanFor (r : Rdr) (tracks : Option (List ReadTrack)) (cp : CuePoint) (tp : TrackPosition) (rounds : Nat) :
    (fuel : Nat) → ReadCluster → (idx : Nat) → Res (ReadCluster × Option (Nat × Entry))
  | 0, _, _ => .ub
  | f + 1, c, idx => do
    match ← ReadCluster.entryAt r rounds c idx with
    | (c, none) => .ok (c, none)
    | (c, some e) =>
      if (e.block.track : Int) ≠ tp.track then ReadCluster.scanFor r tracks cp tp rounds f c (idx + 1)
      else do
        let (c, t) ← c.blockTime r e
        if t < cp.timecode then ReadCluster.scanFor r tracks cp tp rounds f c (idx + 1)
        else if t > cp.timecode then .ok (c, none)
        else do
          let good ← vetCue tracks tp e
          .ok (c, if good then some (idx, e) else none)

/-- `Cluster::GetEntry(cp, tp)`, mkvparser/mkvparser.cc:7502-7602: the block with the cue's number, if it is of the
cue's track and has its time; otherwise the blocks are searched. -/
def ReadCluster.getEntryFor (r : Rdr) (fuel : Nat) (tracks : Option (List ReadTrack)) (c : ReadCluster) (cp : CuePoint)
    (tp : TrackPosition) : Res (ReadCluster × Option (Nat × Entry)) :=
  if tp.block > 0 then do
    match ← ReadCluster.entryAt r fuel c (tp.block - 1).toNat with
    | (c, none) => .ok (c, none)
    | (c, some e) =>
      if (e.block.track : Int) = tp.track then do
        let (c, t) ← c.blockTime r e
        if t = cp.timecode then .ok (c, some ((tp.block - 1).toNat, e))
        else ReadCluster.scanFor r tracks cp tp fuel fuel c 0
      else ReadCluster.scanFor r tracks cp tp fuel fuel c 0
  else ReadCluster.scanFor r tracks cp tp fuel fuel c 0

/-- What `Segment::GetBlock` finds: nothing; an entry of a loaded cluster, with the two indices; or what there is in a
cluster that was not loaded before. -/
inductive Hit where
  | nothing
  | entry (cluster idx : Nat) (e : Entry)
  | beyond (c : ReadCluster) (e : Option (Nat × Entry))
  deriving DecidableEq, Repr

/-- `Segment::GetBlock`, mkvparser/mkvparser.cc:2144-2199 (`Cues::GetBlock`, mkvparser/mkvparser.cc:2136-2142, calls
it).  A cluster is looked up by its offset in the segment, `GetPosition`.  If none is there, the code makes a cluster
object for that place (`Cluster::Create` refuses a negative one) and `PreloadCluster` refuses it unless it comes
behind the loaded ones.  Simplified: clusters preloaded in this way are not kept in the segment. -/
def ReadSegment.getBlock (r : Rdr) (fuel : Nat) (g : ReadSegment) (cp : CuePoint) (tp : TrackPosition) :
    Res (ReadSegment × Hit) := do
  match ← searchLoop (g.clusters.map fun c => some ⟨0, (c.start : Int) - g.start, 0⟩) g.clusters.length tp.pos 0
      g.clusters.length with
  | .inl k =>
    match g.clusters[k]? with
    | none => .ub
    | some c => do
      let (c, e) ← c.getEntryFor r fuel g.tracks cp tp
      .ok ({ g with clusters := g.clusters.set k c }, e.elim .nothing fun e => .entry k e.1 e.2)
  | .inr i =>
    if tp.pos < 0 ∨ i < g.clusters.length then .ok (g, .nothing)
    else do
      let (c, e) ← ({ start := g.start + tp.pos.toNat, pos := g.start + tp.pos.toNat } : ReadCluster).getEntryFor r fuel
        g.tracks cp tp
      .ok (g, .beyond c e)

end Verif.Par
