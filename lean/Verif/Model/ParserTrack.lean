/-
Going through the blocks of one track with mkvparser, and seeking in it.
-/
import Verif.Model.ParserSegment
import Verif.Model.ParserTable
import Verif.Model.ParserSeek
import Verif.Model.ParserTracks

namespace Verif.Par
open Verif

/-- `Segment::DoneParsing`, mkvparser/mkvparser.cc:2482-2498 (`Length` of the readers modelled here does not fail). -/
def ReadSegment.doneParsing (r : Rdr) (g : ReadSegment) : Bool :=
  match g.stop with
  | none => decide (0 ≤ r.total ∧ r.total ≤ g.pos)
  | some s => decide ((s : Int) ≤ g.pos)

/-- `pBlock->GetTrackNumber() == m_info.number`, mkvparser/mkvparser.cc:4695-4697 and 4756. -/
def ReadTrack.has (t : ReadTrack) (e : Entry) : Bool := decide ((e.block.track : Int) = t.info.number)

/-- `(tn == m_info.number) && VetEntry(pBlockEntry)`, mkvparser/mkvparser.cc:4697, 4817-4832 and 5458-5460: of a
video track (`VideoTrack`, made for type 1, mkvparser/mkvparser.cc:5943-5955) only key frames will do. -/
def ReadTrack.vet (t : ReadTrack) (e : Entry) : Bool := t.has e && (t.info.type != 1 || e.block.isKey)

/-- The loop over the entries of one cluster, from entry `e` with index `idx` on, to one that will do,
mkvparser/mkvparser.cc:4691-4711 and 4752-4766: the cluster afterwards, and the answer.  The fuel bounds the rounds; a
loop that does not end within it is `ub`. -/
def ReadCluster.seekFrom (r : Rdr) (p : Entry → Bool) : (fuel : Nat) → ReadCluster → (idx : Nat) → Entry →
    ReadCluster × Res (Option (Nat × Entry))
  | 0, c, _, _ => (c, .ub)
  | f + 1, c, idx, e =>
    if p e then (c, .ok (some (idx, e)))
    else
      match c.getNext r idx with
      | .ok (c, none) => (c, .ok none)
      | .ok (c, some e) => ReadCluster.seekFrom r p f c (idx + 1) e
      | .err code => (c.kept r, .err code)
      | .ub => (c, .ub)

/-- `while (pNextEntry)`, mkvparser/mkvparser.cc:4752: the loop, if there is an entry to begin with. -/
def ReadCluster.seekOn (r : Rdr) (p : Entry → Bool) (fuel : Nat) (c : ReadCluster) :
    Option (Nat × Entry) → ReadCluster × Res (Option (Nat × Entry))
  | none => (c, .ok none)
  | some (idx, e) => c.seekFrom r p fuel idx e

/-- A `BlockEntry` of the segment: the one that stands for the end, or an entry of a cluster, with the two
indices. -/
inductive Place where
  | eos
  | entry (cluster idx : Nat) (e : Entry)
  deriving DecidableEq, Repr

/-- The segment after one of its clusters has changed. -/
def ReadSegment.with (g : ReadSegment) (k : Nat) (c : ReadCluster) : ReadSegment := { g with clusters := g.clusters.set k c }

/-- The answer when there is no further cluster, mkvparser/mkvparser.cc:4673-4681 and 4775-4796. -/
def ReadSegment.noMore (r : Rdr) (g : ReadSegment) : ReadSegment × Res Place :=
  (g, if g.doneParsing r then .ok .eos else .err E_BUFFER_NOT_FULL)

/-- The loop of `Track::GetFirst`, mkvparser/mkvparser.cc:4667-4719, at cluster number `k`; `i` counts the clusters
without a block that will do. -/
def ReadSegment.firstLoop (r : Rdr) (rounds : Nat) (t : ReadTrack) : (fuel : Nat) → ReadSegment → (k : Option Nat) → (i : Nat) →
    ReadSegment × Res Place
  | 0, g, _, _ => (g, .ub)
  | _ + 1, g, none, _ => g.noMore r
  | f + 1, g, some k, i =>
    match g.clusters[k]? with
    | none => (g, .ub)
    | some c =>
      match c.getFirst r with
      | .ub => (g, .ub)
      | .err code => (g.with k (c.kept r), .err code)
      | .ok (c, none) => ReadSegment.firstLoop r rounds t f (g.with k c) (g.getNext k) i
      | .ok (c, some e) =>
        match c.seekFrom r t.vet rounds 0 e with
        | (c, .ub) => (g.with k c, .ub)
        | (c, .err code) => (g.with k c, .err code)
        | (c, .ok (some (idx, e))) => (g.with k c, .ok (.entry k idx e))
        | (c, .ok none) =>
          if i + 1 ≥ 100 then (g.with k c, .ok .eos)
          else ReadSegment.firstLoop r rounds t f (g.with k c) (g.getNext k) (i + 1)

/-- `Track::GetFirst`, mkvparser/mkvparser.cc:4664-4729: the segment afterwards, and the answer. -/
def ReadSegment.trackFirst (r : Rdr) (fuel : Nat) (t : ReadTrack) (g : ReadSegment) : ReadSegment × Res Place :=
  ReadSegment.firstLoop r fuel t (fuel + 1) g g.getFirst 0

/-- The loop of `Track::GetNext`, mkvparser/mkvparser.cc:4751-4807, at entry `here` of cluster number `k` (`none`: nothing
is left in it); `i` counts the clusters begun. -/
def ReadSegment.nextLoop (r : Rdr) (rounds : Nat) (t : ReadTrack) : (fuel : Nat) → ReadSegment → (k : Nat) →
    (here : Option (Nat × Entry)) → (i : Nat) → ReadSegment × Res Place
  | 0, g, _, _, _ => (g, .ub)
  | f + 1, g, k, here, i =>
    match g.clusters[k]? with
    | none => (g, .ub)
    | some c =>
      match c.seekOn r t.has rounds here with
      | (c, .ub) => (g.with k c, .ub)
      | (c, .err code) => (g.with k c, .err code)
      | (c, .ok (some (idx, e))) => (g.with k c, .ok (.entry k idx e))
      | (c, .ok none) =>
        match g.getNext k with
        | none => (g.with k c).noMore r
        | some k' =>
          match g.clusters[k']? with
          | none => (g.with k c, .ub)
          | some d =>
            match d.getFirst r with
            | .ub => (g.with k c, .ub)
            | .err code => ((g.with k c).with k' (d.kept r), .err code)
            | .ok (d, none) => ReadSegment.nextLoop r rounds t f ((g.with k c).with k' d) k' none i
            | .ok (d, some e) =>
              if i + 1 ≥ 100 then ((g.with k c).with k' d, .ok .eos)
              else ReadSegment.nextLoop r rounds t f ((g.with k c).with k' d) k' (some (0, e)) (i + 1)

/-- `Track::GetNext`, mkvparser/mkvparser.cc:4731-4815, after entry number `idx` of cluster number `k`, which must be
one of the track: the segment afterwards, and the answer. -/
def ReadSegment.trackNext (r : Rdr) (fuel : Nat) (t : ReadTrack) (g : ReadSegment) (k idx : Nat) (e : Entry) :
    ReadSegment × Res Place :=
  if t.has e then
    match g.clusters[k]? with
    | none => (g, .ub)
    | some c =>
      match c.getNext r idx with
      | .ub => (g, .ub)
      | .err code => (g.with k (c.kept r), .err code)
      | .ok (c, e') => ReadSegment.nextLoop r fuel t (fuel + 1) (g.with k c) k (e'.map fun e => (idx + 1, e)) 0
  else (g, .ub)

/-- The outcome of a call when the segment is of interest only if it succeeds. -/
def succeeded : ReadSegment × Res Place → Res (ReadSegment × Place)
  | (g, .ok p) => .ok (g, p)
  | (_, .err code) => .err code
  | (_, .ub) => .ub

/-- `m_entries[index]`, parsing one more block if necessary, mkvparser/mkvparser.cc:7453-7470: `none` if there is none.
`assert(status >= 0)` is `ub` when it fails. -/
def ReadCluster.entryOr (r : Rdr) (c : ReadCluster) (idx : Nat) : Res (ReadCluster × Option Entry) :=
  match (c.entries.getD [])[idx]? with
  | some e => .ok (c, some e)
  | none =>
    match c.parse r with
    | .ok (c', true) => .ok (c', none)
    | .ok (c', false) =>
      match (c'.entries.getD [])[idx]? with
      | some e => .ok (c', some e)
      | none => .ub
    | _ => .ub

/-- `Block::GetTime(this)`, mkvparser/mkvparser.cc:8044-8063, for a block of the cluster; `scale` as in
`ReadCluster.getTime`. -/
def ReadCluster.blockNs (r : Rdr) (scale : Option Int) (c : ReadCluster) (e : Entry) : Res (ReadCluster × Int) := do
  let (c, tc) ← c.getTimeCode r
  match scale with
  | none => .ub
  | some s => do
    let t ← blockGetTime s tc e.block.timecode
    .ok (c, t)

/-- The loop of `Cluster::GetEntry(pTrack, time_ns)`, mkvparser/mkvparser.cc:7452-7499, from entry number `idx` on, with
the candidate found before. -/
def ReadCluster.entryLoop (r : Rdr) (t : ReadTrack) (scale : Option Int) (time : Int) : (fuel : Nat) → ReadCluster → (idx : Nat) →
    (best : Option (Nat × Entry)) → Res (ReadCluster × Option (Nat × Entry))
  | 0, _, _, _ => .ub
  | f + 1, c, idx, best => do
    match ← c.entryOr r idx with
    | (c, none) => .ok (c, best)
    | (c, some e) =>
      if t.has e = false then ReadCluster.entryLoop r t scale time f c (idx + 1) best
      else if time < 0 then
        if t.vet e then .ok (c, some (idx, e)) else ReadCluster.entryLoop r t scale time f c (idx + 1) best
      else do
        let (c, ns) ← c.blockNs r scale e
        if ns > time then .ok (c, best)
        else ReadCluster.entryLoop r t scale time f c (idx + 1) (if t.vet e then some (idx, e) else best)

/-- `Cluster::GetEntry(pTrack, time_ns)`, mkvparser/mkvparser.cc:7440-7500. -/
def ReadCluster.trackEntry (r : Rdr) (fuel : Nat) (t : ReadTrack) (scale : Option Int) (time : Int) (c : ReadCluster) :
    Res (ReadCluster × Option (Nat × Entry)) :=
  ReadCluster.entryLoop r t scale time fuel c 0 none

/-- The search for the last cluster that does not begin later, mkvparser/mkvparser.cc:4867-4890 and 5494-5517. -/
def timeSearch (r : Rdr) (scale : Option Int) (cs : List ReadCluster) (time : Int) : (fuel : Nat) → (lo hi : Nat) → Res Nat
  | 0, lo, hi => if lo < hi then .ub else .ok lo
  | f + 1, lo, hi =>
    if lo < hi then
      match cs[lo + (hi - lo) / 2]? with
      | none => .ub
      | some c => do
        let t ← c.getTime r scale
        if t ≤ time then timeSearch r scale cs time f (lo + (hi - lo) / 2 + 1) hi
        else timeSearch r scale cs time f lo (lo + (hi - lo) / 2)
    else .ok lo

/-- The way back from cluster number `lo - 1` to cluster number `i`, mkvparser/mkvparser.cc:4896-4910 and 5523-5549.
`want` is the time handed to `GetEntry`. -/
def ReadSegment.seekBack (r : Rdr) (fuel : Nat) (t : ReadTrack) (scale : Option Int) (time want : Int) (i : Nat) :
    (lo : Nat) → ReadSegment → Res (ReadSegment × Place)
  | 0, g => .ok (g, .eos)
  | k + 1, g =>
    if k + 1 ≤ i then .ok (g, .eos)
    else
      match g.clusters[k]? with
      | none => .ub
      | some c => do
        let s ← c.getTime r scale
        Res.assert (s ≤ time)
        match ← c.trackEntry r fuel t scale want with
        | (c, some (idx, e)) => .ok (g.with k c, .entry k idx e)
        | (c, none) => ReadSegment.seekBack r fuel t scale time want i k (g.with k c)

/-- `Track::Seek`, mkvparser/mkvparser.cc:4834-4911, and `VideoTrack::Seek`, mkvparser/mkvparser.cc:5462-5549: they differ
in the time asked for in the clusters.  `ub` when an assertion fails.  What a call that fails leaves behind is left out. -/
def ReadSegment.trackSeek (r : Rdr) (fuel : Nat) (t : ReadTrack) (time : Int) (g : ReadSegment) : Res (ReadSegment × Place) := do
  match ← succeeded (g.trackFirst r fuel t) with
  | (g, .eos) => .ok (g, .eos)
  | (g, .entry i idx e) =>
    match g.clusters[i]? with
    | none => .ub
    | some c => do
      let scale := g.info.map (·.timecodeScale)
      let (c, first) ← c.blockNs r scale e
      if time ≤ first then .ok (g.with i c, .entry i idx e)
      else do
        let s ← c.getTime r scale
        Res.assert (s ≤ time)
        let lo ← timeSearch r scale g.clusters time g.clusters.length i g.clusters.length
        Res.assert (i < lo)
        ReadSegment.seekBack r fuel t scale time (if t.info.type = 1 then time else -1) i lo (g.with i c)

end Verif.Par
