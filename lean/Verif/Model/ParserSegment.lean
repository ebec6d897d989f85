/-
Model of mkvparser's segment: `Segment::CreateInstance`, `ParseHeaders`, `LoadCluster`, `Load`,
`GetFirst` and `GetNext` (mkvparser/mkvparser.cc:703-1477 and 2501-2548).

Positions are naturals; sums of positions do not overflow, so that the checks for that
(mkvparser/mkvparser.cc:851-854 and 924-927) are left out.  Allocation succeeds.  No cluster has been
preloaded (by following a cue before loading the clusters; see Model/ParserTable.lean for that), so the
table of clusters is a list.
-/
import Verif.Model.ParserCluster
import Verif.Model.ParserChapters
import Verif.Model.ParserTracks
import Verif.Model.SeekHead
import Verif.Model.EbmlHeader
import Verif.Model.MuxerSegment

namespace Verif.Par
open Verif

/-- `Segment`, mkvparser/mkvparser.h:1010-1120, as the constructor at mkvparser/mkvparser.cc:660-679 makes
it: `m_start`, `m_size` (`none`: -1, not known), `m_pos` (negative while a cluster of unknown size is being
parsed), whether `m_pUnknownSize` is set (it is then the last cluster), and what has been found: Info,
Tracks, Cues (only their place), the seek head, Chapters, Tags and the clusters. -/
structure ReadSegment where
  start : Nat
  size : Option Nat
  pos : Int
  unknown : Bool := false
  info : Option ReadInfo := none
  tracks : Option (List ReadTrack) := none
  cues : Option (Nat × Nat) := none
  seekHead : Option (List SeekEntry × List (Nat × Nat)) := none
  chapters : Option (List (List ReadAtom)) := none
  tags : Option (List (List ReadSimpleTag)) := none
  clusters : List ReadCluster := []
  deriving DecidableEq, Repr

/-- `segment_stop`, e.g. mkvparser/mkvparser.cc:835. -/
def ReadSegment.stop (g : ReadSegment) : Option Nat := g.size.map (g.start + ·)

/-- `(total >= 0) && (p > total)`. -/
def beyond (r : Rdr) (p : Nat) : Bool := decide (r.total ≥ 0 ∧ (p : Int) > r.total)

/-- `(total >= 0) && (p >= total)`. -/
def atEnd (r : Rdr) (p : Nat) : Bool := decide (r.total ≥ 0 ∧ (p : Int) ≥ r.total)

/-- The checks before a field in `CreateInstance`, mkvparser/mkvparser.cc:748-758 and 769-779.  A positive
code is the position up to which data is needed. -/
def createField (r : Rdr) (pos : Nat) : Res Unit := do
  let (result, len) ← getUIntLength r pos
  Res.refuse (result ≠ 0) result
  Res.refuse (beyond r (pos + len)) E_FILE_FORMAT_INVALID
  Res.refuse (pos + len > r.data.length) (pos + len : Nat)

/-- The loop of `CreateInstance`, mkvparser/mkvparser.cc:742-817.  The fuel is as in `hasBlockLoop`. -/
def createLoop (r : Rdr) : (fuel : Nat) → (pos : Nat) → Res ReadSegment
  | 0, pos => if atEnd r pos then .err E_FILE_FORMAT_INVALID else .err pos
  | f + 1, pos => do
    Res.refuse (atEnd r pos) E_FILE_FORMAT_INVALID
    createField r pos
    let (id, len) ← (readID r pos).orErr E_FILE_FORMAT_INVALID
    let pos := pos + len
    createField r pos
    let (size, len) ← readUInt r pos
    let pos := pos + len
    if id = Mux.kMkvSegment then
      .ok { start := pos
            size := if size = unknownSize len ∨ r.total < 0 ∨ (pos + size : Nat) > r.total then none else some size
            pos := pos }
    else do
      Res.refuse (size = unknownSize len) E_FILE_FORMAT_INVALID
      Res.refuse (beyond r (pos + size)) E_FILE_FORMAT_INVALID
      Res.refuse (pos + size > r.data.length) (pos + size : Nat)
      createLoop r f (pos + size)

/-- `Segment::CreateInstance`, mkvparser/mkvparser.cc:703-818. -/
def createInstance (r : Rdr) (pos : Nat) : Res ReadSegment := do
  Res.refuse (r.total ≥ 0 ∧ (r.data.length : Int) > r.total) (-1)
  createLoop r (r.data.length + 1 - pos) pos

/-- The checks before a field in `ParseHeaders`, mkvparser/mkvparser.cc:856-876 and 889-909.  A positive
code is the position up to which data is needed. -/
def headersField (r : Rdr) (stop : Option Nat) (pos : Nat) : Res Unit := do
  Res.refuse (pos + 1 > r.data.length) (pos + 1 : Nat)
  let (result, len) ← getUIntLength r pos
  Res.refuse (result < 0) result
  Res.refuse (result > 0) (pos + 1 : Nat)
  Res.refuse (past stop (pos + len)) E_FILE_FORMAT_INVALID
  Res.refuse (pos + len > r.data.length) (pos + len : Nat)

/-- What `ParseHeaders` does with an element, mkvparser/mkvparser.cc:940-1009; `idpos` is where it starts.
Info and Tracks may occur once; of the others, the first counts. -/
def headersElement (r : Rdr) (g : ReadSegment) (id pos size : Nat) : Res ReadSegment :=
  if id = Mux.kMkvInfo then do
    Res.refuse g.info.isSome E_FILE_FORMAT_INVALID
    let x ← infoParse r pos size
    .ok { g with info := some x }
  else if id = Mux.kMkvTracks then do
    Res.refuse g.tracks.isSome E_FILE_FORMAT_INVALID
    let x ← tracksParse r pos size
    .ok { g with tracks := some x }
  else if id = Mux.kMkvCues then
    .ok { g with cues := g.cues.or (some (pos, size)) }
  else if id = Mux.kMkvSeekHead then
    if g.seekHead.isSome then .ok g
    else do
      let x ← seekHeadParse r pos size
      .ok { g with seekHead := some x }
  else if id = Mux.kMkvChapters then
    if g.chapters.isSome then .ok g
    else do
      let x ← chaptersParse r pos size
      .ok { g with chapters := some x }
  else if id = Mux.kMkvTags then
    if g.tags.isSome then .ok g
    else do
      let x ← tagsParse r pos size
      .ok { g with tags := some x }
  else .ok g

/-- One round of the loop of `ParseHeaders`, mkvparser/mkvparser.cc:843-1013: `none` when the loop ends. -/
def headersStep (r : Rdr) (g : ReadSegment) (pos : Nat) : Res (Option (ReadSegment × Nat)) :=
  if atEnd r pos ∨ reached g.stop pos then .ok none
  else do
    headersField r g.stop pos
    let (id, len) ← (readID r pos).orErr E_FILE_FORMAT_INVALID
    if id = Mux.kMkvCluster then .ok none
    else do
      let pos := pos + len
      headersField r g.stop pos
      let (size, len) ← readUInt r pos
      let pos := pos + len
      Res.refuse (past g.stop (pos + size)) E_FILE_FORMAT_INVALID
      Res.refuse (pos + size > r.data.length) (pos + size : Nat)
      let g ← headersElement r g id pos size
      .ok (some (g, pos + size))

/-- The loop and the checks after it, mkvparser/mkvparser.cc:843-1024.  The object is left as it is after
the last element that was read completely.  (An Info or Tracks object that could not be parsed is not
remembered here; the code keeps it and will refuse another.) -/
def headersLoop (r : Rdr) : (fuel : Nat) → (g : ReadSegment) → (pos : Nat) → ReadSegment × Res Unit
  | 0, g, pos => ({ g with pos := pos }, .err (pos + 1 : Nat))
  | f + 1, g, pos =>
    match headersStep r g pos with
    | .ok (some (g', pos')) => headersLoop r f g' pos'
    | .ok none =>
      let g := { g with pos := pos }
      (g, if past g.stop pos then .err E_FILE_FORMAT_INVALID
          else if g.info.isNone then .err E_FILE_FORMAT_INVALID
          else if g.tracks.isNone then .err E_FILE_FORMAT_INVALID
          else .ok ())
    | .err c => ({ g with pos := pos }, .err c)
    | .ub => ({ g with pos := pos }, .ub)

/-- `Segment::ParseHeaders`, mkvparser/mkvparser.cc:820-1024; the code is 0, negative for an error, or
positive: the position up to which data is needed.  While a cluster of unknown size is being parsed, the
position is negative and the first round fails (mkvparser/mkvparser.cc:851-854 or 860-863). -/
def ReadSegment.parseHeaders (r : Rdr) (g : ReadSegment) : ReadSegment × Res Unit :=
  if r.total > 0 ∧ (r.data.length : Int) > r.total then (g, .err E_FILE_FORMAT_INVALID)
  else if g.pos < 0 then (g, .err E_FILE_FORMAT_INVALID)
  else if g.stop.any (beyond r) ∨ past g.stop g.pos.toNat then (g, .err E_FILE_FORMAT_INVALID)
  else headersLoop r (r.data.length + 2 - g.pos.toNat) g g.pos.toNat

/-- What a round of the loop of `DoLoadCluster` finds: the end, an element to skip (`pos` is behind it), or a
cluster (where it starts, its payload, and its size if known). -/
inductive Scan where
  | finished
  | skip (g : ReadSegment) (pos : Nat)
  | cluster (idpos pos : Nat) (size : Option Nat)
  deriving DecidableEq, Repr

/-- One round of the loop of `DoLoadCluster`, mkvparser/mkvparser.cc:1053-1162. -/
def scanStep (r : Rdr) (g : ReadSegment) (pos : Nat) : Res Scan :=
  if atEnd r pos ∨ reached g.stop pos then .ok .finished
  else do
    let _ ← fieldIn r g.stop pos
    let idpos := pos
    let (id, len) ← (readID r pos).orErr E_FILE_FORMAT_INVALID
    let pos := pos + len
    let _ ← fieldIn r g.stop pos
    let (size, len) ← readUInt r pos
    let pos := pos + len
    if size = 0 then .ok (.skip g pos)
    else do
      Res.refuse (size ≠ unknownSize len ∧ past g.stop (pos + size)) E_FILE_FORMAT_INVALID
      if id = Mux.kMkvCues then do
        Res.refuse (size = unknownSize len) E_FILE_FORMAT_INVALID
        .ok (.skip { g with cues := g.cues.or (some (pos, size)) } (pos + size))
      else if id ≠ Mux.kMkvCluster then do
        Res.refuse (size = unknownSize len) E_FILE_FORMAT_INVALID
        .ok (.skip g (pos + size))
      else .ok (.cluster idpos pos (if size = unknownSize len then none else some size))

/-- The loop of `DoLoadCluster`, mkvparser/mkvparser.cc:1053-1162: the segment as it is then, and the
cluster found, if any. -/
def scanLoop (r : Rdr) : (fuel : Nat) → (g : ReadSegment) → (pos : Nat) →
    ReadSegment × Res (Option (Nat × Nat × Option Nat))
  | 0, g, pos =>
    ({ g with pos := pos }, if atEnd r pos ∨ reached g.stop pos then .ok none else .err E_BUFFER_NOT_FULL)
  | f + 1, g, pos =>
    match scanStep r g pos with
    | .ok .finished => ({ g with pos := pos }, .ok none)
    | .ok (.skip g' pos') => scanLoop r f g' pos'
    | .ok (.cluster idpos p size) => ({ g with pos := pos }, .ok (some (idpos, p, size)))
    | .err c => ({ g with pos := pos }, .err c)
    | .ub => ({ g with pos := pos }, .ub)

/-- `Segment::DoLoadClusterUnknownSize`, mkvparser/mkvparser.cc:1311-1335. -/
def ReadSegment.loadUnknownSize (r : Rdr) (g : ReadSegment) : ReadSegment × Res Nat :=
  match g.unknown, g.clusters.getLast? with
  | true, some c =>
    match c.parse r with
    | .err e => ({ g with clusters := g.clusters.dropLast ++ [c.kept r] }, .err e)
    | .ub => (g, .ub)
    | .ok (c', false) => ({ g with clusters := g.clusters.dropLast ++ [c'] }, .ok 2)
    | .ok (c', true) =>
      match c'.size with
      | none => ({ g with clusters := g.clusters.dropLast ++ [c'] }, .err E_FILE_FORMAT_INVALID)
      | some n =>
        ({ g with clusters := g.clusters.dropLast ++ [c'], pos := (c'.start + n : Nat), unknown := false }, .ok 2)
  | _, _ => (g, .err E_PARSE_FAILED)

/-- What `DoLoadCluster` does with a cluster that has blocks (`has`) or has none, mkvparser/mkvparser.cc:1247-1301.
`Cluster::Create` (mkvparser/mkvparser.cc:6810-6821) makes the new object; the table is extended by
`AppendCluster`. -/
def ReadSegment.takeCluster (r : Rdr) (g : ReadSegment) (idpos pos : Nat) (size : Option Nat) (has : Bool) :
    ReadSegment × Res Nat :=
  if has then
    let c : ReadCluster := { start := idpos, pos := idpos }
    let g := { g with clusters := g.clusters ++ [c] }
    match size with
    | some n =>
      ({ g with pos := (pos + n : Nat) }, if past g.stop (pos + n) then .err E_FILE_FORMAT_INVALID else .ok 0)
    | none => ({ g with pos := -pos, unknown := true }, .ok 0)
  else
    let pos := pos + size.getD 0
    if atEnd r pos then ({ g with pos := r.total }, .ok 1)
    else if reached g.stop pos then ({ g with pos := g.stop.getD 0 }, .ok 1)
    else ({ g with pos := pos }, .ok 2)

/-- `Segment::DoLoadCluster`, mkvparser/mkvparser.cc:1035-1309: 0 (a cluster was loaded), 1 (there is none),
2 (to be called again), or an error. -/
def ReadSegment.doLoadCluster (r : Rdr) (g : ReadSegment) : ReadSegment × Res Nat :=
  if g.pos < 0 then g.loadUnknownSize r
  else if r.total ≥ 0 ∧ (r.data.length : Int) > r.total then (g, .err E_FILE_FORMAT_INVALID)
  else
    match scanLoop r (r.data.length + 1 - g.pos.toNat) g g.pos.toNat with
    | (g, .err c) => (g, .err c)
    | (g, .ub) => (g, .ub)
    | (g, .ok none) => (g, .ok 1)
    | (g, .ok (some (idpos, pos, size))) =>
      match hasBlockEntries r g.stop idpos with
      | .err c => (g, .err c)
      | .ub => (g, .ub)
      | .ok has => g.takeCluster r idpos pos size has

/-- `Segment::LoadCluster`, mkvparser/mkvparser.cc:1026-1033: `false` when there is no more cluster.  The fuel
bounds the rounds; a loop that does not end within it is `ub`. -/
def ReadSegment.loadCluster (r : Rdr) : (fuel : Nat) → (g : ReadSegment) → ReadSegment × Res Bool
  | 0, g => (g, .ub)
  | f + 1, g =>
    match g.doLoadCluster r with
    | (g', .ok n) => if n ≤ 1 then (g', .ok (n = 0)) else ReadSegment.loadCluster r f g'
    | (g', .err c) => (g', .err c)
    | (g', .ub) => (g', .ub)

/-- The loop of `Segment::Load`, mkvparser/mkvparser.cc:1469-1477. -/
def ReadSegment.loadAll (r : Rdr) (rounds : Nat) : (fuel : Nat) → (g : ReadSegment) → ReadSegment × Res Unit
  | 0, g => (g, .ub)
  | f + 1, g =>
    match ReadSegment.loadCluster r rounds g with
    | (g', .ok true) => ReadSegment.loadAll r rounds f g'
    | (g', .ok false) => (g', .ok ())
    | (g', .err c) => (g', .err c)
    | (g', .ub) => (g', .ub)

/-- `Segment::Load`, mkvparser/mkvparser.cc:1450-1478.  Both loops get the same fuel. -/
def ReadSegment.load (r : Rdr) (fuel : Nat) (g : ReadSegment) : ReadSegment × Res Unit :=
  if g.clusters ≠ [] then (g, .err E_PARSE_FAILED)
  else
    match g.parseHeaders r with
    | (g', .err c) => (g', .err (if c < 0 then c else E_BUFFER_NOT_FULL))
    | (g', .ub) => (g', .ub)
    | (g', .ok ()) => ReadSegment.loadAll r fuel fuel g'

/-- `Segment::GetFirst`, mkvparser/mkvparser.cc:2501-2509: the index of the first cluster; `none` for `m_eos`. -/
def ReadSegment.getFirst (g : ReadSegment) : Option Nat := if g.clusters.length = 0 then none else some 0

/-- `Segment::GetNext`, mkvparser/mkvparser.cc:2525-2548, for a loaded cluster. -/
def ReadSegment.getNext (g : ReadSegment) (idx : Nat) : Option Nat :=
  if g.clusters.length ≤ idx + 1 then none else some (idx + 1)

end Verif.Par
