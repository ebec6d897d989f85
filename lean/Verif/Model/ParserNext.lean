/-
Loading clusters while others have been read ahead, and `Segment::ParseNext`.
-/
import Verif.Model.ParserAhead

namespace Verif.Par
open Verif

/-! ### Loading -/

/-- What `DoLoadCluster` does with a cluster, mkvparser/mkvparser.cc:1220-1304, when there may be preloaded ones: the first
of them may be this cluster.  `AppendCluster` puts a new one before all that are preloaded. -/
def Ahead.takeCluster (r : Rdr) (a : Ahead) (idpos pos : Nat) (size : Option Nat) (has : Bool) : Ahead × Res Nat :=
  let fresh : Ahead × Res Nat := ({ a with seg := (a.seg.takeCluster r idpos pos size has).1 }, (a.seg.takeCluster r idpos pos size has).2)
  match a.preloaded with
  | [] => fresh
  | c :: cs =>
    if c.start < a.seg.start then (a, .err E_FILE_FORMAT_INVALID)
    else if c.start = idpos then
      if has = false then (a, .err E_FILE_FORMAT_INVALID)
      else
        match (match size with
          | some n => some (pos + n)
          | none => if c.size.getD 0 = 0 then none else some (c.start + c.size.getD 0)) with
        | none => (a, .err E_FILE_FORMAT_INVALID)
        | some stop =>
          ({ seg := { a.seg with clusters := a.seg.clusters ++ [c], pos := (stop : Nat) }, preloaded := cs },
            if past a.seg.stop stop then .err E_FILE_FORMAT_INVALID else .ok 0)
    else fresh

/-- `Segment::DoLoadCluster`, mkvparser/mkvparser.cc:1035-1309, when there may be preloaded clusters. -/
def Ahead.doLoadCluster (r : Rdr) (a : Ahead) : Ahead × Res Nat :=
  if a.seg.pos < 0 then ({ a with seg := (a.seg.loadUnknownSize r).1 }, (a.seg.loadUnknownSize r).2)
  else if r.total ≥ 0 ∧ (r.data.length : Int) > r.total then (a, .err E_FILE_FORMAT_INVALID)
  else
    match scanLoop r (r.data.length + 1 - a.seg.pos.toNat) a.seg a.seg.pos.toNat with
    | (g, .err c) => ({ a with seg := g }, .err c)
    | (g, .ub) => ({ a with seg := g }, .ub)
    | (g, .ok none) => ({ a with seg := g }, .ok 1)
    | (g, .ok (some (idpos, pos, size))) =>
      match hasBlockEntries r g.stop idpos with
      | .err c => ({ a with seg := g }, .err c)
      | .ub => ({ a with seg := g }, .ub)
      | .ok has => Ahead.takeCluster r { a with seg := g } idpos pos size has

/-- `Segment::LoadCluster`, mkvparser/mkvparser.cc:1026-1033, when there may be preloaded clusters: `false` when there is no
more cluster. -/
def Ahead.loadCluster (r : Rdr) : (fuel : Nat) → Ahead → Ahead × Res Bool
  | 0, a => (a, .ub)
  | f + 1, a =>
    match a.doLoadCluster r with
    | (a', .ok n) => if n ≤ 1 then (a', .ok (n = 0)) else Ahead.loadCluster r f a'
    | (a', .err c) => (a', .err c)
    | (a', .ub) => (a', .ub)

/-! ### `ParseNext` -/

/-- One round of the first loop of `DoParseNext`, mkvparser/mkvparser.cc:2860-2983. -/
def parseStep (r : Rdr) (g : ReadSegment) (pos : Nat) : Res Scan :=
  if atEnd r pos ∨ reached g.stop pos then .ok .finished
  else do
    let _ ← fieldIn r g.stop pos
    let idpos := pos
    let (id, len) ← readID r pos
    let pos := pos + len
    let _ ← fieldIn r g.stop pos
    let (size, len) ← readUInt r pos
    let pos := pos + len
    if size = 0 then .ok (.skip g pos)
    else do
      Res.refuse (size ≠ unknownSize len ∧ past g.stop (pos + size)) E_FILE_FORMAT_INVALID
      if id = Mux.kMkvCues then do
        Res.refuse (size = unknownSize len) E_FILE_FORMAT_INVALID
        .ok (.skip { g with cues := g.cues.or (some (pos, size)) } (pos + size))
      else if id ≠ Mux.kMkvCluster then do
        Res.refuse (size = unknownSize len) E_FILE_FORMAT_INVALID
        .ok (.skip g (pos + size))
      else .ok (.cluster idpos pos (if size = unknownSize len then none else some size))

/-- The first loop of `DoParseNext`, mkvparser/mkvparser.cc:2860-2983: as `scanLoop`, but the position of the segment
stays where it is.  The fuel is the number of bytes from `pos` to the end of the data, and one more. -/
def parseScan (r : Rdr) : (fuel : Nat) → (g : ReadSegment) → (pos : Nat) →
    ReadSegment × Res (Option (Nat × Nat × Option Nat))
  | 0, g, pos => (g, if atEnd r pos ∨ reached g.stop pos then .ok none else .err E_BUFFER_NOT_FULL)
  | f + 1, g, pos =>
    match parseStep r g pos with
    | .ok .finished => (g, .ok none)
    | .ok (.skip g' pos') => parseScan r f g' pos'
    | .ok (.cluster idpos p size) => (g, .ok (some (idpos, p, size)))
    | .err c => (g, .err c)
    | .ub => (g, .ub)

/-- What is in `pos` after the search among the preloaded clusters, mkvparser/mkvparser.cc:2993-3023: *the search uses the
variable* for the positions, in the segment, of the clusters it looks at. -/
def lastProbed (cs : List ReadCluster) (start : Nat) (off : Int) (pos i j : Nat) : Nat :=
  if i < j then
    let k := i + (j - i) / 2
    match cs[k]? with
    | none => pos
    | some c =>
      if (c.start : Int) - start < off then lastProbed cs start off (c.start - start) (k + 1) j
      else if (c.start : Int) - start > off then lastProbed cs start off (c.start - start) i k
      else c.start - start
  else pos
  termination_by j - i
  decreasing_by all_goals omega

/-- The search for the end of a cluster of unknown size, mkvparser/mkvparser.cc:3065-3152. -/
def clusterEnd (r : Rdr) (g : ReadSegment) : (fuel : Nat) → (pos : Nat) → Res Nat
  | 0, pos => if atEnd r pos ∨ reached g.stop pos then .ok pos else .err E_BUFFER_NOT_FULL
  | f + 1, pos =>
    if atEnd r pos ∨ reached g.stop pos then .ok pos
    else do
      let _ ← fieldIn r g.stop pos
      let (id, len) ← readID r pos
      if id = Mux.kMkvCluster ∨ id = Mux.kMkvCues then .ok pos
      else do
        let pos := pos + len
        let _ ← fieldIn r g.stop pos
        let (size, len) ← readUInt r pos
        let pos := pos + len
        if size = 0 then clusterEnd r g f pos
        else do
          Res.refuse (size = unknownSize len) E_FILE_FORMAT_INVALID
          Res.refuse (past g.stop (pos + size)) E_FILE_FORMAT_INVALID
          clusterEnd r g f (pos + size)

/-- What `DoParseNext` does with a cluster that was not preloaded, mkvparser/mkvparser.cc:3027-3165; `slot` is where it would go in the
table, `pos` the variable of that name.  The results are those of `doParseNext`. -/
def Ahead.parseTake (r : Rdr) (a : Ahead) (idpos pos slot : Nat) (size : Option Nat) : Ahead × Res (Option Nat ⊕ Nat) :=
  match hasBlockEntries r a.seg.stop idpos with
  | .err c => (a, .err c)
  | .ub => (a, .ub)
  | .ok true =>
    match a.preload ((idpos : Int) - a.seg.start) slot with
    | (a', some k) => (a', .ok (.inl (some k)))
    | (a', none) => (a', .err (-1))
  | .ok false =>
    (a, do
      let stop ← (match size with
        | some n => .ok (pos + n)
        | none => clusterEnd r a.seg (r.data.length + 1 - pos) pos)
      Res.refuse (past a.seg.stop stop) E_FILE_FORMAT_INVALID
      .ok (.inr stop))

/-- `Segment::DoParseNext`, mkvparser/mkvparser.cc:2841-3165, from `pos` on: the slot of the next cluster with blocks, or
`none` for 1, "no more clusters"; or (for 2) where to go on. -/
def Ahead.doParseNext (r : Rdr) (a : Ahead) (pos : Nat) : Ahead × Res (Option Nat ⊕ Nat) :=
  if r.total ≥ 0 ∧ (r.data.length : Int) > r.total then (a, .ub)
  else
    match parseScan r (r.data.length + 1 - pos) a.seg pos with
    | (g, .err c) => ({ a with seg := g }, .err c)
    | (g, .ub) => ({ a with seg := g }, .ub)
    | (g, .ok none) => ({ a with seg := g }, .ok (.inl none))
    | (g, .ok (some (idpos, pos, size))) =>
      let a := { a with seg := g }
      let off : Int := (idpos : Int) - g.start
      if off ≤ 0 then (a, .ub)
      else
        match searchLoop (a.preloaded.map fun c => some ⟨0, (c.start : Int) - g.start, 0⟩) a.preloaded.length off 0
            a.preloaded.length with
        | .err c => (a, .err c)
        | .ub => (a, .ub)
        | .ok (.inl j) => (a, .ok (.inl (some (g.clusters.length + j))))
        | .ok (.inr j) =>
          a.parseTake r idpos (lastProbed a.preloaded g.start off pos 0 a.preloaded.length) (g.clusters.length + j) size

/-- The loop at the end of `ParseNext`, mkvparser/mkvparser.cc:2833-2838.  The fuel bounds the rounds; a loop that does
not end within it is `ub`. -/
def Ahead.parseOn (r : Rdr) : (fuel : Nat) → Ahead → (pos : Nat) → Ahead × Res (Option Nat)
  | 0, a, _ => (a, .ub)
  | f + 1, a, pos =>
    match a.doParseNext r pos with
    | (a', .ok (.inl k)) => (a', .ok k)
    | (a', .ok (.inr pos')) => Ahead.parseOn r f a' pos'
    | (a', .err c) => (a', .err c)
    | (a', .ub) => (a', .ub)

/-- Where a preloaded cluster ends, mkvparser/mkvparser.cc:2748-2829.  If the object does not know its size, it is read
again; *the ID is read like a number*, without the bit for its length. -/
def nextEnd (r : Rdr) (g : ReadSegment) (c : ReadCluster) : Res Nat :=
  match c.size with
  | some n => .ok (c.start + n)
  | none => do
    let _ ← fieldIn r g.stop c.start
    let (id, len) ← (readUInt r c.start).orErr (-1)
    Res.refuse (id ≠ Mux.kMkvCluster) (-1)
    let pos := c.start + len
    let _ ← fieldIn r g.stop pos
    let (size, len) ← readUInt r pos
    let pos := pos + len
    Res.refuse (size = unknownSize len) E_FILE_FORMAT_INVALID
    Res.refuse (past g.stop (pos + size)) E_FILE_FORMAT_INVALID
    .ok (pos + size)

/-- `Segment::ParseNext`, mkvparser/mkvparser.cc:2698-2839, for the cluster in slot `k`: the slot of the next one, `none` for 1
("no more clusters").  Failing assertions are `ub`. -/
def Ahead.parseNext (r : Rdr) (fuel : Nat) (a : Ahead) (k : Nat) : Ahead × Res (Option Nat) :=
  if k < a.seg.clusters.length then
    if k + 1 < a.seg.clusters.length then (a, .ok (some (k + 1)))
    else
      match a.loadCluster r fuel with
      | (a', .ok true) => (a', .ok (some (a'.seg.clusters.length - 1)))
      | (a', .ok false) => (a', .ok none)
      | (a', .err c) => (a', .err c)
      | (a', .ub) => (a', .ub)
  else
    match a.preloaded[k - a.seg.clusters.length]? with
    | none => (a, .ub)
    | some c =>
      if a.seg.pos ≤ 0 ∨ (r.total ≥ 0 ∧ (r.data.length : Int) > r.total) then (a, .ub)
      else
        match nextEnd r a.seg c with
        | .err e => (a, .err e)
        | .ub => (a, .ub)
        | .ok pos => a.parseOn r fuel pos

end Verif.Par
