/-
Reading ahead with mkvparser: the cues are found by the seek head, and clusters are looked at before they have been
loaded in order.
-/
import Verif.Model.ParserSeek

namespace Verif.Par
open Verif

/-- `Segment::ParseCues`, mkvparser/mkvparser.cc:1630-1744, for the offset of an element in the segment: `true` for 0
(there are cues), `false` for 1 (there is nothing that can be read as cues).  `m_start + off` overflowing, and an
assertion failing, is `ub`. -/
def ReadSegment.parseCues (r : Rdr) (g : ReadSegment) (off : Int) : Res (ReadSegment × Bool) :=
  if g.cues.isSome then .ok (g, true)
  else do
    Res.refuse (off < 0) (-1)
    Res.assert (r.total < 0 ∨ (r.data.length : Int) ≤ r.total)
    Res.assert ((g.start : Int) + off ≤ llongMax)
    let pos := g.start + off.toNat
    if r.total < 0 ∨ (pos : Int) ≥ r.total then .ok (g, false)
    else do
      let _ ← fieldIn r g.stop pos
      let (id, len) ← (readID r pos).orErr E_FILE_FORMAT_INVALID
      Res.refuse (id ≠ Mux.kMkvCues) E_FILE_FORMAT_INVALID
      let pos := pos + len
      Res.assert (past g.stop pos = false)
      let _ ← fieldIn r g.stop pos
      let (size, len) ← readUInt r pos
      if size = 0 then .ok (g, false)
      else do
        let pos := pos + len
        Res.assert (past g.stop pos = false)
        Res.refuse (past g.stop (pos + size)) E_FILE_FORMAT_INVALID
        if beyond r (pos + size) then .ok (g, false)
        else do
          Res.refuse (pos + size > r.data.length) E_BUFFER_NOT_FULL
          .ok ({ g with cues := some (pos, size) }, true)

/-- A segment with the clusters that are known: the loaded ones, and behind them in the table the preloaded ones
(`m_clusterPreloadCount`, mkvparser/mkvparser.h:1121; their `m_index` is negative). -/
structure Ahead where
  seg : ReadSegment
  preloaded : List ReadCluster := []
  deriving DecidableEq, Repr

/-- `m_clusters`, all that is in use of it. -/
def Ahead.table (a : Ahead) : List ReadCluster := a.seg.clusters ++ a.preloaded

/-- The object in a slot has changed. -/
def Ahead.put (a : Ahead) (k : Nat) (c : ReadCluster) : Ahead :=
  if k < a.seg.clusters.length then { a with seg := { a.seg with clusters := a.seg.clusters.set k c } }
  else { a with preloaded := a.preloaded.set (k - a.seg.clusters.length) c }

/-- `Cluster::Create(this, -1, off)` and `PreloadCluster(pCluster, idx)`, mkvparser/mkvparser.cc:2184-2193 (also
2243-2252 and 2681-2690) with 6810-6821 and 1396-1448: the slot, or `none` for `return NULL`.  What `PreloadCluster`
does to the table in memory is in `Table.preload`. -/
def Ahead.preload (a : Ahead) (off : Int) (i : Nat) : Ahead × Option Nat :=
  if off < 0 ∨ i < a.seg.clusters.length then (a, none)
  else
    let n := i - a.seg.clusters.length
    let c : ReadCluster := { start := a.seg.start + off.toNat, pos := a.seg.start + off.toNat }
    ({ a with preloaded := a.preloaded.take n ++ c :: a.preloaded.drop n }, some i)

/-- The lookup by `GetPosition` that `GetBlock` and `FindOrPreloadCluster` have in common,
mkvparser/mkvparser.cc:2146-2193 and 2205-2252: the slot of the cluster that is at this offset of the segment. -/
def Ahead.locate (a : Ahead) (off : Int) : Res (Ahead × Option Nat) := do
  match ← searchLoop (a.table.map fun c => some ⟨0, (c.start : Int) - a.seg.start, 0⟩) a.table.length off 0
      a.table.length with
  | .inl k => .ok (a, some k)
  | .inr i => .ok (a.preload off i)

/-- `Segment::FindOrPreloadCluster`, mkvparser/mkvparser.cc:2201-2258. -/
def Ahead.findOrPreload (a : Ahead) (off : Int) : Res (Ahead × Option Nat) :=
  if off < 0 then .ok (a, none) else a.locate off

/-- `Segment::GetBlock`, mkvparser/mkvparser.cc:2144-2199: the slot of the cluster, the index of the entry in it, and
the entry. -/
def Ahead.getBlock (r : Rdr) (fuel : Nat) (a : Ahead) (cp : CuePoint) (tp : TrackPosition) :
    Res (Ahead × Option (Nat × Nat × Entry)) := do
  match ← a.locate tp.pos with
  | (a, none) => .ok (a, none)
  | (a, some k) =>
    match a.table[k]? with
    | none => .ub
    | some c => do
      let (c, e) ← c.getEntryFor r fuel a.seg.tracks cp tp
      .ok (a.put k c, e.map fun e => (k, e.1, e.2))

/-- `result = GetUIntLength(m_pReader, pos, len); assert(result == 0); assert((pos + len) <= stop);`
mkvparser/mkvparser.cc:2560-2562 (also 2573-2575, 2594-2596, 2609-2611). -/
def nextField (r : Rdr) (stop pos : Nat) : Res Unit :=
  match getUIntLength r pos with
  | .ok (result, len) => Res.assert (result = 0 ∧ pos + len ≤ stop)
  | _ => .ub

/-- One round of the loop of `GetNext`, mkvparser/mkvparser.cc:2591-2641: `none` for `return NULL`, otherwise the
place of a cluster with blocks, or where to go on.  Failing assertions are `ub`. -/
def nextStep (r : Rdr) (g : ReadSegment) (stop pos : Nat) : Res (Option (Nat ⊕ Nat)) := do
  nextField r stop pos
  match readID r pos with
  | .ub => .ub
  | .err _ => .ok none
  | .ok (id, len) => do
    let idpos := pos
    let pos := pos + len
    nextField r stop pos
    match readUInt r pos with
    | .ok (size, len) => do
      let pos := pos + len
      Res.assert (pos + size ≤ stop)
      if size = 0 then .ok (some (.inr pos))
      else if id = Mux.kMkvCluster then
        match hasBlockEntries r g.stop idpos with
        | .ok true => .ok (some (.inl idpos))
        | .ok false => .ok (some (.inr (pos + size)))
        | _ => .ub
      else .ok (some (.inr (pos + size)))
    | _ => .ub

/-- The loop of `GetNext`, mkvparser/mkvparser.cc:2591-2641: where the next cluster with blocks is.  The fuel bounds
the rounds (every one goes on by at least two bytes); a loop that does not end within it is `ub`. -/
def nextLoop (r : Rdr) (g : ReadSegment) (stop : Nat) : (fuel : Nat) → (pos : Nat) → Res (Option Nat)
  | 0, _ => .ub
  | f + 1, pos =>
    if pos < stop then do
      match ← nextStep r g stop pos with
      | none => .ok none
      | some (.inl p) => .ok (some p)
      | some (.inr p) => nextLoop r g stop f p
    else .ok none

/-- `Segment::GetNext` for a preloaded cluster, mkvparser/mkvparser.cc:2550-2641: where the next cluster is.
`assert(m_size >= 0)` and the other assertions are `ub` when they fail. -/
def nextPlace (r : Rdr) (g : ReadSegment) (c : ReadCluster) : Res (Option Nat) :=
  match g.stop with
  | none => .ub
  | some stop => do
    nextField r stop c.start
    match readID r c.start with
    | .ub => .ub
    | .err _ => .ok none
    | .ok (id, len) =>
      if id ≠ Mux.kMkvCluster then .ok none
      else do
        let pos := c.start + len
        nextField r stop pos
        match readUInt r pos with
        | .ok (size, len) => do
          let pos := pos + len
          Res.assert (0 < size ∧ pos + size ≤ stop)
          nextLoop r g stop (stop + 1 - (pos + size)) (pos + size)
        | _ => .ub

/-- `Segment::GetNext`, mkvparser/mkvparser.cc:2525-2696, for the cluster in slot `k`: the slot of the next one; `none`
for `m_eos` and for `return NULL`.  The search among the preloaded clusters is that of `locate`; the loaded ones come
before them. -/
def Ahead.getNext (r : Rdr) (a : Ahead) (k : Nat) : Res (Ahead × Option Nat) :=
  if k < a.seg.clusters.length then .ok (a, a.seg.getNext k)
  else
    match a.preloaded[k - a.seg.clusters.length]? with
    | none => .ub
    | some c => do
      match ← nextPlace r a.seg c with
      | none => .ok (a, none)
      | some p =>
        let off : Int := (p : Int) - a.seg.start
        if off ≤ 0 then .ok (a, none)
        else do
          match ← searchLoop (a.preloaded.map fun c => some ⟨0, (c.start : Int) - a.seg.start, 0⟩) a.preloaded.length off 0
              a.preloaded.length with
          | .inl j => .ok (a, some (a.seg.clusters.length + j))
          | .inr j => .ok (a.preload off (a.seg.clusters.length + j))

end Verif.Par
