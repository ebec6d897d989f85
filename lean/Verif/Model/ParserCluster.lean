/-
Model of mkvparser's clusters: `Cluster::HasBlockEntries`, `Load`, `Parse`, `GetFirst` and `GetNext`
(mkvparser/mkvparser.cc:6058-6471, 6883-7091 and 7343-7436).

Positions are naturals; sums of positions do not overflow.  An upper limit of -1 ("unknown") is `none`.
`IMkvReader::Length` does not fail.  Allocation succeeds.  What a function that fails leaves behind is
`ReadCluster.kept`.
-/
import Verif.Model.ParserBlock
import Verif.Model.MuxerCluster
import Verif.Model.MuxerCues

namespace Verif.Par
open Verif

/-- `(stop >= 0) && (p > stop)`. -/
def past (stop : Option Nat) (p : Nat) : Bool := stop.any fun s => decide (s < p)

/-- `(stop >= 0) && (p >= stop)`. -/
def reached (stop : Option Nat) (p : Nat) : Bool := stop.any fun s => decide (s ≤ p)

/-- The size that stands for "unknown" on that many bytes, e.g. mkvparser/mkvparser.cc:6137. -/
def unknownSize (len : Nat) : Nat := 2 ^ (7 * len) - 1

/-- The checks before an ID or a size is read, e.g. mkvparser/mkvparser.cc:6156-6173: the length of the
field. -/
def fieldIn (r : Rdr) (stop : Option Nat) (pos : Nat) : Res Nat := do
  Res.refuse (pos + 1 > r.data.length) E_BUFFER_NOT_FULL
  let (result, len) ← getUIntLength r pos
  Res.refuse (result < 0) result
  Res.refuse (result > 0) E_BUFFER_NOT_FULL
  Res.refuse (past stop (pos + len)) E_FILE_FORMAT_INVALID
  Res.refuse (pos + len > r.data.length) E_BUFFER_NOT_FULL
  .ok len

/-- The checks in `HasBlockEntries` before a field of the cluster's header is read,
mkvparser/mkvparser.cc:6913-6932 and 6944-6963: `none` when the field goes beyond the end of the file. -/
def headField (r : Rdr) (segStop : Option Nat) (pos : Nat) : Res (Option Nat) := do
  Res.refuse (pos + 1 > r.data.length) E_BUFFER_NOT_FULL
  let (result, len) ← getUIntLength r pos
  Res.refuse (result < 0) result
  Res.refuse (result > 0) E_BUFFER_NOT_FULL
  Res.refuse (past segStop (pos + len)) E_FILE_FORMAT_INVALID
  if r.total ≥ 0 ∧ (pos + len : Nat) > r.total then .ok none
  else do
    Res.refuse (pos + len > r.data.length) E_BUFFER_NOT_FULL
    .ok (some len)

/-- The loop of `HasBlockEntries`, mkvparser/mkvparser.cc:6993-7090.  The fuel is the number of bytes
from `pos` to the end of the data, and one more: when it is used up, `pos` is behind the data. -/
def hasBlockLoop (r : Rdr) (stop : Option Nat) : (fuel : Nat) → (pos : Nat) → Res Bool
  | 0, pos => if reached stop pos then .ok false else .err E_BUFFER_NOT_FULL
  | f + 1, pos =>
    if reached stop pos then .ok false
    else do
      let _ ← fieldIn r stop pos
      let (id, len) ← readID r pos
      if id = Mux.kMkvCluster ∨ id = Mux.kMkvCues then .ok false
      else do
        let pos := pos + len
        Res.refuse (reached stop pos) E_FILE_FORMAT_INVALID
        let _ ← fieldIn r stop pos
        let (size, len) ← readUInt r pos
        let pos := pos + len
        Res.refuse (past stop pos) E_FILE_FORMAT_INVALID
        if size = 0 then hasBlockLoop r stop f pos
        else do
          Res.refuse (size = unknownSize len) E_FILE_FORMAT_INVALID
          Res.refuse (past stop (pos + size)) E_FILE_FORMAT_INVALID
          if id = 0xA0 ∨ id = 0xA3 then .ok true
          else hasBlockLoop r stop f (pos + size)

/-- `Cluster::HasBlockEntries`, mkvparser/mkvparser.cc:6883-7091: whether the cluster at `pos` (from the
start of the file) has a block.  (The result -3 and the like are errors.) -/
def hasBlockEntries (r : Rdr) (segStop : Option Nat) (pos : Nat) : Res Bool := do
  Res.assert (r.total < 0 ∨ (r.data.length : Int) ≤ r.total)
  if r.total ≥ 0 ∧ (pos : Int) ≥ r.total then .ok false
  else do
    match ← headField r segStop pos with
    | none => .ok false
    | some _ => do
      let (id, len) ← readID r pos
      Res.refuse (id ≠ Mux.kMkvCluster) E_PARSE_FAILED
      let pos := pos + len
      match ← headField r segStop pos with
      | none => .ok false
      | some _ => do
        let (size, len) ← readUInt r pos
        if size = 0 then .ok false
        else do
          let pos := pos + len
          if size = unknownSize len then hasBlockLoop r none (r.data.length + 1 - pos) pos
          else do
            Res.refuse (past segStop (pos + size)) E_FILE_FORMAT_INVALID
            if r.total ≥ 0 ∧ (pos + size : Nat) > r.total then .ok false
            else hasBlockLoop r (some (pos + size)) (r.data.length + 1 - pos) pos

/-- `Cluster`, mkvparser/mkvparser.h:806-870, as the constructor at mkvparser/mkvparser.cc:6836-6847 makes
it: `m_element_start`, `m_pos`, `m_element_size` (`none`: -1, not known), `m_timecode` (`none`: -1, not
loaded) and the entries (`none`: count -1, not parsed).  (`m_index` is the place in the table.) -/
structure ReadCluster where
  start : Nat
  pos : Nat
  size : Option Nat := none
  timecode : Option Nat := none
  entries : Option (List Entry) := none
  deriving DecidableEq, Repr

/-- What the loop of `Cluster::Load` has found, mkvparser/mkvparser.cc:6142-6145. -/
structure LoadAcc where
  timecode : Option Nat := none
  newPos : Nat := 0
  block : Bool := false
  deriving DecidableEq, Repr

/-- The loop of `Cluster::Load`, mkvparser/mkvparser.cc:6148-6262: where it ends, and what it has found.
(The ID is never 0: see `readID`.)  A negative timecode is returned like an error code. -/
def clusterLoadLoop (r : Rdr) (stop : Option Nat) : (fuel : Nat) → (pos : Nat) → LoadAcc → Res (Nat × LoadAcc)
  | 0, pos, a => if reached stop pos then .ok (pos, a) else .err E_BUFFER_NOT_FULL
  | f + 1, pos, a =>
    if reached stop pos then .ok (pos, a)
    else do
      let _ ← fieldIn r stop pos
      let (id, len) ← readID r pos
      if id = Mux.kMkvCluster ∨ id = Mux.kMkvCues then .ok (pos, a)
      else do
        let pos := pos + len
        let _ ← fieldIn r stop pos
        let (size, len) ← readUInt r pos
        Res.refuse (size = unknownSize len) E_FILE_FORMAT_INVALID
        let pos := pos + len
        Res.refuse (past stop pos) E_FILE_FORMAT_INVALID
        if size = 0 then clusterLoadLoop r stop f pos a
        else do
          Res.refuse (past stop (pos + size)) E_FILE_FORMAT_INVALID
          if id = Mux.kMkvTimecode then do
            Res.refuse (pos + size > r.data.length) E_BUFFER_NOT_FULL
            let t ← unserializeUInt r pos size
            Res.refuse (t < 0) t
            clusterLoadLoop r stop f (pos + size) { a with timecode := some t.toNat, newPos := pos + size }
          else if id = 0xA0 ∨ id = 0xA3 then .ok (pos, { a with block := true })
          else clusterLoadLoop r stop f (pos + size) a

/-- `Cluster::Load`, mkvparser/mkvparser.cc:6058-6281.  When the size cannot be read, the code returns
`cluster_size`, which is -1. -/
def ReadCluster.load (r : Rdr) (c : ReadCluster) : Res ReadCluster :=
  if c.timecode.isSome then .ok c
  else do
    Res.refuse (c.pos ≠ c.start ∨ c.size.isSome) E_PARSE_FAILED
    Res.refuse (r.total ≥ 0 ∧ ((r.data.length : Int) > r.total ∨ (c.pos : Int) > r.total)) E_FILE_FORMAT_INVALID
    let _ ← fieldIn r none c.pos
    let (id, len) ← readID r c.pos
    Res.refuse (id ≠ Mux.kMkvCluster) E_FILE_FORMAT_INVALID
    let pos := c.pos + len
    let _ ← fieldIn r none pos
    let (size, len) ← (readUInt r pos).orErr (-1)
    Res.refuse (size = 0) E_FILE_FORMAT_INVALID
    let pos := pos + len
    let stop := if size = unknownSize len then none else some (pos + size)
    let (p, a) ← clusterLoadLoop r stop (r.data.length + 1 - pos) pos {}
    Res.refuse (past stop p) E_FILE_FORMAT_INVALID
    match a.timecode with
    | none => .err E_FILE_FORMAT_INVALID
    | some t => do
      Res.refuse (a.block = false) E_FILE_FORMAT_INVALID
      .ok { c with pos := a.newPos, timecode := some t, size := stop.map (· - c.start) }

/-- `cluster_stop`, mkvparser/mkvparser.cc:6292-6293. -/
def ReadCluster.stop (c : ReadCluster) : Option Nat := c.size.map (c.start + ·)

/-- How the loop of `Cluster::Parse` ends: with a block, or without one, at `pos`. -/
inductive ParseEnd where
  | block (c : ReadCluster)
  | none (c : ReadCluster) (pos : Nat)
  deriving DecidableEq, Repr

/-- `if (m_element_size < 0) m_element_size = pos - m_element_start;` -/
def ReadCluster.closeAt (c : ReadCluster) (pos : Nat) : ReadCluster :=
  { c with size := some (c.size.getD (pos - c.start)) }

/-- `CreateBlock` (mkvparser/mkvparser.cc:7156-7203) has made an entry; `m_pos` is behind it. -/
def ReadCluster.add (c : ReadCluster) (e : Entry × Nat) : ReadCluster :=
  { c with entries := some (c.entries.getD [] ++ [e.1]), pos := e.2 }

/-- A child of the cluster whose header has been read, mkvparser/mkvparser.cc:6393-6434: a block (with its
outcome), the end, or (`.ok none`) something else. -/
def clusterChild (r : Rdr) (c : ReadCluster) (id pos size : Nat) : Res (Option ParseEnd) :=
  let block : Res (Option ParseEnd) :=
    if id = 0xA0 then do
      let e ← parseBlockGroup r size pos
      .ok (some (.block (c.add e)))
    else if id = 0xA3 then do
      let e ← parseSimpleBlock r size pos
      .ok (some (.block (c.add e)))
    else .ok none
  match c.stop with
  | some s =>
    if pos + size > s then
      if id = 0xA0 ∨ id = 0xA3 then .err E_FILE_FORMAT_INVALID else .ok (some (.none c s))
    else block
  | none =>
    if r.total ≥ 0 ∧ (pos + size : Nat) > r.total then
      .ok (some (.none { c with size := some (r.total.toNat - c.start) } r.total.toNat))
    else if pos + size > r.data.length then .err E_BUFFER_NOT_FULL
    else block

/-- The loop of `Cluster::Parse`, mkvparser/mkvparser.cc:6310-6438. -/
def clusterParseLoop (r : Rdr) (c : ReadCluster) : (fuel : Nat) → (pos : Nat) → Res ParseEnd
  | 0, pos =>
    if reached c.stop pos then .ok (.none c pos)
    else if r.total ≥ 0 ∧ (pos : Int) ≥ r.total then .ok (.none (c.closeAt pos) pos)
    else .err E_BUFFER_NOT_FULL
  | f + 1, pos =>
    if reached c.stop pos then .ok (.none c pos)
    else if r.total ≥ 0 ∧ (pos : Int) ≥ r.total then .ok (.none (c.closeAt pos) pos)
    else do
      let _ ← fieldIn r c.stop pos
      let (id, len) ← (readID r pos).orErr E_FILE_FORMAT_INVALID
      if id = Mux.kMkvCluster ∨ id = Mux.kMkvCues then .ok (.none (c.closeAt pos) pos)
      else do
        let pos := pos + len
        let _ ← fieldIn r c.stop pos
        let (size, len) ← readUInt r pos
        Res.refuse (size = unknownSize len) E_FILE_FORMAT_INVALID
        let pos := pos + len
        Res.refuse (past c.stop pos) E_FILE_FORMAT_INVALID
        if size = 0 then clusterParseLoop r c f pos
        else do
          match ← clusterChild r c id pos size with
          | some e => .ok e
          | none => clusterParseLoop r c f (pos + size)

/-- The checks when there is no further block, mkvparser/mkvparser.cc:6440-6468.  `stop` is the end of the
cluster as it was known when `Parse` was called. -/
def parseFinish (r : Rdr) (stop : Option Nat) (c : ReadCluster) (pos : Nat) : Res (ReadCluster × Bool) := do
  Res.refuse (c.size.all (· < 1)) E_FILE_FORMAT_INVALID
  Res.refuse (past stop pos) E_FILE_FORMAT_INVALID
  match (c.entries.getD []).getLast? with
  | none => .ok ({ c with pos := pos }, true)
  | some e => do
    Res.refuse (r.total ≥ 0 ∧ (e.block.start : Int) > r.total) E_PARSE_FAILED
    Res.refuse (past stop (e.block.start + e.block.size)) E_FILE_FORMAT_INVALID
    Res.refuse (r.total ≥ 0 ∧ (e.block.start + e.block.size : Nat) > r.total) E_PARSE_FAILED
    .ok ({ c with pos := pos }, true)

/-- `Cluster::Parse`, mkvparser/mkvparser.cc:6283-6471: the cluster with one more entry and `false`, or
`true` if there is none. -/
def ReadCluster.parse (r : Rdr) (c : ReadCluster) : Res (ReadCluster × Bool) := do
  let c ← c.load r
  Res.refuse (c.pos < c.start ∨ c.timecode.isNone) E_PARSE_FAILED
  if reached c.stop c.pos then .ok (c, true)
  else do
    Res.refuse (r.total ≥ 0 ∧ (r.data.length : Int) > r.total) E_FILE_FORMAT_INVALID
    match ← clusterParseLoop r c (r.data.length + 1 - c.pos) c.pos with
    | .block c' => .ok (c', false)
    | .none c' pos => parseFinish r c.stop c' pos

/-- The object after `Parse` has failed: `Load` changes it when it succeeds
(mkvparser/mkvparser.cc:6274-6278); the rest of `Parse` changes it only when it succeeds, except that
`m_element_size` may have been set (mkvparser/mkvparser.cc:6318-6319, 6354-6355 and 6415-6416) before the checks
at mkvparser/mkvparser.cc:6440-6468 fail, which is left out. -/
def ReadCluster.kept (r : Rdr) (c : ReadCluster) : ReadCluster :=
  match c.load r with
  | .ok c' => c'
  | _ => c

/-- `Cluster::GetFirst`, mkvparser/mkvparser.cc:7343-7367. -/
def ReadCluster.getFirst (r : Rdr) (c : ReadCluster) : Res (ReadCluster × Option Entry) :=
  match c.entries.getD [] with
  | e :: _ => .ok (c, some e)
  | [] => do
    let (c, _) ← c.parse r
    .ok (c, (c.entries.getD []).head?)

/-- `Cluster::GetNext`, mkvparser/mkvparser.cc:7400-7436: the entry after the one with index `idx`.  The
assertion that there is such an entry after a successful `Parse` is `ub` when it fails. -/
def ReadCluster.getNext (r : Rdr) (c : ReadCluster) (idx : Nat) : Res (ReadCluster × Option Entry) := do
  Res.assert (idx < (c.entries.getD []).length)
  match (c.entries.getD [])[idx + 1]? with
  | some e => .ok (c, some e)
  | none => do
    let (c, ended) ← c.parse r
    if ended then .ok (c, none)
    else match (c.entries.getD [])[idx + 1]? with
      | some e => .ok (c, some e)
      | none => .ub

/-- `Cluster::GetLast`, mkvparser/mkvparser.cc:7369-7398: the object, and the last entry.  The fuel bounds the
rounds; a loop that does not end within it is `ub`. -/
def ReadCluster.getLast (r : Rdr) : (fuel : Nat) → ReadCluster → ReadCluster × Res (Option Entry)
  | 0, c => (c, .ub)
  | f + 1, c =>
    match c.parse r with
    | .ok (c', false) => ReadCluster.getLast r f c'
    | .ok (c', true) => (c', .ok (c'.entries.getD []).getLast?)
    | .err e => (c.kept r, .err e)
    | .ub => (c, .ub)

/-- `Cluster::GetTimeCode`, mkvparser/mkvparser.cc:7093-7103: the cluster may have to be loaded.  An error
is returned as a negative number. -/
def ReadCluster.getTimeCode (r : Rdr) (c : ReadCluster) : Res (ReadCluster × Int) :=
  match c.load r with
  | .ok c' => .ok (c', c'.timecode.elim (-1) fun t => t)
  | .err e => .ok (c, e)
  | .ub => .ub

/-- `Cluster::GetTime`, mkvparser/mkvparser.cc:7105-7120, with the timecode scale of the segment's Info (`none` if
there is none: `assert(pInfo)`).  An error is returned as a negative number; a product outside `long long` is
undefined. -/
def ReadCluster.getTime (r : Rdr) (scale : Option Int) (c : ReadCluster) : Res Int := do
  let (_, tc) ← c.getTimeCode r
  if tc < 0 then .ok tc
  else
    match scale with
    | none => .ub
    | some k => if k < 1 then .ub else if tc * k < 2 ^ 63 then .ok (tc * k) else .ub

end Verif.Par
