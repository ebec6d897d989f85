/-
Model of the cluster table of `mkvparser::Segment` (mkvparser/mkvparser.cc:1218-1255, 1337-1448,
2201-2258, 3167-3220) and of block times (mkvparser/mkvparser.cc:7093-7120, 8027-8065).
-/
import Verif.Model.ParserPrims

namespace Verif.Par
open Verif

/-- A cluster in the table: `m_index` (negative when preloaded), `GetPosition()`, and what
`GetTimeCode()` answers (mkvparser/mkvparser.cc:7093-7103: the timecode, or a negative status when
it cannot be loaded). -/
structure Clu where
  index : Int
  pos : Int
  timecode : Int := 0
  deriving DecidableEq, Repr

/-- The table, mkvparser/mkvparser.h:1119-1122: `m_clusters` (allocated slots; `none`: not yet
assigned), `m_clusterCount`, `m_clusterPreloadCount`; `m_clusterSize` is the number of slots. -/
structure Table where
  mem : List (Option Clu) := []
  loaded : Nat := 0
  pre : Nat := 0
  deriving DecidableEq, Repr

/-- Enlarging the table, mkvparser/mkvparser.cc:1350-1368 (and 1408-1425).  Allocation succeeds. -/
def Table.grow (t : Table) : Table :=
  if t.loaded + t.pre ≥ t.mem.length then
    let n := if t.mem.length = 0 then 2048 else 2 * t.mem.length
    { t with mem := t.mem.take (t.loaded + t.pre) ++ List.replicate (n - (t.loaded + t.pre)) none }
  else t

/-- Moving slots `p..q-1` up by one, mkvparser/mkvparser.cc:1379-1389 (and 1435-1443): false when
one of them is not a preloaded cluster.  `steps` is `q - p`. -/
def shiftUp (mem : List (Option Clu)) (q : Nat) : Nat → Res (Bool × List (Option Clu))
  | 0 => .ok (true, mem)
  | steps + 1 =>
    match mem[q - 1]? with
    | some (some c) =>
      if c.index ≥ 0 then .ok (false, mem)
      else shiftUp (mem.set q (some c)) (q - 1) steps
    | _ => .ub

/-- `Segment::AppendCluster` after enlarging, mkvparser/mkvparser.cc:1370-1393. -/
def Table.appendTo (t : Table) (c : Clu) : Res (Bool × Table) :=
  let place (mem : List (Option Clu)) : Res (Bool × Table) :=
    .ok (true, { t with mem := mem.set t.loaded (some c), loaded := t.loaded + 1 })
  if t.pre > 0 then
    match t.mem[t.loaded]? with
    | some (some f) =>
      if f.index ≥ 0 then .ok (false, t)
      else if t.loaded + t.pre ≥ t.mem.length then .ok (false, t)
      else
        match shiftUp t.mem (t.loaded + t.pre) t.pre with
        | .err e => .err e
        | .ub => .ub
        | .ok (false, mem) => .ok (false, { t with mem })
        | .ok (true, mem) => place mem
    | _ => .ub
  else if t.loaded < t.mem.length then place t.mem
  else .ub

/-- `Segment::AppendCluster`, mkvparser/mkvparser.cc:1337-1394. -/
def Table.append (t : Table) (c : Clu) : Res (Bool × Table) :=
  if c.index < 0 then .ok (false, t)
  else if t.mem.length < t.loaded + t.pre ∨ c.index ≠ t.loaded then .ok (false, t)
  else t.grow.appendTo c

/-- `Segment::PreloadCluster` after enlarging, mkvparser/mkvparser.cc:1427-1447. -/
def Table.insertTo (t : Table) (c : Clu) (idx : Nat) : Res (Bool × Table) :=
  let q := t.loaded + t.pre
  if q < idx ∨ q ≥ t.mem.length then .ok (false, t)
  else
    match shiftUp t.mem q (q - idx) with
    | .err e => .err e
    | .ub => .ub
    | .ok (false, mem) => .ok (false, { t with mem })
    | .ok (true, mem) => .ok (true, { t with mem := mem.set idx (some c), pre := t.pre + 1 })

/-- `Segment::PreloadCluster`, mkvparser/mkvparser.cc:1396-1448. -/
def Table.preload (t : Table) (c : Clu) (idx : Nat) : Res (Bool × Table) :=
  if c.index ≥ 0 ∨ idx < t.loaded then .ok (false, t)
  else if t.mem.length < t.loaded + t.pre then .ok (false, t)
  else t.grow.insertTo c idx

/-- The table part of `Segment::DoLoadCluster` for a cluster with block entries at offset `pos`,
mkvparser/mkvparser.cc:1218-1290: the first preloaded cluster is taken over if it is at that
place, otherwise a new one is appended.  (`Cluster::Create` succeeds; `tc` is the timecode it will
report.) -/
def Table.load (t : Table) (pos tc : Int) : Res (Bool × Table) :=
  if t.pre > 0 then
    if t.loaded ≥ t.mem.length then .ok (false, t)
    else
      match t.mem[t.loaded]? with
      | some (some f) =>
        if f.index ≥ 0 then .ok (false, t)
        else if f.pos < 0 then .ok (false, t)
        else if f.pos = pos then
          .ok (true, { mem := t.mem.set t.loaded (some { f with index := t.loaded }),
                       loaded := t.loaded + 1, pre := t.pre - 1 })
        else t.append ⟨t.loaded, pos, tc⟩
      | _ => .ub
  else t.append ⟨t.loaded, pos, tc⟩

/-- The binary search of `Segment::FindOrPreloadCluster`, mkvparser/mkvparser.cc:2207-2240: the slot
with that position, or the place to insert.  A failing `assert` is `ub`. -/
def searchLoop (mem : List (Option Clu)) (n : Nat) (req : Int) (i j : Nat) : Res (Nat ⊕ Nat) :=
  if i < j then
    let k := i + (j - i) / 2
    if k ≥ n then .ub
    else
      match mem[k]? with
      | some (some c) =>
        if c.pos < 0 then .ub
        else if c.pos < req then searchLoop mem n req (k + 1) j
        else if c.pos > req then searchLoop mem n req i k
        else .ok (.inl k)
      | _ => .ub
  else .ok (.inr i)
  termination_by j - i
  decreasing_by all_goals omega

/-- `Segment::FindOrPreloadCluster`, mkvparser/mkvparser.cc:2201-2258: the slot of the cluster, or
`none`.  (`Segment::GetBlock`, mkvparser/mkvparser.cc:2143-2199, treats the table in the same way.) -/
def Table.findOrPreload (t : Table) (req tc : Int) : Res (Option Nat × Table) :=
  if req < 0 then .ok (none, t)
  else
    match searchLoop t.mem (t.loaded + t.pre) req 0 (t.loaded + t.pre) with
    | .err e => .err e
    | .ub => .ub
    | .ok (.inl k) => .ok (some k, t)
    | .ok (.inr i) =>
      match t.preload ⟨-1, req, tc⟩ i with
      | .err e => .err e
      | .ub => .ub
      | .ok (false, t') => .ok (none, t')
      | .ok (true, t') => .ok (some i, t')

/-- `Cluster::GetTime`, mkvparser/mkvparser.cc:7105-7120.  The multiplication is not checked:
overflow is `ub`. -/
def Clu.getTime (scale : Int) (c : Clu) : Res Int :=
  if c.timecode < 0 then .ok c.timecode
  else if c.timecode * scale > llongMax then .ub
  else .ok (c.timecode * scale)

/-- `m_clusters[k]` with the assertions made about it, mkvparser/mkvparser.cc:3172-3174 (and
3191-3194, 3213-3215), and its time. -/
def Table.timeAt (t : Table) (scale : Int) (k : Nat) : Res Int :=
  match t.mem[k]? with
  | some (some c) => if c.index ≠ k then .ub else c.getTime scale
  | _ => .ub

/-- The binary search of `Segment::FindCluster`, mkvparser/mkvparser.cc:3182-3205. -/
def Table.timeLoop (t : Table) (scale time : Int) (i j : Nat) : Res Nat :=
  if i < j then
    let k := i + (j - i) / 2
    match t.timeAt scale k with
    | .err e => .err e
    | .ub => .ub
    | .ok x => if x ≤ time then t.timeLoop scale time (k + 1) j else t.timeLoop scale time i k
  else .ok i
  termination_by j - i
  decreasing_by all_goals omega

/-- `Segment::FindCluster`, mkvparser/mkvparser.cc:3167-3220: the slot of the cluster, `none` for
the end-of-stream cluster.  Failing assertions are `ub`. -/
def Table.findCluster (t : Table) (scale time : Int) : Res (Option Nat) :=
  if t.mem = [] ∨ t.loaded = 0 then .ok none
  else
    match t.timeAt scale 0 with
    | .err e => .err e
    | .ub => .ub
    | .ok x =>
      if time ≤ x then .ok (some 0)
      else
        match t.timeLoop scale time 0 t.loaded with
        | .err e => .err e
        | .ub => .ub
        | .ok i =>
          if i = 0 ∨ i > t.loaded then .ub
          else
            match t.timeAt scale (i - 1) with
            | .err e => .err e
            | .ub => .ub
            | .ok x => if x > time then .ub else .ok (some (i - 1))

/-- `Block::GetTimeCode`, mkvparser/mkvparser.cc:8027-8042: `tc0` is what the cluster answers
(`assert(tc0 >= 0)`), `rel` the block's own signed 16-bit timecode. -/
def blockGetTimeCode (tc0 rel : Int) : Res Int :=
  if tc0 < 0 then .ub
  else if llongMax - tc0 < rel then .ok (-1)
  else .ok (tc0 + rel)

/-- `Block::GetTime`, mkvparser/mkvparser.cc:8044-8063.  C++ division truncates towards zero. -/
def blockGetTime (scale tc0 rel : Int) : Res Int :=
  match blockGetTimeCode tc0 rel with
  | .err e => .err e
  | .ub => .ub
  | .ok tc =>
    if scale < 1 then .ub
    else if tc ≠ 0 ∧ scale > (llongMax : Int).tdiv tc then .ok (-1)
    else if tc * scale > llongMax ∨ tc * scale < -llongMax - 1 then .ub
    else .ok (tc * scale)

end Verif.Par
