/-
The memory of the clusters of a segment in mkvparser: the table of clusters, loaded and preloaded, and how it grows, the clusters with their
blocks, failing allocations, and the destructors.

Simplification: what the reader finds is given instead of bytes, as in `ParserBlockMem`; the table is the list of what its slots hold, where
`ParserTable` has the moving of one slot after the other and the checks of `m_index`, which the order of the list makes true.
-/
import Verif.Model.ParserBlockMem

namespace Verif.Par.ClustersMem
open Verif Verif.Mux.Build Verif.Par.Enc

/-- `Cluster`, mkvparser/mkvparser.h:1026-1038: `GetPosition()` and the blocks. -/
structure Clu where
  pos : Nat
  blocks : BlockMem.Cluster := {}

/-- The table, mkvparser/mkvparser.h:1119-1122: `m_clusters`, `m_clusterSize`, what the slots hold, and `m_clusterCount`; the slots from there on
are the preloaded ones. -/
structure Seg where
  arr : Option Nat := none
  room : Nat := 0
  slots : List (Nat × Clu) := []
  count : Nat := 0

/-- Enlarging the table, mkvparser/mkvparser.cc:1350-1368 (and 1407-1424): whether there is room. -/
def grow (can : Nat → Bool) (x : Seg) (m : Mem) : Res (Bool × Seg × Mem) :=
  if x.room ≤ x.slots.length then
    match m.alloc can with
    | (none, m) => .ok (false, x, m)
    | (some a, m) => do
      let m ← m.free x.arr
      .ok (true, { x with arr := some a, room := if x.room = 0 then 2048 else 2 * x.room }, m)
  else .ok (true, x, m)

/-- `AppendCluster`, mkvparser/mkvparser.cc:1337-1394, and `PreloadCluster`, mkvparser/mkvparser.cc:1396-1448: the cluster goes to slot `i`, and
those from there on move up.  Undefined outside the array. -/
def insert (can : Nat → Bool) (i : Nat) (a : Nat) (c : Clu) (x : Seg) (m : Mem) : Res (Bool × Seg × Mem) := do
  let (b, x, m) ← grow can x m
  if !b then .ok (false, x, m)
  else if x.arr = none ∨ x.room ≤ x.slots.length ∨ x.slots.length < i then .ub
  else .ok (true, { x with slots := x.slots.take i ++ (a, c) :: x.slots.drop i }, m)

/-- `Cluster::~Cluster`, mkvparser/mkvparser.cc:6850-6867. -/
def Clu.destroy (c : Clu) (m : Mem) : Res Mem := BlockMem.destroy c.blocks m

/-- The end of `Segment::DoLoadCluster`, mkvparser/mkvparser.cc:1218-1290, for a cluster with blocks at `pos`: the first preloaded cluster is taken
if it is there, otherwise there is a new one, which is deleted if there is no room.  The answer is whether it returns 0.  (`Cluster::Create`,
mkvparser/mkvparser.cc:6813-6823.) -/
def load (can : Nat → Bool) (pos : Nat) (x : Seg) (m : Mem) : Res (Bool × Seg × Mem) :=
  if x.slots[x.count]?.map (fun s => s.2.pos) = some pos then .ok (true, { x with count := x.count + 1 }, m)
  else
    match m.alloc can with
    | (none, m) => .ok (false, x, m)
    | (some a, m) => do
      let (b, x, m) ← insert can x.count a { pos := pos } x m
      if b then .ok (true, { x with count := x.count + 1 }, m)
      else do
        let m ← deleteItems Clu.destroy [(a, { pos := pos })] m
        .ok (false, x, m)

/-- The search of `FindOrPreloadCluster`, mkvparser/mkvparser.cc:2213-2240, among slots `i` to `j - 1`: the slot, or the place for a new one.  The
first argument bounds the rounds; running out of it is undefined. -/
def search (slots : List (Nat × Clu)) (pos : Nat) : Nat → Nat → Nat → Res (Nat ⊕ Nat)
  | 0, i, j => if i < j then .ub else .ok (.inr i)
  | n + 1, i, j =>
    if i < j then
      match slots[i + (j - i) / 2]? with
      | none => .ub
      | some s =>
        if s.2.pos < pos then search slots pos n (i + (j - i) / 2 + 1) j
        else if pos < s.2.pos then search slots pos n i (i + (j - i) / 2)
        else .ok (.inl (i + (j - i) / 2))
    else .ok (.inr i)

/-- `Segment::FindOrPreloadCluster`, mkvparser/mkvparser.cc:2201-2258: whether there is a cluster.  `PreloadCluster` refuses a place before that of
the preloaded ones, mkvparser/mkvparser.cc:1397, and the new cluster is deleted.  (The same in `GetBlock`, mkvparser/mkvparser.cc:2143-2199.) -/
def find (can : Nat → Bool) (pos : Nat) (x : Seg) (m : Mem) : Res (Bool × Seg × Mem) := do
  let r ← search x.slots pos x.slots.length 0 x.slots.length
  match r with
  | .inl _ => .ok (true, x, m)
  | .inr i =>
    match m.alloc can with
    | (none, m) => .ok (false, x, m)
    | (some a, m) =>
      if i < x.count then do
        let m ← deleteItems Clu.destroy [(a, { pos := pos })] m
        .ok (false, x, m)
      else do
        let (b, x, m) ← insert can i a { pos := pos } x m
        if b then .ok (true, x, m)
        else do
          let m ← deleteItems Clu.destroy [(a, { pos := pos })] m
          .ok (false, x, m)

/-- Parsing a block of the cluster in slot `i`, if there is one, mkvparser/mkvparser.cc:6560, 6770: what is returned.  The caller gives up a cluster
for which there was no memory for the table of entries; `C95_retry` is what happens to one who does not. -/
def block (can : Nat → Bool) (i : Nat) (f : BlockMem.Found) (x : Seg) (m : Mem) : Res (Int × Seg × Mem) :=
  match x.slots[i]? with
  | none => .ok (-1, x, m)
  | some (a, c) =>
    if c.blocks.entries.isNone ∧ c.blocks.room ≠ 0 then .ok (-1, x, m)
    else do
      let (r, b, m) ← BlockMem.createBlock can f c.blocks m
      .ok (r, { x with slots := x.slots.set i (a, { c with blocks := b }) }, m)

/-- What is done with a segment. -/
inductive Op where
  | load (pos : Nat)
  | find (pos : Nat)
  | block (i : Nat) (f : BlockMem.Found)

/-- One call of those above; -1 stands for what is not success. -/
def step (can : Nat → Bool) (o : Op) (x : Seg) (m : Mem) : Res (Int × Seg × Mem) :=
  match o with
  | .load pos => do
    let (b, x, m) ← load can pos x m
    .ok (if b then 0 else -1, x, m)
  | .find pos => do
    let (b, x, m) ← find can pos x m
    .ok (if b then 0 else -1, x, m)
  | .block i f => block can i f x m

/-- A history of calls. -/
def run (can : Nat → Bool) : List Op → Seg → Mem → Res (List Int × Seg × Mem)
  | [], x, m => .ok ([], x, m)
  | o :: os, x, m => do
    let (c, x, m) ← step can o x m
    let (cs, x, m) ← run can os x m
    .ok (c :: cs, x, m)

/-- The part of `Segment::~Segment` for clusters, mkvparser/mkvparser.cc:682-693. -/
def destroy (x : Seg) (m : Mem) : Res Mem := do
  let m ← deleteItems Clu.destroy x.slots m
  m.free x.arr

/-- What can be seen of the clusters, mkvparser/mkvparser.cc:6780-6811: position, and the frames of each block. -/
def showEach : List (Nat × Clu) → Res (List (Nat × List (List BlockMem.Frame)))
  | [] => .ok []
  | (_, c) :: cs => do
    let v ← BlockMem.shown c.blocks
    let vs ← showEach cs
    .ok ((c.pos, v) :: vs)

end Verif.Par.ClustersMem
