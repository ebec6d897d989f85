/-
The memory of the blocks of a cluster in mkvparser: the table of entries and how it grows, the entries, their frames, failing allocations, and
the destructors.

Simplification: a block is given as what the reader finds, instead of as bytes; `ParserBlock` has the parsing of the bytes.
-/
import Verif.Model.ParserEncodingMem

namespace Verif.Par.BlockMem
open Verif Verif.Mux.Build Verif.Par.Enc

/-- `Block::Frame`, mkvparser/mkvparser.h:96-101: position and length. -/
abbrev Frame := Nat × Nat

/-- What the reader finds where a block is: a block group whose elements are malformed, mkvparser/mkvparser.cc:7230-7284; a block refused before
its frames are counted, mkvparser/mkvparser.cc:7653-7752; a block refused after there is an array for its frames, mkvparser/mkvparser.cc:7725-8025;
or a block with frames. -/
inductive Found where
  | badGroup
  | badHead
  | badFrames
  | frames (l : List Frame)

/-- `m_frames` of a `Block`, mkvparser/mkvparser.h:112-113: the array and what is in it. -/
structure Block where
  arr : Option Nat := none
  frames : List Frame := []

/-- `Block::Parse`, mkvparser/mkvparser.cc:7653-8025: what it returns. -/
def Block.parse (can : Nat → Bool) (f : Found) (m : Mem) : Int × Block × Mem :=
  match f with
  | .badGroup => (-2, {}, m)
  | .badHead => (-2, {}, m)
  | .badFrames =>
    match m.alloc can with
    | (none, m) => (-1, {}, m)
    | (some a, m) => (-2, { arr := some a }, m)
  | .frames l =>
    match m.alloc can with
    | (none, m) => (-1, {}, m)
    | (some a, m) => (0, { arr := some a, frames := l }, m)

/-- `Block::~Block`, mkvparser/mkvparser.cc:7651. -/
def Block.destroy (b : Block) (m : Mem) : Res Mem := m.free b.arr

/-- The frames of a block, as `GetFrame`, mkvparser/mkvparser.cc:8087-8096, reads them; undefined if there is no array. -/
def Block.show (b : Block) : Res (List Frame) := if b.arr = none then .ub else .ok b.frames

/-- `Cluster`, mkvparser/mkvparser.h:1036-1038: `m_entries`, `m_entries_size`, and the entries; `none` if `m_entries_count` is negative. -/
structure Cluster where
  arr : Option Nat := none
  room : Nat := 0
  entries : Option (List (Nat × Block)) := none

/-- Making room, mkvparser/mkvparser.cc:7162-7197, with the assertions: whether there is, and the entries. -/
def makeRoom (can : Nat → Bool) (x : Cluster) (m : Mem) : Res (Bool × Cluster × Mem) :=
  match x.entries with
  | none =>
    if x.arr ≠ none ∨ x.room ≠ 0 then .ub
    else
      match m.alloc can with
      | (none, m) => .ok (false, { x with room := 1024 }, m)
      | (some a, m) => .ok (true, { arr := some a, room := 1024, entries := some [] }, m)
  | some l =>
    if x.arr = none ∨ x.room = 0 ∨ x.room < l.length then .ub
    else if x.room ≤ l.length then
      match m.alloc can with
      | (none, m) => .ok (false, x, m)
      | (some a, m) => do
        let m ← m.free x.arr
        .ok (true, { x with arr := some a, room := 2 * x.room }, m)
    else .ok (true, x, m)

/-- `Cluster::CreateBlockGroup`, mkvparser/mkvparser.cc:7205-7310, and `Cluster::CreateSimpleBlock`, mkvparser/mkvparser.cc:7312-7341, with their
assertions; undefined outside the array.  For a simple block there is no `badGroup`. -/
def createEntry (can : Nat → Bool) (f : Found) (x : Cluster) (m : Mem) : Res (Int × Cluster × Mem) :=
  match x.entries with
  | none => .ub
  | some l =>
    if x.arr = none ∨ x.room ≤ l.length then .ub
    else
      match f with
      | .badGroup => .ok (-2, x, m)
      | f =>
        match m.alloc can with
        | (none, m) => .ok (-1, x, m)
        | (some a, m) =>
          match Block.parse can f m with
          | (c, b, m) =>
            if c = 0 then .ok (0, { x with entries := some (l ++ [(a, b)]) }, m)
            else do
              let m ← deleteItems Block.destroy [(a, b)] m
              .ok (c, x, m)

/-- `Cluster::CreateBlock`, mkvparser/mkvparser.cc:7156-7203, with one of the two ids it is called with: what it returns. -/
def createBlock (can : Nat → Bool) (f : Found) (x : Cluster) (m : Mem) : Res (Int × Cluster × Mem) := do
  let (b, x, m) ← makeRoom can x m
  if !b then .ok (-1, x, m) else createEntry can f x m

/-- Calls of `CreateBlock`, mkvparser/mkvparser.cc:6560, 6770, one after the other: what they return.  After a failure `Cluster::Parse` stays
before the block, and may be called again. -/
def createBlocks (can : Nat → Bool) : List Found → Cluster → Mem → Res (List Int × Cluster × Mem)
  | [], x, m => .ok ([], x, m)
  | f :: fs, x, m => do
    let (c, x, m) ← createBlock can f x m
    let (cs, x, m) ← createBlocks can fs x m
    .ok (c :: cs, x, m)

/-- `Cluster::~Cluster`, mkvparser/mkvparser.cc:6850-6867. -/
def destroy (x : Cluster) (m : Mem) : Res Mem :=
  match x.entries with
  | none => m.free x.arr
  | some l => do
    let m ← deleteItems Block.destroy l m
    m.free x.arr

/-- The frames of each entry, in the order of `m_entries`, mkvparser/mkvparser.h:1036. -/
def showEach : List (Nat × Block) → Res (List (List Frame))
  | [] => .ok []
  | (_, b) :: bs => do
    let v ← b.show
    let vs ← showEach bs
    .ok (v :: vs)

/-- What `GetEntry`, mkvparser/mkvparser.cc:6780-6811, gives for each index below `GetEntryCount`, with its assertions. -/
def shown (x : Cluster) : Res (List (List Frame)) :=
  match x.entries with
  | none => .ok []
  | some l => if x.arr = none ∨ x.room < l.length then .ub else showEach l

end Verif.Par.BlockMem
