/-
Model of the seek head: writing (mkvmuxer/mkvmuxer.cc:2757-2886) and reading
(mkvparser/mkvparser.cc:1499-1600, 1746-1822).
-/
import Verif.Model.MuxerUtil
import Verif.Model.ParserWalk

namespace Verif.Mux
open Verif

/-- Seek head IDs, common/webmids.h:35-38. -/
def kMkvSeekHead : Nat := 0x114D9B74
def kMkvSeek : Nat := 0x4DBB
def kMkvSeekID : Nat := 0x53AB
def kMkvSeekPosition : Nat := 0x53AC

/-- `SeekHead::kSeekEntryCount`, mkvmuxer/mkvmuxer.h:1428. -/
def kSeekEntryCount : Nat := 5

/-- Members of `mkvmuxer::SeekHead`, mkvmuxer/mkvmuxer.h:1434-1441: the (id, position) slots, a
slot with ID 0 being free, and the position of the reserved space.  Constructor at
mkvmuxer/mkvmuxer.cc:2757-2762.  (`start_pos_` is never -1: the writer's position is not
negative.) -/
structure SeekHead where
  entries : List (Nat × Nat) := List.replicate kSeekEntryCount (0, 0)
  startPos : Nat := 0
  deriving DecidableEq, Repr

/-- Size of the payload of one entry, mkvmuxer/mkvmuxer.cc:2776-2779. -/
def SeekHead.entrySize (e : Nat × Nat) : Nat :=
  ebmlElementSizeUInt kMkvSeekID e.1 + ebmlElementSizeUInt kMkvSeekPosition e.2

/-- `payload_size`, mkvmuxer/mkvmuxer.cc:2771-2785. -/
def SeekHead.payloadSize : List (Nat × Nat) → Nat
  | [] => 0
  | e :: es =>
    if e.1 ≠ 0 then
      ebmlMasterElementSize kMkvSeek (entrySize e) + entrySize e + SeekHead.payloadSize es
    else SeekHead.payloadSize es

/-- `SeekHead::MaxEntrySize`, mkvmuxer/mkvmuxer.cc:2875-2886. -/
def SeekHead.maxEntrySize : Nat :=
  let payload := ebmlElementSizeUInt kMkvSeekID 0xffffffff +
    ebmlElementSizeUInt kMkvSeekPosition 0xffffffffffffffff
  ebmlMasterElementSize kMkvSeek payload + payload

/-- `total_size`, mkvmuxer/mkvmuxer.cc:2812-2815 (and 2830-2832). -/
def SeekHead.totalSize : Nat :=
  ebmlMasterElementSize kMkvSeekHead (kSeekEntryCount * maxEntrySize) +
    kSeekEntryCount * maxEntrySize

/-- The body of the writing loop, mkvmuxer/mkvmuxer.cc:2799-2808. -/
def SeekHead.writeEntry (e : Nat × Nat) : W Unit := do
  writeEbmlMasterElement kMkvSeek (entrySize e)
  writeEbmlElementUInt kMkvSeekID e.1
  writeEbmlElementUInt kMkvSeekPosition e.2

/-- The writing loop, mkvmuxer/mkvmuxer.cc:2797-2810. -/
def SeekHead.writeEntries : List (Nat × Nat) → W Unit
  | [] => pure ()
  | e :: es =>
    if e.1 ≠ 0 then do
      SeekHead.writeEntry e
      SeekHead.writeEntries es
    else SeekHead.writeEntries es

/-- Filling the rest of the reserved space, mkvmuxer/mkvmuxer.cc:2812-2820. -/
def SeekHead.pad (startPos : Nat) : W Unit := do
  let p ← Sink.position
  let n ← writeVoidElement (toU64 ((SeekHead.totalSize : Int) - ((p : Int) - startPos)))
  if n = 0 then W.fail 0 else pure ()

/-- What is written at the start of the reserved space, mkvmuxer/mkvmuxer.cc:2794-2810. -/
def SeekHead.contents (h : SeekHead) : W Unit := do
  writeEbmlMasterElement kMkvSeekHead (SeekHead.payloadSize h.entries)
  SeekHead.writeEntries h.entries

/-- The part of `SeekHead::Finalize` that touches the file, mkvmuxer/mkvmuxer.cc:2791-2823. -/
def SeekHead.rewrite (h : SeekHead) : W Unit := do
  let pos ← Sink.position
  Sink.seek h.startPos
  h.contents
  SeekHead.pad h.startPos
  Sink.seek pos

/-- `SeekHead::Finalize`, mkvmuxer/mkvmuxer.cc:2766-2827. -/
def SeekHead.finalize (seekable : Bool) (h : SeekHead) : W Unit :=
  if !seekable then pure ()
  else if SeekHead.payloadSize h.entries = 0 then pure ()
  else h.rewrite

/-- `SeekHead::Write`, mkvmuxer/mkvmuxer.cc:2829-2841. -/
def SeekHead.write : M SeekHead Unit := do
  let p ← M.lift Sink.position
  M.modify fun h => { h with startPos := p }
  let n ← M.lift (writeVoidElement SeekHead.totalSize)
  if n = 0 then M.fail else pure ()

/-- Taking the first free slot, mkvmuxer/mkvmuxer.cc:2844-2850; `none`: no free slot. -/
def SeekHead.place (id pos : Nat) : List (Nat × Nat) → Option (List (Nat × Nat))
  | [] => none
  | e :: es =>
    if e.1 = 0 then some ((id, pos) :: es)
    else (SeekHead.place id pos es).map (e :: ·)

/-- `SeekHead::AddSeekEntry`, mkvmuxer/mkvmuxer.cc:2843-2852. -/
def SeekHead.addSeekEntry (h : SeekHead) (id pos : Nat) : Option SeekHead :=
  (SeekHead.place id pos h.entries).map fun es => { h with entries := es }

/-- `SeekHead::GetId`, mkvmuxer/mkvmuxer.cc:2854-2858. -/
def SeekHead.getId (h : SeekHead) (i : Nat) : Nat :=
  match h.entries[i]? with
  | none => 0xFFFFFFFF
  | some e => e.1

/-- `SeekHead::GetPosition`, mkvmuxer/mkvmuxer.cc:2860-2864. -/
def SeekHead.getPosition (h : SeekHead) (i : Nat) : Nat :=
  match h.entries[i]? with
  | none => 0xFFFFFFFFFFFFFFFF
  | some e => e.2

/-- `SeekHead::SetSeekEntry`, mkvmuxer/mkvmuxer.cc:2866-2872 (an index outside the table changes
nothing and answers false; the answer is never used). -/
def SeekHead.setSeekEntry (h : SeekHead) (i id pos : Nat) : SeekHead :=
  { h with entries := h.entries.set i (id, pos) }

end Verif.Mux

namespace Verif.Par
open Verif

/-- A value that must be positive to be used: `Res` of a routine whose error makes the caller
return false. -/
def orFalse {α β} (x : Res α) (k : α → Res (Option β)) : Res (Option β) :=
  match x with
  | .ok a => k a
  | .err _ => .ok none
  | .ub => .ub

/-- `SeekHead::ParseEntry`, mkvparser/mkvparser.cc:1746-1822: `none` for `return false`.  The
result is (`pEntry->id`, `pEntry->pos`). -/
def seekParseEntry (r : Rdr) (start size : Nat) : Res (Option (Nat × Int)) :=
  if size = 0 then .ok none
  else
    let stop := start + size
    orFalse (readID r start) fun (seekIdId, len) =>
    if seekIdId ≠ Mux.kMkvSeekID then .ok none
    else if start + len > stop then .ok none
    else
    let pos := start + len
    orFalse (readUInt r pos) fun (seekIdSize, len) =>
    if seekIdSize = 0 then .ok none
    else if pos + len > stop then .ok none
    else
    let pos := pos + len
    if pos + seekIdSize > stop then .ok none
    else orFalse (readID r pos) fun (id, len) =>
    if id = 0 then .ok none
    else if len ≠ seekIdSize then .ok none
    else
    let pos := pos + seekIdSize
    orFalse (readID r pos) fun (seekPosId, len) =>
    if seekPosId ≠ Mux.kMkvSeekPosition then .ok none
    else if pos + len > stop then .ok none
    else
    let pos := pos + len
    orFalse (readUInt r pos) fun (seekPosSize, len) =>
    if seekPosSize = 0 then .ok none
    else if pos + len > stop then .ok none
    else
    let pos := pos + len
    if pos + seekPosSize > stop then .ok none
    else orFalse (unserializeUInt r pos seekPosSize) fun epos =>
    if epos < 0 then .ok none
    else if pos + seekPosSize ≠ stop then .ok none
    else .ok (some (id, epos))

/-- An entry of the parsed seek head, mkvparser/mkvparser.h:848-860. -/
structure SeekEntry where
  id : Nat
  pos : Int
  elementStart : Nat
  elementSize : Nat
  deriving DecidableEq, Repr

/-- The counting pass, mkvparser/mkvparser.cc:1507-1538. -/
def seekCount (h : Hdr) (n : Nat × Nat) : Res (Nat × Nat) :=
  if h.id = Mux.kMkvSeek then
    if n.1 + 1 > 2 ^ 31 - 1 then .err E_PARSE_FAILED else .ok (n.1 + 1, n.2)
  else if h.id = Mux.kMkvVoid then
    if n.2 + 1 > 2 ^ 31 - 1 then .err E_PARSE_FAILED else .ok (n.1, n.2 + 1)
  else .ok n

/-- The second pass, mkvparser/mkvparser.cc:1566-1591.  State: entries and (start, size) of the
Void elements found so far. -/
def seekStep (r : Rdr) (idpos : Nat) (h : Hdr) (st : List SeekEntry × List (Nat × Nat)) :
    Res (List SeekEntry × List (Nat × Nat)) :=
  let elementSize := h.pos + h.size - idpos
  if h.id = Mux.kMkvSeek then
    match seekParseEntry r h.pos h.size with
    | .err c => .err c
    | .ub => .ub
    | .ok none => .ok st
    | .ok (some (id, pos)) => .ok (st.1 ++ [⟨id, pos, idpos, elementSize⟩], st.2)
  else if h.id = Mux.kMkvVoid then .ok (st.1, st.2 ++ [(idpos, elementSize)])
  else .ok st

/-- `SeekHead::Parse`, mkvparser/mkvparser.cc:1499-1610.  (Allocation succeeds.) -/
def seekHeadParse (r : Rdr) (start size : Nat) : Res (List SeekEntry × List (Nat × Nat)) := do
  let _ ← walk r (start + size) (fun _ h n => seekCount h n) start (0, 0)
  walk r (start + size) (seekStep r) start ([], [])

end Verif.Par
