/-
Making a packetized elementary stream, or a transport stream, of a WebM file: webm2pes.cc and vpxpes2ts.cc.

Memory is taken not to run out.  When the program gives up, the result is `err (-1)`, and what has been given to the
receiver before is not kept in the model.
-/
import Verif.Model.Pes
import Verif.Model.Ts
import Verif.Model.Ticks
import Verif.Model.ParserTable
import Verif.Model.ParserSegment
import Verif.Model.ParserTrack
import Verif.Model.VttMux

namespace Verif.Pes
open Verif Verif.Par

/-- The loop of `InitWebmParser` over the tracks, m2ts/webm2pes.cc:389-413, from the track with index `i` on: the number of the
track to convert, and whether it is VP9.  Video has type 1. -/
def findVideo : List ReadTrack → (i : Nat) → Res (Nat × Bool)
  | [], _ => .err (-1)
  | t :: ts, i =>
    if t.info.type = 1 then
      let codec := Vtt.cText (t.info.codecId.getD [])
      if codec = [0x56, 0x5F, 0x56, 0x50, 0x38] then .ok (i + 1, false)
      else if codec = [0x56, 0x5F, 0x56, 0x50, 0x39] then .ok (i + 1, true)
      else .err (-1)
    else findVideo ts (i + 1)

section
variable {σ : Type}

/-- The loop over the frames of a block, m2ts/webm2pes.cc:244-271 and 321-346, with `ReadVideoFrame`,
m2ts/webm2pes.cc:415-433.  `receive` is what is done with the packets: writing them to the file, or `ReceivePacket`; it may fail. -/
def convertFrames (receive : σ → Bytes → Option σ) (r : Rdr) (vp9 : Bool) (scale tc : Int) (b : Block) : List BFrame → σ → Res σ
  | [], st => .ok st
  | f :: fs, st => do
    let time ← blockGetTime scale tc b.timecode
    Res.refuse (f.len < 1) (-1)
    match f.read r with
    | .error _ => .err (-1)
    | .ok data =>
      match writePesPacket vp9 data (Ticks.nanosecondsTo90KhzTicks time) with
      | none => .err (-1)
      | some packet =>
        match receive st packet with
        | none => .err (-1)
        | some st => convertFrames receive r vp9 scale tc b fs st

/-- The body of the loop over the blocks, m2ts/webm2pes.cc:239-272 and 316-347; `n` is `video_track_num_`. -/
def convertEntry (receive : σ → Bytes → Option σ) (r : Rdr) (n : Nat) (vp9 : Bool) (scale tc : Int) (e : Entry) (st : σ) : Res σ :=
  if e.block.track = n then convertFrames receive r vp9 scale tc e.block e.block.frames st else .ok st

/-- The loop over the blocks of a cluster, m2ts/webm2pes.cc:238-279 and 315-354, from entry `e` with index `idx` on. -/
def convertFrom (receive : σ → Bytes → Option σ) (r : Rdr) (n : Nat) (vp9 : Bool) (scale tc : Int) : (fuel : Nat) → ReadCluster →
    (idx : Nat) → Entry → σ → Res σ
  | 0, _, _, _, _ => .ub
  | k + 1, c, idx, e, st => do
    let st ← convertEntry receive r n vp9 scale tc e st
    match c.getNext r idx with
    | .err _ => .err (-1)
    | .ub => .ub
    | .ok (_, none) => .ok st
    | .ok (c', some e') => convertFrom receive r n vp9 scale tc k c' (idx + 1) e' st

/-- The body of the loop over the clusters, m2ts/webm2pes.cc:229-280 and 306-355.  The time of the cluster is asked for with each
block; it is the same each time. -/
def convertCluster (receive : σ → Bytes → Option σ) (r : Rdr) (n : Nat) (vp9 : Bool) (scale : Int) (fuel : Nat) (c : ReadCluster)
    (st : σ) : Res σ := do
  let (c, tc) ← c.getTimeCode r
  match c.getFirst r with
  | .err _ => .err (-1)
  | .ub => .ub
  | .ok (_, none) => .ok st
  | .ok (c, some e) => convertFrom receive r n vp9 scale tc fuel c 0 e st

/-- The loop over the clusters, m2ts/webm2pes.cc:227-282 and 304-357. -/
def convertClusters (receive : σ → Bytes → Option σ) (r : Rdr) (n : Nat) (vp9 : Bool) (scale : Int) (g : ReadSegment) (rounds : Nat) :
    (fuel : Nat) → (idx : Option Nat) → σ → Res σ
  | _, none, st => .ok st
  | 0, some _, _ => .ub
  | k + 1, some idx, st =>
    match g.clusters[idx]? with
    | none => .ub
    | some c => do
      let st ← convertCluster receive r n vp9 scale rounds c st
      convertClusters receive r n vp9 scale g rounds k (g.getNext idx) st

/-- `ConvertToFile` and `ConvertToPacketReceiver`, m2ts/webm2pes.cc:208-360, with `InitWebmParser`, m2ts/webm2pes.cc:362-413.  The
EBML header is not looked at: `CreateInstance` is called at the start of the file and skips it. -/
def convert (receive : σ → Bytes → Option σ) (r : Rdr) (fuel : Nat) (st : σ) : Res σ :=
  match createInstance r 0 with
  | .ub => .ub
  | .err _ => .err (-1)
  | .ok g =>
    match g.load r fuel with
    | (_, .ub) => .ub
    | (_, .err _) => .err (-1)
    | (g', .ok ()) =>
      match g'.tracks, g'.info with
      | none, _ => .err (-1)
      | some _, none => .ub
      | some ts, some i => do
        let (n, vp9) ← findVideo ts 0
        convertClusters receive r n vp9 i.timecodeScale g' fuel fuel g'.getFirst st

end

/-- `Webm2Pes::ConvertToFile`, m2ts/webm2pes.cc:208-286: the file that is written, when writing does not fail. -/
def webm2pes (r : Rdr) (fuel : Nat) : Res Bytes := convert (fun out packet => some (out ++ packet)) r fuel []

/-- `VpxPes2Ts::ReceivePacket`, m2ts/vpxpes2ts.cc:145-216, when writing does not fail: the packets of the file before and after. -/
def receiveTs (out : List Bytes) (packet : Bytes) : Option (List Bytes) :=
  if (Ts.receivePacket (fun _ => true) packet).1 then some (out ++ (Ts.receivePacket (fun _ => true) packet).2) else none

/-- `VpxPes2Ts::ConvertToFile`, m2ts/vpxpes2ts.cc:130-143: the packets of the file that is written, when writing does not fail. -/
def webm2ts (r : Rdr) (fuel : Nat) : Res (List Bytes) := convert receiveTs r fuel []

end Verif.Pes
