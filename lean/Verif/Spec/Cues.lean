/-
What the Matroska format says about cues.
-/
import Verif.Spec.Tree

namespace Verif.Spec

/-- An unsigned number as a field of an element: ID and big-endian payload on as few bytes as
possible. -/
def uintField (id v : Nat) : Nat × Bytes := (id, beBytes (byteWidth v) v)

/-- The payload of CueTrackPositions: CueTrack, CueClusterPosition and, when given,
CueBlockNumber. -/
def cuePositions (track pos : Nat) (block : Option Nat) : Bytes :=
  elements ([uintField 0xF7 track, uintField 0xF1 pos] ++
    match block with
    | none => []
    | some b => [uintField 0x5378 b])

/-- The payload of a CuePoint for one track: CueTime, CueTrackPositions. -/
def cuePoint (time track pos : Nat) (block : Option Nat) : Bytes :=
  elements [uintField 0xB3 time, (0xB7, cuePositions track pos block)]

/-- A cue point as the user sees it: at `time`, the block number `block` of `track` is in the
cluster at `pos`. -/
structure Cue where
  time : Nat
  track : Nat
  pos : Nat
  block : Option Nat

/-- The payload of the Cues element. -/
def cuesPayload (cs : List Cue) : Bytes :=
  elements (cs.map fun c => (0xBB, cuePoint c.time c.track c.pos c.block))

/-- The Cues element. -/
def cuesElement (cs : List Cue) : Bytes := element 0x1C53BB6B (cuesPayload cs)

end Verif.Spec
