/-
What an application sees of a recording through the callback of the incremental parser: every frame with
its time, its track and what the block says about it.
-/
import Verif.Spec.Document
import Verif.Spec.Muxer
import Verif.Spec.Feeding

namespace Verif.Spec
open Verif Verif.Web Verif.Mux

/-- The member with the given ID of a value with members (the last one, if the element occurred several
times). -/
def _root_.Verif.Web.Val.get : Val → Nat → Option Val
  | .cons i v rest, id => (rest.get id).or (if i = id then some v else none)
  | _, _ => none

/-- An unsigned number that was reported, or its default. -/
def natOr (d : Nat) : Option Val → Nat
  | some (.nat n) => n
  | _ => d

/-- Bytes that were reported, if any. -/
def bytesOr : Option Val → Bytes
  | some (.bytes b) => b
  | _ => []

/-- The signed number a bit pattern of that many bits stands for. -/
def signedOf (bits n : Nat) : Int := if n < 2 ^ (bits - 1) then n else (n : Int) - 2 ^ bits

/-- What an application knows about one frame: its time in ticks, its track, its data, whether it is a key
frame, its duration in ticks (0 if not given), the padding to discard in nanoseconds, and the additional
data with its ID. -/
structure SeenFrame where
  time : Int
  track : Nat
  data : Bytes
  key : Bool
  duration : Nat := 0
  padding : Int := 0
  additional : Option (Nat × Bytes) := none
  deriving DecidableEq, Repr

/-- What an application remembers while it is called: the time of the current cluster, the current block,
the frames of the current block, and all earlier frames. -/
structure View where
  cluster : Nat := 0
  block : BlockVal := {}
  held : List SeenFrame := []
  seen : List SeenFrame := []

/-- The additional data in a BlockGroup (of the last BlockMore): its ID, 1 by default, and the data. -/
def additionsIn (group : Val) : Option (Nat × Bytes) :=
  match (group.get Id.kBlockAdditions).bind (·.get Id.kBlockMore) with
  | none => none
  | some more => some (natOr 1 (more.get Id.kBlockAddId), bytesOr (more.get Id.kBlockAdditional))

/-- What a BlockGroup says about the frames of its block: it is a key frame if it refers to no other. -/
def SeenFrame.inGroup (group : Val) (s : SeenFrame) : SeenFrame :=
  { s with
    key := (group.get Id.kReferenceBlock).isNone
    duration := natOr 0 (group.get Id.kBlockDuration)
    padding := signedOf 64 (natOr 0 (group.get Id.kDiscardPadding))
    additional := additionsIn group }

/-- One call. -/
def View.step (v : View) : Ev → View
  /- OnClusterBegin -/
  | .start m c => if m.id = Id.kCluster then { v with cluster := natOr 0 (c.get Id.kTimecode) } else v
  /- OnSimpleBlockBegin, OnBlockBegin -/
  | .blockStart _ b => { v with block := b, held := [] }
  /- OnFrame -/
  | .frame _ _ d =>
    { v with held := v.held ++ [{ time := v.cluster + signedOf 16 v.block.timecode, track := v.block.track,
                                  data := d, key := v.block.isKey }] }
  /- OnSimpleBlockEnd: the frames are complete; OnBlockEnd: more will be said about them -/
  | .blockEnd m _ => if m.id = Id.kSimpleBlock then { v with held := [], seen := v.seen ++ v.held } else v
  /- OnBlockGroupEnd -/
  | .complete m g =>
    if m.id = Id.kBlockGroup then { v with held := [], seen := v.seen ++ v.held.map (SeenFrame.inGroup g) } else v
  | _ => v

/-- The frames seen in a sequence of calls. -/
def timeline (L : Log) : List SeenFrame := (L.foldl View.step {}).seen

/-- What an application should see of a frame handed to the muxer, when one tick is `scale` nanoseconds. -/
def _root_.Verif.Mux.Frame.asSeen (scale : Nat) (f : Frame) : SeenFrame where
  time := (f.timestamp / scale : Nat)
  track := f.trackNumber
  data := f.frame
  key := f.isKey
  duration := f.duration / scale
  padding := f.discardPadding
  additional := f.additional.map fun a => (f.addId, a)

/-- The numbers of the frame are values of the types they have in the API. -/
structure _root_.Verif.Mux.Frame.InRange (f : Frame) : Prop where
  addId : f.additional ≠ none → f.addId < 2 ^ 64
  duration : f.duration < 2 ^ 64
  padding : -2 ^ 63 ≤ f.discardPadding ∧ f.discardPadding < 2 ^ 63

/-- **Reading a file gives these frames**: however the bytes arrive, with every callback that takes all it
is offered, the caller's loop ends with "completed" at the end of the file, and the calls made show the
frames `fs`, in this order. -/
def PlaysAs (file : Bytes) (fs : List SeenFrame) : Prop :=
  ∀ cb : Cb, cb.Reads → (∀ L m, (cb L (.element m)).2 = false) →
    ∀ s : Src, s.bytes = file → s.pos + file.length + 1 < 2 ^ 64 → ∀ fuel, s.stalls < fuel →
      match drive (Parser.feed cb) fuel ({}, []) s with
      | (st, (_, L), s', _) => st = .okCompleted ∧ timeline L = fs ∧ s'.bytes = []

end Verif.Spec
