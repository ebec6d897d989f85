/-
What the Matroska format says about clusters, independently of the muxer's routines.
-/
import Verif.Spec.Blocks
import Verif.Model.MuxerBlock

namespace Verif.Spec
open Verif.Mux

/-- `bs` is an element with the given ID and an unsigned integer (a `uint64`) as payload. -/
def IsUIntElement (id v : Nat) (bs : Bytes) : Prop :=
  ∃ w, 1 ≤ w ∧ w ≤ 8 ∧ (v < 2 ^ 64 → v < 256 ^ w) ∧ bs = element id (beBytes w v)

/-- `bs` is an element with the given ID and a signed integer (an `int64`) as payload. -/
def IsIntElement (id : Nat) (v : Int) (bs : Bytes) : Prop :=
  ∃ w, 1 ≤ w ∧ w ≤ 8 ∧ (-2 ^ 63 ≤ v → v < 2 ^ 63 → -2 ^ (8 * w - 1) ≤ v ∧ v < 2 ^ (8 * w - 1)) ∧
    bs = element id (twosBytes w v)

/-- `bs` is the BlockAdditions element for the additional data, if there is any. -/
def IsAdditions (additional : Option Bytes) (addId : Nat) (bs : Bytes) : Prop :=
  match additional with
  | none => bs = []
  | some a => ∃ i, IsUIntElement 0xEE addId i ∧ bs = element 0x75A1 (element 0xA6 (i ++ element 0xA5 a))

/-- `bs` is the block element for frame `f` in a cluster with time code `tc`, when one tick is
`scale` nanoseconds.  The frame's time in ticks relative to the cluster is between 0 and 0x7FFF, so
that it fits the signed 16-bit field; its track number fits one byte; it has data.  A frame without additional data, discard padding and duration
is a SimpleBlock; any other is a BlockGroup, with exactly the parts it needs. -/
def IsBlock (tc scale : Nat) (f : Frame) (bs : Bytes) : Prop :=
  tc ≤ f.timestamp / scale ∧ f.timestamp / scale ≤ tc + 0x7FFF ∧
  f.frame ≠ [] ∧ 1 ≤ f.trackNumber ∧ f.trackNumber ≤ 126 ∧ f.additional ≠ some [] ∧
  if f.additional = none ∧ f.discardPadding = 0 ∧ f.duration = 0 then
    bs = element 0xA3 (blockHead 1 f.trackNumber ((f.timestamp / scale : Nat) - (tc : Int))
      (if f.isKey then 0x80 else 0) ++ f.frame)
  else
    ∃ additions padding reference duration,
      IsAdditions f.additional f.addId additions ∧
      (if f.discardPadding = 0 then padding = [] else IsIntElement 0x75A2 f.discardPadding padding) ∧
      (if f.isKey then reference = []
        else IsUIntElement 0xFB (toU64 f.referenceBlockTimestamp / scale) reference) ∧
      (if f.duration / scale = 0 then duration = []
        else IsUIntElement 0x9B (f.duration / scale) duration) ∧
      bs = element 0xA0 (element 0xA1 (blockHead 1 f.trackNumber
        ((f.timestamp / scale : Nat) - (tc : Int)) 0 ++ f.frame) ++
          (additions ++ (padding ++ (reference ++ duration))))

/-- `bs` is the block elements of the frames, in order, without anything between. -/
inductive Blocks (tc scale : Nat) : List Frame → Bytes → Prop
  | nil : Blocks tc scale [] []
  | cons {f : Frame} {fs : List Frame} {b bs : Bytes} (h : IsBlock tc scale f b)
      (hr : Blocks tc scale fs bs) : Blocks tc scale (f :: fs) (b ++ bs)

/-- `bs` is the payload of a cluster with time code `tc` holding exactly these frames. -/
def ClusterBody (tc scale : Nat) (frames : List Frame) (bs : Bytes) : Prop :=
  ∃ w blocks, 1 ≤ w ∧ w ≤ 8 ∧ tc < 256 ^ w ∧ Blocks tc scale frames blocks ∧
    bs = element 0xE7 (beBytes w tc) ++ blocks

/-- The ID of a Cluster element. -/
def clusterId : Bytes := [0x1F, 0x43, 0xB6, 0x75]

/-- The size field that says "size unknown", on eight bytes. -/
def sizeUnknown : Bytes := [0x01, 0xFF, 0xFF, 0xFF, 0xFF, 0xFF, 0xFF, 0xFF]

/-- The frames of one track, in order. -/
def framesOf (t : Nat) (fs : List Frame) : List Frame := fs.filter fun f => f.trackNumber == t

/-- `g` carries the same media data as `f`: only duration, reference and (if there is no additional
data) the ID of the additional data may differ. -/
structure SameData (f g : Frame) : Prop where
  track : g.trackNumber = f.trackNumber
  time : g.timestamp = f.timestamp
  data : g.frame = f.frame
  key : g.isKey = f.isKey
  additional : g.additional = f.additional
  addId : f.additional ≠ none → g.addId = f.addId
  discard : g.discardPadding = f.discardPadding

/-- Two lists of frames carry the same media data, one by one. -/
inductive SameAll : List Frame → List Frame → Prop
  | nil : SameAll [] []
  | cons {f g : Frame} {fs gs : List Frame} (h : SameData f g) (hr : SameAll fs gs) :
      SameAll (f :: fs) (g :: gs)

/-- `g` carries frame `f` unchanged: the media data, the duration, and the reference if `f` has
one. -/
structure Carried (f g : Frame) : Prop extends SameData f g where
  duration : g.duration = f.duration
  reference : f.referenceBlockTimestampSet = true → g.referenceBlockTimestamp = f.referenceBlockTimestamp

/-- The frames of the second list carry those of the first, one by one. -/
inductive CarriedAll : List Frame → List Frame → Prop
  | nil : CarriedAll [] []
  | cons {f g : Frame} {fs gs : List Frame} (h : Carried f g) (hr : CarriedAll fs gs) :
      CarriedAll (f :: fs) (g :: gs)

/-- Timestamps do not decrease. -/
def InOrder (fs : List Frame) : Prop := fs.Pairwise fun a b => a.timestamp ≤ b.timestamp

end Verif.Spec
