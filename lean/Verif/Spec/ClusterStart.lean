/-
When the muxer begins a new cluster, and which frames go where: a description of one call that hands
over a frame, in terms of the clusters in the file before and after.
-/
import Verif.Spec.Segment
import Verif.Spec.MuxerUse

namespace Verif.Spec
open Verif Verif.Mux

/-- A frame's time in ticks. -/
def ticks (g : Seg) (f : Frame) : Nat := f.timestamp / g.info.scale

/-- The frame's track is a video track. -/
def onVideo (g : Seg) (f : Frame) : Bool := (g.tracks.byNumber f.trackNumber).any fun e => e.kind == .video

/-- The frame is too late for the open cluster. -/
def TooFar (g : Seg) (last : Option ClusterOf) (f : Frame) : Prop :=
  ∃ c, last = some c ∧ c.tc + 0x7FFF < ticks g f

/-- The frame is kept back until a later call: it is a frame that waits for video, no new cluster has
been asked for, and it is not too late for the open cluster. -/
def KeptBack (g : Seg) (asked : Bool) (last : Option ClusterOf) (f : Frame) : Prop :=
  g.queues f = true ∧ asked = false ∧ ¬ TooFar g last f

/-- Why a new cluster is begun for a frame: one has been asked for; there is none yet; the frame is
too late for the open one, whose payload has `size` bytes; it is a key frame of a video track; the
open cluster lasts as long or is as large as the settings allow. -/
def StartsCluster (g : Seg) (asked : Bool) (last : Option ClusterOf) (size : Nat) (f : Frame) : Prop :=
  asked = true ∨ last = none ∨ TooFar g last f ∨ (f.isKey = true ∧ onVideo g f = true) ∨
    (∃ c, last = some c ∧ 0 < g.maxDuration ∧ g.maxDuration ≤ (ticks g f - c.tc) * g.info.scale) ∨
    (0 < g.maxSize ∧ g.maxSize ≤ size)

/-- The time of a new cluster: the frame's, or that of the first waiting frame it gets, if earlier. -/
def newTime (g : Seg) (moved : List Frame) (f : Frame) : Nat :=
  match moved with
  | [] => ticks g f
  | w :: _ => min (ticks g w) (ticks g f)

/-- How many of the waiting frames go to the cluster that ends, if there is one: all that are followed
by another waiting frame not later than `f`. -/
def leftBehind (last : Option ClusterOf) (waiting : List Frame) (f : Frame) : Nat :=
  if last.isSome then (waiting.tail.takeWhile fun x => decide (x.timestamp ≤ f.timestamp)).length else 0

/-- What handing over `f` (written as `f'`) does to the complete clusters, the open cluster and the
frames that wait: `f` waits too; or a new cluster begins; or the waiting frames and `f` go to the open
cluster. -/
def Filed (g : Seg) (asked : Bool) (size : Nat) (f f' : Frame)
    (closed : List ClusterOf) (last : Option ClusterOf) (waiting : List Frame)
    (closed' : List ClusterOf) (last' : Option ClusterOf) (waiting' : List Frame) : Prop :=
  (KeptBack g asked last f ∧ closed' = closed ∧ last' = last ∧ waiting' = waiting ++ [f']) ∨
  (¬ KeptBack g asked last f ∧ StartsCluster g asked last size f ∧
    closed' = closed ++ last.toList.map (fun c => ⟨c.tc, c.frames ++ waiting.take (leftBehind last waiting f)⟩) ∧
    last' = some ⟨newTime g (waiting.drop (leftBehind last waiting f)) f,
      waiting.drop (leftBehind last waiting f) ++ [f']⟩ ∧ waiting' = []) ∨
  (¬ KeptBack g asked last f ∧ ¬ StartsCluster g asked last size f ∧
    ∃ c, last = some c ∧ closed' = closed ∧ last' = some ⟨c.tc, c.frames ++ waiting ++ [f']⟩ ∧ waiting' = [])

/-- A cluster as the settings want it: first frames that waited; then at most one frame that begins
it; after that no key frame of a video track, and no frame that did not wait and is as late as the
longest duration allowed. -/
def Trim (g : Seg) (c : ClusterOf) : Prop :=
  ∃ moved first more, c.frames = moved ++ first ++ more ∧ first.length ≤ 1 ∧ (∀ f ∈ moved, g.queues f = true) ∧
    ∀ f ∈ more, ¬ (f.isKey = true ∧ onVideo g f = true) ∧
      (g.queues f = false → 0 < g.maxDuration → (ticks g f - c.tc) * g.info.scale < g.maxDuration)

end Verif.Spec
