/-
An application that goes to the block a cue point names, whoever wrote the cue point.
-/
import Verif.Spec.Seeking

namespace Verif.Spec
open Verif Verif.Par Verif.Mux

/-- `Segment::GetBlock` for a cue point, and playing on from the block found. -/
def goTo (r : Rdr) (fuel : Nat) (g : ReadSegment) (cp : Par.CuePoint) (tp : TrackPosition) : Res (Option (List SeenFrame)) := do
  match ← g.getBlock r fuel cp tp with
  | (g, .entry k idx e) => do
    let fs ← playOn r fuel g k idx e
    .ok (some fs)
  | _ => .ok none

/-- A frame that will do when the blocks are searched: any frame of an audio track (type 2), a key frame of a video
track (type 1). -/
def _root_.Verif.Par.ReadTrack.accepts (t : ReadTrack) (f : SeenFrame) : Bool :=
  t.info.type == 2 || (t.info.type == 1 && f.key)

/-- What the search through the frames of a cluster should find: the first frame of the cue's track that is not earlier
than the cue, if it has the time of the cue and will do. -/
def searched (ts : List ReadTrack) (cp : Par.CuePoint) (tp : TrackPosition) : List SeenFrame → Option (List SeenFrame)
  | [] => none
  | f :: fs =>
    if (f.track : Int) ≠ tp.track ∨ f.time < cp.timecode then searched ts cp tp fs
    else if f.time = cp.timecode ∧ ((ts.find? fun t => decide (t.info.number = tp.track)).any fun t => t.accepts f) = true then
      some (f :: fs)
    else none

/-- Where a cue point leads in a cluster with these frames: to the frame with its number (counting from 1), if that
is of its track and has its time; nowhere, if there is no frame with that number; otherwise, and if it has no number, the
frames are searched. -/
def named (ts : List ReadTrack) (cp : Par.CuePoint) (tp : TrackPosition) (fs : List SeenFrame) : Option (List SeenFrame) :=
  if tp.block > 0 then
    match fs.drop (tp.block - 1).toNat with
    | [] => none
    | f :: rest => if (f.track : Int) = tp.track ∧ f.time = cp.timecode then some (f :: rest) else searched ts cp tp fs
  else searched ts cp tp fs

/-- **Cue points lead where they should** in a file with these tracks, whose clusters are at these places of the segment's
payload and show these frames: when the whole file is there and has been loaded, then for every cue point, written by
whomever, `GetBlock` goes to the block it names in the cluster at its position, and to nothing if no cluster
begins there (and one begins later). -/
def LeadsAs (file : Bytes) (ts : List ReadTrack) (cs : List (Nat × List SeenFrame)) : Prop :=
  ∀ r : Rdr, r.data = file → r.total = file.length → ∀ fuel, file.length < fuel →
    ∃ pos head g g', ebmlHeadParse r = .ok (.done pos head) ∧ createInstance r pos = .ok g ∧
      g.load r fuel = (g', .ok ()) ∧ g'.tracks = some ts ∧
      g'.clusters.map (fun c => (c.start : Int) - g'.start) = cs.map (fun c => (c.1 : Int)) ∧
      g'.clusters.map (watchCluster r fuel) = cs.map (fun c => .ok c.2) ∧
      ∀ (cp : Par.CuePoint) (tp : TrackPosition),
        (∀ (before : List (Nat × List SeenFrame)) (off : Nat) (fs : List SeenFrame) (after : List (Nat × List SeenFrame)),
          cs = before ++ (off, fs) :: after → tp.pos = (off : Int) →
          goTo r fuel g' cp tp = .ok ((named ts cp tp fs).map (· ++ (after.map (·.2)).flatten))) ∧
        ((∀ c ∈ cs, tp.pos ≠ (c.1 : Int)) → (∃ c ∈ cs, tp.pos < (c.1 : Int)) → goTo r fuel g' cp tp = .ok none)

end Verif.Spec
