/-
An application that follows one track of a file with mkvparser: it asks the track for its first block entry, or
for the one to go to for some time, and then for the next one again and again.
-/
import Verif.Spec.Watching
import Verif.Model.ParserTrack

namespace Verif.Spec
open Verif Verif.Par Verif.Mux

/-- The frames of an entry of cluster number `k`. -/
def shownAt (r : Rdr) (g : ReadSegment) (k : Nat) (e : Entry) : Res (List SeenFrame) :=
  match g.clusters[k]? with
  | none => .ub
  | some c => do
    let (_, tc) ← c.getTimeCode r
    watchEntry r tc e

/-- `while (!entry->EOS()) { show(entry); track->GetNext(entry, entry); }` -/
def playTrack (r : Rdr) (fuel : Nat) (t : ReadTrack) : (rounds : Nat) → ReadSegment → Place → Res (List SeenFrame)
  | _, _, .eos => .ok []
  | 0, _, .entry _ _ _ => .ub
  | n + 1, g, .entry k idx e => do
    let fs ← shownAt r g k e
    let (g, p) ← succeeded (g.trackNext r fuel t k idx e)
    let rest ← playTrack r fuel t n g p
    .ok (fs ++ rest)

/-- The frames of the track from `GetFirst` on. -/
def playWhole (r : Rdr) (fuel : Nat) (t : ReadTrack) (g : ReadSegment) : Res (List SeenFrame) := do
  let (g, p) ← succeeded (g.trackFirst r fuel t)
  playTrack r fuel t fuel g p

/-- The frames of the track from `Seek(time)` on. -/
def playSeek (r : Rdr) (fuel : Nat) (t : ReadTrack) (time : Int) (g : ReadSegment) : Res (List SeenFrame) := do
  let (g, p) ← g.trackSeek r fuel t time
  playTrack r fuel t fuel g p

/-- The time and the frames of a cluster. -/
def showCluster (r : Rdr) (fuel : Nat) (c : ReadCluster) : Res (Int × List SeenFrame) := do
  let (_, tc) ← c.getTimeCode r
  let fs ← watchCluster r fuel c
  .ok (tc, fs)

/-! ### What should be shown -/

/-- A frame of the track. -/
def _root_.Verif.Par.ReadTrack.isOf (t : ReadTrack) (f : SeenFrame) : Bool := decide ((f.track : Int) = t.info.number)

/-- A frame with which playing the track can begin: of a video track (type 1) only a key frame. -/
def _root_.Verif.Par.ReadTrack.starts (t : ReadTrack) (f : SeenFrame) : Bool := t.isOf f && (t.info.type != 1 || f.key)

/-- The frames of the track in these clusters, up to the place where `n` clusters (99 later on) in a row have none. -/
def follow (t : ReadTrack) : (n : Nat) → List (List SeenFrame) → List SeenFrame
  | _, [] => []
  | 0, _ :: _ => []
  | n + 1, c :: cs =>
    match c.filter t.isOf with
    | [] => follow t n cs
    | fs => fs ++ follow t 99 cs

/-- A place in a file: what is left of a cluster, and the clusters behind it. -/
abbrev Spot := List SeenFrame × List (List SeenFrame)

/-- What `GetNext` shows from a place on. -/
def Spot.shown (t : ReadTrack) (s : Spot) : List SeenFrame := s.1.filter t.isOf ++ follow t 99 s.2

/-- The place of the first frame with which playing can begin, if there is one in the first `n` clusters. -/
def firstSpot (t : ReadTrack) : (n : Nat) → List (List SeenFrame) → Option Spot
  | _, [] => none
  | 0, _ :: _ => none
  | n + 1, c :: cs =>
    match c.dropWhile fun f => !t.starts f with
    | [] => firstSpot t n cs
    | f :: fs => some (f :: fs, cs)

/-- The places of the frames of a cluster. -/
def spotsIn (cs : List (List SeenFrame)) : List SeenFrame → List Spot
  | [] => []
  | f :: fs => (f :: fs, cs) :: spotsIn cs fs

/-- All places of frames. -/
def spots : List (List SeenFrame) → List Spot
  | [] => []
  | c :: cs => spotsIn cs c ++ spots cs

/-- The time of the frame at a place, in nanoseconds. -/
def Spot.time (scale : Nat) (s : Spot) : Int := s.1.head?.elim 0 fun f => f.time * scale

/-- Playing can begin at this place. -/
def Spot.starts (t : ReadTrack) (s : Spot) : Bool := s.1.head?.any t.starts

/-- Where `Seek` on a video track should arrive: at the last key frame that is not later than `time`, or at the first one. -/
def videoSpot (t : ReadTrack) (scale : Nat) (time : Int) (cs : List (List SeenFrame)) : Option Spot :=
  match firstSpot t 100 cs with
  | none => none
  | some s =>
    if time ≤ s.time scale then some s
    else ((spots cs).filter fun s => s.starts t && decide (s.time scale ≤ time)).getLast?

/-- The first frame of the track in each cluster that has one, with the time of the cluster. -/
def clusterSpots (t : ReadTrack) : List (Nat × List SeenFrame) → List (Nat × Spot)
  | [] => []
  | (tc, c) :: cs =>
    match c.dropWhile fun f => !t.starts f with
    | [] => clusterSpots t cs
    | f :: fs => (tc, (f :: fs, cs.map (·.2))) :: clusterSpots t cs

/-- Where `Seek` on a track that is not video arrives: at the first frame of the track if that is not earlier than
`time`, otherwise at the first frame it has in the last of those clusters that does not begin later than `time`. -/
def otherSpot (t : ReadTrack) (scale : Nat) (time : Int) (cs : List (Nat × List SeenFrame)) : Option Spot :=
  match firstSpot t 100 (cs.map (·.2)) with
  | none => none
  | some s =>
    if time ≤ s.time scale then some s
    else (((clusterSpots t cs).filter fun s => decide (((s.1 * scale : Nat) : Int) ≤ time)).getLast?).map (·.2)

/-- Where `Seek` should arrive. -/
def seekSpot (t : ReadTrack) (scale : Nat) (time : Int) (cs : List (Nat × List SeenFrame)) : Option Spot :=
  if t.info.type = 1 then videoSpot t scale time (cs.map (·.2)) else otherSpot t scale time cs

/-- **The tracks of a file are shown one by one**, for a file with clusters of these times showing these frames: when
the whole file is there and has been loaded, going through a track with `GetFirst` and `GetNext` shows its
frames, and every `Seek` arrives where it should. -/
def TracksAs (file : Bytes) (scale : Nat) (ok : ReadTrack → Prop) (cs : List (Nat × List SeenFrame)) : Prop :=
  ∀ r : Rdr, r.data = file → r.total = file.length → ∀ fuel, file.length < fuel →
    ∃ pos head g g', ebmlHeadParse r = .ok (.done pos head) ∧ createInstance r pos = .ok g ∧
      g.load r fuel = (g', .ok ()) ∧ g'.clusters.map (showCluster r fuel) = cs.map (fun c => .ok ((c.1 : Int), c.2)) ∧
      ∀ t : ReadTrack,
        playWhole r fuel t g' = .ok ((firstSpot t 100 (cs.map (·.2))).elim [] (Spot.shown t)) ∧
        (ok t → ∀ time, playSeek r fuel t time g' = .ok ((seekSpot t scale time cs).elim [] (Spot.shown t)))

end Verif.Spec
