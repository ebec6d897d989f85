/-
What the Matroska format says about a segment, its header elements and its clusters.
-/
import Verif.Spec.Muxer
import Verif.Spec.Cues
import Verif.Spec.SeekHead
import Verif.Spec.EbmlHeader

namespace Verif.Spec
open Verif.Mux

/-- The ID of a Segment element. -/
def segmentId : Bytes := [0x18, 0x53, 0x80, 0x67]

/-- The children of an Info element: TimecodeScale, Duration (the bits of a 4-byte float) and
DateUTC if present, MuxingApp and WritingApp. -/
def infoFields (scale : Nat) (duration : Option Nat) (date : Option Int) (muxing writing : Bytes) :
    List (Nat × Bytes) :=
  uintField 0x2AD7B1 scale :: (duration.toList.map fun d => (0x4489, beBytes 4 d)) ++
    (date.toList.map fun d => (0x4461, twosBytes 8 d)) ++ [(0x4D80, muxing), (0x5741, writing)]

/-- The Info element. -/
def infoElement (scale : Nat) (duration : Option Nat) (date : Option Int) (muxing writing : Bytes) : Bytes :=
  element 0x1549A966 (elements (infoFields scale duration date muxing writing))

/-- A cluster: its time code and its frames. -/
structure ClusterOf where
  tc : Nat
  frames : List Frame

/-- `bs` is a Cluster element with this content; its size field, on eight bytes, holds the size of
the payload, or says that the size is unknown. -/
def IsCluster (scale : Nat) (sized : Bool) (c : ClusterOf) (bs : Bytes) : Prop :=
  ∃ body, ClusterBody c.tc scale c.frames body ∧ c.frames ≠ [] ∧
    bs = clusterId ++ ((if sized then vint 8 body.length else sizeUnknown) ++ body)

/-- `bs` is those clusters one after the other, the first at offset `off`; `offs` are their offsets. -/
inductive ClustersAt (scale : Nat) (sized : Bool) : Nat → List (Nat × ClusterOf) → Bytes → Prop
  | nil {off} : ClustersAt scale sized off [] []
  | cons {off : Nat} {c : ClusterOf} {cs : List (Nat × ClusterOf)} {b bs : Bytes}
      (h : IsCluster scale sized c b) (hr : ClustersAt scale sized (off + b.length) cs bs) :
      ClustersAt scale sized off ((off, c) :: cs) (b ++ bs)

/-- All frames of the clusters, in the order of the file. -/
def clusterFrames (cs : List (Nat × ClusterOf)) : List Frame := (cs.map fun c => c.2.frames).flatten

/-- Frame `f` is block number `n` (counting from 1) of these, and the first one of its track. -/
def FirstBlock (track : Nat) (fs : List Frame) (n : Nat) (f : Frame) : Prop :=
  ∃ before after, fs = before ++ f :: after ∧ n = before.length + 1 ∧ f.trackNumber = track ∧
    ∀ x ∈ before, x.trackNumber ≠ track

/-- The cues for these clusters: one for each cluster with a block of the track, in the order of the
file; it gives the time of the first such block in ticks, the offset of the cluster in the segment's
payload and, if block numbers are asked for, the number of that block in the cluster, unless it is 1
(the default). -/
inductive CuesOf (scale track : Nat) (numbered : Bool) : List (Nat × ClusterOf) → List Cue → Prop
  | nil : CuesOf scale track numbered [] []
  | skip {off : Nat} {c : ClusterOf} {cs : List (Nat × ClusterOf)} {q : List Cue}
      (h : ∀ f ∈ c.frames, f.trackNumber ≠ track) (hr : CuesOf scale track numbered cs q) :
      CuesOf scale track numbered ((off, c) :: cs) q
  | cue {off n : Nat} {f : Frame} {c : ClusterOf} {cs : List (Nat × ClusterOf)} {q : List Cue}
      (h : FirstBlock track c.frames n f) (hr : CuesOf scale track numbered cs q) :
      CuesOf scale track numbered ((off, c) :: cs)
        (⟨f.timestamp / scale, track, off, if numbered = true ∧ 1 < n then some n else none⟩ :: q)

/-- The parts of a segment's payload, in order: the space for the seek head, Info, Tracks, Chapters
and Tags if present, the clusters, and the cues if present. -/
structure Parts where
  region : Bytes
  info : Bytes
  tracks : Bytes
  chapters : Option Bytes
  tags : Option Bytes
  clusters : Bytes
  cues : Option Bytes

namespace Parts

/-- Offset of each part in the payload. -/
def tracksAt (p : Parts) : Nat := p.region.length + p.info.length
def chaptersAt (p : Parts) : Nat := p.tracksAt + p.tracks.length
def tagsAt (p : Parts) : Nat := p.chaptersAt + (p.chapters.getD []).length
def clustersAt (p : Parts) : Nat := p.tagsAt + (p.tags.getD []).length
def cuesAt (p : Parts) : Nat := p.clustersAt + p.clusters.length

/-- The payload of the segment. -/
def payload (p : Parts) : Bytes :=
  p.region ++ (p.info ++ (p.tracks ++ (p.chapters.getD [] ++ (p.tags.getD [] ++ (p.clusters ++ p.cues.getD [])))))

/-- What a seek head should list: the ID and the offset in the payload of every part. -/
def places (p : Parts) : List (Nat × Nat) :=
  [(0x1549A966, p.region.length), (0x1654AE6B, p.tracksAt)] ++
    (if p.chapters.isSome then [(0x1043A770, p.chaptersAt)] else []) ++
    (if p.tags.isSome then [(0x1254C367, p.tagsAt)] else []) ++
    [(0x1F43B675, p.clustersAt)] ++
    (if p.cues.isSome then [(0x1C53BB6B, p.cuesAt)] else [])

/-- The file: the EBML header, and the Segment element with its size (or, if the output cannot seek,
with the size "unknown"). -/
def file (p : Parts) (docType : Bytes) (seekable : Bool) : Bytes :=
  ebmlHeader docType 4 ++ (segmentId ++
    ((if seekable then vint 8 p.payload.length else sizeUnknown) ++ p.payload))

/-- The space at the start of the payload holds the seek head followed by a Void element; without
seeking there is no such space. -/
def HasSeekHead (p : Parts) (seekable : Bool) : Prop :=
  if seekable then ∃ n, p.region = element 0x114D9B74 (seekEntries p.places) ++ element 0xEC (List.replicate n 0)
  else p.region = []

/-- The file while it is being written: the size of the Segment is not known, there are no cues yet,
and after the clusters `cs`, which are complete, comes the last one, with the size "unknown". -/
def Unfinished (p : Parts) (docType : Bytes) (scale : Nat) (sized : Bool) (cs : List (Nat × ClusterOf))
    (last : Option ClusterOf) (data : Bytes) : Prop :=
  data = p.file docType false ∧ p.cues = none ∧ ∃ a b, p.clusters = a ++ b ∧
    ClustersAt scale sized p.clustersAt cs a ∧
    match last with
    | none => cs = [] ∧ b = []
    | some c => IsCluster scale false c b

/-- The same parts in the other order, the cues before the clusters: the payload, ... -/
def frontPayload (p : Parts) : Bytes :=
  p.region ++ (p.info ++ (p.tracks ++ (p.chapters.getD [] ++ (p.tags.getD [] ++ (p.cues.getD [] ++ p.clusters)))))

/-- ... where the clusters then start, ... -/
def frontClustersAt (p : Parts) : Nat := p.tagsAt + (p.tags.getD []).length + (p.cues.getD []).length

/-- ... what a seek head should list, ... -/
def frontPlaces (p : Parts) : List (Nat × Nat) :=
  [(0x1549A966, p.region.length), (0x1654AE6B, p.tracksAt)] ++
    (if p.chapters.isSome then [(0x1043A770, p.chaptersAt)] else []) ++
    (if p.tags.isSome then [(0x1254C367, p.tagsAt)] else []) ++
    [(0x1F43B675, p.frontClustersAt)] ++
    (if p.cues.isSome then [(0x1C53BB6B, p.tagsAt + (p.tags.getD []).length)] else [])

/-- ... and the file. -/
def frontFile (p : Parts) (docType : Bytes) : Bytes :=
  ebmlHeader docType 4 ++ (segmentId ++ (vint 8 p.frontPayload.length ++ p.frontPayload))

/-- The space at the start holds the seek head for that order, and a Void element. -/
def HasFrontSeekHead (p : Parts) : Prop :=
  ∃ n, p.region = element 0x114D9B74 (seekEntries p.frontPlaces) ++ element 0xEC (List.replicate n 0)

end Parts

end Verif.Spec
