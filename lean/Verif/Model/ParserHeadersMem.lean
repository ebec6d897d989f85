/-
The memory of the headers of a segment in mkvparser: the objects that `Segment::ParseHeaders` makes, failing allocations, calling it again, and
the destructor of the segment.

Simplification: the elements in front of the first cluster are given as a list of what the reader finds, instead of as bytes;
`ParserSegment` has the parsing of the bytes.  The cue points are loaded later (`ParserCuesMem`), the clusters too (`ParserClustersMem`).
-/
import Verif.Model.ParserTrackMem

namespace Verif.Par.HdrMem
open Verif Verif.Mux.Build Verif.Par.Enc Verif.Par.Texts Verif.Par.TrackMem

/-- A child of the seek head as `SeekHead::Parse` finds it, mkvparser/mkvparser.cc:1552-1588: a seek element, which `ParseEntry` may refuse, a void element, another, or one that cannot be read. -/
inductive SeekPart where
  | seek (v : Option (Nat × Nat))
  | void (v : Nat × Nat)
  | other
  | bad

/-- `SeekHead`, mkvparser/mkvparser.h:830-886: the arrays, and the elements that its counts cover. -/
structure SeekMem where
  entries : Option Nat := none
  voids : Option Nat := none
  es : List (Nat × Nat) := []
  vs : List (Nat × Nat) := []

/-- A child is a seek element, mkvparser/mkvparser.cc:1518. -/
def isSeek : SeekPart → Bool
  | .seek _ => true
  | _ => false

/-- A child is a void element, mkvparser/mkvparser.cc:1522. -/
def isVoid : SeekPart → Bool
  | .void _ => true
  | _ => false

/-- A child cannot be read, mkvparser/mkvparser.cc:1515-1516, 1530-1535. -/
def seekBad : SeekPart → Bool
  | .bad => true
  | _ => false

/-- The second loop of `SeekHead::Parse`, mkvparser/mkvparser.cc:1552-1588: writing behind the end of an array is undefined. -/
def fillSeek (ne nv : Nat) : List SeekPart → List (Nat × Nat) → List (Nat × Nat) → Res (List (Nat × Nat) × List (Nat × Nat))
  | [], es, vs => .ok (es, vs)
  | .seek v :: ps, es, vs => if es.length < ne then fillSeek ne nv ps (es ++ v.toList) vs else .ub
  | .void v :: ps, es, vs => if vs.length < nv then fillSeek ne nv ps es (vs ++ [v]) else .ub
  | _ :: ps, es, vs => fillSeek ne nv ps es vs

/-- `new (std::nothrow) T[n]` where nothing is allocated for no elements, mkvparser/mkvparser.cc:1537-1550: whether it has success. -/
def newArray (can : Nat → Bool) (n : Nat) (m : Mem) : Bool × Option Nat × Mem :=
  if n = 0 then (true, none, m)
  else
    match m.alloc can with
    | (none, m) => (false, none, m)
    | (some a, m) => (true, some a, m)

/-- The elements that may be written to an array made with `new T[n]`, as in mkvparser/mkvparser.cc:1537-1550: none if there is none. -/
def roomOf (p : Option Nat) (n : Nat) : Nat := if p.isSome then n else 0

/-- `SeekHead::Parse`, mkvparser/mkvparser.cc:1499-1604, on a new object. -/
def parseSeek (can : Nat → Bool) (ps : List SeekPart) (m : Mem) : Res (Int × SeekMem × Mem) :=
  if ps.any seekBad then .ok (-2, {}, m)
  else
    match newArray can (ps.countP isSeek) m with
    | (false, _, m) => .ok (-1, {}, m)
    | (true, e, m) =>
      match newArray can (ps.countP isVoid) m with
      | (false, _, m) => .ok (-1, { entries := e }, m)
      | (true, v, m) => do
        let (es, vs) ← fillSeek (roomOf e (ps.countP isSeek)) (roomOf v (ps.countP isVoid)) ps [] []
        .ok (0, ⟨e, v, es, vs⟩, m)

/-- `SeekHead::~SeekHead`, mkvparser/mkvparser.cc:1494-1497. -/
def SeekMem.destroy (x : SeekMem) (m : Mem) : Res Mem := do
  let m ← m.free x.entries
  m.free x.voids

/-- An element in front of the first cluster, mkvparser/mkvparser.cc:848-1010: `bad` is one that cannot be read now, with what is returned for it. -/
inductive HdrPart where
  | info (ps : List LeafPart)
  | tracks (es : List (Part (List TrackPart)))
  | cues
  | seek (ps : List SeekPart)
  | chapters (es : ChaptersIn)
  | tags (es : TagsIn)
  | other
  | bad (status : Int)

/-- `Segment`, mkvparser/mkvparser.h:1113-1118: the objects of the headers, each with its address. -/
structure Hdr where
  info : Option (Nat × Three) := none
  tracks : Option (Nat × Ptrs TrackObj) := none
  cues : Option (Nat × Unit) := none
  seek : Option (Nat × SeekMem) := none
  chapters : Option (Nat × Arr (Arr AtomMem)) := none
  tags : Option (Nat × Arr (Arr Three)) := none

/-- `p = new (std::nothrow) T(...)`, -1 if it fails, then `p->Parse()`, as in mkvparser/mkvparser.cc:938-947: the object stays whatever the
parsing says. -/
def newObj {α : Type} (can : Nat → Bool) (parse : Mem → Res (Int × α × Mem)) (m : Mem) : Res (Int × Option (Nat × α) × Mem) :=
  match m.alloc can with
  | (none, m) => .ok (-1, none, m)
  | (some a, m) => do
    let (st, v, m) ← parse m
    .ok (st, some (a, v), m)

/-- `Segment::ParseHeaders`, mkvparser/mkvparser.cc:820-1024: what is returned, the objects afterwards, and the elements not consumed (`m_pos` is
moved only behind an element that had success). -/
def parseHeaders (can : Nat → Bool) : List HdrPart → Hdr → Mem → Res (Int × Hdr × List HdrPart × Mem)
  | [], x, m => .ok (if x.info.isNone then -2 else if x.tracks.isNone then -2 else 0, x, [], m)
  | .info ps :: es, x, m =>
    if x.info.isSome then .ok (-2, x, .info ps :: es, m)
    else do
      let (st, p, m) ← newObj can (parseTexts can ps {}) m
      if st = 0 then parseHeaders can es { x with info := p } m else .ok (st, { x with info := p }, .info ps :: es, m)
  | .tracks ts :: es, x, m =>
    if x.tracks.isSome then .ok (-2, x, .tracks ts :: es, m)
    else do
      let (st, p, m) ← newObj can (fun m => parseTracks can ts m) m
      if st = 0 then parseHeaders can es { x with tracks := p } m else .ok (st, { x with tracks := p }, .tracks ts :: es, m)
  | .cues :: es, x, m =>
    if x.cues.isSome then parseHeaders can es x m
    else do
      let (st, p, m) ← newObj can (fun m => .ok (0, (), m)) m
      if st = 0 then parseHeaders can es { x with cues := p } m else .ok (st, { x with cues := p }, .cues :: es, m)
  | .seek ps :: es, x, m =>
    if x.seek.isSome then parseHeaders can es x m
    else do
      let (st, p, m) ← newObj can (parseSeek can ps) m
      if st = 0 then parseHeaders can es { x with seek := p } m else .ok (st, { x with seek := p }, .seek ps :: es, m)
  | .chapters cs :: es, x, m =>
    if x.chapters.isSome then parseHeaders can es x m
    else do
      let (st, p, m) ← newObj can (fun m => parseChapters can cs m) m
      if st = 0 then parseHeaders can es { x with chapters := p } m else .ok (st, { x with chapters := p }, .chapters cs :: es, m)
  | .tags ts :: es, x, m =>
    if x.tags.isSome then parseHeaders can es x m
    else do
      let (st, p, m) ← newObj can (fun m => parseTags can ts m) m
      if st = 0 then parseHeaders can es { x with tags := p } m else .ok (st, { x with tags := p }, .tags ts :: es, m)
  | .other :: es, x, m => parseHeaders can es x m
  | .bad st :: es, x, m => .ok (st, x, .bad st :: es, m)

/-- Calling `Segment::ParseHeaders`, mkvparser/mkvparser.cc:820-1024, again and again; more of the file may be there each time. -/
def parseAgain (can : Nat → Bool) : List (List HdrPart) → Hdr → Mem → Res (Hdr × Mem)
  | [], x, m => .ok (x, m)
  | es :: calls, x, m => do
    let (_, x, _, m) ← parseHeaders can es x m
    parseAgain can calls x m

/-- `Segment::~Segment`, mkvparser/mkvparser.cc:682-701, without the clusters. -/
def Hdr.destroy (x : Hdr) (m : Mem) : Res Mem := do
  let m ← deleteObj destroyTracks x.tracks m
  let m ← deleteObj Three.clear x.info m
  let m ← deleteObj (fun _ m => .ok m) x.cues m
  let m ← deleteObj destroyChapters x.chapters m
  let m ← deleteObj destroyTags x.tags m
  deleteObj SeekMem.destroy x.seek m

end Verif.Par.HdrMem
