/-
The memory of the tracks in mkvparser: the texts and data of a track entry, which are read into a local object and copied into the track, the
colour, projection and colour space of video, the content encodings, failing reads and allocations, and the destructors.

Simplification: the elements are given as a list of what the reader finds, instead of as bytes; `ParserTracks` has the parsing of the
bytes.  The numbers of a track except its track number are left out.
-/
import Verif.Model.ParserEncodingMem
import Verif.Model.ParserTextMem
import Verif.Model.MuxerTrackBuild

namespace Verif.Par.TrackMem
open Verif Verif.Mux.Build Verif.Par.Enc Verif.Par.Texts

/-- `Track::Info`, mkvparser/mkvparser.h:335-360: the texts. -/
inductive Field where
  | name
  | language
  | codecId
  | codecName
  deriving DecidableEq

/-- `Track::Info`, mkvparser/mkvparser.h:335-360: the memory it owns. -/
structure InfoMem where
  name : Str := none
  language : Str := none
  codecId : Str := none
  codecName : Str := none
  priv : Str := none

/-- The member of `Track::Info`, mkvparser/mkvparser.h:335-360, for a text. -/
def InfoMem.get (x : InfoMem) : Field → Str
  | .name => x.name
  | .language => x.language
  | .codecId => x.codecId
  | .codecName => x.codecName

/-- Assignment to that member, mkvparser/mkvparser.h:335-360. -/
def InfoMem.set (x : InfoMem) (s : Str) : Field → InfoMem
  | .name => { x with name := s }
  | .language => { x with language := s }
  | .codecId => { x with codecId := s }
  | .codecName => { x with codecName := s }

/-- `Track::Info::Clear`, mkvparser/mkvparser.cc:4535-4551, and the destructor. -/
def InfoMem.clear (x : InfoMem) (m : Mem) : Res Mem := do
  let m ← m.free (x.name.map (·.1))
  let m ← m.free (x.language.map (·.1))
  let m ← m.free (x.codecId.map (·.1))
  let m ← m.free (x.priv.map (·.1))
  m.free (x.codecName.map (·.1))

/-- A child of a `MasteringMetadata` element: a coordinate of one of the four chromaticities and whether it is accepted, a luminance that is
accepted, or anything that ends parsing, mkvparser/mkvparser.cc:5053-5124. -/
inductive MmPart where
  | chroma (i : Fin 4) (ok : Bool)
  | other
  | bad

/-- `MasteringMetadata`, mkvparser/mkvparser.h:402-429: the chromaticities. -/
structure MM where
  r : Option Nat := none
  g : Option Nat := none
  b : Option Nat := none
  w : Option Nat := none

/-- The member of `MasteringMetadata` for a chromaticity, mkvparser/mkvparser.h:402-429. -/
def MM.get (x : MM) : Fin 4 → Option Nat
  | 0 => x.r
  | 1 => x.g
  | 2 => x.b
  | 3 => x.w

/-- Assignment to that member, mkvparser/mkvparser.h:402-429. -/
def MM.set (x : MM) (p : Option Nat) : Fin 4 → MM
  | 0 => { x with r := p }
  | 1 => { x with g := p }
  | 2 => { x with b := p }
  | 3 => { x with w := p }

/-- `MasteringMetadata::~MasteringMetadata`, mkvparser/mkvparser.h:412-417. -/
def MM.destroy (x : MM) (m : Mem) : Res Mem := do
  let m ← m.free x.r
  let m ← m.free x.g
  let m ← m.free x.b
  m.free x.w

/-- The loop of `MasteringMetadata::Parse`, mkvparser/mkvparser.cc:5053-5124, with `PrimaryChromaticity::Parse`,
mkvparser/mkvparser.cc:5010-5038. -/
def parseMMParts (can : Nat → Bool) : List MmPart → MM → Mem → Res (Bool × MM × Mem)
  | [], x, m => .ok (true, x, m)
  | .chroma i ok :: ps, x, m =>
    match x.get i with
    | some _ => if ok then parseMMParts can ps x m else .ok (false, x, m)
    | none =>
      match m.alloc can with
      | (none, m) => .ok (false, x, m)
      | (some a, m) => if ok then parseMMParts can ps (x.set (some a) i) m else .ok (false, x.set (some a) i, m)
  | .other :: ps, x, m => parseMMParts can ps x m
  | .bad :: _, x, m => .ok (false, x, m)

/-- `MasteringMetadata::Parse`, mkvparser/mkvparser.cc:5040-5128, for a null pointer. -/
def parseMM (can : Nat → Bool) (ps : List MmPart) (m : Mem) : Res (Option (Nat × MM) × Mem) :=
  match m.alloc can with
  | (none, m) => .ok (none, m)
  | (some a, m) => do
    let (ok, x, m) ← parseMMParts can ps {} m
    if ok then .ok (some (a, x), m)
    else do
      let m ← deleteObj MM.destroy (some (a, x)) m
      .ok (none, m)

/-- A child of a `Colour` element, mkvparser/mkvparser.cc:5142-5223. -/
inductive ColourPart where
  | mm (ps : List MmPart)
  | other
  | bad

/-- The loop of `Colour::Parse`, mkvparser/mkvparser.cc:5142-5223: whether it succeeds, and `mastering_metadata`. -/
def parseColourParts (can : Nat → Bool) : List ColourPart → Option (Nat × MM) → Mem → Res (Bool × Option (Nat × MM) × Mem)
  | [], x, m => .ok (true, x, m)
  | .mm ps :: cs, x, m =>
    match x with
    | some _ => .ok (false, x, m)
    | none => do
      let (x, m) ← parseMM can ps m
      match x with
      | none => .ok (false, none, m)
      | some y => parseColourParts can cs (some y) m
  | .other :: cs, x, m => parseColourParts can cs x m
  | .bad :: _, x, m => .ok (false, x, m)

/-- `Colour::~Colour`, mkvparser/mkvparser.h:451-454. -/
def destroyColour (x : Option (Nat × MM)) (m : Mem) : Res Mem := deleteObj MM.destroy x m

/-- `Colour::Parse`, mkvparser/mkvparser.cc:5130-5226, for a null pointer. -/
def parseColour (can : Nat → Bool) (cs : List ColourPart) (m : Mem) : Res (Option (Nat × Option (Nat × MM)) × Mem) :=
  match m.alloc can with
  | (none, m) => .ok (none, m)
  | (some a, m) => do
    let (ok, x, m) ← parseColourParts can cs none m
    if ok then .ok (some (a, x), m)
    else do
      let m ← deleteObj destroyColour (some (a, x)) m
      .ok (none, m)

/-- A child of a `Projection` element: private data with its size and whether reading succeeds,
mkvparser/mkvparser.cc:5240-5302. -/
inductive ProjPart where
  | priv (size : Nat) (read : Bool)
  | other
  | bad

/-- The loop of `Projection::Parse`, mkvparser/mkvparser.cc:5240-5302: whether it succeeds, and `private_data`. -/
def parseProjParts (can : Nat → Bool) : List ProjPart → Option Nat → Mem → Res (Bool × Option Nat × Mem)
  | [], x, m => .ok (true, x, m)
  | .priv size read :: ps, x, m =>
    if x ≠ none ∨ size = 0 then .ok (false, x, m)
    else
      match m.alloc can with
      | (none, m) => .ok (false, x, m)
      | (some a, m) =>
        if !read then do
          let m ← m.free (some a)
          .ok (false, x, m)
        else parseProjParts can ps (some a) m
  | .other :: ps, x, m => parseProjParts can ps x m
  | .bad :: _, x, m => .ok (false, x, m)

/-- `Projection::~Projection`, mkvparser/mkvparser.h:492. -/
def destroyProj (x : Option Nat) (m : Mem) : Res Mem := m.free x

/-- `Projection::Parse`, mkvparser/mkvparser.cc:5228-5306, for a null pointer. -/
def parseProj (can : Nat → Bool) (ps : List ProjPart) (m : Mem) : Res (Option (Nat × Option Nat) × Mem) :=
  match m.alloc can with
  | (none, m) => .ok (none, m)
  | (some a, m) => do
    let (ok, x, m) ← parseProjParts can ps none m
    if ok then .ok (some (a, x), m)
    else do
      let m ← deleteObj destroyProj (some (a, x)) m
      .ok (none, m)

/-- A child of a `Video` element, mkvparser/mkvparser.cc:5354-5425. -/
inductive VideoPart where
  | colour (ps : List ColourPart)
  | projection (ps : List ProjPart)
  | space (s : Bytes) (read : Int)
  | other
  | bad

/-- What a video track owns more than others: `m_colour_space`, `m_colour`, `m_projection`, initialised in
mkvparser/mkvparser.cc:5308-5313. -/
structure VideoMem where
  space : Str := none
  colour : Option (Nat × Option (Nat × MM)) := none
  proj : Option (Nat × Option Nat) := none

/-- `VideoTrack::~VideoTrack`, mkvparser/mkvparser.cc:5315-5319; the local pointers of `VideoTrack::Parse` own the same. -/
def VideoMem.destroy (x : VideoMem) (m : Mem) : Res Mem := do
  let m ← m.free (x.space.map (·.1))
  let m ← deleteObj destroyColour x.colour m
  deleteObj destroyProj x.proj m

/-- The loop of `VideoTrack::Parse`, mkvparser/mkvparser.cc:5354-5425: the status, and what the local pointers own.  `reset` deletes what a
pointer owned before. -/
def parseVideoParts (can : Nat → Bool) : List VideoPart → VideoMem → Mem → Res (Int × VideoMem × Mem)
  | [], x, m => .ok (0, x, m)
  | .colour cs :: ps, x, m => do
    let (c, m) ← parseColour can cs m
    match c with
    | none => .ok (-2, x, m)
    | some c => do
      let m ← deleteObj destroyColour x.colour m
      parseVideoParts can ps { x with colour := some c } m
  | .projection cs :: ps, x, m => do
    let (c, m) ← parseProj can cs m
    match c with
    | none => .ok (-2, x, m)
    | some c => do
      let m ← deleteObj destroyProj x.proj m
      parseVideoParts can ps { x with proj := some c } m
  | .space s read :: ps, x, m => do
    let (status, s, m) ← Texts.unserializeString can s read none m
    if status < 0 then .ok (status, x, m)
    else do
      let m ← m.free (x.space.map (·.1))
      parseVideoParts can ps { x with space := s } m
  | .other :: ps, x, m => parseVideoParts can ps x m
  | .bad :: _, x, m => .ok (-2, x, m)

/-- The kinds of tracks: 1, 2, 33, and any other, mkvparser/mkvparser.cc:5943-6015. -/
inductive Kind where
  | video
  | audio
  | metadata
  | other
  deriving DecidableEq

/-- A child of a `TrackEntry` element.  For `Audio`: whether `AudioTrack::Parse` accepts its numbers,
mkvparser/mkvparser.cc:5577-5635. -/
inductive TrackPart where
  | text (f : Field) (s : Bytes) (read : Int)
  | priv (s : Bytes) (read : Int)
  | number (n : Nat)
  | kind (k : Kind)
  | video (ps : List VideoPart)
  | audio (ok : Bool)
  | encodings (es : List EncsPart)
  | other
  | bad

/-- The local variables of `Tracks::ParseTrackEntry`, mkvparser/mkvparser.cc:5771-5801. -/
structure Seen where
  info : InfoMem := {}
  number : Nat := 0
  kind : Option Kind := none
  video : Option (List VideoPart) := none
  audio : Option Bool := none
  enc : Option (List EncsPart) := none

/-- The loop of `Tracks::ParseTrackEntry`, mkvparser/mkvparser.cc:5801-5930. -/
def parseParts (can : Nat → Bool) : List TrackPart → Seen → Mem → Res (Int × Seen × Mem)
  | [], x, m => .ok (0, x, m)
  | .text f s read :: ps, x, m => do
    let (status, s, m) ← Texts.unserializeString can s read (x.info.get f) m
    if status ≠ 0 then .ok (status, { x with info := x.info.set s f }, m)
    else parseParts can ps { x with info := x.info.set s f } m
  | .priv s read :: ps, x, m => do
    let m ← m.free (x.info.priv.map (·.1))
    if s = [] then parseParts can ps { x with info := { x.info with priv := none } } m
    else
      match m.alloc can with
      | (none, m) => .ok (-1, { x with info := { x.info with priv := none } }, m)
      | (some a, m) =>
        if read ≠ 0 then do
          let m ← m.free (some a)
          .ok (read, { x with info := { x.info with priv := none } }, m)
        else parseParts can ps { x with info := { x.info with priv := some (a, s) } } m
  | .number n :: ps, x, m => parseParts can ps { x with number := n } m
  | .kind k :: ps, x, m => parseParts can ps { x with kind := some k } m
  | .video v :: ps, x, m => parseParts can ps { x with video := some v } m
  | .audio ok :: ps, x, m => parseParts can ps { x with audio := some ok } m
  | .encodings es :: ps, x, m => parseParts can ps { x with enc := some es } m
  | .other :: ps, x, m => parseParts can ps x m
  | .bad :: _, x, m => .ok (-2, x, m)

/-- `Track::Info::CopyStr`, mkvparser/mkvparser.cc:4553-4578, to a null pointer: what is before the first zero byte is copied. -/
def copyStr (can : Nat → Bool) (src : Str) (m : Mem) : Res (Bool × Str × Mem) :=
  match src with
  | none => .ok (true, none, m)
  | some (_, s) =>
    match m.alloc can with
    | (none, m) => .ok (false, none, m)
    | (some a, m) => .ok (true, some (a, s.takeWhile (· ≠ 0)), m)

/-- The copy of the codec private data, mkvparser/mkvparser.cc:4611-4628. -/
def copyPriv (can : Nat → Bool) (src : Str) (m : Mem) : Res (Bool × Str × Mem) :=
  match src with
  | none => .ok (true, none, m)
  | some (_, s) =>
    match m.alloc can with
    | (none, m) => .ok (false, none, m)
    | (some a, m) => .ok (true, some (a, s), m)

/-- `Track::Info::Copy`, mkvparser/mkvparser.cc:4580-4631, to the object of a new track. -/
def copyInfo (can : Nat → Bool) (x : InfoMem) (m : Mem) : Res (Bool × InfoMem × Mem) := do
  let (b, s1, m) ← copyStr can x.name m
  if !b then .ok (false, { name := s1 }, m)
  else do
    let (b, s2, m) ← copyStr can x.language m
    if !b then .ok (false, { name := s1, language := s2 }, m)
    else do
      let (b, s3, m) ← copyStr can x.codecId m
      if !b then .ok (false, { name := s1, language := s2, codecId := s3 }, m)
      else do
        let (b, s4, m) ← copyStr can x.codecName m
        if !b then .ok (false, { name := s1, language := s2, codecId := s3, codecName := s4 }, m)
        else do
          let (b, s5, m) ← copyPriv can x.priv m
          .ok (b, { name := s1, language := s2, codecId := s3, codecName := s4, priv := s5 }, m)

/-- `Track`, with what a `VideoTrack` has, mkvparser/mkvparser.cc:4474-4496, 5308-5319. -/
structure TrackObj where
  number : Nat
  info : InfoMem := {}
  video : VideoMem := {}
  enc : Ptrs Encoding := {}

/-- `Track::~Track`, mkvparser/mkvparser.cc:4483-4496, after `VideoTrack::~VideoTrack`, mkvparser/mkvparser.cc:5315-5319. -/
def TrackObj.destroy (x : TrackObj) (m : Mem) : Res Mem := do
  let m ← x.video.destroy m
  let m ← x.info.clear m
  x.enc.delete Encoding.destroy m

/-- A new track with a copy of the information: `Track::Create`, mkvparser/mkvparser.cc:4498-4518, and the end of `VideoTrack::Parse` and
`AudioTrack::Parse`, mkvparser/mkvparser.cc:5430-5455, 5637-5655.  If there is none, `video` is deleted, as its local owners do. -/
def newTrack (can : Nat → Bool) (number : Nat) (info : InfoMem) (video : VideoMem) (m : Mem) : Res (Option (Nat × TrackObj) × Mem) :=
  match m.alloc can with
  | (none, m) => do
    let m ← video.destroy m
    .ok (none, m)
  | (some a, m) => do
    let (b, i, m) ← copyInfo can info m
    if !b then do
      let m ← deleteObj TrackObj.destroy (some (a, { number := number, info := i })) m
      let m ← video.destroy m
      .ok (none, m)
    else .ok (some (a, { number := number, info := i, video := video }), m)

/-- `ParseContentEncodingsEntry` on a new track, if there is such an element; its answer is ignored, mkvparser/mkvparser.cc:5963-5964,
5985-5986. -/
def addEncodings (can : Nat → Bool) (enc : Option (List EncsPart)) (x : Option (Nat × TrackObj)) (m : Mem) :
    Res (Int × Option (Nat × TrackObj) × Mem) :=
  match x, enc with
  | none, _ => .ok (-1, none, m)
  | some x, none => .ok (0, some x, m)
  | some (a, x), some es => do
    let (_, e, m) ← parseEncodings can es m
    .ok (0, some (a, { x with enc := e }), m)

/-- The end of `Tracks::ParseTrackEntry`, mkvparser/mkvparser.cc:5932-6015.  `used` are the numbers of the tracks before. -/
def makeTrack (can : Nat → Bool) (used : List Nat) (x : Seen) (m : Mem) : Res (Int × Option (Nat × TrackObj) × Mem) :=
  if x.number = 0 ∨ x.number ∈ used then .ok (-2, none, m)
  else
    match x.kind with
    | none => .ok (-2, none, m)
    | some .video =>
      match x.video, x.audio with
      | some ps, none => do
        let (status, v, m) ← parseVideoParts can ps {} m
        if status ≠ 0 then do
          let m ← v.destroy m
          .ok (status, none, m)
        else do
          let (t, m) ← newTrack can x.number x.info v m
          addEncodings can x.enc t m
      | _, _ => .ok (-2, none, m)
    | some .audio =>
      match x.video, x.audio with
      | none, some ok =>
        if !ok then .ok (-2, none, m)
        else do
          let (t, m) ← newTrack can x.number x.info {} m
          addEncodings can x.enc t m
      | _, _ => .ok (-2, none, m)
    | some k =>
      if x.audio ≠ none ∨ x.video.isSome ∨ k = .metadata ∧ x.enc.isSome then .ok (-2, none, m)
      else do
        let (t, m) ← newTrack can x.number x.info {} m
        addEncodings can none t m

/-- `Tracks::ParseTrackEntry`, mkvparser/mkvparser.cc:5771-6015, with the destructor of its local `info`. -/
def parseEntry (can : Nat → Bool) (used : List Nat) (ps : List TrackPart) (m : Mem) : Res (Int × Option (Nat × TrackObj) × Mem) := do
  let (status, x, m) ← parseParts can ps {} m
  if status ≠ 0 then do
    let m ← x.info.clear m
    .ok (status, none, m)
  else do
    let (status, t, m) ← makeTrack can used x m
    let m ← x.info.clear m
    .ok (status, t, m)

/-- The second loop of `Tracks::Parse`, mkvparser/mkvparser.cc:5719-5759. -/
def parseEntries (can : Nat → Bool) : List (Part (List TrackPart)) → Ptrs TrackObj → Mem → Res (Int × Ptrs TrackObj × Mem)
  | [], x, m => .ok (0, x, m)
  | .child ps :: es, x, m => do
    let (status, t, m) ← parseEntry can (x.items.map (·.2.number)) ps m
    if status ≠ 0 then .ok (status, x, m)
    else
      match t with
      | none => parseEntries can es x m
      | some (a, t) => do
        let x ← x.push a t
        parseEntries can es x m
  | .other :: es, x, m => parseEntries can es x m
  | .bad :: _, x, m => .ok (-2, x, m)

/-- A `TrackEntry` element, counted in mkvparser/mkvparser.cc:5686-5707. -/
def isChild {P : Type} : Part P → Bool
  | .child _ => true
  | _ => false

/-- An element that cannot be parsed, mkvparser/mkvparser.cc:5686-5707. -/
def isBad {P : Type} : Part P → Bool
  | .bad => true
  | _ => false

/-- `Tracks::Parse`, mkvparser/mkvparser.cc:5674-5762.  Simplified: the limit of 2³¹ - 1 entries is left out. -/
def parseTracks (can : Nat → Bool) (es : List (Part (List TrackPart))) (m : Mem := {}) : Res (Int × Ptrs TrackObj × Mem) :=
  if es.any isBad then .ok (-2, {}, m)
  else if es.countP isChild = 0 then .ok (0, {}, m)
  else
    match newPtrs can (es.countP isChild) m with
    | (none, m) => .ok (-1, {}, m)
    | (some x, m) => parseEntries can es x m

/-- `Tracks::~Tracks`, mkvparser/mkvparser.cc:6017-6027. -/
def destroyTracks (x : Ptrs TrackObj) (m : Mem) : Res Mem := x.delete TrackObj.destroy m

end Verif.Par.TrackMem
