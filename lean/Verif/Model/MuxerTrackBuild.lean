/-
The memory of a track of the muxer: its strings, private data, colour, projection and content encodings, and its destruction.

As in `MuxerBuild`, the memory only knows which allocations are live; what is in them is kept with the pointers to them.  The lengths
`codec_private_length_`, `enc_key_id_length_` and `private_data_length_` are those of the data kept with the pointer: after a failed
allocation the member keeps its old value, but nothing looks at it while the pointer is
null (mkvmuxer/mkvmuxer.cc:729, 803, 861, mkvmuxer/mkvmuxerutil.cc:297, 519).
-/
import Verif.Model.MuxerBuild

namespace Verif.Mux.Build
open Verif

/-- `Track::set_codec_id`, `Track::set_language`, `Track::set_name` and `VideoTrack::set_colour_space`,
mkvmuxer/mkvmuxer.cc:921-932, 935-946, 948-959, 1553-1564. -/
def setStr (can : Nat → Bool) (src : Option Bytes) (dst : Str) (m : Mem) : Res (Str × Mem) :=
  match src with
  | none => .ok (dst, m)
  | some b => do
    let m ← m.free (dst.map (·.1))
    match m.alloc can with
    | (none, m) => .ok (none, m)
    | (some a, m) => .ok (some (a, b), m)

/-- `Track::SetCodecPrivate` and `ContentEncoding::SetEncryptionID`, mkvmuxer/mkvmuxer.cc:904-919, 543-558. -/
def setBytes (can : Nat → Bool) (src : Option Bytes) (dst : Str) (m : Mem) : Res (Bool × Str × Mem) :=
  match src with
  | none => .ok (false, dst, m)
  | some b =>
    if b.length < 1 then .ok (false, dst, m)
    else do
      let m ← m.free (dst.map (·.1))
      match m.alloc can with
      | (none, m) => .ok (false, none, m)
      | (some a, m) => .ok (true, some (a, b), m)

/-- `MasteringMetadata` with the objects it owns, mkvmuxer/mkvmuxer.h:432-437. -/
structure HeapMM where
  luminanceMax : UInt32 := kLuminanceNotPresent
  luminanceMin : UInt32 := kLuminanceNotPresent
  r : Option (Nat × Chromaticity) := none
  g : Option (Nat × Chromaticity) := none
  b : Option (Nat × Chromaticity) := none
  whitePoint : Option (Nat × Chromaticity) := none

/-- `if (r) { if (!CopyChromaticity(r, &r_ptr)) return false; }`, mkvmuxer/mkvmuxer.cc:74-84, 1059-1062: `CopyChromaticity` tests the
address of the `unique_ptr`, so it does not notice that there was no memory. -/
def copyChromaticity (can : Nat → Bool) (c : Option Chromaticity) (m : Mem) : Option (Nat × Chromaticity) × Mem :=
  match c with
  | none => (none, m)
  | some c =>
    match m.alloc can with
    | (none, m) => (none, m)
    | (some a, m) => (some (a, c), m)

/-- `MasteringMetadata::SetChromaticity`, mkvmuxer/mkvmuxer.cc:1056-1085; it always answers `true`, and does not delete what was there. -/
def HeapMM.setChromaticity (can : Nat → Bool) (r g b w : Option Chromaticity) (x : HeapMM) (m : Mem) : HeapMM × Mem :=
  let (r, m) := copyChromaticity can r m
  let (g, m) := copyChromaticity can g m
  let (b, m) := copyChromaticity can b m
  let (w, m) := copyChromaticity can w m
  ({ x with r := r, g := g, b := b, whitePoint := w }, m)

/-- `MasteringMetadata::~MasteringMetadata`, mkvmuxer/mkvmuxer.h:397-402. -/
def HeapMM.destroy (x : HeapMM) (m : Mem) : Res Mem := do
  let m ← m.free (x.r.map (·.1))
  let m ← m.free (x.g.map (·.1))
  let m ← m.free (x.b.map (·.1))
  m.free (x.whitePoint.map (·.1))

/-- `delete` of a pointer to an object with a destructor: nothing for a null pointer. -/
def deleteObj {α : Type} (destroy : α → Mem → Res Mem) (p : Option (Nat × α)) (m : Mem) : Res Mem :=
  match p with
  | none => .ok m
  | some (a, x) => do
    let m ← destroy x m
    m.free (some a)

/-- `Colour`, mkvmuxer/mkvmuxer.h:586-600; the numbers are in `plain`, without its `mastering`. -/
structure HeapColour where
  plain : Colour := {}
  mastering : Option (Nat × HeapMM) := none

/-- `Colour::~Colour`, mkvmuxer/mkvmuxer.h:521. -/
def HeapColour.destroy (c : HeapColour) (m : Mem) : Res Mem := deleteObj HeapMM.destroy c.mastering m

/-- `Colour::SetMasteringMetadata`, mkvmuxer/mkvmuxer.cc:1239-1257. -/
def HeapColour.setMastering (can : Nat → Bool) (mm : MasteringMetadata) (c : HeapColour) (m : Mem) : Res (Bool × HeapColour × Mem) :=
  match m.alloc can with
  | (none, m) => .ok (false, c, m)
  | (some a, m) => do
    let (x, m) := HeapMM.setChromaticity can mm.r mm.g mm.b mm.whitePoint
      { luminanceMax := mm.luminanceMax, luminanceMin := mm.luminanceMin } m
    let m ← deleteObj HeapMM.destroy c.mastering m
    .ok (true, { c with mastering := some (a, x) }, m)

/-- `VideoTrack::SetColour`, mkvmuxer/mkvmuxer.cc:1566-1592: a copy of `colour` in place of `old`; when it fails, the `unique_ptr` deletes
the copy. -/
def setColour (can : Nat → Bool) (colour : Colour) (old : Option (Nat × HeapColour)) (m : Mem) :
    Res (Bool × Option (Nat × HeapColour) × Mem) :=
  match m.alloc can with
  | (none, m) => .ok (false, old, m)
  | (some a, m) => do
    let (ok, c, m) ← match colour.mastering with
      | none => .ok (true, {}, m)
      | some mm => HeapColour.setMastering can mm {} m
    if !ok then do
      let m ← deleteObj HeapColour.destroy (some (a, c)) m
      .ok (false, old, m)
    else do
      let m ← deleteObj HeapColour.destroy old m
      .ok (true, some (a, { c with plain := { colour with mastering := none } }), m)

/-- `Projection`, mkvmuxer/mkvmuxer.h:645-650; the numbers are in `plain`, without its `privateData`. -/
structure HeapProjection where
  plain : Projection := {}
  data : Str := none

/-- `Projection::~Projection`, mkvmuxer/mkvmuxer.h:622. -/
def HeapProjection.destroy (p : HeapProjection) (m : Mem) : Res Mem := m.free (p.data.map (·.1))

/-- `Projection::SetProjectionPrivate`, mkvmuxer/mkvmuxer.cc:1368-1390. -/
def HeapProjection.setPrivate (can : Nat → Bool) (b : Bytes) (p : HeapProjection) (m : Mem) : Res (Bool × HeapProjection × Mem) :=
  if b.length = 0 then .ok (false, p, m)
  else
    match m.alloc can with
    | (none, m) => .ok (false, p, m)
    | (some a, m) => do
      let m ← m.free (p.data.map (·.1))
      .ok (true, { p with data := some (a, b) }, m)

/-- `VideoTrack::SetProjection`, mkvmuxer/mkvmuxer.cc:1594-1613. -/
def setProjection (can : Nat → Bool) (projection : Projection) (old : Option (Nat × HeapProjection)) (m : Mem) :
    Res (Bool × Option (Nat × HeapProjection) × Mem) :=
  match m.alloc can with
  | (none, m) => .ok (false, old, m)
  | (some a, m) => do
    let (ok, p, m) ← match projection.privateData with
      | none => .ok (true, {}, m)
      | some b => HeapProjection.setPrivate can b {} m
    if !ok then do
      let m ← deleteObj HeapProjection.destroy (some (a, p)) m
      .ok (false, old, m)
    else do
      let m ← deleteObj HeapProjection.destroy old m
      .ok (true, some (a, { p with plain := { projection with privateData := none } }), m)

/-- `content_encoding_entries_` with its `content_encoding_entries_size_` pointers, mkvmuxer/mkvmuxer.h:732-735; of each encoding the
`enc_key_id_`. -/
structure Encodings where
  addr : Option Nat := none
  items : List (Nat × Str) := []

/-- `Track::AddContentEncoding`, mkvmuxer/mkvmuxer.cc:685-710. -/
def Encodings.add (can : Nat → Bool) (e : Encodings) (m : Mem) : Res (Bool × Encodings × Mem) :=
  match m.alloc can with
  | (none, m) => .ok (false, e, m)
  | (some arr, m) =>
    match m.alloc can with
    | (none, m) => do
      let m ← m.free (some arr)
      .ok (false, e, m)
    | (some a, m) => do
      let m ← m.free e.addr
      .ok (true, { addr := some arr, items := e.items ++ [(a, none)] }, m)

/-- `GetContentEncodingByIndex(i)->SetEncryptionID`, mkvmuxer/mkvmuxer.cc:712-720, 543-558, by an application that does not
use a null pointer; `false` stands for that. -/
def Encodings.setKey (can : Nat → Bool) (i : Nat) (b : Option Bytes) (e : Encodings) (m : Mem) : Res (Bool × Encodings × Mem) :=
  match e.items[i]? with
  | none => .ok (false, e, m)
  | some (a, s) => do
    let (ok, s, m) ← setBytes can b s m
    .ok (ok, { e with items := e.items.set i (a, s) }, m)

/-- The loop of `Track::~Track` with `ContentEncoding::~ContentEncoding`, mkvmuxer/mkvmuxer.cc:677-680, 541. -/
def destroyItems : List (Nat × Str) → Mem → Res Mem
  | [], m => .ok m
  | (a, s) :: es, m => do
    let m ← m.free (s.map (·.1))
    let m ← m.free (some a)
    destroyItems es m

/-- What a video track owns: the members of `Track` and `VideoTrack` that are pointers, mkvmuxer/mkvmuxer.h:716-735, 829-832.  (An audio
track has only those of `Track`.) -/
structure Owned where
  codecId : Str := none
  language : Str := none
  name : Str := none
  colourSpace : Str := none
  codecPrivate : Str := none
  colour : Option (Nat × HeapColour) := none
  projection : Option (Nat × HeapProjection) := none
  encodings : Encodings := {}

/-- The calls that change them. -/
inductive TrackCall where
  | codecId (s : Option Bytes)
  | language (s : Option Bytes)
  | name (s : Option Bytes)
  | colourSpace (s : Option Bytes)
  | codecPrivate (b : Option Bytes)
  | colour (c : Colour)
  | projection (p : Projection)
  | addEncoding
  | keyId (i : Nat) (b : Option Bytes)
  deriving DecidableEq

/-- One call, with its answer (`true` for the calls that return nothing). -/
def TrackCall.run (can : Nat → Bool) (t : Owned) (m : Mem) : TrackCall → Res (Bool × Owned × Mem)
  | .codecId s => do let (x, m) ← setStr can s t.codecId m; .ok (true, { t with codecId := x }, m)
  | .language s => do let (x, m) ← setStr can s t.language m; .ok (true, { t with language := x }, m)
  | .name s => do let (x, m) ← setStr can s t.name m; .ok (true, { t with name := x }, m)
  | .colourSpace s => do let (x, m) ← setStr can s t.colourSpace m; .ok (true, { t with colourSpace := x }, m)
  | .codecPrivate b => do let (ok, x, m) ← setBytes can b t.codecPrivate m; .ok (ok, { t with codecPrivate := x }, m)
  | .colour c => do let (ok, x, m) ← setColour can c t.colour m; .ok (ok, { t with colour := x }, m)
  | .projection p => do let (ok, x, m) ← setProjection can p t.projection m; .ok (ok, { t with projection := x }, m)
  | .addEncoding => do let (ok, x, m) ← t.encodings.add can m; .ok (ok, { t with encodings := x }, m)
  | .keyId i b => do let (ok, x, m) ← t.encodings.setKey can i b m; .ok (ok, { t with encodings := x }, m)

/-- A history of calls, with their answers. -/
def runTrack (can : Nat → Bool) : List TrackCall → Owned → Mem → Res (List Bool × Owned × Mem)
  | [], t, m => .ok ([], t, m)
  | c :: cs, t, m => do
    let (ok, t, m) ← c.run can t m
    let (oks, t, m) ← runTrack can cs t m
    .ok (ok :: oks, t, m)

/-- `VideoTrack::~VideoTrack` and then `Track::~Track`, mkvmuxer/mkvmuxer.cc:1431-1434, 670-683. -/
def Owned.destroy (t : Owned) (m : Mem) : Res Mem := do
  let m ← deleteObj HeapColour.destroy t.colour m
  let m ← deleteObj HeapProjection.destroy t.projection m
  let m ← m.free (t.codecId.map (·.1))
  let m ← m.free (t.codecPrivate.map (·.1))
  let m ← m.free (t.language.map (·.1))
  let m ← m.free (t.name.map (·.1))
  let m ← destroyItems t.encodings.items m
  m.free t.encodings.addr

end Verif.Mux.Build
