/-
The elements before the clusters (Tracks, Chapters, Tags) as trees of elements: for each object a
user sets up, which elements stand for it, in which order and with which contents; and which
objects can be written at all.  IDs are those of the Matroska/WebM specification.
-/
import Verif.Spec.Document
import Verif.Model.MuxerHeaders

namespace Verif.Spec
open Verif Verif.Mux

/-! ### Building trees -/

/-- One sequence of elements after another. -/
def Tree.append : Tree → Tree → Tree
  | .nil, u => u
  | .leaf id w p next, u => .leaf id w p (next.append u)
  | .node id w known kids next, u => .node id w known kids (next.append u)

/-- Several sequences of elements, one after the other. -/
def seq : List Tree → Tree
  | [] => .nil
  | t :: ts => t.append (seq ts)

/-- An element with the shortest size field. -/
def plain (id : Nat) (b : Bytes) : Tree := .leaf id (sizeWidth b.length) (.bytes b) .nil

/-- An element with children and the shortest size field. -/
def group (id : Nat) (kids : Tree) : Tree := .node id (sizeWidth kids.bytes.length) true kids .nil

/-- A number, on as few bytes as it needs. -/
def number (id : Nat) (v : UInt64) : Tree := plain id (beBytes (byteWidth v.toNat) v.toNat)

/-- A number that is left out if it is zero. -/
def numberIf (id : Nat) (v : UInt64) : Tree := if v = 0 then .nil else number id v

/-- A number that is left out if it has the value that means "not set". -/
def numberSet (id : Nat) (v : UInt64) : Tree := if v = 0xFFFFFFFFFFFFFFFF then .nil else number id v

/-- A floating-point number on four bytes. -/
def float (id : Nat) (v : UInt32) : Tree := plain id (beBytes 4 v.toNat)

/-- A string or binary data that may be absent. -/
def text (id : Nat) : Option Bytes → Tree
  | none => .nil
  | some b => plain id b

/-- An optional part. -/
def optional {α : Type} (f : α → Tree) : Option α → Tree
  | none => .nil
  | some a => f a

/-- One part for each member of a list. -/
def each {α : Type} (f : α → Tree) (xs : List α) : Tree := seq (xs.map f)

/-- A group that is left out if it would be empty. -/
def groupIf (id : Nat) : Tree → Tree
  | .nil => .nil
  | kids => group id kids

/-- The sizes are within what the muxer can write: no value of 4 GiB or more, no element with a size
beyond the eight-byte size field. -/
def Tree.Fits : Tree → Prop
  | .nil => True
  | .leaf _ _ p next => p.data.length < 2 ^ 32 ∧ next.Fits
  | .node _ _ _ kids next => kids.bytes.length + 1 < 2 ^ 56 ∧ kids.Fits ∧ next.Fits

/-! ### Tracks -/

/-- A ContentEncoding: order, scope, type, and the encryption with algorithm, key and cipher mode. -/
def encodingTree (e : ContentEncoding) : Tree :=
  group 0x6240 (seq [number 0x5031 e.order, number 0x5032 e.scope, number 0x5033 e.type,
    group 0x5035 (seq [number 0x47E1 e.encAlgo, text 0x47E2 e.keyId,
      group 0x47E7 (number 0x47E8 e.cipherMode)])])

/-- A chromaticity. -/
def chromaTree (xId yId : Nat) (c : Chromaticity) : Tree := seq [float xId c.x, float yId c.y]

/-- A luminance, absent if it is the largest float. -/
def luminance (id : Nat) (v : UInt32) : Tree := if v = 0x7F7FFFFF then .nil else float id v

/-- The mastering metadata of a display; nothing if none of it is set. -/
def masteringTree (m : MasteringMetadata) : Tree :=
  groupIf 0x55D0 (seq [luminance 0x55D9 m.luminanceMax, luminance 0x55DA m.luminanceMin,
    optional (chromaTree 0x55D1 0x55D2) m.r, optional (chromaTree 0x55D3 0x55D4) m.g,
    optional (chromaTree 0x55D5 0x55D6) m.b, optional (chromaTree 0x55D7 0x55D8) m.whitePoint])

/-- The colour of a video; nothing if none of it is set. -/
def colourTree (c : Colour) : Tree :=
  groupIf 0x55B0 (seq [numberSet 0x55B1 c.matrixCoefficients, numberSet 0x55B2 c.bitsPerChannel,
    numberSet 0x55B3 c.chromaSubsamplingHorz, numberSet 0x55B4 c.chromaSubsamplingVert,
    numberSet 0x55B5 c.cbSubsamplingHorz, numberSet 0x55B6 c.cbSubsamplingVert,
    numberSet 0x55B7 c.chromaSitingHorz, numberSet 0x55B8 c.chromaSitingVert,
    numberSet 0x55B9 c.range, numberSet 0x55BA c.transferCharacteristics,
    numberSet 0x55BB c.primaries, numberSet 0x55BC c.maxCll, numberSet 0x55BD c.maxFall,
    optional masteringTree c.mastering])

/-- A projection. -/
def projectionTree (p : Projection) : Tree :=
  group 0x7670 (seq [number 0x7671 p.type, text 0x7672 p.privateData, float 0x7673 p.yaw,
    float 0x7674 p.pitch, float 0x7675 p.roll])

/-- The Video element.  The size in pixels is the one given apart from the constructor's, if there is
one. -/
def videoTree (v : VideoPart) : Tree :=
  group 0xE0 (seq [number 0xB0 (if v.pixelWidth = 0 then v.width else v.pixelWidth),
    number 0xBA (if v.pixelHeight = 0 then v.height else v.pixelHeight),
    numberIf 0x54B0 v.displayWidth, numberIf 0x54BA v.displayHeight, numberIf 0x54CC v.cropLeft,
    numberIf 0x54DD v.cropRight, numberIf 0x54BB v.cropTop, numberIf 0x54AA v.cropBottom,
    numberIf 0x53B8 v.stereoMode, numberIf 0x53C0 v.alphaMode, text 0x2EB524 v.colourSpace,
    optional (float 0x2383E3) v.frameRate, optional colourTree v.colour,
    optional projectionTree v.projection])

/-- The Audio element. -/
def audioTree (a : AudioPart) : Tree :=
  group 0xE1 (seq [float 0xB5 a.sampleRate, number 0x9F a.channels, numberIf 0x6264 a.bitDepth])

/-- What a video or audio track has in addition. -/
def partTree : TrackPart → Tree
  | .plain => .nil
  | .video v => videoTree v
  | .audio a => audioTree a

/-- A track. -/
def trackTree (t : Track) : Tree :=
  group 0xAE (seq [number 0xD7 t.number, number 0x73C5 t.uid, number 0x83 t.type,
    numberIf 0x55EE t.maxBlockAdditionalId, numberIf 0x56AA t.codecDelay, numberIf 0x56BB t.seekPreRoll,
    numberIf 0x23E383 t.defaultDuration, text 0x86 t.codecId, text 0x63A2 t.codecPrivate,
    text 0x22B59C t.language, text 0x536E t.name, groupIf 0x6D80 (each encodingTree t.encodings),
    partTree t.part])

/-- The Tracks element. -/
def tracksTree (ts : List Track) : Tree := group 0x1654AE6B (each trackTree ts)

/-! ### Chapters and tags -/

/-- A title of a chapter in one language. -/
def displayTree (d : Display) : Tree :=
  group 0x80 (seq [text 0x85 d.title, text 0x437C d.language, text 0x437E d.country])

/-- A chapter. -/
def chapterTree (c : Chapter) : Tree :=
  group 0xB6 (seq [text 0x5654 c.id, number 0x73C4 c.uid, number 0x91 c.start, number 0x92 c.stop,
    each displayTree c.displays])

/-- The Chapters element, with one edition. -/
def chaptersTree (cs : List Chapter) : Tree := group 0x1043A770 (group 0x45B9 (each chapterTree cs))

/-- A simple tag. -/
def simpleTagTree (t : SimpleTag) : Tree := group 0x67C8 (seq [text 0x45A3 t.name, text 0x4487 t.string])

/-- The Tags element. -/
def tagsTree (ts : List Tag) : Tree := group 0x1254C367 (each (fun t => group 0x7373 (each simpleTagTree t)) ts)

/-! ### What can be written -/

/-- The value of a float that is not a NaN, in units of 2⁻¹⁴⁹ (for an infinity, the value one step beyond the
largest float). -/
def floatUnits (b : UInt32) : Int :=
  let exponent := b.toNat / 2 ^ 23 % 2 ^ 8
  let fraction := b.toNat % 2 ^ 23
  let size : Nat := if exponent = 0 then fraction else (2 ^ 23 + fraction) * 2 ^ (exponent - 1)
  if b.toNat < 2 ^ 31 then size else -size

/-- Not a number. -/
def IsNaN (b : UInt32) : Prop := b.toNat / 2 ^ 23 % 2 ^ 8 = 255 ∧ b.toNat % 2 ^ 23 ≠ 0

/-- A coordinate between 0 and 1. -/
def UnitFloat (b : UInt32) : Prop := ¬ IsNaN b ∧ 0 ≤ floatUnits b ∧ floatUnits b ≤ 2 ^ 149

/-- `a ≤ b` unless one of them is a NaN. -/
def FloatLe (a b : UInt32) : Prop := IsNaN a ∨ IsNaN b ∨ floatUnits a ≤ floatUnits b

/-- Mastering metadata the muxer accepts: coordinates between 0 and 1; a minimal luminance from 0 to 999.99, a
maximal one from 0 to 9999.99, not below the minimal one.  The largest float stands for a luminance that is
not set, *and counts as such in the comparison of the two*. -/
structure MasteringOk (m : MasteringMetadata) : Prop where
  low : m.luminanceMin ≠ 0x7F7FFFFF → FloatLe 0 m.luminanceMin ∧ FloatLe m.luminanceMin 0x4479FF5C
  high : m.luminanceMax ≠ 0x7F7FFFFF → FloatLe 0 m.luminanceMax ∧ FloatLe m.luminanceMax 0x461C3FF6
  order : FloatLe m.luminanceMin m.luminanceMax
  points : ∀ c, m.r = some c ∨ m.g = some c ∨ m.b = some c ∨ m.whitePoint = some c → UnitFloat c.x ∧ UnitFloat c.y

/-- Colour information the muxer accepts: the enumerated values are among those of the specification. -/
structure ColourOk (c : Colour) : Prop where
  matrix : c.matrixCoefficients ≠ 0xFFFFFFFFFFFFFFFF → c.matrixCoefficients.toNat ∈ List.range 11
  sitingHorz : c.chromaSitingHorz ≠ 0xFFFFFFFFFFFFFFFF → c.chromaSitingHorz.toNat ∈ [0, 1, 2]
  sitingVert : c.chromaSitingVert ≠ 0xFFFFFFFFFFFFFFFF → c.chromaSitingVert.toNat ∈ [0, 1, 2]
  range : c.range ≠ 0xFFFFFFFFFFFFFFFF → c.range.toNat ∈ [0, 1, 2, 3]
  transfer : c.transferCharacteristics ≠ 0xFFFFFFFFFFFFFFFF →
    1 ≤ c.transferCharacteristics.toNat ∧ c.transferCharacteristics.toNat ≤ 18
  primaries : c.primaries ≠ 0xFFFFFFFFFFFFFFFF → c.primaries.toNat ∈ 22 :: List.range 11
  mastering : ∀ m, c.mastering = some m → MasteringOk m

/-- A track that can be written: it has a type and a codec; an AV1 track has private data; every encryption
has a key; the colour of a video is acceptable. -/
structure TrackOk (t : Track) : Prop where
  type : t.type ≠ 0
  codec : t.codecId ≠ none
  av1 : t.codecId = some [0x56, 0x5F, 0x41, 0x56, 0x31] → t.codecPrivate ≠ none
  keys : ∀ e ∈ t.encodings, e.keyId ≠ none
  colour : ∀ v c, t.part = .video v → v.colour = some c → ColourOk c

/-- Binary data is never set to nothing at all; the setters see to it. -/
structure TrackSet (t : Track) : Prop where
  codecPrivate : t.codecPrivate ≠ some []
  keys : ∀ e ∈ t.encodings, e.keyId ≠ some []
  projection : ∀ v p, t.part = .video v → v.projection = some p → p.privateData ≠ some []

/-- A chapter that can be written: it has an identifier, and every display a title. -/
def ChapterOk (c : Chapter) : Prop := c.id ≠ none ∧ ∀ d ∈ c.displays, d.title ≠ none

/-- A tag that can be written: its simple tags have names and values. -/
def TagOk (t : Tag) : Prop := ∀ s ∈ t, s.name ≠ none ∧ s.string ≠ none

/-- `w` never succeeds, whatever the output does. -/
def NeverWrites (w : W Unit) : Prop := ∀ s s', w s ≠ (.ok (), s')

end Verif.Spec
