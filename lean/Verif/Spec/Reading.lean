/-
What an application that opens a file with mkvparser should see of the tracks that were set up in the
muxer, and which settings lie within what mkvparser reads.
-/
import Verif.Spec.Headers
import Verif.Spec.FileTree
import Verif.Model.ParserChapters

namespace Verif.Spec
open Verif Verif.Mux Verif.Par

/-! ### What should be seen -/

/-- A number of the colour description; `LLONG_MAX` stands for one that was not set. -/
def seenNumber (v : UInt64) : Int := if v = 0xFFFFFFFFFFFFFFFF then 2 ^ 63 - 1 else v.toNat

/-- A chromaticity. -/
def seenChroma (c : Chromaticity) : ReadChroma := ⟨c.x.toNat, c.y.toNat⟩

/-- Mastering metadata: all of it. -/
def seenMastering (m : MasteringMetadata) : ReadMastering where
  r := m.r.map seenChroma
  g := m.g.map seenChroma
  b := m.b.map seenChroma
  whitePoint := m.whitePoint.map seenChroma
  luminanceMax := m.luminanceMax.toNat
  luminanceMin := m.luminanceMin.toNat

/-- The colour: all of it, except that mastering metadata with nothing set is none. -/
def seenColour (c : Colour) : ReadColour where
  matrixCoefficients := seenNumber c.matrixCoefficients
  bitsPerChannel := seenNumber c.bitsPerChannel
  chromaSubsamplingHorz := seenNumber c.chromaSubsamplingHorz
  chromaSubsamplingVert := seenNumber c.chromaSubsamplingVert
  cbSubsamplingHorz := seenNumber c.cbSubsamplingHorz
  cbSubsamplingVert := seenNumber c.cbSubsamplingVert
  chromaSitingHorz := seenNumber c.chromaSitingHorz
  chromaSitingVert := seenNumber c.chromaSitingVert
  range := seenNumber c.range
  transferCharacteristics := seenNumber c.transferCharacteristics
  primaries := seenNumber c.primaries
  maxCll := seenNumber c.maxCll
  maxFall := seenNumber c.maxFall
  mastering := c.mastering.bind fun m => if m = {} then none else some (seenMastering m)

/-- A projection. -/
def seenProjection (p : Projection) : ReadProjection where
  type := p.type.toNat
  privateData := p.privateData
  yaw := p.yaw.toNat
  pitch := p.pitch.toNat
  roll := p.roll.toNat

/-- A video.  The size in pixels is the one given apart from the constructor's, if there is one; a colour
with nothing set is none.  (Cropping and alpha mode are not read.) -/
def seenVideo (v : VideoPart) : ReadVideo where
  width := (if v.pixelWidth = 0 then v.width else v.pixelWidth).toNat
  height := (if v.pixelHeight = 0 then v.height else v.pixelHeight).toNat
  displayWidth := v.displayWidth.toNat
  displayHeight := v.displayHeight.toNat
  displayUnit := 0
  stereoMode := v.stereoMode.toNat
  rate := match v.frameRate with
    | none => (0, 8)
    | some b => (b.toNat, 4)
  colourSpace := v.colourSpace
  colour := v.colour.bind fun c =>
    if seenColour c = {} then none else some (seenColour c)
  projection := v.projection.map seenProjection

/-- Audio. -/
def seenAudio (a : AudioPart) : ReadAudio where
  rate := (a.sampleRate.toNat, 4)
  channels := a.channels.toNat
  bitDepth := a.bitDepth.toNat

/-- What a video or audio track has in addition. -/
def seenPart : TrackPart → ReadPart
  | .plain => .plain
  | .video v => .video (seenVideo v)
  | .audio a => .audio (seenAudio a)

/-- A content encoding: one encryption. -/
def seenEncoding (e : ContentEncoding) : ReadEncoding where
  order := e.order.toNat
  scope := e.scope.toNat
  type := e.type.toNat
  compressions := []
  encryptions := [{ algo := e.encAlgo.toNat, keyId := e.keyId, cipherMode := e.cipherMode.toNat }]

/-- A track.  The encodings of tracks that are neither video nor audio are not read; lacing is always said
to be possible. -/
def seenTrack (t : Mux.Track) : ReadTrack where
  info := { type := t.type.toNat, number := t.number.toNat, uid := t.uid.toNat,
            defaultDuration := t.defaultDuration.toNat, codecDelay := t.codecDelay.toNat,
            seekPreRoll := t.seekPreRoll.toNat, name := t.name, language := t.language, codecId := t.codecId,
            codecName := none, codecPrivate := t.codecPrivate, lacing := true }
  part := seenPart t.part
  encodings := if t.part = .plain then [] else t.encodings.map seenEncoding

/-- The segment information.  The duration is the float that was written. -/
def seenInfo (scale : Nat) (duration : Option UInt32) (muxing writing : Bytes) : ReadInfo where
  timecodeScale := scale
  duration := duration.map fun d => (d.toNat, 4)
  muxingApp := some muxing
  writingApp := some writing

/-- A string that is read only if there is something in it. -/
def seenText (s : Option Bytes) : Option Bytes := if s = some [] then none else s

/-- A title of a chapter. -/
def seenDisplay (d : Mux.Display) : ReadDisplay where
  string := seenText d.title
  language := seenText d.language
  country := seenText d.country

/-- A chapter; times are in units of the timecode scale. -/
def seenChapter (c : Mux.Chapter) : ReadAtom where
  stringUid := seenText c.id
  uid := c.uid.toNat
  start := c.start.toNat
  stop := c.stop.toNat
  displays := c.displays.map seenDisplay

/-- All chapters, in one edition. -/
def seenChapters (cs : List Mux.Chapter) : List (List ReadAtom) := if cs = [] then [] else [cs.map seenChapter]

/-- A tag: its names and values. -/
def seenTag (t : Mux.Tag) : List ReadSimpleTag := t.map fun s => ⟨seenText s.name, seenText s.string⟩

/-- All tags, without those that have no names and values. -/
def seenTags (ts : List Mux.Tag) : List (List ReadSimpleTag) := (ts.filter (· ≠ [])).map seenTag

/-! ### What is within the limits of mkvparser -/

/-- Neither a NaN nor an infinity. -/
def Finite (b : UInt32) : Prop := b.toNat / 2 ^ 23 % 2 ^ 8 ≠ 255

/-- Not a positive denormal number: mkvparser refuses those. -/
def NotTiny (b : UInt32) : Prop := floatUnits b ≤ 0 ∨ 2 ^ 23 ≤ floatUnits b

/-- A string: no NUL in it, at most 20,000,000 bytes. -/
def ReadableText (s : Option Bytes) : Prop := ∀ b, s = some b → b.length ≤ 20000000 ∧ 0 ∉ b

/-- Binary data: something, and not more than 2 GiB. -/
def ReadableData (s : Option Bytes) : Prop := ∀ b, s = some b → 0 < b.length ∧ b.length ≤ 0x80000000

/-- Coordinates between 0 and 1. -/
def ReadableChroma (c : Option Chromaticity) : Prop :=
  ∀ p, c = some p → (UnitFloat p.x ∧ NotTiny p.x) ∧ UnitFloat p.y ∧ NotTiny p.y

/-- A luminance that is not set, or is between 0 and `max` (in units of 2⁻¹⁴⁹). -/
def ReadableLuminance (v : UInt32) (max : Int) : Prop :=
  v ≠ 0x7F7FFFFF → Finite v ∧ NotTiny v ∧ 0 ≤ floatUnits v ∧ floatUnits v ≤ max

/-- Mastering metadata.  The largest floats below 9999.99 and 999.9999 are 0x461C3FF5 and 0x4479FFFE. -/
structure ReadableMastering (m : MasteringMetadata) : Prop where
  max : ReadableLuminance m.luminanceMax (floatUnits 0x461C3FF5)
  min : ReadableLuminance m.luminanceMin (floatUnits 0x4479FFFE)
  r : ReadableChroma m.r
  g : ReadableChroma m.g
  b : ReadableChroma m.b
  whitePoint : ReadableChroma m.whitePoint

/-- A number of the colour description that is not set or below 2⁶³ - 1. -/
def ReadableNumber (v : UInt64) : Prop := v = 0xFFFFFFFFFFFFFFFF ∨ v.toNat < 2 ^ 63 - 1

/-- A colour. -/
structure ReadableColour (c : Colour) : Prop where
  numbers : ∀ v ∈ [c.matrixCoefficients, c.bitsPerChannel, c.chromaSubsamplingHorz, c.chromaSubsamplingVert,
    c.cbSubsamplingHorz, c.cbSubsamplingVert, c.chromaSitingHorz, c.chromaSitingVert, c.range,
    c.transferCharacteristics, c.primaries, c.maxCll, c.maxFall], ReadableNumber v
  mastering : ∀ m, c.mastering = some m → ReadableMastering m

/-- A projection. -/
structure ReadableProjection (p : Projection) : Prop where
  type : p.type.toNat < 2 ^ 63
  data : ReadableData p.privateData
  floats : ∀ f ∈ [p.yaw, p.pitch, p.roll], Finite f ∧ NotTiny f

/-- A video: its size is at least one by one. -/
structure ReadableVideo (v : VideoPart) : Prop where
  width : 0 < (if v.pixelWidth = 0 then v.width else v.pixelWidth).toNat ∧
    (if v.pixelWidth = 0 then v.width else v.pixelWidth).toNat < 2 ^ 63
  height : 0 < (if v.pixelHeight = 0 then v.height else v.pixelHeight).toNat ∧
    (if v.pixelHeight = 0 then v.height else v.pixelHeight).toNat < 2 ^ 63
  display : v.displayWidth.toNat < 2 ^ 63 ∧ v.displayHeight.toNat < 2 ^ 63 ∧ v.stereoMode.toNat < 2 ^ 63
  rate : ∀ b, v.frameRate = some b → Finite b ∧ 0 < floatUnits b
  colourSpace : ReadableText v.colourSpace
  colour : ∀ c, v.colour = some c → ReadableColour c
  projection : ∀ p, v.projection = some p → ReadableProjection p

/-- Audio: the rate is positive, there is at least one channel. -/
structure ReadableAudio (a : AudioPart) : Prop where
  rate : Finite a.sampleRate ∧ 0 < floatUnits a.sampleRate
  channels : 0 < a.channels.toNat ∧ a.channels.toNat < 2 ^ 63
  depth : a.bitDepth.toNat < 2 ^ 63

/-- A content encoding: AES in counter mode, with a key. -/
structure ReadableEncoding (e : ContentEncoding) : Prop where
  scope : 0 < e.scope.toNat
  algo : e.encAlgo = 5
  mode : e.cipherMode = 1
  key : ReadableData e.keyId

/-- The type of a track is that of its class; tracks of metadata are not encoded. -/
def KindFits (t : Mux.Track) : Prop :=
  match t.part with
  | .video v => t.type = 1 ∧ ReadableVideo v
  | .audio a => t.type = 2 ∧ ReadableAudio a
  | .plain => t.type ≠ 1 ∧ t.type ≠ 2 ∧ (t.type = 0x21 → t.encodings = [])

/-- A track. -/
structure ReadableTrack (t : Mux.Track) : Prop where
  number : 1 ≤ t.number.toNat ∧ t.number.toNat ≤ 127
  type : 1 ≤ t.type.toNat ∧ t.type.toNat ≤ 254
  duration : t.defaultDuration.toNat < 2 ^ 63
  codecId : ReadableText t.codecId
  language : ReadableText t.language
  name : ReadableText t.name
  codecPrivate : ReadableData t.codecPrivate
  encodings : ∀ e ∈ t.encodings, ReadableEncoding e
  kind : KindFits t

/-- Segment information: ticks of at most 2²⁹ nanoseconds; names up to the limit; the duration not negative and less
than 2⁶³ nanoseconds. -/
structure ReadableInfo (scale : Nat) (duration : Option UInt32) (muxing writing : Bytes) : Prop where
  ticks : 1 ≤ scale ∧ scale ≤ 2 ^ 29
  muxing : muxing.length ≤ 20000000
  writing : writing.length ≤ 20000000
  duration : ∀ d, duration = some d → Finite d ∧ 0 ≤ floatUnits d ∧ floatUnits d * scale < 2 ^ 63 * 2 ^ 149

/-- A number whose highest byte, on as few bytes as it needs, has its highest bit clear; or one that needs eight
bytes. -/
def ReadsUnsigned (v : UInt64) : Prop := v.toNat < 2 ^ (8 * byteWidth v.toNat - 1) ∨ 2 ^ 56 ≤ v.toNat

/-- A string below the limit of length. -/
def ShortText (s : Option Bytes) : Prop := ∀ b, s = some b → b.length ≤ 20000000

/-- A chapter. -/
structure ReadableChapter (c : Mux.Chapter) : Prop where
  id : ShortText c.id
  times : c.start.toNat < 2 ^ 63 ∧ c.stop.toNat < 2 ^ 63
  displays : ∀ d ∈ c.displays, ShortText d.title ∧ ShortText d.language ∧ ShortText d.country

/-- A tag. -/
def ReadableTag (t : Mux.Tag) : Prop := ∀ s ∈ t, ShortText s.name ∧ ShortText s.string

/-! ### What it means to be read -/

/-- Wherever the bytes `bs` stand in a file, mkvparser finds there an element with this ID that takes up all of `bs`,
and `read` gives `x` for its payload. -/
def ReadAs {α : Type} (read : Rdr → Nat → Nat → Res α) (id : Nat) (bs : Bytes) (x : α) : Prop :=
  ∀ (r : Rdr) (p stop : Nat), At r.data p bs → p + bs.length ≤ stop → stop ≤ 2 ^ 63 - 1 →
    ∃ h, parseElementHeader r p stop = .ok h ∧ h.id = id ∧ h.pos + h.size = p + bs.length ∧ read r h.pos h.size = .ok x

end Verif.Spec
