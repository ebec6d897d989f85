/-
Setting up a new file with the tracks and tags of another one: common/hdr_util.cc and the part of
mkvmuxer_sample.cc before the loop over the frames.

Not modelled: the options that change what is copied (`-switch_tracks`, sizes, projection, VP9 profile and level).
-/
import Verif.Model.ParserChapters
import Verif.Model.MuxerHeaders
import Verif.Model.MuxerTracks
import Verif.Model.Sample

namespace Verif.Sample
open Verif Verif.Par

/-! ### Colour -/

/-- `CopyPrimaryChromaticity`, common/hdr_util.cc:19-26; floats are patterns. -/
def copyChroma (c : ReadChroma) : Mux.Chromaticity := ⟨UInt32.ofNat c.x, UInt32.ofNat c.y⟩

/-- One luminance, common/hdr_util.cc:28-37: not set if it is `FLT_MAX`. -/
def copyLuminance (v : Nat) : UInt32 := if v ≠ 0x7F7FFFFF then UInt32.ofNat v else Mux.kLuminanceNotPresent

/-- `CopyMasteringMetadata`, common/hdr_util.cc:32-68, and `SetChromaticity`, mkvmuxer/mkvmuxer.cc:1056-1085. -/
def copyMastering (m : ReadMastering) : Mux.MasteringMetadata where
  luminanceMax := copyLuminance m.luminanceMax
  luminanceMin := copyLuminance m.luminanceMin
  r := m.r.map copyChroma
  g := m.g.map copyChroma
  b := m.b.map copyChroma
  whitePoint := m.whitePoint.map copyChroma

/-- One number of a colour, common/hdr_util.cc:70-72 and 79-112: not set if it is `LLONG_MAX`. -/
def copyNumber (v : Int) : UInt64 := if v ≠ llongMax then UInt64.ofNat (toU64 v) else Mux.kColourNotPresent

/-- `CopyColour`, common/hdr_util.cc:74-122, with `SetMasteringMetadata` and `SetColour`, mkvmuxer/mkvmuxer.cc:1239-1257 and
1566-1592, which copy every value. -/
def copyColour (c : ReadColour) : Mux.Colour where
  matrixCoefficients := copyNumber c.matrixCoefficients
  bitsPerChannel := copyNumber c.bitsPerChannel
  chromaSubsamplingHorz := copyNumber c.chromaSubsamplingHorz
  chromaSubsamplingVert := copyNumber c.chromaSubsamplingVert
  cbSubsamplingHorz := copyNumber c.cbSubsamplingHorz
  cbSubsamplingVert := copyNumber c.cbSubsamplingVert
  chromaSitingHorz := copyNumber c.chromaSitingHorz
  chromaSitingVert := copyNumber c.chromaSitingVert
  range := copyNumber c.range
  transferCharacteristics := copyNumber c.transferCharacteristics
  primaries := copyNumber c.primaries
  maxCll := copyNumber c.maxCll
  maxFall := copyNumber c.maxFall
  mastering := c.mastering.map copyMastering

/-- An angle, mkvmuxer_sample.cc:180-186: not set, which is zero, if it is `FLT_MAX`. -/
def copyPose (v : Nat) : UInt32 := if v ≠ 0x7F7FFFFF then UInt32.ofNat v else 0

/-- `CopyVideoProjection`, mkvmuxer_sample.cc:162-188, with `SetProjection`, mkvmuxer/mkvmuxer.cc:1594-1613.  Simplification: the
enumeration for the type holds every number. -/
def copyProjection (p : ReadProjection) : Mux.Projection where
  type := if p.type ≠ -1 then UInt64.ofNat (toU64 p.type) else 0
  privateData := p.privateData.bind fun b => if b.length > 0 then some b else none
  yaw := copyPose p.yaw
  pitch := copyPose p.pitch
  roll := copyPose p.roll

/-! ### Numbers -/

/-- `static_cast<int>` of a double: undefined if the number is not one of an `int`. -/
def truncInt (d : Dbl) : Res Int :=
  let n := d.units.tdiv (2 ^ 1074)
  if -2 ^ 31 ≤ n ∧ n < 2 ^ 31 then .ok n else .ub

/-- The pattern of the double that an `int` is converted to. -/
def dblOfInt (n : Int) : Dbl :=
  if n = 0 then (0, 8)
  else
    let e := Nat.log2 n.natAbs
    ((if n < 0 then 2 ^ 63 else 0) + (1023 + e) * 2 ^ 52 + (n.natAbs * 2 ^ (52 - e) - 2 ^ 52), 8)

/-! ### Tracks -/

/-- The kind of a track with a type, `Tracks::kVideo` and `kAudio`, mkvmuxer/mkvmuxer.h:873. -/
def kindOf (type : UInt64) : Mux.TrackKind := if type == 1 then .video else if type == 2 then .audio else .other

/-- The tracks added so far as the muxer's numbering sees them. -/
def numbering (ts : List Mux.Track) : Mux.Tracks :=
  { entries := ts.map fun t => { number := t.number.toNat, kind := kindOf t.type } }

/-- `AddVideoTrack` and `AddAudioTrack` with the number 0, mkvmuxer/mkvmuxer.cc:3374-3391 and 3417-3434 with 1749-1806; the new
track is the last. -/
def addNew (kind : Mux.TrackKind) (ts : List Mux.Track) (t : Mux.Track) : Res (List Mux.Track × Nat) :=
  match (numbering ts).request kind 0 with
  | (_, 0) => .err (-1)
  | (_, n + 1) => .ok (ts ++ [{ t with number := UInt64.ofNat (n + 1) }], n + 1)

/-- Where the tracks go: `muxer_segment`, `vid_track` and `aud_track`. -/
structure NewTracks where
  tracks : List Mux.Track := []
  video : Nat := 0
  audio : Nat := 0

/-- A C string that may be missing. -/
def textOf (s : Option Bytes) : Option Bytes := s.map cString

/-- The body of the loop for a video track, mkvmuxer_sample.cc:440-604, with `AddVideoTrack`, mkvmuxer/mkvmuxer.cc:3374-3391;
`uid` is what `MakeUID` gives.  A track without codec ID keeps the "V_VP8" of `AddVideoTrack`. -/
def copyVideoTrack (uid : UInt64) (i : ReadTrackInfo) (v : ReadVideo) (nt : NewTracks) : Res NewTracks := do
  let codec := (textOf i.codecId).getD "V_VP8".toUTF8.toList
  let priv := i.codecPrivate.bind fun b => if b.length > 0 then some b else none
  let part : Mux.VideoPart :=
    { width := UInt64.ofNat (toU64 (toI32 v.width)), height := UInt64.ofNat (toU64 (toI32 v.height)),
      colour := v.colour.map copyColour, projection := v.projection.map copyProjection,
      frameRate := if v.rate.units > 0 then some (UInt32.ofNat v.rate.toFloat) else none }
  let track : Mux.Track :=
    { uid := uid, type := 1, codecId := some codec, name := textOf i.name, codecPrivate := priv, part := .video part }
  let (ts, n) ← addNew .video nt.tracks track
  Res.refuse (codec = Mux.kAv1CodecId ∧ priv = none) (-1)
  .ok { nt with tracks := ts, video := n }

/-- The body of the loop for an audio track, mkvmuxer_sample.cc:605-652, with `AddAudioTrack`, mkvmuxer/mkvmuxer.cc:3417-3434. -/
def copyAudioTrack (uid : UInt64) (i : ReadTrackInfo) (a : ReadAudio) (nt : NewTracks) : Res NewTracks := do
  let rate ← truncInt a.rate
  let part : Mux.AudioPart :=
    { sampleRate := UInt32.ofNat (dblOfInt rate).toFloat, channels := UInt64.ofNat (toU64 (toI32 a.channels)),
      bitDepth := if a.bitDepth > 0 then UInt64.ofNat (toU64 a.bitDepth) else 0 }
  let codec := (textOf i.codecId).getD "A_VORBIS".toUTF8.toList
  let priv := i.codecPrivate.bind fun b => if b.length > 0 then some b else none
  let track : Mux.Track :=
    { uid := uid, type := 2, codecId := some codec, name := textOf i.name, codecPrivate := priv,
      codecDelay := UInt64.ofNat i.codecDelay, seekPreRoll := UInt64.ofNat i.seekPreRoll, part := .audio part }
  let (ts, n) ← addNew .audio nt.tracks track
  .ok { nt with tracks := ts, audio := n }

/-- The body of the loop over the tracks, mkvmuxer_sample.cc:425-652.  The class of a track goes with its type. -/
def copyTrack (video audio : Bool) (uid : UInt64) (t : ReadTrack) (nt : NewTracks) : Res NewTracks :=
  if t.info.type = 1 ∧ video then
    match t.part with
    | .video v => copyVideoTrack uid t.info v nt
    | _ => .ub
  else if t.info.type = 2 ∧ audio then
    match t.part with
    | .audio a => copyAudioTrack uid t.info a nt
    | _ => .ub
  else .ok nt

/-- The loop over the tracks, mkvmuxer_sample.cc:417-652; `uid n` is the UID of the `n`th track of the old file, should it be copied. -/
def copyTracks (video audio : Bool) (uid : Nat → UInt64) : (n : Nat) → List ReadTrack → NewTracks → Res NewTracks
  | _, [], nt => .ok nt
  | n, t :: ts, nt => do
    let nt ← copyTrack video audio (uid n) t nt
    copyTracks video audio uid (n + 1) ts nt

/-! ### Tags -/

/-- The tags, mkvmuxer_sample.cc:402-415 with `add_simple_tag`, mkvmuxer/mkvmuxer.cc:2219-2233; strings are C strings, a missing one
stays missing. -/
def copyTags (tags : List (List ReadSimpleTag)) : List Mux.Tag := tags.map fun t => t.map fun s => ⟨textOf s.name, textOf s.string⟩

end Verif.Sample
