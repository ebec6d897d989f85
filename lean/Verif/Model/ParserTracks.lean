/-
mkvparser's readers of Info and Tracks: `SegmentInfo::Parse`, `Tracks::Parse` with everything inside a
track (`VideoTrack`, `AudioTrack`, `Colour`, `MasteringMetadata`, `Projection`, `ContentEncoding`).

Simplifications: allocations that are not refused by `SafeArrayAlloc` succeed; the positions of elements
that the code keeps for its own use (`m_element_start`, `m_element_size`) are left out; counters compared
with `INT_MAX` do not reach it (a file with 2^31 elements of one kind).  An `unsigned long long` is a `Nat`
below 2^64, `long long` and `long` are `Int`.
-/
import Verif.Model.ParserWalk
import Verif.Model.MuxerHeaders

namespace Verif.Par
open Verif
open Verif.Mux (kMkvContentEncoding kMkvContentEncodings kMkvContentEncodingOrder kMkvContentEncodingScope
  kMkvContentEncodingType kMkvContentEncryption kMkvContentEncAlgo kMkvContentEncKeyID kMkvContentEncAESSettings
  kMkvAESSettingsCipherMode kMkvColour kMkvMatrixCoefficients kMkvBitsPerChannel kMkvChromaSubsamplingHorz
  kMkvChromaSubsamplingVert kMkvCbSubsamplingHorz kMkvCbSubsamplingVert kMkvChromaSitingHorz kMkvChromaSitingVert
  kMkvRange kMkvTransferCharacteristics kMkvPrimaries kMkvMaxCLL kMkvMaxFALL kMkvMasteringMetadata
  kMkvPrimaryRChromaticityX kMkvPrimaryRChromaticityY kMkvPrimaryGChromaticityX kMkvPrimaryGChromaticityY
  kMkvPrimaryBChromaticityX kMkvPrimaryBChromaticityY kMkvWhitePointChromaticityX kMkvWhitePointChromaticityY
  kMkvLuminanceMax kMkvLuminanceMin kMkvProjection kMkvProjectionType kMkvProjectionPrivate kMkvProjectionPoseYaw
  kMkvProjectionPosePitch kMkvProjectionPoseRoll kMkvTrackEntry kMkvTrackNumber kMkvTrackUID kMkvTrackType
  kMkvDefaultDuration kMkvName kMkvLanguage kMkvCodecID kMkvCodecPrivate kMkvCodecDelay kMkvSeekPreRoll kMkvVideo
  kMkvStereoMode kMkvPixelWidth kMkvPixelHeight kMkvDisplayWidth kMkvDisplayHeight kMkvColourSpace kMkvFrameRate
  kMkvAudio kMkvSamplingFrequency kMkvChannels kMkvBitDepth kMkvTimecodeScale kMkvDuration kMkvMuxingApp
  kMkvWritingApp)

/-- IDs that the muxer does not write, common/webmids.h:44, 71, 78, 94, 149-151 and 155-158. -/
def kMkvTitle : Nat := 0x7BA9
def kMkvFlagLacing : Nat := 0x9C
def kMkvCodecName : Nat := 0x258688
def kMkvDisplayUnit : Nat := 0x54B2
def kMkvContentCompression : Nat := 0x5034
def kMkvContentCompAlgo : Nat := 0x4254
def kMkvContentCompSettings : Nat := 0x4255
def kMkvContentSignature : Nat := 0x47E3
def kMkvContentSigKeyID : Nat := 0x47E4
def kMkvContentSigAlgo : Nat := 0x47E5
def kMkvContentSigHashAlgo : Nat := 0x47E6

/-- `x = UnserializeUInt(…);`: an error code is stored like a value. -/
def uintAt (r : Rdr) (h : Hdr) : Res Int :=
  match unserializeUInt r h.pos h.size with
  | .ok v => .ok v
  | .err c => .ok c
  | .ub => .ub

/-- The same where a failed read makes the caller return `E_FILE_FORMAT_INVALID` because the value is below
`least`. -/
def uintFrom (least : Int) (r : Rdr) (h : Hdr) : Res Int := do
  let v ← uintAt r h
  Res.refuse (v < least) E_FILE_FORMAT_INVALID
  .ok v

/-- `SafeArrayAlloc<unsigned char>(1, n)` gives memory, mkvparser/mkvparser.cc:39-53. -/
def canAlloc (n : Nat) : Bool := decide (0 < n ∧ n ≤ 0x80000000)

/-- Reading binary data into a new array; a failed allocation is `code`. -/
def binaryAt (r : Rdr) (h : Hdr) (code : Int) : Res Bytes :=
  if !canAlloc h.size then .err code
  else match r.read h.pos h.size with
    | .error status => .err status
    | .ok b => .ok b

/-! ### Doubles -/

/-- A double as `UnserializeFloat` leaves it: the bit pattern of a `float` (4) or of a `double` (8). -/
abbrev Dbl := Nat × Nat

/-- The number a finite pattern stands for, in units of 2⁻¹⁰⁷⁴. -/
def Dbl.units (d : Dbl) : Int :=
  let (p, e, top) := if d.2 = 4 then (23, 8, 2 ^ 31) else (52, 11, 2 ^ 63)
  let exponent := d.1 / 2 ^ p % 2 ^ e
  let fraction := d.1 % 2 ^ p
  let magnitude : Nat := if exponent = 0 then fraction else (2 ^ p + fraction) * 2 ^ (exponent - 1)
  let scaled : Nat := if d.2 = 4 then magnitude * 2 ^ 925 else magnitude
  if d.1 < top then scaled else -scaled

/-- 1.0, `FLT_MIN`, `FLT_MAX`, 9999.99 and 999.9999 in these units. -/
def one : Int := 2 ^ 1074
def fltMin : Int := 2 ^ 948
def fltMax : Int := (2 ^ 24 - 1) * 2 ^ 1178
def maxLuminance : Int := Dbl.units (0x40C387FEB851EB85, 8)
def maxLowLuminance : Int := Dbl.units (0x408F3FFFCB923A2A, 8)

/-- Division rounded to the nearest, ties to even. -/
def roundDiv (a b : Nat) : Nat :=
  if a % b * 2 < b ∨ (a % b * 2 = b ∧ a / b % 2 = 0) then a / b else a / b + 1

/-- `static_cast<float>(d)` for a value that does not overflow: the pattern of the float. -/
def Dbl.toFloat (d : Dbl) : Nat :=
  if d.2 = 4 then d.1
  else
    let u := d.units.natAbs
    let m := if u < 2 ^ 948 then roundDiv u (2 ^ 925)
      else (Nat.log2 u - 948) * 2 ^ 23 + roundDiv u (2 ^ (Nat.log2 u - 23))
    if d.1 < 2 ^ 63 then m else 2 ^ 31 + m

/-- The condition under which a value is refused before it is cast to `float`,
`value < -FLT_MAX || value > FLT_MAX || (value > 0.0 && value < FLT_MIN)`. -/
def Dbl.notFloat (d : Dbl) : Prop := d.units < -fltMax ∨ fltMax < d.units ∨ (0 < d.units ∧ d.units < fltMin)

instance (d : Dbl) : Decidable d.notFloat := by unfold Dbl.notFloat; infer_instance

/-- Rounding a nonnegative number to 53 significant bits, ties to even. -/
def round53 (n : Nat) : Nat :=
  if n < 2 ^ 53 then n else roundDiv n (2 ^ (Nat.log2 n - 52)) * 2 ^ (Nat.log2 n - 52)

/-- The product of a nonnegative double and a positive `long long` as the code computes it, in units of
2⁻¹⁰⁷⁴. -/
def Dbl.times (d : Dbl) (n : Int) : Nat := round53 (d.units.toNat * round53 n.toNat)

/-! ### Segment information -/

/-- `SegmentInfo`, mkvparser/mkvparser.h:798-828, as `Parse` leaves it.  `duration` is `none` for -1. -/
structure ReadInfo where
  timecodeScale : Int := 1000000
  duration : Option Dbl := none
  muxingApp : Option Bytes := none
  writingApp : Option Bytes := none
  title : Option Bytes := none
  deriving DecidableEq, Repr

/-- The body of the loop of `SegmentInfo::Parse`, mkvparser/mkvparser.cc:4000-4044. -/
def infoStep (r : Rdr) (_ : Nat) (h : Hdr) (i : ReadInfo) : Res ReadInfo :=
  if h.id = kMkvTimecodeScale then do
    let v ← uintFrom 1 r h
    .ok { i with timecodeScale := v }
  else if h.id = kMkvDuration then do
    let d ← unserializeFloat r h.pos h.size
    Res.refuse (Dbl.units d < 0) E_FILE_FORMAT_INVALID
    .ok { i with duration := some d }
  else if h.id = kMkvMuxingApp then do
    let s ← unserializeString r h.pos h.size
    .ok { i with muxingApp := some s }
  else if h.id = kMkvWritingApp then do
    let s ← unserializeString r h.pos h.size
    .ok { i with writingApp := some s }
  else if h.id = kMkvTitle then do
    let s ← unserializeString r h.pos h.size
    .ok { i with title := some s }
  else .ok i

/-- `SegmentInfo::Parse`, mkvparser/mkvparser.cc:3987-4054.  (With no duration the product is negative.)  The
comparison with `pos != stop` and the one with the product are in the other order in the code; both lead to the same
error. -/
def infoParse (r : Rdr) (start size : Nat) : Res ReadInfo := do
  let i ← walk r (start + size) (infoStep r) start {}
  match i.duration with
  | none => .ok i
  | some d => do
    Res.refuse (2 ^ 63 * 2 ^ 1074 < d.times i.timecodeScale) E_FILE_FORMAT_INVALID
    .ok i

/-- `SegmentInfo::GetDuration`, mkvparser/mkvparser.cc:4058-4068: nanoseconds, -1 if there is none.  The conversion of
a double of 2^63 or more to `long long` is undefined. -/
def ReadInfo.getDuration (i : ReadInfo) : Res Int :=
  match i.duration with
  | none => .ok (-1)
  | some d =>
    let ns : Nat := d.times i.timecodeScale / 2 ^ 1074
    if ns < 2 ^ 63 then .ok (ns : Nat) else .ub

/-! ### Colour -/

/-- `PrimaryChromaticity`, mkvparser/mkvparser.h:392-400. -/
structure ReadChroma where
  x : Nat := 0
  y : Nat := 0
  deriving DecidableEq, Repr

/-- `PrimaryChromaticity::Parse`, mkvparser/mkvparser.cc:5010-5038. -/
def chromaAt (r : Rdr) (h : Hdr) (isX : Bool) (c : Option ReadChroma) : Res (Option ReadChroma) := do
  let d ← (unserializeFloat r h.pos h.size).orErr E_FILE_FORMAT_INVALID
  Res.refuse (Dbl.units d < 0 ∨ one < Dbl.units d ∨ (0 < Dbl.units d ∧ Dbl.units d < fltMin)) E_FILE_FORMAT_INVALID
  let c := c.getD {}
  .ok (some (if isX then { c with x := Dbl.toFloat d } else { c with y := Dbl.toFloat d }))

/-- `MasteringMetadata`, mkvparser/mkvparser.h:402-429; floats are patterns, `FLT_MAX` means "not present". -/
structure ReadMastering where
  r : Option ReadChroma := none
  g : Option ReadChroma := none
  b : Option ReadChroma := none
  whitePoint : Option ReadChroma := none
  luminanceMax : Nat := 0x7F7FFFFF
  luminanceMin : Nat := 0x7F7FFFFF
  deriving DecidableEq, Repr

/-- A luminance, mkvparser/mkvparser.cc:5062-5087. -/
def luminanceAt (r : Rdr) (h : Hdr) (max : Int) : Res Nat := do
  let d ← (unserializeFloat r h.pos h.size).orErr E_FILE_FORMAT_INVALID
  Res.refuse (Dbl.notFloat d) E_FILE_FORMAT_INVALID
  let f := Dbl.toFloat d
  Res.refuse (Dbl.units (f, 4) < 0 ∨ max < Dbl.units (f, 4)) E_FILE_FORMAT_INVALID
  .ok f

/-- The body of the loop of `MasteringMetadata::Parse`, mkvparser/mkvparser.cc:5053-5124 (`false` is an error
of the track). -/
def masteringStep (r : Rdr) (_ : Nat) (h : Hdr) (m : ReadMastering) : Res ReadMastering :=
  if h.id = kMkvLuminanceMax then do
    let f ← luminanceAt r h maxLuminance
    .ok { m with luminanceMax := f }
  else if h.id = kMkvLuminanceMin then do
    let f ← luminanceAt r h maxLowLuminance
    .ok { m with luminanceMin := f }
  else if h.id = kMkvPrimaryRChromaticityX ∨ h.id = kMkvPrimaryRChromaticityY then do
    let c ← chromaAt r h (h.id = kMkvPrimaryRChromaticityX) m.r
    .ok { m with r := c }
  else if h.id = kMkvPrimaryGChromaticityX ∨ h.id = kMkvPrimaryGChromaticityY then do
    let c ← chromaAt r h (h.id = kMkvPrimaryGChromaticityX) m.g
    .ok { m with g := c }
  else if h.id = kMkvPrimaryBChromaticityX ∨ h.id = kMkvPrimaryBChromaticityY then do
    let c ← chromaAt r h (h.id = kMkvPrimaryBChromaticityX) m.b
    .ok { m with b := c }
  else if h.id = kMkvWhitePointChromaticityX ∨ h.id = kMkvWhitePointChromaticityY then do
    let c ← chromaAt r h (h.id = kMkvWhitePointChromaticityX) m.whitePoint
    .ok { m with whitePoint := c }
  else .err E_FILE_FORMAT_INVALID

/-- `MasteringMetadata::Parse`, mkvparser/mkvparser.cc:5040-5128. -/
def masteringParse (r : Rdr) (start size : Nat) : Res ReadMastering :=
  (walk r (start + size) (masteringStep r) start {}).orErr E_FILE_FORMAT_INVALID

/-- `Colour`, mkvparser/mkvparser.h:431-474; `LLONG_MAX` means "not present". -/
structure ReadColour where
  matrixCoefficients : Int := llongMax
  bitsPerChannel : Int := llongMax
  chromaSubsamplingHorz : Int := llongMax
  chromaSubsamplingVert : Int := llongMax
  cbSubsamplingHorz : Int := llongMax
  cbSubsamplingVert : Int := llongMax
  chromaSitingHorz : Int := llongMax
  chromaSitingVert : Int := llongMax
  range : Int := llongMax
  transferCharacteristics : Int := llongMax
  primaries : Int := llongMax
  maxCll : Int := llongMax
  maxFall : Int := llongMax
  mastering : Option ReadMastering := none
  deriving DecidableEq, Repr

/-- The body of the loop of `Colour::Parse`, mkvparser/mkvparser.cc:5142-5223.  A second MasteringMetadata
is refused by `MasteringMetadata::Parse` (mkvparser/mkvparser.cc:5042). -/
def colourStep (r : Rdr) (_ : Nat) (h : Hdr) (c : ReadColour) : Res ReadColour :=
  if h.id = kMkvMatrixCoefficients then do
    let v ← uintFrom 0 r h
    .ok { c with matrixCoefficients := v }
  else if h.id = kMkvBitsPerChannel then do
    let v ← uintFrom 0 r h
    .ok { c with bitsPerChannel := v }
  else if h.id = kMkvChromaSubsamplingHorz then do
    let v ← uintFrom 0 r h
    .ok { c with chromaSubsamplingHorz := v }
  else if h.id = kMkvChromaSubsamplingVert then do
    let v ← uintFrom 0 r h
    .ok { c with chromaSubsamplingVert := v }
  else if h.id = kMkvCbSubsamplingHorz then do
    let v ← uintFrom 0 r h
    .ok { c with cbSubsamplingHorz := v }
  else if h.id = kMkvCbSubsamplingVert then do
    let v ← uintFrom 0 r h
    .ok { c with cbSubsamplingVert := v }
  else if h.id = kMkvChromaSitingHorz then do
    let v ← uintFrom 0 r h
    .ok { c with chromaSitingHorz := v }
  else if h.id = kMkvChromaSitingVert then do
    let v ← uintFrom 0 r h
    .ok { c with chromaSitingVert := v }
  else if h.id = kMkvRange then do
    let v ← uintFrom 0 r h
    .ok { c with range := v }
  else if h.id = kMkvTransferCharacteristics then do
    let v ← uintFrom 0 r h
    .ok { c with transferCharacteristics := v }
  else if h.id = kMkvPrimaries then do
    let v ← uintFrom 0 r h
    .ok { c with primaries := v }
  else if h.id = kMkvMaxCLL then do
    let v ← uintFrom 0 r h
    .ok { c with maxCll := v }
  else if h.id = kMkvMaxFALL then do
    let v ← uintFrom 0 r h
    .ok { c with maxFall := v }
  else if h.id = kMkvMasteringMetadata then do
    Res.refuse (c.mastering.isSome) E_FILE_FORMAT_INVALID
    let m ← masteringParse r h.pos h.size
    .ok { c with mastering := some m }
  else .err E_FILE_FORMAT_INVALID

/-- `Colour::Parse`, mkvparser/mkvparser.cc:5130-5226. -/
def colourParse (r : Rdr) (start size : Nat) : Res ReadColour :=
  (walk r (start + size) (colourStep r) start {}).orErr E_FILE_FORMAT_INVALID

/-! ### Projection -/

/-- `Projection`, mkvparser/mkvparser.h:476-502.  `type` is what is cast to the enumeration (-1: not present),
floats are patterns, `FLT_MAX` means "not present". -/
structure ReadProjection where
  type : Int := -1
  privateData : Option Bytes := none
  yaw : Nat := 0x7F7FFFFF
  pitch : Nat := 0x7F7FFFFF
  roll : Nat := 0x7F7FFFFF
  deriving DecidableEq, Repr

/-- The body of the loop of `Projection::Parse`, mkvparser/mkvparser.cc:5240-5302. -/
def projectionStep (r : Rdr) (_ : Nat) (h : Hdr) (p : ReadProjection) : Res ReadProjection :=
  if h.id = kMkvProjectionType then do
    let v ← uintFrom 0 r h
    .ok { p with type := v }
  else if h.id = kMkvProjectionPrivate then do
    Res.refuse p.privateData.isSome E_FILE_FORMAT_INVALID
    let b ← binaryAt r h E_FILE_FORMAT_INVALID
    .ok { p with privateData := some b }
  else do
    let d ← unserializeFloat r h.pos h.size
    Res.refuse (Dbl.notFloat d) E_FILE_FORMAT_INVALID
    if h.id = kMkvProjectionPoseYaw then .ok { p with yaw := Dbl.toFloat d }
    else if h.id = kMkvProjectionPosePitch then .ok { p with pitch := Dbl.toFloat d }
    else if h.id = kMkvProjectionPoseRoll then .ok { p with roll := Dbl.toFloat d }
    else .err E_FILE_FORMAT_INVALID

/-- `Projection::Parse`, mkvparser/mkvparser.cc:5228-5306. -/
def projectionParse (r : Rdr) (start size : Nat) : Res ReadProjection :=
  (walk r (start + size) (projectionStep r) start {}).orErr E_FILE_FORMAT_INVALID

/-! ### Video and audio -/

/-- What `VideoTrack` adds to `Track`, mkvparser/mkvparser.h:504-544. -/
structure ReadVideo where
  width : Int := 0
  height : Int := 0
  displayWidth : Int := 0
  displayHeight : Int := 0
  displayUnit : Int := 0
  stereoMode : Int := 0
  rate : Dbl := (0, 8)
  colourSpace : Option Bytes := none
  colour : Option ReadColour := none
  projection : Option ReadProjection := none
  deriving DecidableEq, Repr

/-- The body of the loop of `VideoTrack::Parse`, mkvparser/mkvparser.cc:5354-5425. -/
def videoStep (r : Rdr) (_ : Nat) (h : Hdr) (v : ReadVideo) : Res ReadVideo :=
  if h.id = kMkvPixelWidth then do
    let n ← uintFrom 1 r h
    .ok { v with width := n }
  else if h.id = kMkvPixelHeight then do
    let n ← uintFrom 1 r h
    .ok { v with height := n }
  else if h.id = kMkvDisplayWidth then do
    let n ← uintFrom 1 r h
    .ok { v with displayWidth := n }
  else if h.id = kMkvDisplayHeight then do
    let n ← uintFrom 1 r h
    .ok { v with displayHeight := n }
  else if h.id = kMkvDisplayUnit then do
    let n ← uintFrom 0 r h
    .ok { v with displayUnit := n }
  else if h.id = kMkvStereoMode then do
    let n ← uintFrom 0 r h
    .ok { v with stereoMode := n }
  else if h.id = kMkvFrameRate then do
    let d ← unserializeFloat r h.pos h.size
    Res.refuse (Dbl.units d ≤ 0) E_FILE_FORMAT_INVALID
    .ok { v with rate := d }
  else if h.id = kMkvColour then do
    let c ← colourParse r h.pos h.size
    .ok { v with colour := some c }
  else if h.id = kMkvProjection then do
    let p ← projectionParse r h.pos h.size
    .ok { v with projection := some p }
  else if h.id = kMkvColourSpace then
    match unserializeString r h.pos h.size with
    | .ok s => .ok { v with colourSpace := some s }
    | .err c => if c < 0 then .err c else .ok { v with colourSpace := none }
    | .ub => .ub
  else .ok v

/-- `VideoTrack::Parse`, mkvparser/mkvparser.cc:5321-5456, without the copy of the track's information. -/
def videoParse (r : Rdr) (start size : Nat) : Res ReadVideo :=
  walk r (start + size) (videoStep r) start {}

/-- `VideoTrack::GetDisplayWidth`, `GetDisplayHeight`, mkvparser/mkvparser.cc:5559-5565. -/
def ReadVideo.getDisplayWidth (v : ReadVideo) : Int := if v.displayWidth > 0 then v.displayWidth else v.width
def ReadVideo.getDisplayHeight (v : ReadVideo) : Int := if v.displayHeight > 0 then v.displayHeight else v.height

/-- What `AudioTrack` adds to `Track`, mkvparser/mkvparser.h:546-564; the defaults are those of
mkvparser/mkvparser.cc:5600-5602 (8000.0, 1, 0). -/
structure ReadAudio where
  rate : Dbl := (0x40BF400000000000, 8)
  channels : Int := 1
  bitDepth : Int := 0
  deriving DecidableEq, Repr

/-- The body of the loop of `AudioTrack::Parse`, mkvparser/mkvparser.cc:5601-5632. -/
def audioStep (r : Rdr) (_ : Nat) (h : Hdr) (a : ReadAudio) : Res ReadAudio :=
  if h.id = kMkvSamplingFrequency then do
    let d ← unserializeFloat r h.pos h.size
    Res.refuse (Dbl.units d ≤ 0) E_FILE_FORMAT_INVALID
    .ok { a with rate := d }
  else if h.id = kMkvChannels then do
    let n ← uintFrom 1 r h
    .ok { a with channels := n }
  else if h.id = kMkvBitDepth then do
    let n ← uintFrom 1 r h
    .ok { a with bitDepth := n }
  else .ok a

/-- `AudioTrack::Parse`, mkvparser/mkvparser.cc:5577-5656, without the copy of the track's information. -/
def audioParse (r : Rdr) (start size : Nat) : Res ReadAudio :=
  walk r (start + size) (audioStep r) start {}

/-! ### Content encodings -/

/-- How the body of a loop ends: with the next element, or with `return code;`, in either case leaving `s`
in the objects it fills. -/
inductive Turn (σ : Type) where
  | next (s : σ)
  | ret (code : Int) (s : σ)
  | ub
  deriving DecidableEq, Repr

/-- The loop of `walk` where the enclosing function fills objects that survive an error. -/
def walkKeep {σ : Type} (r : Rdr) (stop : Nat) (step : Nat → Hdr → σ → Turn σ) (pos : Nat) (st : σ) : Turn σ :=
  if pos < stop then
    match _hp : parseElementHeader r pos stop with
    | .err c => .ret c st
    | .ub => .ub
    | .ok h =>
      match step pos h st with
      | .ret c s => .ret c s
      | .ub => .ub
      | .next st' =>
        if h.pos + h.size > stop then .ret E_FILE_FORMAT_INVALID st'
        else walkKeep r stop step (h.pos + h.size) st'
  else if pos = stop then .next st
  else .ret E_FILE_FORMAT_INVALID st
  termination_by stop - pos
  decreasing_by
    have := parseElementHeader_pos ‹_›
    omega

/-- A result that stops the function if it is an error. -/
def Turn.of {α σ : Type} (st : σ) (x : Res α) (k : α → Turn σ) : Turn σ :=
  match x with
  | .ok a => k a
  | .err c => .ret c st
  | .ub => .ub

/-- `ContentEncoding::ContentCompression`, mkvparser/mkvparser.h:196-203. -/
structure ReadCompression where
  algo : Nat := 0
  settings : Option Bytes := none
  deriving DecidableEq, Repr

/-- The body of the loop of `ContentEncoding::ParseCompressionEntry`, mkvparser/mkvparser.cc:4322-4363; the flag is
`valid`.  If the settings cannot be read the code returns the status of the last header, which is 0. -/
def compressionStep (r : Rdr) (_ : Nat) (h : Hdr) (st : ReadCompression × Bool) : Turn (ReadCompression × Bool) :=
  if h.id = kMkvContentCompAlgo then
    Turn.of st (uintFrom 0 r h) fun v => .next ({ st.1 with algo := v.toNat }, true)
  else if h.id = kMkvContentCompSettings then
    if h.size = 0 then .ret E_FILE_FORMAT_INVALID st
    else if !canAlloc h.size then .ret (-1) st
    else match r.read h.pos h.size with
      | .error _ => .ret 0 st
      | .ok b =>
        if st.1.settings.isSome then .ret E_FILE_FORMAT_INVALID st
        else .next ({ st.1 with settings := some b }, st.2)
  else .next st

/-- `ContentEncoding::ParseCompressionEntry`, mkvparser/mkvparser.cc:4311-4370. -/
def compressionParse (r : Rdr) (start size : Nat) : Res ReadCompression :=
  match walkKeep r (start + size) (compressionStep r) start ({}, false) with
  | .next (c, valid) => if valid then .ok c else .err E_FILE_FORMAT_INVALID
  | .ret c st => if c = 0 then .ok st.1 else .err c
  | .ub => .ub

/-- `ContentEncoding::ContentEncryption` with its `ContentEncAESSettings`, mkvparser/mkvparser.h:205-229
(`kCTR` is 1). -/
structure ReadEncryption where
  algo : Nat := 0
  keyId : Option Bytes := none
  signature : Option Bytes := none
  sigKeyId : Option Bytes := none
  sigAlgo : Nat := 0
  sigHashAlgo : Nat := 0
  cipherMode : Nat := 1
  deriving DecidableEq, Repr

/-- The body of the loop of `ContentEncoding::ParseContentEncAESSettingsEntry`, mkvparser/mkvparser.cc:4182-4197. -/
def aesStep (r : Rdr) (_ : Nat) (h : Hdr) (mode : Nat) : Res Nat :=
  if h.id = kMkvAESSettingsCipherMode then do
    let v ← uintAt r h
    Res.refuse (toU64 v ≠ 1) E_FILE_FORMAT_INVALID
    .ok (toU64 v)
  else .ok mode

/-- `ContentEncoding::ParseContentEncAESSettingsEntry`, mkvparser/mkvparser.cc:4173-4200. -/
def aesParse (r : Rdr) (start size mode : Nat) : Res Nat :=
  walk r (start + size) (aesStep r) start mode

/-- One of the binary values of an encryption, for example mkvparser/mkvparser.cc:4377-4398.  If the data cannot be
read the code returns the status of the last header, which is 0. -/
def encryptionData (r : Rdr) (h : Hdr) (set : Option Bytes → ReadEncryption) : Turn ReadEncryption :=
  if h.size = 0 then .ret E_FILE_FORMAT_INVALID (set none)
  else if !canAlloc h.size then .ret (-1) (set none)
  else match r.read h.pos h.size with
    | .error _ => .ret 0 (set none)
    | .ok b => .next (set (some b))

/-- The body of the loop of `ContentEncoding::ParseEncryptionEntry`, mkvparser/mkvparser.cc:4381-4471. -/
def encryptionStep (r : Rdr) (_ : Nat) (h : Hdr) (e : ReadEncryption) : Turn ReadEncryption :=
  if h.id = kMkvContentEncAlgo then
    Turn.of e (uintAt r h) fun v =>
      if toU64 v ≠ 5 then .ret E_FILE_FORMAT_INVALID { e with algo := toU64 v } else .next { e with algo := toU64 v }
  else if h.id = kMkvContentEncKeyID then encryptionData r h fun b => { e with keyId := b }
  else if h.id = kMkvContentSignature then encryptionData r h fun b => { e with signature := b }
  else if h.id = kMkvContentSigKeyID then encryptionData r h fun b => { e with sigKeyId := b }
  else if h.id = kMkvContentSigAlgo then
    Turn.of e (uintAt r h) fun v => .next { e with sigAlgo := toU64 v }
  else if h.id = kMkvContentSigHashAlgo then
    Turn.of e (uintAt r h) fun v => .next { e with sigHashAlgo := toU64 v }
  else if h.id = kMkvContentEncAESSettings then
    Turn.of e (aesParse r h.pos h.size e.cipherMode) fun m => .next { e with cipherMode := m }
  else .next e

/-- `ContentEncoding::ParseEncryptionEntry`, mkvparser/mkvparser.cc:4372-4474. -/
def encryptionParse (r : Rdr) (start size : Nat) : Res ReadEncryption :=
  match walkKeep r (start + size) (encryptionStep r) start {} with
  | .next e => .ok e
  | .ret c e => if c = 0 then .ok e else .err c
  | .ub => .ub

/-- `ContentEncoding`, mkvparser/mkvparser.h:188-297. -/
structure ReadEncoding where
  order : Nat := 0
  scope : Nat := 1
  type : Nat := 0
  compressions : List ReadCompression := []
  encryptions : List ReadEncryption := []
  deriving DecidableEq, Repr

/-- The counting loop of `ContentEncoding::ParseContentEncodingEntry`, mkvparser/mkvparser.cc:4213-4234. -/
def encodingCount (_ : Nat) (h : Hdr) (n : Nat) : Res Nat :=
  .ok (if h.id = kMkvContentCompression ∨ h.id = kMkvContentEncryption then n + 1 else n)

/-- The body of the second loop of `ContentEncoding::ParseContentEncodingEntry`,
mkvparser/mkvparser.cc:4259-4304. -/
def encodingStep (r : Rdr) (_ : Nat) (h : Hdr) (e : ReadEncoding) : Res ReadEncoding :=
  if h.id = kMkvContentEncodingOrder then do
    let v ← uintAt r h
    .ok { e with order := toU64 v }
  else if h.id = kMkvContentEncodingScope then do
    let v ← uintAt r h
    Res.refuse (toU64 v < 1) (-1)
    .ok { e with scope := toU64 v }
  else if h.id = kMkvContentEncodingType then do
    let v ← uintAt r h
    .ok { e with type := toU64 v }
  else if h.id = kMkvContentCompression then do
    let c ← compressionParse r h.pos h.size
    .ok { e with compressions := e.compressions ++ [c] }
  else if h.id = kMkvContentEncryption then do
    let c ← encryptionParse r h.pos h.size
    .ok { e with encryptions := e.encryptions ++ [c] }
  else .ok e

/-- `ContentEncoding::ParseContentEncodingEntry`, mkvparser/mkvparser.cc:4202-4309. -/
def encodingParse (r : Rdr) (start size : Nat) : Res ReadEncoding := do
  let n ← walk r (start + size) encodingCount start 0
  Res.refuse (n = 0) (-1)
  walk r (start + size) (encodingStep r) start {}

/-- The counting loop of `Track::ParseContentEncodingsEntry`, mkvparser/mkvparser.cc:4942-4958. -/
def encodingsCount (_ : Nat) (h : Hdr) (n : Nat) : Res Nat :=
  .ok (if h.id = kMkvContentEncoding then n + 1 else n)

/-- The body of the second loop, mkvparser/mkvparser.cc:4971-4996. -/
def encodingsStep (r : Rdr) (_ : Nat) (h : Hdr) (es : List ReadEncoding) : Turn (List ReadEncoding) :=
  if h.id = kMkvContentEncoding then
    match encodingParse r h.pos h.size with
    | .ok e => .next (es ++ [e])
    | .err c => .ret c es
    | .ub => .ub
  else .next es

/-- `Track::ParseContentEncodingsEntry`, mkvparser/mkvparser.cc:4933-5002, whose result the only caller
ignores: what is left in the track. -/
def encodingsParse (r : Rdr) (start size : Nat) : Res (List ReadEncoding) :=
  match walk r (start + size) encodingsCount start 0 with
  | .ub => .ub
  | .err _ => .ok []
  | .ok n =>
    if n = 0 then .ok []
    else match walkKeep r (start + size) (encodingsStep r) start [] with
      | .next es => .ok es
      | .ret _ es => .ok es
      | .ub => .ub

/-! ### Tracks -/

/-- `Track::Info`, mkvparser/mkvparser.h:335-360, without `settings`; the defaults are those of the
constructor and of mkvparser/mkvparser.cc:5782-5785.  Strings are the bytes in the buffer, `none` a null pointer. -/
structure ReadTrackInfo where
  type : Int := 0
  number : Int := 0
  uid : Nat := 0
  defaultDuration : Nat := 0
  codecDelay : Nat := 0
  seekPreRoll : Nat := 0
  name : Option Bytes := none
  language : Option Bytes := none
  codecId : Option Bytes := none
  codecName : Option Bytes := none
  codecPrivate : Option Bytes := none
  lacing : Bool := false
  deriving DecidableEq, Repr

/-- The bytes of a C string. -/
def cString (b : Bytes) : Bytes := b.takeWhile (· ≠ 0)

/-- `Track::Info::Copy`, mkvparser/mkvparser.cc:4580-4631: strings are copied up to the first NUL. -/
def ReadTrackInfo.copy (i : ReadTrackInfo) : ReadTrackInfo :=
  { i with name := i.name.map cString, language := i.language.map cString, codecId := i.codecId.map cString,
           codecName := i.codecName.map cString }

/-- What a derived class of `Track` adds. -/
inductive ReadPart where
  | plain
  | video (v : ReadVideo)
  | audio (a : ReadAudio)
  deriving DecidableEq, Repr

/-- A `Track`, mkvparser/mkvparser.h:299-390. -/
structure ReadTrack where
  info : ReadTrackInfo
  part : ReadPart := .plain
  encodings : List ReadEncoding := []
  deriving DecidableEq, Repr

/-- The local variables of `Tracks::ParseTrackEntry`, mkvparser/mkvparser.cc:5779-5800; a range is `none` if its start
is -1. -/
structure EntryVars where
  info : ReadTrackInfo := {}
  v : Option (Nat × Nat) := none
  a : Option (Nat × Nat) := none
  e : Option (Nat × Nat) := none
  lacing : Int := 1
  deriving DecidableEq, Repr

/-- The loop that reads the UID, mkvparser/mkvparser.cc:5829-5842. -/
def uidLoop (r : Rdr) (uid pos : Nat) : Nat → Res Nat
  | 0 => .ok uid
  | n + 1 =>
    match r.byte pos with
    | .error status => .err status
    | .ok b => uidLoop r ((uid <<< 8) % 2 ^ 64 ||| b.toNat) (pos + 1) n

/-- The body of the loop of `Tracks::ParseTrackEntry`, mkvparser/mkvparser.cc:5802-5927. -/
def entryStep (r : Rdr) (_ : Nat) (h : Hdr) (s : EntryVars) : Res EntryVars :=
  if h.id = kMkvVideo then .ok { s with v := some (h.pos, h.size) }
  else if h.id = kMkvAudio then .ok { s with a := some (h.pos, h.size) }
  else if h.id = kMkvContentEncodings then .ok { s with e := some (h.pos, h.size) }
  else if h.id = kMkvTrackUID then do
    Res.refuse (h.size > 8) E_FILE_FORMAT_INVALID
    let u ← uidLoop r 0 h.pos h.size
    .ok { s with info := { s.info with uid := u } }
  else if h.id = kMkvTrackNumber then do
    let v ← uintAt r h
    Res.refuse (v ≤ 0 ∨ v > 127) E_FILE_FORMAT_INVALID
    .ok { s with info := { s.info with number := v } }
  else if h.id = kMkvTrackType then do
    let v ← uintAt r h
    Res.refuse (v ≤ 0 ∨ v > 254) E_FILE_FORMAT_INVALID
    .ok { s with info := { s.info with type := v } }
  else if h.id = kMkvName then do
    let b ← unserializeString r h.pos h.size
    .ok { s with info := { s.info with name := some b } }
  else if h.id = kMkvLanguage then do
    let b ← unserializeString r h.pos h.size
    .ok { s with info := { s.info with language := some b } }
  else if h.id = kMkvDefaultDuration then do
    let v ← uintFrom 0 r h
    .ok { s with info := { s.info with defaultDuration := toU64 v } }
  else if h.id = kMkvCodecID then do
    let b ← unserializeString r h.pos h.size
    .ok { s with info := { s.info with codecId := some b } }
  else if h.id = kMkvFlagLacing then do
    let v ← uintAt r h
    Res.refuse (v < 0 ∨ v > 1) E_FILE_FORMAT_INVALID
    .ok { s with lacing := v }
  else if h.id = kMkvCodecPrivate then
    if h.size = 0 then .ok { s with info := { s.info with codecPrivate := none } }
    else do
      let b ← binaryAt r h (-1)
      .ok { s with info := { s.info with codecPrivate := some b } }
  else if h.id = kMkvCodecName then do
    let b ← unserializeString r h.pos h.size
    .ok { s with info := { s.info with codecName := some b } }
  else if h.id = kMkvCodecDelay then do
    let v ← uintAt r h
    .ok { s with info := { s.info with codecDelay := toU64 v } }
  else if h.id = kMkvSeekPreRoll then do
    let v ← uintAt r h
    .ok { s with info := { s.info with seekPreRoll := toU64 v } }
  else .ok s

/-- `if (e.start >= 0) pResult->ParseContentEncodingsEntry(e.start, e.size);` -/
def entryEncodings (r : Rdr) : Option (Nat × Nat) → Res (List ReadEncoding)
  | none => .ok []
  | some (start, size) => encodingsParse r start size

/-- The rest of `Tracks::ParseTrackEntry`, mkvparser/mkvparser.cc:5929-6015; `kVideo`, `kAudio` and `kMetadata` are
1, 2 and 0x21.  `before` are the tracks read so far (`GetTrackByNumber`, mkvparser/mkvparser.cc:6030-6048). -/
def entryEnd (r : Rdr) (before : List ReadTrack) (s : EntryVars) : Res ReadTrack := do
  Res.refuse (s.info.number ≤ 0) E_FILE_FORMAT_INVALID
  Res.refuse (before.any fun t => t.info.number == s.info.number) E_FILE_FORMAT_INVALID
  Res.refuse (s.info.type ≤ 0) E_FILE_FORMAT_INVALID
  let info := { s.info with lacing := decide (s.lacing > 0) }.copy
  if s.info.type = 1 then
    match s.v, s.a with
    | some (start, size), none => do
      let v ← videoParse r start size
      let es ← entryEncodings r s.e
      .ok { info, part := .video v, encodings := es }
    | _, _ => .err E_FILE_FORMAT_INVALID
  else if s.info.type = 2 then
    match s.a, s.v with
    | some (start, size), none => do
      let a ← audioParse r start size
      let es ← entryEncodings r s.e
      .ok { info, part := .audio a, encodings := es }
    | _, _ => .err E_FILE_FORMAT_INVALID
  else do
    Res.refuse s.a.isSome E_FILE_FORMAT_INVALID
    Res.refuse s.v.isSome E_FILE_FORMAT_INVALID
    Res.refuse (s.info.type = 0x21 ∧ s.e.isSome) E_FILE_FORMAT_INVALID
    .ok { info }

/-- `Tracks::ParseTrackEntry`, mkvparser/mkvparser.cc:5771-6015. -/
def entryParse (r : Rdr) (before : List ReadTrack) (start size : Nat) : Res ReadTrack := do
  let s ← walk r (start + size) (entryStep r) start {}
  entryEnd r before s

/-- The body of the second loop of `Tracks::Parse`, mkvparser/mkvparser.cc:5721-5756. -/
def tracksStep (r : Rdr) (stop : Nat) (_ : Nat) (h : Hdr) (ts : List ReadTrack) : Res (List ReadTrack) :=
  if h.size = 0 then .ok ts
  else do
    Res.assert (h.pos + h.size ≤ stop)
    if h.id = kMkvTrackEntry then do
      let t ← entryParse r ts h.pos h.size
      .ok (ts ++ [t])
    else .ok ts

/-- The counting loop of `Tracks::Parse`, mkvparser/mkvparser.cc:5684-5704. -/
def tracksCount (_ : Nat) (h : Hdr) (n : Nat) : Res Nat :=
  .ok (if h.size ≠ 0 ∧ h.id = kMkvTrackEntry then n + 1 else n)

/-- `Tracks::Parse`, mkvparser/mkvparser.cc:5674-5762. -/
def tracksParse (r : Rdr) (start size : Nat) : Res (List ReadTrack) := do
  let n ← walk r (start + size) tracksCount start 0
  if n = 0 then .ok []
  else walk r (start + size) (tracksStep r (start + size)) start []

end Verif.Par
