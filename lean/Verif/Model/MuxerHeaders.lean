/-
The elements a muxer segment writes before its clusters, besides SeekHead and Info:
`Track`, `VideoTrack`, `AudioTrack`, `Tracks`, `ContentEncoding`, `Colour`, `MasteringMetadata`,
`Projection`, `Chapters` and `Tags` of mkvmuxer, each as in the code with one function for the
size and one that writes.

Simplifications: allocations succeed, so a setter that copies its argument always does; sums of sizes
are unbounded here and `uint64` in the code; a `float` is its 32-bit pattern, a `double` that is only
written as a `float` is the pattern of that `float`; strings are the bytes before the NUL, `none` a
null pointer; integers narrower than `uint64` or of an enumeration are what `static_cast<uint64>` makes
of them.  UIDs, which the code draws at random, are fields.
-/
import Verif.Model.MuxerSegment

namespace Verif.Mux
open Verif

/-- `if (c && !WriteEbmlElement(…)) return false;` -/
def writeIf (c : Bool) (w : W Unit) : W Unit := if c then w else pure ()

/-- `if (c) size += n;` -/
def sizeIf (c : Bool) (n : Nat) : Nat := if c then n else 0

/-- `for (…) if (!x->Write(writer)) return false;` -/
def writeEach {α : Type} (f : α → W Unit) : List α → W Unit
  | [] => pure ()
  | x :: xs => do
    f x
    writeEach f xs

/-- `for (…) size += x->Size();` -/
def sizeEach {α : Type} (f : α → Nat) (xs : List α) : Nat := (xs.map f).sum

/-- `WriteEbmlElement(writer, id, static_cast<uint64>(v))`, mkvmuxer/mkvmuxerutil.cc:440-442. -/
def writeNum (id : Nat) (v : UInt64) : W Unit := writeEbmlElementUInt id v.toNat

/-- `EbmlElementSize(id, static_cast<uint64>(v))`, mkvmuxer/mkvmuxerutil.cc:250-252. -/
def numSize (id : Nat) (v : UInt64) : Nat := ebmlElementSizeUInt id v.toNat

/-- `WriteEbmlElement(writer, id, v)` for a `float`, mkvmuxer/mkvmuxerutil.cc:484-498. -/
def writeFlt (id : Nat) (v : UInt32) : W Unit := writeEbmlElementFloat id v.toNat

/-! ### Floats -/

/-- A NaN. -/
def f32NaN (b : UInt32) : Bool := decide (0x7F800000 < b.toNat % 2 ^ 31)

/-- A number in the order of the floats that are not NaN (both zeros are 0). -/
def f32Key (b : UInt32) : Int :=
  if b.toNat < 2 ^ 31 then (b.toNat : Int) else -((b.toNat % 2 ^ 31 : Nat) : Int)

/-- `a < b` on floats. -/
def f32Lt (a b : UInt32) : Bool := !f32NaN a && !f32NaN b && decide (f32Key a < f32Key b)

/-- `a <= b` on floats. -/
def f32Le (a b : UInt32) : Bool := !f32NaN a && !f32NaN b && decide (f32Key a ≤ f32Key b)

/-! ### Content encodings -/

/-- IDs, common/webmids.h:144-162. -/
def kMkvContentEncodings : Nat := 0x6D80
def kMkvContentEncoding : Nat := 0x6240
def kMkvContentEncodingOrder : Nat := 0x5031
def kMkvContentEncodingScope : Nat := 0x5032
def kMkvContentEncodingType : Nat := 0x5033
def kMkvContentEncryption : Nat := 0x5035
def kMkvContentEncAlgo : Nat := 0x47E1
def kMkvContentEncKeyID : Nat := 0x47E2
def kMkvContentEncAESSettings : Nat := 0x47E7
def kMkvAESSettingsCipherMode : Nat := 0x47E8

/-- `ContentEncoding`, mkvmuxer/mkvmuxer.h:309-353, with the `ContentEncAESSettings` inside it; constructors
at mkvmuxer/mkvmuxer.cc:489 and 533-539. -/
structure ContentEncoding where
  encAlgo : UInt64 := 5
  keyId : Option Bytes := none
  order : UInt64 := 0
  scope : UInt64 := 1
  type : UInt64 := 1
  cipherMode : UInt64 := 1
  deriving DecidableEq, Repr

/-- `ContentEncoding::SetEncryptionID`, mkvmuxer/mkvmuxer.cc:543-558; `none` is `return false`. -/
def ContentEncoding.setEncryptionID (e : ContentEncoding) (id : Option Bytes) : Option ContentEncoding :=
  match id with
  | none => none
  | some b => if b.length < 1 then none else some { e with keyId := some b }

/-- `ContentEncAESSettings::PayloadSize`, mkvmuxer/mkvmuxer.cc:523-527. -/
def ContentEncoding.aesPayload (e : ContentEncoding) : Nat := numSize kMkvAESSettingsCipherMode e.cipherMode

/-- `ContentEncAESSettings::Size`, mkvmuxer/mkvmuxer.cc:491-497. -/
def ContentEncoding.aesSize (e : ContentEncoding) : Nat :=
  ebmlMasterElementSize kMkvContentEncAESSettings e.aesPayload + e.aesPayload

/-- `ContentEncAESSettings::Write`, mkvmuxer/mkvmuxer.cc:499-521. -/
def ContentEncoding.writeAes (e : ContentEncoding) : W Unit := do
  writeEbmlMasterElement kMkvContentEncAESSettings e.aesPayload
  counted e.aesPayload (writeNum kMkvAESSettingsCipherMode e.cipherMode)

/-- `ContentEncoding::EncryptionSize`, mkvmuxer/mkvmuxer.cc:639-648. -/
def ContentEncoding.encryptionSize (e : ContentEncoding) : Nat :=
  ebmlElementSizeBinary kMkvContentEncKeyID e.keyId + numSize kMkvContentEncAlgo e.encAlgo + e.aesSize

/-- `ContentEncoding::EncodingSize(0, EncryptionSize())`, mkvmuxer/mkvmuxer.cc:615-636. -/
def ContentEncoding.encodingSize (e : ContentEncoding) : Nat :=
  sizeIf (decide (e.encryptionSize > 0))
      (ebmlMasterElementSize kMkvContentEncryption e.encryptionSize + e.encryptionSize) +
    numSize kMkvContentEncodingType e.type + numSize kMkvContentEncodingScope e.scope +
    numSize kMkvContentEncodingOrder e.order

/-- `ContentEncoding::Size`, mkvmuxer/mkvmuxer.cc:560-568. -/
def ContentEncoding.size (e : ContentEncoding) : Nat :=
  ebmlMasterElementSize kMkvContentEncoding e.encodingSize + e.encodingSize

/-- What `ContentEncoding::Write` puts into the file, mkvmuxer/mkvmuxer.cc:581-605. -/
def ContentEncoding.writeParts (e : ContentEncoding) : W Unit := do
  writeEbmlMasterElement kMkvContentEncoding e.encodingSize
  writeNum kMkvContentEncodingOrder e.order
  writeNum kMkvContentEncodingScope e.scope
  writeNum kMkvContentEncodingType e.type
  writeEbmlMasterElement kMkvContentEncryption e.encryptionSize
  writeNum kMkvContentEncAlgo e.encAlgo
  writeEbmlElementBinary kMkvContentEncKeyID e.keyId
  e.writeAes

/-- `ContentEncoding::Write`, mkvmuxer/mkvmuxer.cc:570-614. -/
def ContentEncoding.write (e : ContentEncoding) : W Unit := counted e.size e.writeParts

/-! ### Colour -/

/-- IDs, common/webmids.h:100-128. -/
def kMkvColour : Nat := 0x55B0
def kMkvMatrixCoefficients : Nat := 0x55B1
def kMkvBitsPerChannel : Nat := 0x55B2
def kMkvChromaSubsamplingHorz : Nat := 0x55B3
def kMkvChromaSubsamplingVert : Nat := 0x55B4
def kMkvCbSubsamplingHorz : Nat := 0x55B5
def kMkvCbSubsamplingVert : Nat := 0x55B6
def kMkvChromaSitingHorz : Nat := 0x55B7
def kMkvChromaSitingVert : Nat := 0x55B8
def kMkvRange : Nat := 0x55B9
def kMkvTransferCharacteristics : Nat := 0x55BA
def kMkvPrimaries : Nat := 0x55BB
def kMkvMaxCLL : Nat := 0x55BC
def kMkvMaxFALL : Nat := 0x55BD
def kMkvMasteringMetadata : Nat := 0x55D0
def kMkvPrimaryRChromaticityX : Nat := 0x55D1
def kMkvPrimaryRChromaticityY : Nat := 0x55D2
def kMkvPrimaryGChromaticityX : Nat := 0x55D3
def kMkvPrimaryGChromaticityY : Nat := 0x55D4
def kMkvPrimaryBChromaticityX : Nat := 0x55D5
def kMkvPrimaryBChromaticityY : Nat := 0x55D6
def kMkvWhitePointChromaticityX : Nat := 0x55D7
def kMkvWhitePointChromaticityY : Nat := 0x55D8
def kMkvLuminanceMax : Nat := 0x55D9
def kMkvLuminanceMin : Nat := 0x55DA

/-- `PrimaryChromaticity`, mkvmuxer/mkvmuxer.h:357-381. -/
structure Chromaticity where
  x : UInt32
  y : UInt32
  deriving DecidableEq, Repr

/-- `PrimaryChromaticity::Valid`, mkvmuxer/mkvmuxer.cc:979-982, with the limits at :31-32 (0 and 1). -/
def Chromaticity.valid (c : Chromaticity) : Bool :=
  f32Le 0 c.x && f32Le c.x 0x3F800000 && f32Le 0 c.y && f32Le c.y 0x3F800000

/-- `PrimaryChromaticitySize`, mkvmuxer/mkvmuxer.cc:965-968. -/
def chromaticitySize (xId yId : Nat) (_ : Chromaticity) : Nat := ebmlElementSizeFloat xId + ebmlElementSizeFloat yId

/-- `PrimaryChromaticity::Write`, mkvmuxer/mkvmuxer.cc:970-977. -/
def writeChromaticity (xId yId : Nat) (c : Chromaticity) : W Unit :=
  if !c.valid then W.fail 0
  else do
    writeFlt xId c.x
    writeFlt yId c.y

/-- The same for a member that may be null, as at mkvmuxer/mkvmuxer.cc:1035-1051. -/
def writeChromaticityOpt (xId yId : Nat) : Option Chromaticity → W Unit
  | none => pure ()
  | some c => writeChromaticity xId yId c

/-- `MasteringMetadata::kValueNotPresent` (`FLT_MAX`), mkvmuxer/mkvmuxer.cc:36. -/
def kLuminanceNotPresent : UInt32 := 0x7F7FFFFF

/-- `MasteringMetadata`, mkvmuxer/mkvmuxer.h:383-438. -/
structure MasteringMetadata where
  luminanceMax : UInt32 := kLuminanceNotPresent
  luminanceMin : UInt32 := kLuminanceNotPresent
  r : Option Chromaticity := none
  g : Option Chromaticity := none
  b : Option Chromaticity := none
  whitePoint : Option Chromaticity := none
  deriving DecidableEq, Repr

/-- `MasteringMetadata::Valid`, mkvmuxer/mkvmuxer.cc:993-1016, with the limits at :33-35 (0, 999.99 and
9999.99). -/
def MasteringMetadata.valid (m : MasteringMetadata) : Bool :=
  (m.luminanceMin == kLuminanceNotPresent ||
    !(f32Lt m.luminanceMin 0 || f32Lt 0x4479FF5C m.luminanceMin || f32Lt m.luminanceMax m.luminanceMin)) &&
  (m.luminanceMax == kLuminanceNotPresent ||
    !(f32Lt m.luminanceMax 0 || f32Lt 0x461C3FF6 m.luminanceMax || f32Lt m.luminanceMax m.luminanceMin)) &&
  m.r.all Chromaticity.valid && m.g.all Chromaticity.valid && m.b.all Chromaticity.valid &&
  m.whitePoint.all Chromaticity.valid

/-- `MasteringMetadata::PayloadSize`, mkvmuxer/mkvmuxer.cc:1087-1114. -/
def MasteringMetadata.payloadSize (m : MasteringMetadata) : Nat :=
  sizeIf (m.luminanceMax != kLuminanceNotPresent) (ebmlElementSizeFloat kMkvLuminanceMax) +
  sizeIf (m.luminanceMin != kLuminanceNotPresent) (ebmlElementSizeFloat kMkvLuminanceMin) +
  m.r.elim 0 (chromaticitySize kMkvPrimaryRChromaticityX kMkvPrimaryRChromaticityY) +
  m.g.elim 0 (chromaticitySize kMkvPrimaryGChromaticityX kMkvPrimaryGChromaticityY) +
  m.b.elim 0 (chromaticitySize kMkvPrimaryBChromaticityX kMkvPrimaryBChromaticityY) +
  m.whitePoint.elim 0 (chromaticitySize kMkvWhitePointChromaticityX kMkvWhitePointChromaticityY)

/-- `MasteringMetadata::MasteringMetadataSize`, mkvmuxer/mkvmuxer.cc:984-991. -/
def MasteringMetadata.size (m : MasteringMetadata) : Nat :=
  if m.payloadSize > 0 then m.payloadSize + ebmlMasterElementSize kMkvMasteringMetadata m.payloadSize else m.payloadSize

/-- `MasteringMetadata::Write`, mkvmuxer/mkvmuxer.cc:1018-1054. -/
def MasteringMetadata.write (m : MasteringMetadata) : W Unit :=
  if m.payloadSize = 0 then pure ()
  else do
    writeEbmlMasterElement kMkvMasteringMetadata m.payloadSize
    writeIf (m.luminanceMax != kLuminanceNotPresent) (writeFlt kMkvLuminanceMax m.luminanceMax)
    writeIf (m.luminanceMin != kLuminanceNotPresent) (writeFlt kMkvLuminanceMin m.luminanceMin)
    writeChromaticityOpt kMkvPrimaryRChromaticityX kMkvPrimaryRChromaticityY m.r
    writeChromaticityOpt kMkvPrimaryGChromaticityX kMkvPrimaryGChromaticityY m.g
    writeChromaticityOpt kMkvPrimaryBChromaticityX kMkvPrimaryBChromaticityY m.b
    writeChromaticityOpt kMkvWhitePointChromaticityX kMkvWhitePointChromaticityY m.whitePoint

/-- `Colour::kValueNotPresent`, mkvmuxer/mkvmuxer.cc:37. -/
def kColourNotPresent : UInt64 := 0xFFFFFFFFFFFFFFFF

/-- `Colour`, mkvmuxer/mkvmuxer.h:440-601. -/
structure Colour where
  matrixCoefficients : UInt64 := kColourNotPresent
  bitsPerChannel : UInt64 := kColourNotPresent
  chromaSubsamplingHorz : UInt64 := kColourNotPresent
  chromaSubsamplingVert : UInt64 := kColourNotPresent
  cbSubsamplingHorz : UInt64 := kColourNotPresent
  cbSubsamplingVert : UInt64 := kColourNotPresent
  chromaSitingHorz : UInt64 := kColourNotPresent
  chromaSitingVert : UInt64 := kColourNotPresent
  range : UInt64 := kColourNotPresent
  transferCharacteristics : UInt64 := kColourNotPresent
  primaries : UInt64 := kColourNotPresent
  maxCll : UInt64 := kColourNotPresent
  maxFall : UInt64 := kColourNotPresent
  mastering : Option MasteringMetadata := none
  deriving DecidableEq, Repr

/-- `v != kValueNotPresent`. -/
def colourSet (v : UInt64) : Bool := v != kColourNotPresent

/-- `IsMatrixCoefficientsValueValid`, mkvmuxer/mkvmuxerutil.cc:644-660. -/
def isMatrixCoefficientsValid (v : UInt64) : Bool := decide (v ≤ 10)

/-- `IsChromaSitingHorzValueValid` and `IsChromaSitingVertValueValid`, mkvmuxer/mkvmuxerutil.cc:662-680. -/
def isChromaSitingValid (v : UInt64) : Bool := decide (v ≤ 2)

/-- `IsColourRangeValueValid`, mkvmuxer/mkvmuxerutil.cc:682-691. -/
def isColourRangeValid (v : UInt64) : Bool := decide (v ≤ 3)

/-- `IsTransferCharacteristicsValueValid`, mkvmuxer/mkvmuxerutil.cc:693-716. -/
def isTransferCharacteristicsValid (v : UInt64) : Bool := decide (1 ≤ v ∧ v ≤ 18)

/-- `IsPrimariesValueValid`, mkvmuxer/mkvmuxerutil.cc:718-735. -/
def isPrimariesValid (v : UInt64) : Bool := decide (v ≤ 10 ∨ v = 22)

/-- `Colour::Valid`, mkvmuxer/mkvmuxer.cc:1125-1150. -/
def Colour.valid (c : Colour) : Bool :=
  c.mastering.all MasteringMetadata.valid &&
  (!colourSet c.matrixCoefficients || isMatrixCoefficientsValid c.matrixCoefficients) &&
  (!colourSet c.chromaSitingHorz || isChromaSitingValid c.chromaSitingHorz) &&
  (!colourSet c.chromaSitingVert || isChromaSitingValid c.chromaSitingVert) &&
  (!colourSet c.range || isColourRangeValid c.range) &&
  (!colourSet c.transferCharacteristics || isTransferCharacteristicsValid c.transferCharacteristics) &&
  (!colourSet c.primaries || isPrimariesValid c.primaries)

/-- The size of a number that may not be set. -/
def colourSize (id : Nat) (v : UInt64) : Nat := sizeIf (colourSet v) (numSize id v)

/-- Writing a number that may not be set. -/
def writeColour (id : Nat) (v : UInt64) : W Unit := writeIf (colourSet v) (writeNum id v)

/-- `Colour::PayloadSize`, mkvmuxer/mkvmuxer.cc:1259-1317. -/
def Colour.payloadSize (c : Colour) : Nat :=
  colourSize kMkvMatrixCoefficients c.matrixCoefficients +
  colourSize kMkvBitsPerChannel c.bitsPerChannel +
  colourSize kMkvChromaSubsamplingHorz c.chromaSubsamplingHorz +
  colourSize kMkvChromaSubsamplingVert c.chromaSubsamplingVert +
  colourSize kMkvCbSubsamplingHorz c.cbSubsamplingHorz +
  colourSize kMkvCbSubsamplingVert c.cbSubsamplingVert +
  colourSize kMkvChromaSitingHorz c.chromaSitingHorz +
  colourSize kMkvChromaSitingVert c.chromaSitingVert +
  colourSize kMkvRange c.range +
  colourSize kMkvTransferCharacteristics c.transferCharacteristics +
  colourSize kMkvPrimaries c.primaries +
  colourSize kMkvMaxCLL c.maxCll +
  colourSize kMkvMaxFALL c.maxFall +
  c.mastering.elim 0 MasteringMetadata.size

/-- `Colour::ColourSize`, mkvmuxer/mkvmuxer.cc:1116-1123. -/
def Colour.size (c : Colour) : Nat :=
  if c.payloadSize > 0 then c.payloadSize + ebmlMasterElementSize kMkvColour c.payloadSize else c.payloadSize

/-- `if (mastering_metadata_ && !mastering_metadata_->Write(writer))`, mkvmuxer/mkvmuxer.cc:1233-1234. -/
def Colour.writeMastering (c : Colour) : W Unit :=
  match c.mastering with
  | none => pure ()
  | some m => m.write

/-- `Colour::Write`, mkvmuxer/mkvmuxer.cc:1152-1237. -/
def Colour.write (c : Colour) : W Unit :=
  if c.payloadSize = 0 then pure ()
  else if !c.valid then W.fail 0
  else do
    writeEbmlMasterElement kMkvColour c.payloadSize
    writeColour kMkvMatrixCoefficients c.matrixCoefficients
    writeColour kMkvBitsPerChannel c.bitsPerChannel
    writeColour kMkvChromaSubsamplingHorz c.chromaSubsamplingHorz
    writeColour kMkvChromaSubsamplingVert c.chromaSubsamplingVert
    writeColour kMkvCbSubsamplingHorz c.cbSubsamplingHorz
    writeColour kMkvCbSubsamplingVert c.cbSubsamplingVert
    writeColour kMkvChromaSitingHorz c.chromaSitingHorz
    writeColour kMkvChromaSitingVert c.chromaSitingVert
    writeColour kMkvRange c.range
    writeColour kMkvTransferCharacteristics c.transferCharacteristics
    writeColour kMkvPrimaries c.primaries
    writeColour kMkvMaxCLL c.maxCll
    writeColour kMkvMaxFALL c.maxFall
    c.writeMastering

/-! ### Projection -/

/-- IDs, common/webmids.h:130-135. -/
def kMkvProjection : Nat := 0x7670
def kMkvProjectionType : Nat := 0x7671
def kMkvProjectionPrivate : Nat := 0x7672
def kMkvProjectionPoseYaw : Nat := 0x7673
def kMkvProjectionPosePitch : Nat := 0x7674
def kMkvProjectionPoseRoll : Nat := 0x7675

/-- `Projection`, mkvmuxer/mkvmuxer.h:605-651; `type` is `static_cast<uint64>(type_)`. -/
structure Projection where
  type : UInt64 := 0
  yaw : UInt32 := 0
  pitch : UInt32 := 0
  roll : UInt32 := 0
  privateData : Option Bytes := none
  deriving DecidableEq, Repr

/-- `Projection::SetProjectionPrivate`, mkvmuxer/mkvmuxer.cc:1368-1390; `none` is `return false`. -/
def Projection.setPrivate (p : Projection) (data : Option Bytes) : Option Projection :=
  match data with
  | none => none
  | some b => if b.length = 0 then none else some { p with privateData := some b }

/-- `private_data_length_ > 0 && private_data_ != NULL`. -/
def Projection.hasPrivate (p : Projection) : Bool := p.privateData.any fun b => decide (b.length > 0)

/-- `Projection::PayloadSize`, mkvmuxer/mkvmuxer.cc:1392-1406 (it measures the type with the ID of the
Projection itself). -/
def Projection.payloadSize (p : Projection) : Nat :=
  numSize kMkvProjection p.type +
  sizeIf p.hasPrivate (ebmlElementSizeBinary kMkvProjectionPrivate p.privateData) +
  ebmlElementSizeFloat kMkvProjectionPoseYaw + ebmlElementSizeFloat kMkvProjectionPosePitch +
  ebmlElementSizeFloat kMkvProjectionPoseRoll

/-- `Projection::ProjectionSize`, mkvmuxer/mkvmuxer.cc:1323-1330. -/
def Projection.size (p : Projection) : Nat :=
  if p.payloadSize > 0 then p.payloadSize + ebmlMasterElementSize kMkvProjection p.payloadSize else p.payloadSize

/-- `Projection::Write`, mkvmuxer/mkvmuxer.cc:1332-1366. -/
def Projection.write (p : Projection) : W Unit :=
  if p.payloadSize = 0 then pure ()
  else do
    writeEbmlMasterElement kMkvProjection p.payloadSize
    writeNum kMkvProjectionType p.type
    writeIf p.hasPrivate (writeEbmlElementBinary kMkvProjectionPrivate p.privateData)
    writeFlt kMkvProjectionPoseYaw p.yaw
    writeFlt kMkvProjectionPosePitch p.pitch
    writeFlt kMkvProjectionPoseRoll p.roll

/-! ### Tracks -/

/-- IDs, common/webmids.h:62-99 and 137-142. -/
def kMkvTrackEntry : Nat := 0xAE
def kMkvTrackNumber : Nat := 0xD7
def kMkvTrackUID : Nat := 0x73C5
def kMkvTrackType : Nat := 0x83
def kMkvDefaultDuration : Nat := 0x23E383
def kMkvMaxBlockAdditionID : Nat := 0x55EE
def kMkvName : Nat := 0x536E
def kMkvLanguage : Nat := 0x22B59C
def kMkvCodecID : Nat := 0x86
def kMkvCodecPrivate : Nat := 0x63A2
def kMkvCodecDelay : Nat := 0x56AA
def kMkvSeekPreRoll : Nat := 0x56BB
def kMkvVideo : Nat := 0xE0
def kMkvStereoMode : Nat := 0x53B8
def kMkvAlphaMode : Nat := 0x53C0
def kMkvPixelWidth : Nat := 0xB0
def kMkvPixelHeight : Nat := 0xBA
def kMkvPixelCropBottom : Nat := 0x54AA
def kMkvPixelCropTop : Nat := 0x54BB
def kMkvPixelCropLeft : Nat := 0x54CC
def kMkvPixelCropRight : Nat := 0x54DD
def kMkvDisplayWidth : Nat := 0x54B0
def kMkvDisplayHeight : Nat := 0x54BA
def kMkvColourSpace : Nat := 0x2EB524
def kMkvFrameRate : Nat := 0x2383E3
def kMkvAudio : Nat := 0xE1
def kMkvSamplingFrequency : Nat := 0xB5
def kMkvChannels : Nat := 0x9F
def kMkvBitDepth : Nat := 0x6264

/-- `VideoTrack` without its base class, mkvmuxer/mkvmuxer.h:742-835; constructor at
mkvmuxer/mkvmuxer.cc:1412-1430.  `frameRate` is the pattern of the `float` written, `none` unless the
rate is greater than zero. -/
structure VideoPart where
  displayHeight : UInt64 := 0
  displayWidth : UInt64 := 0
  pixelHeight : UInt64 := 0
  pixelWidth : UInt64 := 0
  cropLeft : UInt64 := 0
  cropRight : UInt64 := 0
  cropTop : UInt64 := 0
  cropBottom : UInt64 := 0
  frameRate : Option UInt32 := none
  height : UInt64 := 0
  stereoMode : UInt64 := 0
  alphaMode : UInt64 := 0
  width : UInt64 := 0
  colourSpace : Option Bytes := none
  colour : Option Colour := none
  projection : Option Projection := none
  deriving DecidableEq, Repr

/-- `VideoTrack::SetStereoMode`, mkvmuxer/mkvmuxer.cc:1436-1445; `none` is `return false`. -/
def VideoPart.setStereoMode (v : VideoPart) (mode : UInt64) : Option VideoPart :=
  if mode ∈ [0, 1, 2, 3, 11] then some { v with stereoMode := mode } else none

/-- `VideoTrack::SetAlphaMode`, mkvmuxer/mkvmuxer.cc:1447-1453; `none` is `return false`. -/
def VideoPart.setAlphaMode (v : VideoPart) (mode : UInt64) : Option VideoPart :=
  if mode ∈ [0, 1] then some { v with alphaMode := mode } else none

/-- `AudioTrack` without its base class, mkvmuxer/mkvmuxer.h:839-866; constructor at
mkvmuxer/mkvmuxer.cc:1663-1664. -/
structure AudioPart where
  bitDepth : UInt64 := 0
  channels : UInt64 := 1
  sampleRate : UInt32 := 0
  deriving DecidableEq, Repr

/-- Which class a track is of. -/
inductive TrackPart where
  | plain
  | video (v : VideoPart)
  | audio (a : AudioPart)
  deriving DecidableEq, Repr

/-- `Track`, mkvmuxer/mkvmuxer.h:655-738, and the class derived from it; constructor at
mkvmuxer/mkvmuxer.cc:654-668. -/
structure Track where
  number : UInt64 := 0
  uid : UInt64 := 0
  type : UInt64 := 0
  codecId : Option Bytes := none
  codecPrivate : Option Bytes := none
  language : Option Bytes := none
  name : Option Bytes := none
  maxBlockAdditionalId : UInt64 := 0
  codecDelay : UInt64 := 0
  seekPreRoll : UInt64 := 0
  defaultDuration : UInt64 := 0
  encodings : List ContentEncoding := []
  part : TrackPart := .plain
  deriving DecidableEq, Repr

/-- `Track::SetCodecPrivate`, mkvmuxer/mkvmuxer.cc:904-919; `none` is `return false`. -/
def Track.setCodecPrivate (t : Track) (data : Option Bytes) : Option Track :=
  match data with
  | none => none
  | some b => if b.length < 1 then none else some { t with codecPrivate := some b }

/-- `VideoTrack::VideoPayloadSize`, mkvmuxer/mkvmuxer.cc:1615-1657. -/
def VideoPart.payloadSize (v : VideoPart) : Nat :=
  numSize kMkvPixelWidth (if v.pixelWidth > 0 then v.pixelWidth else v.width) +
  numSize kMkvPixelHeight (if v.pixelHeight > 0 then v.pixelHeight else v.height) +
  sizeIf (decide (v.displayWidth > 0)) (numSize kMkvDisplayWidth v.displayWidth) +
  sizeIf (decide (v.displayHeight > 0)) (numSize kMkvDisplayHeight v.displayHeight) +
  sizeIf (decide (v.cropLeft > 0)) (numSize kMkvPixelCropLeft v.cropLeft) +
  sizeIf (decide (v.cropRight > 0)) (numSize kMkvPixelCropRight v.cropRight) +
  sizeIf (decide (v.cropTop > 0)) (numSize kMkvPixelCropTop v.cropTop) +
  sizeIf (decide (v.cropBottom > 0)) (numSize kMkvPixelCropBottom v.cropBottom) +
  sizeIf (decide (v.stereoMode > 0)) (numSize kMkvStereoMode v.stereoMode) +
  sizeIf (decide (v.alphaMode > 0)) (numSize kMkvAlphaMode v.alphaMode) +
  sizeIf v.frameRate.isSome (ebmlElementSizeFloat kMkvFrameRate) +
  sizeIf v.colourSpace.isSome (ebmlElementSizeString kMkvColourSpace v.colourSpace) +
  v.colour.elim 0 Colour.size + v.projection.elim 0 Projection.size

/-- The Audio element's payload, mkvmuxer/mkvmuxer.cc:1671-1677 (and 1688-1694). -/
def AudioPart.payloadSize (a : AudioPart) : Nat :=
  ebmlElementSizeFloat kMkvSamplingFrequency + numSize kMkvChannels a.channels +
  sizeIf (decide (a.bitDepth > 0)) (numSize kMkvBitDepth a.bitDepth)

/-- What a derived class adds to the payload: `VideoTrack::PayloadSize`, mkvmuxer/mkvmuxer.cc:1455-1462, and
`AudioTrack::PayloadSize`, mkvmuxer/mkvmuxer.cc:1668-1681. -/
def TrackPart.size : TrackPart → Nat
  | .plain => 0
  | .video v => v.payloadSize + ebmlMasterElementSize kMkvVideo v.payloadSize
  | .audio a => a.payloadSize + ebmlMasterElementSize kMkvAudio a.payloadSize

/-- The part of the sizes that `Track::Write` checks after writing it, mkvmuxer/mkvmuxer.cc:797-821 (and
723-750). -/
def Track.ownSize (t : Track) : Nat :=
  numSize kMkvTrackNumber t.number + numSize kMkvTrackUID t.uid +
  numSize kMkvTrackType t.type +
  sizeIf t.codecId.isSome (ebmlElementSizeString kMkvCodecID t.codecId) +
  sizeIf t.codecPrivate.isSome (ebmlElementSizeBinary kMkvCodecPrivate t.codecPrivate) +
  sizeIf t.language.isSome (ebmlElementSizeString kMkvLanguage t.language) +
  sizeIf t.name.isSome (ebmlElementSizeString kMkvName t.name) +
  sizeIf (decide (t.maxBlockAdditionalId > 0)) (numSize kMkvMaxBlockAdditionID t.maxBlockAdditionalId) +
  sizeIf (decide (t.codecDelay > 0)) (numSize kMkvCodecDelay t.codecDelay) +
  sizeIf (decide (t.seekPreRoll > 0)) (numSize kMkvSeekPreRoll t.seekPreRoll) +
  sizeIf (decide (t.defaultDuration > 0)) (numSize kMkvDefaultDuration t.defaultDuration)

/-- `content_encodings_size`, mkvmuxer/mkvmuxer.cc:754-758 (and 881-885). -/
def Track.encodingsSize (t : Track) : Nat := sizeEach ContentEncoding.size t.encodings

/-- `PayloadSize()`: `Track::PayloadSize`, mkvmuxer/mkvmuxer.cc:722-766, or the derived class's. -/
def Track.payloadSize (t : Track) : Nat :=
  t.ownSize +
  sizeIf (decide (t.encodings.length > 0))
    (ebmlMasterElementSize kMkvContentEncodings t.encodingsSize + t.encodingsSize) +
  t.part.size

/-- `Track::Size`, mkvmuxer/mkvmuxer.cc:768-772. -/
def Track.size (t : Track) : Nat := t.payloadSize + ebmlMasterElementSize kMkvTrackEntry t.payloadSize

/-- The elements `Track::Write` writes and counts, mkvmuxer/mkvmuxer.cc:827-873. -/
def Track.writeOwn (t : Track) : W Unit := do
  writeNum kMkvTrackNumber t.number
  writeNum kMkvTrackUID t.uid
  writeNum kMkvTrackType t.type
  writeIf (decide (t.maxBlockAdditionalId > 0)) (writeNum kMkvMaxBlockAdditionID t.maxBlockAdditionalId)
  writeIf (decide (t.codecDelay > 0)) (writeNum kMkvCodecDelay t.codecDelay)
  writeIf (decide (t.seekPreRoll > 0)) (writeNum kMkvSeekPreRoll t.seekPreRoll)
  writeIf (decide (t.defaultDuration > 0)) (writeNum kMkvDefaultDuration t.defaultDuration)
  writeIf t.codecId.isSome (writeEbmlElementString kMkvCodecID t.codecId)
  writeIf t.codecPrivate.isSome (writeEbmlElementBinary kMkvCodecPrivate t.codecPrivate)
  writeIf t.language.isSome (writeEbmlElementString kMkvLanguage t.language)
  writeIf t.name.isSome (writeEbmlElementString kMkvName t.name)

/-- The content encodings, mkvmuxer/mkvmuxer.cc:880-896. -/
def Track.writeEncodings (t : Track) : W Unit := do
  writeEbmlMasterElement kMkvContentEncodings t.encodingsSize
  writeEach ContentEncoding.write t.encodings

/-- `Tracks::kAv1CodecId`, mkvmuxer/mkvmuxer.cc:1728: "V_AV1". -/
def kAv1CodecId : Bytes := [0x56, 0x5F, 0x41, 0x56, 0x31]

/-- `!type_ || !codec_id_`, or an AV1 track without private data, mkvmuxer/mkvmuxer.cc:778-788. -/
def Track.incomplete (t : Track) : Bool :=
  t.type == 0 || t.codecId.isNone || (t.codecId == some kAv1CodecId && t.codecPrivate.isNone)

/-- `Track::Write`, mkvmuxer/mkvmuxer.cc:774-902. -/
def Track.writeBase (t : Track) : W Unit :=
  if t.incomplete then W.fail 0
  else do
    writeEbmlMasterElement kMkvTrackEntry t.payloadSize
    counted t.ownSize t.writeOwn
    writeIf (decide (t.encodings.length > 0)) t.writeEncodings

/-- `if (colour_) if (!colour_->Write(writer))`, mkvmuxer/mkvmuxer.cc:1535-1538. -/
def VideoPart.writeColour (v : VideoPart) : W Unit :=
  match v.colour with
  | none => pure ()
  | some c => c.write

/-- `if (projection_) if (!projection_->Write(writer))`, mkvmuxer/mkvmuxer.cc:1539-1542. -/
def VideoPart.writeProjection (v : VideoPart) : W Unit :=
  match v.projection with
  | none => pure ()
  | some p => p.write

/-- The Video element's payload, mkvmuxer/mkvmuxer.cc:1477-1542. -/
def VideoPart.writePayload (v : VideoPart) : W Unit := do
  writeNum kMkvPixelWidth (if v.pixelWidth > 0 then v.pixelWidth else v.width)
  writeNum kMkvPixelHeight (if v.pixelHeight > 0 then v.pixelHeight else v.height)
  writeIf (decide (v.displayWidth > 0)) (writeNum kMkvDisplayWidth v.displayWidth)
  writeIf (decide (v.displayHeight > 0)) (writeNum kMkvDisplayHeight v.displayHeight)
  writeIf (decide (v.cropLeft > 0)) (writeNum kMkvPixelCropLeft v.cropLeft)
  writeIf (decide (v.cropRight > 0)) (writeNum kMkvPixelCropRight v.cropRight)
  writeIf (decide (v.cropTop > 0)) (writeNum kMkvPixelCropTop v.cropTop)
  writeIf (decide (v.cropBottom > 0)) (writeNum kMkvPixelCropBottom v.cropBottom)
  writeIf (decide (v.stereoMode > 0)) (writeNum kMkvStereoMode v.stereoMode)
  writeIf (decide (v.alphaMode > 0)) (writeNum kMkvAlphaMode v.alphaMode)
  writeIf v.colourSpace.isSome (writeEbmlElementString kMkvColourSpace v.colourSpace)
  writeIf v.frameRate.isSome (writeFlt kMkvFrameRate (v.frameRate.getD 0))
  v.writeColour
  v.writeProjection

/-- The Audio element's payload, mkvmuxer/mkvmuxer.cc:1703-1712. -/
def AudioPart.writePayload (a : AudioPart) : W Unit := do
  writeFlt kMkvSamplingFrequency a.sampleRate
  writeNum kMkvChannels a.channels
  writeIf (decide (a.bitDepth > 0)) (writeNum kMkvBitDepth a.bitDepth)

/-- What a derived class writes after `Track::Write`: `VideoTrack::Write`, mkvmuxer/mkvmuxer.cc:1464-1551, and
`AudioTrack::Write`, mkvmuxer/mkvmuxer.cc:1683-1720. -/
def TrackPart.write : TrackPart → W Unit
  | .plain => pure ()
  | .video v => do
    writeEbmlMasterElement kMkvVideo v.payloadSize
    counted v.payloadSize v.writePayload
  | .audio a => do
    writeEbmlMasterElement kMkvAudio a.payloadSize
    counted a.payloadSize a.writePayload

/-- `track->Write(writer)`. -/
def Track.write (t : Track) : W Unit := do
  t.writeBase
  t.part.write

/-- `Tracks::Write`, mkvmuxer/mkvmuxer.cc:1846-1878 (setting `wrote_tracks_` is the caller's business in the
model). -/
def writeTracks (ts : List Track) : W Unit := do
  writeEbmlMasterElement kMkvTracks (sizeEach Track.size ts)
  counted (sizeEach Track.size ts) (writeEach Track.write ts)

/-! ### Chapters -/

/-- IDs, common/webmids.h:172-181. -/
def kMkvEditionEntry : Nat := 0x45B9
def kMkvChapterAtom : Nat := 0xB6
def kMkvChapterUID : Nat := 0x73C4
def kMkvChapterStringUID : Nat := 0x5654
def kMkvChapterTimeStart : Nat := 0x91
def kMkvChapterTimeEnd : Nat := 0x92
def kMkvChapterDisplay : Nat := 0x80
def kMkvChapString : Nat := 0x85
def kMkvChapLanguage : Nat := 0x437C
def kMkvChapCountry : Nat := 0x437E

/-- `Chapter::Display`, mkvmuxer/mkvmuxer.h:967-996. -/
structure Display where
  title : Option Bytes := none
  language : Option Bytes := none
  country : Option Bytes := none
  deriving DecidableEq, Repr

/-- `Chapter`, mkvmuxer/mkvmuxer.h:928-1050; `Init` at mkvmuxer/mkvmuxer.cc:1931-1939. -/
structure Chapter where
  id : Option Bytes := none
  start : UInt64 := 0
  stop : UInt64 := 0
  uid : UInt64 := 0
  displays : List Display := []
  deriving DecidableEq, Repr

/-- `Chapter::set_time`, mkvmuxer/mkvmuxer.cc:1886-1892. -/
def Chapter.setTime (c : Chapter) (scale startNs endNs : UInt64) : Chapter :=
  { c with start := startNs / scale, stop := endNs / scale }

/-- `Chapter::add_string`, mkvmuxer/mkvmuxer.cc:1894-1912. -/
def Chapter.addString (c : Chapter) (title language country : Option Bytes) : Chapter :=
  { c with displays := c.displays ++ [⟨title, language, country⟩] }

/-- `if (stop >= start && stop - start != size) return 0;` around a piece of writing that started at
`start` (the writer's position does not decrease while writing). -/
def checked (size : Nat) (w : W Unit) : W Unit := do
  let start ← Sink.position
  w
  let stop ← Sink.position
  if start ≤ stop ∧ stop - start ≠ size then W.fail 0 else pure ()

/-- `payload_size` of a Display, mkvmuxer/mkvmuxer.cc:2065-2071. -/
def Display.payloadSize (d : Display) : Nat :=
  ebmlElementSizeString kMkvChapString d.title +
  sizeIf d.language.isSome (ebmlElementSizeString kMkvChapLanguage d.language) +
  sizeIf d.country.isSome (ebmlElementSizeString kMkvChapCountry d.country)

/-- `WriteDisplay(NULL)`, mkvmuxer/mkvmuxer.cc:2073-2078. -/
def Display.size (d : Display) : Nat :=
  ebmlMasterElementSize kMkvChapterDisplay d.payloadSize + d.payloadSize

/-- `Chapter::Display::WriteDisplay`, mkvmuxer/mkvmuxer.cc:2064-2105. -/
def Display.write (d : Display) : W Unit := checked d.size do
  writeEbmlMasterElement kMkvChapterDisplay d.payloadSize
  writeEbmlElementString kMkvChapString d.title
  writeIf d.language.isSome (writeEbmlElementString kMkvChapLanguage d.language)
  writeIf d.country.isSome (writeEbmlElementString kMkvChapCountry d.country)

/-- `payload_size` of an atom, mkvmuxer/mkvmuxer.cc:1985-1996. -/
def Chapter.payloadSize (c : Chapter) : Nat :=
  ebmlElementSizeString kMkvChapterStringUID c.id + numSize kMkvChapterUID c.uid +
  numSize kMkvChapterTimeStart c.start + numSize kMkvChapterTimeEnd c.stop +
  sizeEach Display.size c.displays

/-- `WriteAtom(NULL)`, mkvmuxer/mkvmuxer.cc:1998-2003. -/
def Chapter.size (c : Chapter) : Nat := ebmlMasterElementSize kMkvChapterAtom c.payloadSize + c.payloadSize

/-- `Chapter::WriteAtom`, mkvmuxer/mkvmuxer.cc:1984-2038. -/
def Chapter.write (c : Chapter) : W Unit := checked c.size do
  writeEbmlMasterElement kMkvChapterAtom c.payloadSize
  writeEbmlElementString kMkvChapterStringUID c.id
  writeNum kMkvChapterUID c.uid
  writeNum kMkvChapterTimeStart c.start
  writeNum kMkvChapterTimeEnd c.stop
  writeEach Display.write c.displays

/-- `WriteEdition(NULL)`, mkvmuxer/mkvmuxer.cc:2182-2194. -/
def editionSize (cs : List Chapter) : Nat :=
  ebmlMasterElementSize kMkvEditionEntry (sizeEach Chapter.size cs) + sizeEach Chapter.size cs

/-- `Chapters::WriteEdition`, mkvmuxer/mkvmuxer.cc:2181-2215. -/
def writeEdition (cs : List Chapter) : W Unit := checked (editionSize cs) do
  writeEbmlMasterElement kMkvEditionEntry (sizeEach Chapter.size cs)
  writeEach Chapter.write cs

/-- `Chapters::Write`, mkvmuxer/mkvmuxer.cc:2135-2155. -/
def writeChapters (cs : List Chapter) : W Unit := do
  writeEbmlMasterElement kMkvChapters (editionSize cs)
  checked (editionSize cs) (writeEdition cs)

/-! ### Tags -/

/-- IDs, common/webmids.h:183-187. -/
def kMkvTag : Nat := 0x7373
def kMkvSimpleTag : Nat := 0x67C8
def kMkvTagName : Nat := 0x45A3
def kMkvTagString : Nat := 0x4487

/-- `Tag::SimpleTag`, mkvmuxer/mkvmuxer.h:1102-1126. -/
structure SimpleTag where
  name : Option Bytes := none
  string : Option Bytes := none
  deriving DecidableEq, Repr

/-- `payload_size`, mkvmuxer/mkvmuxer.cc:2338-2340. -/
def SimpleTag.payloadSize (t : SimpleTag) : Nat :=
  ebmlElementSizeString kMkvTagName t.name + ebmlElementSizeString kMkvTagString t.string

/-- `Write(NULL)`, mkvmuxer/mkvmuxer.cc:2342-2347. -/
def SimpleTag.size (t : SimpleTag) : Nat := ebmlMasterElementSize kMkvSimpleTag t.payloadSize + t.payloadSize

/-- `Tag::SimpleTag::Write`, mkvmuxer/mkvmuxer.cc:2337-2366. -/
def SimpleTag.write (t : SimpleTag) : W Unit := checked t.size do
  writeEbmlMasterElement kMkvSimpleTag t.payloadSize
  writeEbmlElementString kMkvTagName t.name
  writeEbmlElementString kMkvTagString t.string

/-- `Tag`, mkvmuxer/mkvmuxer.h:1093-1161: its simple tags. -/
abbrev Tag := List SimpleTag

/-- `Tag::Write(NULL)`, mkvmuxer/mkvmuxer.cc:2284-2295. -/
def Tag.size (t : Tag) : Nat :=
  ebmlMasterElementSize kMkvTag (sizeEach SimpleTag.size t) + sizeEach SimpleTag.size t

/-- `Tag::Write`, mkvmuxer/mkvmuxer.cc:2283-2315. -/
def Tag.write (t : Tag) : W Unit := checked (Tag.size t) do
  writeEbmlMasterElement kMkvTag (sizeEach SimpleTag.size t)
  writeEach SimpleTag.write t

/-- `Tags::Write`, mkvmuxer/mkvmuxer.cc:2393-2423.  (On a failing tag the code says `return 0`, which is
`false`.) -/
def writeTags (ts : List Tag) : W Unit := do
  writeEbmlMasterElement kMkvTags (sizeEach Tag.size ts)
  checked (sizeEach Tag.size ts) (writeEach Tag.write ts)

end Verif.Mux
