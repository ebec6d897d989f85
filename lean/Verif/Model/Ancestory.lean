/-
`Ancestory::ById`: the ancestors of an element, deduced from its ID.
-/
import Verif.Model.WebmIds

namespace Verif.Web
open Verif.Web.Id

/-- webm_parser/src/ancestory.cc:53-55 -/
def ebmlAncestory : List Nat := [kEbml]

/-- webm_parser/src/ancestory.cc:56-60 -/
def seekAncestory : List Nat := [kSegment, kSeekHead, kSeek]

/-- webm_parser/src/ancestory.cc:61-64 -/
def infoAncestory : List Nat := [kSegment, kInfo]

/-- webm_parser/src/ancestory.cc:65-68 -/
def blockMoreAncestory : List Nat := [kSegment, kCluster, kBlockGroup, kBlockAdditions, kBlockMore]

/-- webm_parser/src/ancestory.cc:69-71 -/
def timeSliceAncestory : List Nat := [kSegment, kCluster, kBlockGroup, kSlices, kTimeSlice]

/-- webm_parser/src/ancestory.cc:72-77 -/
def videoAncestory : List Nat := [kSegment, kTracks, kTrackEntry, kVideo]

/-- webm_parser/src/ancestory.cc:78-83 -/
def audioAncestory : List Nat := [kSegment, kTracks, kTrackEntry, kAudio]

/-- webm_parser/src/ancestory.cc:84-92 -/
def contentEncAesSettingsAncestory : List Nat := [kSegment, kTracks, kTrackEntry, kContentEncodings, kContentEncoding, kContentEncryption, kContentEncAesSettings]

/-- webm_parser/src/ancestory.cc:93-98 -/
def cueTrackPositionsAncestory : List Nat := [kSegment, kCues, kCuePoint, kCueTrackPositions]

/-- webm_parser/src/ancestory.cc:99-102 -/
def chapterDisplayAncestory : List Nat := [kSegment, kChapters, kEditionEntry, kChapterAtom, kChapterDisplay]

/-- webm_parser/src/ancestory.cc:103-108 -/
def targetsAncestory : List Nat := [kSegment, kTags, kTag, kTargets]

/-- webm_parser/src/ancestory.cc:109-114 -/
def simpleTagAncestory : List Nat := [kSegment, kTags, kTag, kSimpleTag]

/-- `Ancestory::ById`, webm_parser/src/ancestory.cc:15-332: the ancestors, outermost first, or `none`
where it returns false.  `Ancestory(array, count)` (webm_parser/src/ancestory.h:65-70) is
`array.take count`. -/
def ancestory (id : Nat) : Option (List Nat) :=
  -- :117-125
  if id ∈ [kEbmlVersion, kEbmlReadVersion, kEbmlMaxIdLength, kEbmlMaxSizeLength, kDocType,
      kDocTypeVersion, kDocTypeReadVersion] then
    some (ebmlAncestory.take 1)
  -- :127-135
  else if id ∈ [kSeekHead, kInfo, kCluster, kTracks, kCues, kChapters, kTags] then
    some (seekAncestory.take 1)
  -- :137-139
  else if id ∈ [kSeek] then
    some (seekAncestory.take 2)
  -- :141-144
  else if id ∈ [kSeekId, kSeekPosition] then
    some (seekAncestory.take 3)
  -- :146-153
  else if id ∈ [kTimecodeScale, kDuration, kDateUtc, kTitle, kMuxingApp, kWritingApp] then
    some (infoAncestory.take 2)
  -- :155-160
  else if id ∈ [kTimecode, kPrevSize, kSimpleBlock, kBlockGroup] then
    some (blockMoreAncestory.take 2)
  -- :162-170
  else if id ∈ [kBlock, kBlockVirtual, kBlockAdditions, kBlockDuration, kReferenceBlock,
      kDiscardPadding, kSlices] then
    some (blockMoreAncestory.take 3)
  -- :172-174
  else if id ∈ [kBlockMore] then
    some (blockMoreAncestory.take 4)
  -- :176-179
  else if id ∈ [kBlockAddId, kBlockAdditional] then
    some (blockMoreAncestory.take 5)
  -- :181-183
  else if id ∈ [kTimeSlice] then
    some (timeSliceAncestory.take 4)
  -- :185-187
  else if id ∈ [kLaceNumber] then
    some (timeSliceAncestory.take 5)
  -- :189-191
  else if id ∈ [kTrackEntry] then
    some (videoAncestory.take 2)
  -- :193-212
  else if id ∈ [kTrackNumber, kTrackUid, kTrackType, kFlagEnabled, kFlagDefault, kFlagForced,
      kFlagLacing, kDefaultDuration, kName, kLanguage, kCodecId, kCodecPrivate, kCodecName,
      kCodecDelay, kSeekPreRoll, kVideo, kAudio, kContentEncodings] then
    some (videoAncestory.take 3)
  -- :214-229
  else if id ∈ [kFlagInterlaced, kStereoMode, kAlphaMode, kPixelWidth, kPixelHeight,
      kPixelCropBottom, kPixelCropTop, kPixelCropLeft, kPixelCropRight, kDisplayWidth,
      kDisplayHeight, kDisplayUnit, kAspectRatioType, kFrameRate] then
    some (videoAncestory.take 4)
  -- :231-236
  else if id ∈ [kSamplingFrequency, kOutputSamplingFrequency, kChannels, kBitDepth] then
    some (audioAncestory.take 4)
  -- :238-240
  else if id ∈ [kContentEncoding] then
    some (contentEncAesSettingsAncestory.take 4)
  -- :242-247
  else if id ∈ [kContentEncodingOrder, kContentEncodingScope, kContentEncodingType, kContentEncryption] then
    some (contentEncAesSettingsAncestory.take 5)
  -- :249-253
  else if id ∈ [kContentEncAlgo, kContentEncKeyId, kContentEncAesSettings] then
    some (contentEncAesSettingsAncestory.take 6)
  -- :255-257
  else if id ∈ [kAesSettingsCipherMode] then
    some (contentEncAesSettingsAncestory.take 7)
  -- :259-261
  else if id ∈ [kCuePoint] then
    some (cueTrackPositionsAncestory.take 2)
  -- :263-266
  else if id ∈ [kCueTime, kCueTrackPositions] then
    some (cueTrackPositionsAncestory.take 3)
  -- :268-274
  else if id ∈ [kCueTrack, kCueClusterPosition, kCueRelativePosition, kCueDuration, kCueBlockNumber] then
    some (cueTrackPositionsAncestory.take 4)
  -- :276-278
  else if id ∈ [kEditionEntry] then
    some (chapterDisplayAncestory.take 2)
  -- :280-282
  else if id ∈ [kChapterAtom] then
    some (chapterDisplayAncestory.take 3)
  -- :284-290
  else if id ∈ [kChapterUid, kChapterStringUid, kChapterTimeStart, kChapterTimeEnd, kChapterDisplay] then
    some (chapterDisplayAncestory.take 4)
  -- :292-296
  else if id ∈ [kChapString, kChapLanguage, kChapCountry] then
    some (chapterDisplayAncestory.take 5)
  -- :298-300
  else if id ∈ [kTag] then
    some (targetsAncestory.take 2)
  -- :302-305
  else if id ∈ [kTargets, kSimpleTag] then
    some (targetsAncestory.take 3)
  -- :307-311
  else if id ∈ [kTargetTypeValue, kTargetType, kTagTrackUid] then
    some (targetsAncestory.take 4)
  -- :313-319
  else if id ∈ [kTagName, kTagLanguage, kTagDefault, kTagString, kTagBinary] then
    some (simpleTagAncestory.take 4)
  -- :321-324
  else if id ∈ [kEbml, kSegment] then
    some []
  else none

end Verif.Web
