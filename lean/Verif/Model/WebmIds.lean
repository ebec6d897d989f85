/-
The element IDs of webm_parser/include/webm/id.h.
-/
namespace Verif.Web.Id

/-- webm_parser/include/webm/id.h:47 -/
def kEbml : Nat := 0x1A45DFA3
/-- webm_parser/include/webm/id.h:54 -/
def kEbmlVersion : Nat := 0x4286
/-- webm_parser/include/webm/id.h:61 -/
def kEbmlReadVersion : Nat := 0x42F7
/-- webm_parser/include/webm/id.h:68 -/
def kEbmlMaxIdLength : Nat := 0x42F2
/-- webm_parser/include/webm/id.h:75 -/
def kEbmlMaxSizeLength : Nat := 0x42F3
/-- webm_parser/include/webm/id.h:82 -/
def kDocType : Nat := 0x4282
/-- webm_parser/include/webm/id.h:89 -/
def kDocTypeVersion : Nat := 0x4287
/-- webm_parser/include/webm/id.h:96 -/
def kDocTypeReadVersion : Nat := 0x4285
/-- webm_parser/include/webm/id.h:103 -/
def kVoid : Nat := 0xEC
/-- webm_parser/include/webm/id.h:110 -/
def kSegment : Nat := 0x18538067
/-- webm_parser/include/webm/id.h:117 -/
def kSeekHead : Nat := 0x114D9B74
/-- webm_parser/include/webm/id.h:124 -/
def kSeek : Nat := 0x4DBB
/-- webm_parser/include/webm/id.h:131 -/
def kSeekId : Nat := 0x53AB
/-- webm_parser/include/webm/id.h:138 -/
def kSeekPosition : Nat := 0x53AC
/-- webm_parser/include/webm/id.h:145 -/
def kInfo : Nat := 0x1549A966
/-- webm_parser/include/webm/id.h:152 -/
def kTimecodeScale : Nat := 0x2AD7B1
/-- webm_parser/include/webm/id.h:159 -/
def kDuration : Nat := 0x4489
/-- webm_parser/include/webm/id.h:166 -/
def kDateUtc : Nat := 0x4461
/-- webm_parser/include/webm/id.h:173 -/
def kTitle : Nat := 0x7BA9
/-- webm_parser/include/webm/id.h:180 -/
def kMuxingApp : Nat := 0x4D80
/-- webm_parser/include/webm/id.h:187 -/
def kWritingApp : Nat := 0x5741
/-- webm_parser/include/webm/id.h:194 -/
def kCluster : Nat := 0x1F43B675
/-- webm_parser/include/webm/id.h:201 -/
def kTimecode : Nat := 0xE7
/-- webm_parser/include/webm/id.h:208 -/
def kPrevSize : Nat := 0xAB
/-- webm_parser/include/webm/id.h:215 -/
def kSimpleBlock : Nat := 0xA3
/-- webm_parser/include/webm/id.h:222 -/
def kBlockGroup : Nat := 0xA0
/-- webm_parser/include/webm/id.h:229 -/
def kBlock : Nat := 0xA1
/-- webm_parser/include/webm/id.h:236 -/
def kBlockVirtual : Nat := 0xA2
/-- webm_parser/include/webm/id.h:243 -/
def kBlockAdditions : Nat := 0x75A1
/-- webm_parser/include/webm/id.h:250 -/
def kBlockMore : Nat := 0xA6
/-- webm_parser/include/webm/id.h:257 -/
def kBlockAddId : Nat := 0xEE
/-- webm_parser/include/webm/id.h:264 -/
def kBlockAdditional : Nat := 0xA5
/-- webm_parser/include/webm/id.h:271 -/
def kBlockDuration : Nat := 0x9B
/-- webm_parser/include/webm/id.h:278 -/
def kReferenceBlock : Nat := 0xFB
/-- webm_parser/include/webm/id.h:285 -/
def kDiscardPadding : Nat := 0x75A2
/-- webm_parser/include/webm/id.h:292 -/
def kSlices : Nat := 0x8E
/-- webm_parser/include/webm/id.h:299 -/
def kTimeSlice : Nat := 0xE8
/-- webm_parser/include/webm/id.h:306 -/
def kLaceNumber : Nat := 0xCC
/-- webm_parser/include/webm/id.h:313 -/
def kTracks : Nat := 0x1654AE6B
/-- webm_parser/include/webm/id.h:320 -/
def kTrackEntry : Nat := 0xAE
/-- webm_parser/include/webm/id.h:327 -/
def kTrackNumber : Nat := 0xD7
/-- webm_parser/include/webm/id.h:334 -/
def kTrackUid : Nat := 0x73C5
/-- webm_parser/include/webm/id.h:341 -/
def kTrackType : Nat := 0x83
/-- webm_parser/include/webm/id.h:348 -/
def kFlagEnabled : Nat := 0xB9
/-- webm_parser/include/webm/id.h:355 -/
def kFlagDefault : Nat := 0x88
/-- webm_parser/include/webm/id.h:362 -/
def kFlagForced : Nat := 0x55AA
/-- webm_parser/include/webm/id.h:369 -/
def kFlagLacing : Nat := 0x9C
/-- webm_parser/include/webm/id.h:376 -/
def kDefaultDuration : Nat := 0x23E383
/-- webm_parser/include/webm/id.h:383 -/
def kName : Nat := 0x536E
/-- webm_parser/include/webm/id.h:390 -/
def kLanguage : Nat := 0x22B59C
/-- webm_parser/include/webm/id.h:397 -/
def kCodecId : Nat := 0x86
/-- webm_parser/include/webm/id.h:404 -/
def kCodecPrivate : Nat := 0x63A2
/-- webm_parser/include/webm/id.h:411 -/
def kCodecName : Nat := 0x258688
/-- webm_parser/include/webm/id.h:418 -/
def kCodecDelay : Nat := 0x56AA
/-- webm_parser/include/webm/id.h:425 -/
def kSeekPreRoll : Nat := 0x56BB
/-- webm_parser/include/webm/id.h:432 -/
def kVideo : Nat := 0xE0
/-- webm_parser/include/webm/id.h:439 -/
def kFlagInterlaced : Nat := 0x9A
/-- webm_parser/include/webm/id.h:446 -/
def kStereoMode : Nat := 0x53B8
/-- webm_parser/include/webm/id.h:453 -/
def kAlphaMode : Nat := 0x53C0
/-- webm_parser/include/webm/id.h:460 -/
def kPixelWidth : Nat := 0xB0
/-- webm_parser/include/webm/id.h:467 -/
def kPixelHeight : Nat := 0xBA
/-- webm_parser/include/webm/id.h:474 -/
def kPixelCropBottom : Nat := 0x54AA
/-- webm_parser/include/webm/id.h:481 -/
def kPixelCropTop : Nat := 0x54BB
/-- webm_parser/include/webm/id.h:488 -/
def kPixelCropLeft : Nat := 0x54CC
/-- webm_parser/include/webm/id.h:495 -/
def kPixelCropRight : Nat := 0x54DD
/-- webm_parser/include/webm/id.h:502 -/
def kDisplayWidth : Nat := 0x54B0
/-- webm_parser/include/webm/id.h:509 -/
def kDisplayHeight : Nat := 0x54BA
/-- webm_parser/include/webm/id.h:516 -/
def kDisplayUnit : Nat := 0x54B2
/-- webm_parser/include/webm/id.h:523 -/
def kAspectRatioType : Nat := 0x54B3
/-- webm_parser/include/webm/id.h:530 -/
def kFrameRate : Nat := 0x2383E3
/-- webm_parser/include/webm/id.h:537 -/
def kColour : Nat := 0x55B0
/-- webm_parser/include/webm/id.h:544 -/
def kMatrixCoefficients : Nat := 0x55B1
/-- webm_parser/include/webm/id.h:551 -/
def kBitsPerChannel : Nat := 0x55B2
/-- webm_parser/include/webm/id.h:558 -/
def kChromaSubsamplingHorz : Nat := 0x55B3
/-- webm_parser/include/webm/id.h:565 -/
def kChromaSubsamplingVert : Nat := 0x55B4
/-- webm_parser/include/webm/id.h:572 -/
def kCbSubsamplingHorz : Nat := 0x55B5
/-- webm_parser/include/webm/id.h:579 -/
def kCbSubsamplingVert : Nat := 0x55B6
/-- webm_parser/include/webm/id.h:586 -/
def kChromaSitingHorz : Nat := 0x55B7
/-- webm_parser/include/webm/id.h:593 -/
def kChromaSitingVert : Nat := 0x55B8
/-- webm_parser/include/webm/id.h:600 -/
def kRange : Nat := 0x55B9
/-- webm_parser/include/webm/id.h:607 -/
def kTransferCharacteristics : Nat := 0x55BA
/-- webm_parser/include/webm/id.h:614 -/
def kPrimaries : Nat := 0x55BB
/-- webm_parser/include/webm/id.h:621 -/
def kMaxCll : Nat := 0x55BC
/-- webm_parser/include/webm/id.h:628 -/
def kMaxFall : Nat := 0x55BD
/-- webm_parser/include/webm/id.h:635 -/
def kMasteringMetadata : Nat := 0x55D0
/-- webm_parser/include/webm/id.h:642 -/
def kPrimaryRChromaticityX : Nat := 0x55D1
/-- webm_parser/include/webm/id.h:649 -/
def kPrimaryRChromaticityY : Nat := 0x55D2
/-- webm_parser/include/webm/id.h:656 -/
def kPrimaryGChromaticityX : Nat := 0x55D3
/-- webm_parser/include/webm/id.h:663 -/
def kPrimaryGChromaticityY : Nat := 0x55D4
/-- webm_parser/include/webm/id.h:670 -/
def kPrimaryBChromaticityX : Nat := 0x55D5
/-- webm_parser/include/webm/id.h:677 -/
def kPrimaryBChromaticityY : Nat := 0x55D6
/-- webm_parser/include/webm/id.h:684 -/
def kWhitePointChromaticityX : Nat := 0x55D7
/-- webm_parser/include/webm/id.h:691 -/
def kWhitePointChromaticityY : Nat := 0x55D8
/-- webm_parser/include/webm/id.h:698 -/
def kLuminanceMax : Nat := 0x55D9
/-- webm_parser/include/webm/id.h:705 -/
def kLuminanceMin : Nat := 0x55DA
/-- webm_parser/include/webm/id.h:712 -/
def kProjection : Nat := 0x7670
/-- webm_parser/include/webm/id.h:719 -/
def kProjectionType : Nat := 0x7671
/-- webm_parser/include/webm/id.h:726 -/
def kProjectionPrivate : Nat := 0x7672
/-- webm_parser/include/webm/id.h:733 -/
def kProjectionPoseYaw : Nat := 0x7673
/-- webm_parser/include/webm/id.h:740 -/
def kProjectionPosePitch : Nat := 0x7674
/-- webm_parser/include/webm/id.h:747 -/
def kProjectionPoseRoll : Nat := 0x7675
/-- webm_parser/include/webm/id.h:754 -/
def kAudio : Nat := 0xE1
/-- webm_parser/include/webm/id.h:761 -/
def kSamplingFrequency : Nat := 0xB5
/-- webm_parser/include/webm/id.h:768 -/
def kOutputSamplingFrequency : Nat := 0x78B5
/-- webm_parser/include/webm/id.h:775 -/
def kChannels : Nat := 0x9F
/-- webm_parser/include/webm/id.h:782 -/
def kBitDepth : Nat := 0x6264
/-- webm_parser/include/webm/id.h:789 -/
def kContentEncodings : Nat := 0x6D80
/-- webm_parser/include/webm/id.h:796 -/
def kContentEncoding : Nat := 0x6240
/-- webm_parser/include/webm/id.h:803 -/
def kContentEncodingOrder : Nat := 0x5031
/-- webm_parser/include/webm/id.h:810 -/
def kContentEncodingScope : Nat := 0x5032
/-- webm_parser/include/webm/id.h:817 -/
def kContentEncodingType : Nat := 0x5033
/-- webm_parser/include/webm/id.h:824 -/
def kContentEncryption : Nat := 0x5035
/-- webm_parser/include/webm/id.h:831 -/
def kContentEncAlgo : Nat := 0x47E1
/-- webm_parser/include/webm/id.h:838 -/
def kContentEncKeyId : Nat := 0x47E2
/-- webm_parser/include/webm/id.h:845 -/
def kContentEncAesSettings : Nat := 0x47E7
/-- webm_parser/include/webm/id.h:852 -/
def kAesSettingsCipherMode : Nat := 0x47E8
/-- webm_parser/include/webm/id.h:859 -/
def kCues : Nat := 0x1C53BB6B
/-- webm_parser/include/webm/id.h:866 -/
def kCuePoint : Nat := 0xBB
/-- webm_parser/include/webm/id.h:873 -/
def kCueTime : Nat := 0xB3
/-- webm_parser/include/webm/id.h:880 -/
def kCueTrackPositions : Nat := 0xB7
/-- webm_parser/include/webm/id.h:887 -/
def kCueTrack : Nat := 0xF7
/-- webm_parser/include/webm/id.h:894 -/
def kCueClusterPosition : Nat := 0xF1
/-- webm_parser/include/webm/id.h:901 -/
def kCueRelativePosition : Nat := 0xF0
/-- webm_parser/include/webm/id.h:908 -/
def kCueDuration : Nat := 0xB2
/-- webm_parser/include/webm/id.h:915 -/
def kCueBlockNumber : Nat := 0x5378
/-- webm_parser/include/webm/id.h:922 -/
def kChapters : Nat := 0x1043A770
/-- webm_parser/include/webm/id.h:929 -/
def kEditionEntry : Nat := 0x45B9
/-- webm_parser/include/webm/id.h:936 -/
def kChapterAtom : Nat := 0xB6
/-- webm_parser/include/webm/id.h:943 -/
def kChapterUid : Nat := 0x73C4
/-- webm_parser/include/webm/id.h:950 -/
def kChapterStringUid : Nat := 0x5654
/-- webm_parser/include/webm/id.h:957 -/
def kChapterTimeStart : Nat := 0x91
/-- webm_parser/include/webm/id.h:964 -/
def kChapterTimeEnd : Nat := 0x92
/-- webm_parser/include/webm/id.h:971 -/
def kChapterDisplay : Nat := 0x80
/-- webm_parser/include/webm/id.h:978 -/
def kChapString : Nat := 0x85
/-- webm_parser/include/webm/id.h:985 -/
def kChapLanguage : Nat := 0x437C
/-- webm_parser/include/webm/id.h:992 -/
def kChapCountry : Nat := 0x437E
/-- webm_parser/include/webm/id.h:999 -/
def kTags : Nat := 0x1254C367
/-- webm_parser/include/webm/id.h:1006 -/
def kTag : Nat := 0x7373
/-- webm_parser/include/webm/id.h:1013 -/
def kTargets : Nat := 0x63C0
/-- webm_parser/include/webm/id.h:1020 -/
def kTargetTypeValue : Nat := 0x68CA
/-- webm_parser/include/webm/id.h:1027 -/
def kTargetType : Nat := 0x63CA
/-- webm_parser/include/webm/id.h:1034 -/
def kTagTrackUid : Nat := 0x63C5
/-- webm_parser/include/webm/id.h:1041 -/
def kSimpleTag : Nat := 0x67C8
/-- webm_parser/include/webm/id.h:1048 -/
def kTagName : Nat := 0x45A3
/-- webm_parser/include/webm/id.h:1055 -/
def kTagLanguage : Nat := 0x447A
/-- webm_parser/include/webm/id.h:1062 -/
def kTagDefault : Nat := 0x4484
/-- webm_parser/include/webm/id.h:1069 -/
def kTagString : Nat := 0x4487
/-- webm_parser/include/webm/id.h:1076 -/
def kTagBinary : Nat := 0x4485

/-- Every enumerator of `Id`, webm_parser/include/webm/id.h:47-1076. -/
def all : List Nat :=
  [kEbml, kEbmlVersion, kEbmlReadVersion, kEbmlMaxIdLength, kEbmlMaxSizeLength, kDocType,
   kDocTypeVersion, kDocTypeReadVersion, kVoid, kSegment, kSeekHead, kSeek, kSeekId,
   kSeekPosition, kInfo, kTimecodeScale, kDuration, kDateUtc, kTitle, kMuxingApp, kWritingApp,
   kCluster, kTimecode, kPrevSize, kSimpleBlock, kBlockGroup, kBlock, kBlockVirtual,
   kBlockAdditions, kBlockMore, kBlockAddId, kBlockAdditional, kBlockDuration, kReferenceBlock,
   kDiscardPadding, kSlices, kTimeSlice, kLaceNumber, kTracks, kTrackEntry, kTrackNumber,
   kTrackUid, kTrackType, kFlagEnabled, kFlagDefault, kFlagForced, kFlagLacing, kDefaultDuration,
   kName, kLanguage, kCodecId, kCodecPrivate, kCodecName, kCodecDelay, kSeekPreRoll, kVideo,
   kFlagInterlaced, kStereoMode, kAlphaMode, kPixelWidth, kPixelHeight, kPixelCropBottom,
   kPixelCropTop, kPixelCropLeft, kPixelCropRight, kDisplayWidth, kDisplayHeight, kDisplayUnit,
   kAspectRatioType, kFrameRate, kColour, kMatrixCoefficients, kBitsPerChannel,
   kChromaSubsamplingHorz, kChromaSubsamplingVert, kCbSubsamplingHorz, kCbSubsamplingVert,
   kChromaSitingHorz, kChromaSitingVert, kRange, kTransferCharacteristics, kPrimaries, kMaxCll,
   kMaxFall, kMasteringMetadata, kPrimaryRChromaticityX, kPrimaryRChromaticityY,
   kPrimaryGChromaticityX, kPrimaryGChromaticityY, kPrimaryBChromaticityX,
   kPrimaryBChromaticityY, kWhitePointChromaticityX, kWhitePointChromaticityY, kLuminanceMax,
   kLuminanceMin, kProjection, kProjectionType, kProjectionPrivate, kProjectionPoseYaw,
   kProjectionPosePitch, kProjectionPoseRoll, kAudio, kSamplingFrequency,
   kOutputSamplingFrequency, kChannels, kBitDepth, kContentEncodings, kContentEncoding,
   kContentEncodingOrder, kContentEncodingScope, kContentEncodingType, kContentEncryption,
   kContentEncAlgo, kContentEncKeyId, kContentEncAesSettings, kAesSettingsCipherMode, kCues,
   kCuePoint, kCueTime, kCueTrackPositions, kCueTrack, kCueClusterPosition, kCueRelativePosition,
   kCueDuration, kCueBlockNumber, kChapters, kEditionEntry, kChapterAtom, kChapterUid,
   kChapterStringUid, kChapterTimeStart, kChapterTimeEnd, kChapterDisplay, kChapString,
   kChapLanguage, kChapCountry, kTags, kTag, kTargets, kTargetTypeValue, kTargetType,
   kTagTrackUid, kSimpleTag, kTagName, kTagLanguage, kTagDefault, kTagString, kTagBinary]

end Verif.Web.Id
