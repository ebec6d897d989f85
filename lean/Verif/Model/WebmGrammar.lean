/-
The parsers of webm_parser and their children, one definition per parser class.
-/
import Verif.Model.WebmTree
import Verif.Model.WebmIds

namespace Verif.Web
open Verif.Web.Id

/-- The children of a parser from a list. -/
def Kids.ofList : List (Nat × Bool × Gram) → (consume : Bool) → Kids
  | [], _ => .nil
  | (id, start, g) :: rest, c => .cons id start c g (Kids.ofList rest c)

/-- A child of a `MasterValueParser` or `MasterParser`. -/
def child (id : Nat) (g : Gram) : Nat × Bool × Gram := (id, false, g)

/-- A child marked `UseAsStartEvent`. -/
def startChild (id : Nat) (g : Gram) : Nat × Bool × Gram := (id, true, g)

/-- The default `max_recursion_depth`, webm_parser/src/chapter_atom_parser.h, webm_parser/src/simple_tag_parser.h. -/
def maxRecursionDepth : Nat := 25

/-- `EbmlParser`, webm_parser/src/ebml_parser.h:27-38; calls OnEbml. -/
def gEbml : Gram :=
  .master { id := kEbml, start := .none, complete := true } (Kids.ofList [
    child kEbmlVersion (.leaf .uint),
    child kEbmlReadVersion (.leaf .uint),
    child kEbmlMaxIdLength (.leaf .uint),
    child kEbmlMaxSizeLength (.leaf .uint),
    child kDocType (.leaf .str),
    child kDocTypeVersion (.leaf .uint),
    child kDocTypeReadVersion (.leaf .uint)] true)

/-- `ChapterDisplayParser`, webm_parser/src/chapter_display_parser.h:25-29. -/
def gChapterDisplay : Gram :=
  .master { id := kChapterDisplay, start := .none, complete := false } (Kids.ofList [
    child kChapString (.leaf .str),
    child kChapLanguage (.leaf .str),
    child kChapCountry (.leaf .str)] true)

/-- `ChapterAtomParser`, webm_parser/src/chapter_atom_parser.h:27-37; nested ones are `RecursiveParser`s of one less depth
(webm_parser/src/recursive_parser.h:36-63), which do not pass on `GetCachedMetadata` and
`WasSkipped`. -/
def gChapterAtom : (depth : Nat) → (forward : Bool) → Gram
  | 0, fwd => .master { id := kChapterAtom, start := .none, complete := false, forward := fwd } (Kids.ofList [
    child kChapterUid (.leaf .uint),
    child kChapterStringUid (.leaf .str),
    child kChapterTimeStart (.leaf .uint),
    child kChapterTimeEnd (.leaf .uint),
    child kChapterDisplay gChapterDisplay,
    child kChapterAtom (.leaf .tooDeep)] true)
  | d + 1, fwd => .master { id := kChapterAtom, start := .none, complete := false, forward := fwd } (Kids.ofList [
    child kChapterUid (.leaf .uint),
    child kChapterStringUid (.leaf .str),
    child kChapterTimeStart (.leaf .uint),
    child kChapterTimeEnd (.leaf .uint),
    child kChapterDisplay gChapterDisplay,
    child kChapterAtom (gChapterAtom d false)] true)

/-- `EditionEntryParser`, webm_parser/src/edition_entry_parser.h:24-25; calls OnEditionEntry. -/
def gEditionEntry : Gram :=
  .master { id := kEditionEntry, start := .none, complete := true } (Kids.ofList [
    child kChapterAtom (gChapterAtom maxRecursionDepth true)] true)

/-- `ChaptersParser`, webm_parser/src/chapters_parser.h:23-23. -/
def gChapters : Gram :=
  .master { id := kChapters, start := .none, complete := false } (Kids.ofList [
    child kEditionEntry gEditionEntry] false)

/-- `BlockMoreParser`, webm_parser/src/block_more_parser.h:26-27. -/
def gBlockMore : Gram :=
  .master { id := kBlockMore, start := .none, complete := false } (Kids.ofList [
    child kBlockAddId (.leaf .uint),
    child kBlockAdditional (.leaf .bin)] true)

/-- `BlockAdditionsParser`, webm_parser/src/block_additions_parser.h:24-25. -/
def gBlockAdditions : Gram :=
  .master { id := kBlockAdditions, start := .none, complete := false } (Kids.ofList [
    child kBlockMore gBlockMore] true)

/-- `TimeSliceParser`, webm_parser/src/time_slice_parser.h:24-25. -/
def gTimeSlice : Gram :=
  .master { id := kTimeSlice, start := .none, complete := false } (Kids.ofList [
    child kLaceNumber (.leaf .uint)] true)

/-- `SlicesParser`, webm_parser/src/slices_parser.h:25-25. -/
def gSlices : Gram :=
  .master { id := kSlices, start := .none, complete := false } (Kids.ofList [
    child kTimeSlice gTimeSlice] true)

/-- `BlockGroupParser`, webm_parser/src/block_group_parser.h:29-40; calls OnBlockGroupBegin, OnBlockGroupEnd. -/
def gBlockGroup : Gram :=
  .master { id := kBlockGroup, start := .first, complete := true } (Kids.ofList [
    child kBlock (.leaf (.block false)),
    child kBlockVirtual (.leaf .virt),
    child kBlockAdditions gBlockAdditions,
    child kBlockDuration (.leaf .uint),
    child kReferenceBlock (.leaf .sint),
    child kDiscardPadding (.leaf .sint),
    child kSlices gSlices] true)

/-- `ClusterParser`, webm_parser/src/cluster_parser.h:27-34; calls OnClusterBegin, OnClusterEnd. -/
def gCluster : Gram :=
  .master { id := kCluster, start := .tagged, complete := true } (Kids.ofList [
    child kTimecode (.leaf .uint),
    child kPrevSize (.leaf .uint),
    startChild kSimpleBlock (.leaf (.block true)),
    startChild kBlockGroup gBlockGroup] true)

/-- `CueTrackPositionsParser`, webm_parser/src/cue_track_positions_parser.h:25-34. -/
def gCueTrackPositions : Gram :=
  .master { id := kCueTrackPositions, start := .none, complete := false } (Kids.ofList [
    child kCueTrack (.leaf .uint),
    child kCueClusterPosition (.leaf .uint),
    child kCueRelativePosition (.leaf .uint),
    child kCueDuration (.leaf .uint),
    child kCueBlockNumber (.leaf .uint)] true)

/-- `CuePointParser`, webm_parser/src/cue_point_parser.h:26-28; calls OnCuePoint. -/
def gCuePoint : Gram :=
  .master { id := kCuePoint, start := .none, complete := true } (Kids.ofList [
    child kCueTime (.leaf .uint),
    child kCueTrackPositions gCueTrackPositions] true)

/-- `CuesParser`, webm_parser/src/cues_parser.h:22-22. -/
def gCues : Gram :=
  .master { id := kCues, start := .none, complete := false } (Kids.ofList [
    child kCuePoint gCuePoint] false)

/-- `InfoParser`, webm_parser/src/info_parser.h:28-34; calls OnInfo. -/
def gInfo : Gram :=
  .master { id := kInfo, start := .none, complete := true } (Kids.ofList [
    child kTimecodeScale (.leaf .uint),
    child kDuration (.leaf .float),
    child kDateUtc (.leaf .date),
    child kTitle (.leaf .str),
    child kMuxingApp (.leaf .str),
    child kWritingApp (.leaf .str)] true)

/-- `SeekParser`, webm_parser/src/seek_parser.h:26-27; calls OnSeek. -/
def gSeek : Gram :=
  .master { id := kSeek, start := .none, complete := true } (Kids.ofList [
    child kSeekId (.leaf .idElem),
    child kSeekPosition (.leaf .uint)] true)

/-- `SeekHeadParser`, webm_parser/src/seek_head_parser.h:22-22. -/
def gSeekHead : Gram :=
  .master { id := kSeekHead, start := .none, complete := false } (Kids.ofList [
    child kSeek gSeek] false)

/-- `TargetsParser`, webm_parser/src/targets_parser.h:26-30. -/
def gTargets : Gram :=
  .master { id := kTargets, start := .none, complete := false } (Kids.ofList [
    child kTargetTypeValue (.leaf .uint),
    child kTargetType (.leaf .str),
    child kTagTrackUid (.leaf .uint)] true)

/-- `SimpleTagParser`, webm_parser/src/simple_tag_parser.h:26-32; nested ones are `RecursiveParser`s of one less depth
(webm_parser/src/recursive_parser.h:36-63), which do not pass on `GetCachedMetadata` and
`WasSkipped`. -/
def gSimpleTag : (depth : Nat) → (forward : Bool) → Gram
  | 0, fwd => .master { id := kSimpleTag, start := .none, complete := false, forward := fwd } (Kids.ofList [
    child kTagName (.leaf .str),
    child kTagLanguage (.leaf .str),
    child kTagDefault (.leaf .bool),
    child kTagString (.leaf .str),
    child kTagBinary (.leaf .bin),
    child kSimpleTag (.leaf .tooDeep)] true)
  | d + 1, fwd => .master { id := kSimpleTag, start := .none, complete := false, forward := fwd } (Kids.ofList [
    child kTagName (.leaf .str),
    child kTagLanguage (.leaf .str),
    child kTagDefault (.leaf .bool),
    child kTagString (.leaf .str),
    child kTagBinary (.leaf .bin),
    child kSimpleTag (gSimpleTag d false)] true)

/-- `TagParser`, webm_parser/src/tag_parser.h:26-27; calls OnTag. -/
def gTag : Gram :=
  .master { id := kTag, start := .none, complete := true } (Kids.ofList [
    child kTargets gTargets,
    child kSimpleTag (gSimpleTag maxRecursionDepth true)] true)

/-- `TagsParser`, webm_parser/src/tags_parser.h:22-22. -/
def gTags : Gram :=
  .master { id := kTags, start := .none, complete := false } (Kids.ofList [
    child kTag gTag] false)

/-- `MasteringMetadataParser`, webm_parser/src/mastering_metadata_parser.h:25-52. -/
def gMasteringMetadata : Gram :=
  .master { id := kMasteringMetadata, start := .none, complete := false } (Kids.ofList [
    child kPrimaryRChromaticityX (.leaf .float),
    child kPrimaryRChromaticityY (.leaf .float),
    child kPrimaryGChromaticityX (.leaf .float),
    child kPrimaryGChromaticityY (.leaf .float),
    child kPrimaryBChromaticityX (.leaf .float),
    child kPrimaryBChromaticityY (.leaf .float),
    child kWhitePointChromaticityX (.leaf .float),
    child kWhitePointChromaticityY (.leaf .float),
    child kLuminanceMax (.leaf .float),
    child kLuminanceMin (.leaf .float)] true)

/-- `ColourParser`, webm_parser/src/colour_parser.h:26-50. -/
def gColour : Gram :=
  .master { id := kColour, start := .none, complete := false } (Kids.ofList [
    child kMatrixCoefficients (.leaf .uint),
    child kBitsPerChannel (.leaf .uint),
    child kChromaSubsamplingHorz (.leaf .uint),
    child kChromaSubsamplingVert (.leaf .uint),
    child kCbSubsamplingHorz (.leaf .uint),
    child kCbSubsamplingVert (.leaf .uint),
    child kChromaSitingHorz (.leaf .uint),
    child kChromaSitingVert (.leaf .uint),
    child kRange (.leaf .uint),
    child kTransferCharacteristics (.leaf .uint),
    child kPrimaries (.leaf .uint),
    child kMaxCll (.leaf .uint),
    child kMaxFall (.leaf .uint),
    child kMasteringMetadata gMasteringMetadata] true)

/-- `ProjectionParser`, webm_parser/src/projection_parser.h:26-35. -/
def gProjection : Gram :=
  .master { id := kProjection, start := .none, complete := false } (Kids.ofList [
    child kProjectionType (.leaf .uint),
    child kProjectionPrivate (.leaf .bin),
    child kProjectionPoseYaw (.leaf .float),
    child kProjectionPosePitch (.leaf .float),
    child kProjectionPoseRoll (.leaf .float)] true)

/-- `VideoParser`, webm_parser/src/video_parser.h:35-63. -/
def gVideo : Gram :=
  .master { id := kVideo, start := .none, complete := false } (Kids.ofList [
    child kFlagInterlaced (.leaf .uint),
    child kStereoMode (.leaf .uint),
    child kAlphaMode (.leaf .uint),
    child kPixelWidth (.leaf .uint),
    child kPixelHeight (.leaf .uint),
    child kPixelCropBottom (.leaf .uint),
    child kPixelCropTop (.leaf .uint),
    child kPixelCropLeft (.leaf .uint),
    child kPixelCropRight (.leaf .uint),
    child kDisplayWidth (.leaf .uint),
    child kDisplayHeight (.leaf .uint),
    child kDisplayUnit (.leaf .uint),
    child kAspectRatioType (.leaf .uint),
    child kFrameRate (.leaf .float),
    child kColour gColour,
    child kProjection gProjection] true)

/-- `AudioParser`, webm_parser/src/audio_parser.h:32-38. -/
def gAudio : Gram :=
  .master { id := kAudio, start := .none, complete := false } (Kids.ofList [
    child kSamplingFrequency (.leaf .float),
    child kOutputSamplingFrequency (.leaf .float),
    child kChannels (.leaf .uint),
    child kBitDepth (.leaf .uint)] true)

/-- `ContentEncAesSettingsParser`, webm_parser/src/content_enc_aes_settings_parser.h:25-27. -/
def gContentEncAesSettings : Gram :=
  .master { id := kContentEncAesSettings, start := .none, complete := false } (Kids.ofList [
    child kAesSettingsCipherMode (.leaf .uint)] true)

/-- `ContentEncryptionParser`, webm_parser/src/content_encryption_parser.h:26-31. -/
def gContentEncryption : Gram :=
  .master { id := kContentEncryption, start := .none, complete := false } (Kids.ofList [
    child kContentEncAlgo (.leaf .uint),
    child kContentEncKeyId (.leaf .bin),
    child kContentEncAesSettings gContentEncAesSettings] true)

/-- `ContentEncodingParser`, webm_parser/src/content_encoding_parser.h:26-33. -/
def gContentEncoding : Gram :=
  .master { id := kContentEncoding, start := .none, complete := false } (Kids.ofList [
    child kContentEncodingOrder (.leaf .uint),
    child kContentEncodingScope (.leaf .uint),
    child kContentEncodingType (.leaf .uint),
    child kContentEncryption gContentEncryption] true)

/-- `ContentEncodingsParser`, webm_parser/src/content_encodings_parser.h:24-25. -/
def gContentEncodings : Gram :=
  .master { id := kContentEncodings, start := .none, complete := false } (Kids.ofList [
    child kContentEncoding gContentEncoding] true)

/-- `TrackEntryParser`, webm_parser/src/track_entry_parser.h:31-55; calls OnTrackEntry. -/
def gTrackEntry : Gram :=
  .master { id := kTrackEntry, start := .none, complete := true } (Kids.ofList [
    child kTrackNumber (.leaf .uint),
    child kTrackUid (.leaf .uint),
    child kTrackType (.leaf .uint),
    child kFlagEnabled (.leaf .bool),
    child kFlagDefault (.leaf .bool),
    child kFlagForced (.leaf .bool),
    child kFlagLacing (.leaf .bool),
    child kDefaultDuration (.leaf .uint),
    child kName (.leaf .str),
    child kLanguage (.leaf .str),
    child kCodecId (.leaf .str),
    child kCodecPrivate (.leaf .bin),
    child kCodecName (.leaf .str),
    child kCodecDelay (.leaf .uint),
    child kSeekPreRoll (.leaf .uint),
    child kVideo gVideo,
    child kAudio gAudio,
    child kContentEncodings gContentEncodings] true)

/-- `TracksParser`, webm_parser/src/tracks_parser.h:22-22. -/
def gTracks : Gram :=
  .master { id := kTracks, start := .none, complete := false } (Kids.ofList [
    child kTrackEntry gTrackEntry] false)

/-- `SegmentParser`, webm_parser/src/segment_parser.cc:23-29; calls OnSegmentBegin, OnSegmentEnd. -/
def gSegment : Gram :=
  .master { id := kSegment, start := .first, complete := true } (Kids.ofList [
    child kChapters gChapters,
    child kCluster gCluster,
    child kCues gCues,
    child kInfo gInfo,
    child kSeekHead gSeekHead,
    child kTags gTags,
    child kTracks gTracks] false)

/-- The parsers `DocumentParser` uses for top-level elements, webm_parser/src/webm_parser.cc:86-128. -/
def topKids : Kids := Kids.ofList [child kSegment gSegment, child kEbml gEbml] false

end Verif.Web
