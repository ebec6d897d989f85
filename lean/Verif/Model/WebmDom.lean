/-
The structures handed to the callbacks of webm_parser: their members, what they hold at first, and how the values of the children
get into them.
-/
import Verif.Model.WebmGrammar

namespace Verif.Web
open Verif.Web.Id

/-- A member of a structure: an `Element<T>` (webm_parser/include/webm/element.h:40-131: value and presence) or a
`std::vector<Element<T>>`. -/
inductive Slot where
  | one (value : Val) (present : Bool)
  | many (items : List (Val × Bool))
  deriving DecidableEq, Repr

/-! ### What they hold at first

`value_ = {}` (webm_parser/src/master_value_parser.h:522-528).  Scalars as in `Val`: floats as the bit pattern of a double, a
member that is a structure is given by the children it was made of, none. -/

/-- `Ebml`, webm_parser/include/webm/dom_types.h:331-365. -/
def sEbml : List (Nat × Slot) :=
  [(kEbmlVersion, .one (.nat 1) false), (kEbmlReadVersion, .one (.nat 1) false), (kEbmlMaxIdLength, .one (.nat 4) false),
   (kEbmlMaxSizeLength, .one (.nat 8) false), (kDocType, .one (.bytes [0x6D, 0x61, 0x74, 0x72, 0x6F, 0x73, 0x6B, 0x61]) false),
   (kDocTypeVersion, .one (.nat 1) false), (kDocTypeReadVersion, .one (.nat 1) false)]

/-- `ChapterDisplay`, webm_parser/include/webm/dom_types.h:1595-1609. -/
def sChapterDisplay : List (Nat × Slot) :=
  [(kChapString, .one (.bytes []) false), (kChapLanguage, .many [(.bytes [0x65, 0x6E, 0x67], false)]), (kChapCountry, .many [])]

/-- `ChapterAtom`, webm_parser/include/webm/dom_types.h:1623-1652. -/
def sChapterAtom : List (Nat × Slot) :=
  [(kChapterUid, .one (.nat 0) false), (kChapterStringUid, .one (.bytes []) false), (kChapterTimeStart, .one (.nat 0) false),
   (kChapterTimeEnd, .one (.nat 0) false), (kChapterDisplay, .many []), (kChapterAtom, .many [])]

/-- `EditionEntry`, webm_parser/include/webm/dom_types.h:1667-1671. -/
def sEditionEntry : List (Nat × Slot) :=
  [(kChapterAtom, .many [])]

/-- `BlockMore`, webm_parser/include/webm/dom_types.h:66-75. -/
def sBlockMore : List (Nat × Slot) :=
  [(kBlockAddId, .one (.nat 1) false), (kBlockAdditional, .one (.bytes []) false)]

/-- `BlockAdditions`, webm_parser/include/webm/dom_types.h:88-92. -/
def sBlockAdditions : List (Nat × Slot) :=
  [(kBlockMore, .many [])]

/-- `TimeSlice`, webm_parser/include/webm/dom_types.h:105-109. -/
def sTimeSlice : List (Nat × Slot) :=
  [(kLaceNumber, .one (.nat 0) false)]

/-- `Slices`, webm_parser/include/webm/dom_types.h:122-126. -/
def sSlices : List (Nat × Slot) :=
  [(kTimeSlice, .many [])]

/-- `BlockGroup`, webm_parser/include/webm/dom_types.h:247-281. -/
def sBlockGroup : List (Nat × Slot) :=
  [(kBlock, .one (.block {}) false), (kBlockVirtual, .one (.block {}) false), (kBlockAdditions, .one (.nil) false),
   (kBlockDuration, .one (.nat 0) false), (kReferenceBlock, .many []), (kDiscardPadding, .one (.nat 0) false),
   (kSlices, .one (.nil) false)]

/-- `Cluster`, webm_parser/include/webm/dom_types.h:297-316. -/
def sCluster : List (Nat × Slot) :=
  [(kTimecode, .one (.nat 0) false), (kPrevSize, .one (.nat 0) false), (kSimpleBlock, .many []), (kBlockGroup, .many [])]

/-- `CueTrackPositions`, webm_parser/include/webm/dom_types.h:1533-1557. -/
def sCueTrackPositions : List (Nat × Slot) :=
  [(kCueTrack, .one (.nat 0) false), (kCueClusterPosition, .one (.nat 0) false), (kCueRelativePosition, .one (.nat 0) false),
   (kCueDuration, .one (.nat 0) false), (kCueBlockNumber, .one (.nat 1) false)]

/-- `CuePoint`, webm_parser/include/webm/dom_types.h:1572-1581. -/
def sCuePoint : List (Nat × Slot) :=
  [(kCueTime, .one (.nat 0) false), (kCueTrackPositions, .many [])]

/-- `Info`, webm_parser/include/webm/dom_types.h:384-413. -/
def sInfo : List (Nat × Slot) :=
  [(kTimecodeScale, .one (.nat 1000000) false), (kDuration, .one (.float (some (8, 0x0000000000000000))) false),
   (kDateUtc, .one (.nat 0) false), (kTitle, .one (.bytes []) false), (kMuxingApp, .one (.bytes []) false),
   (kWritingApp, .one (.bytes []) false)]

/-- `Seek`, webm_parser/include/webm/dom_types.h:429-438. -/
def sSeek : List (Nat × Slot) :=
  [(kSeekId, .one (.nat 0) false), (kSeekPosition, .one (.nat 0) false)]

/-- `Targets`, webm_parser/include/webm/dom_types.h:1728-1742. -/
def sTargets : List (Nat × Slot) :=
  [(kTargetTypeValue, .one (.nat 50) false), (kTargetType, .one (.bytes []) false), (kTagTrackUid, .many [])]

/-- `SimpleTag`, webm_parser/include/webm/dom_types.h:1684-1713. -/
def sSimpleTag : List (Nat × Slot) :=
  [(kTagName, .one (.bytes []) false), (kTagLanguage, .one (.bytes [0x75, 0x6E, 0x64]) false),
   (kTagDefault, .one (.flag true) false), (kTagString, .one (.bytes []) false), (kTagBinary, .one (.bytes []) false),
   (kSimpleTag, .many [])]

/-- `Tag`, webm_parser/include/webm/dom_types.h:1756-1765. -/
def sTag : List (Nat × Slot) :=
  [(kTargets, .one (.nil) false), (kSimpleTag, .many [])]

/-- `MasteringMetadata`, webm_parser/include/webm/dom_types.h:485-534. -/
def sMasteringMetadata : List (Nat × Slot) :=
  [(kPrimaryRChromaticityX, .one (.float (some (8, 0x0000000000000000))) false),
   (kPrimaryRChromaticityY, .one (.float (some (8, 0x0000000000000000))) false),
   (kPrimaryGChromaticityX, .one (.float (some (8, 0x0000000000000000))) false),
   (kPrimaryGChromaticityY, .one (.float (some (8, 0x0000000000000000))) false),
   (kPrimaryBChromaticityX, .one (.float (some (8, 0x0000000000000000))) false),
   (kPrimaryBChromaticityY, .one (.float (some (8, 0x0000000000000000))) false),
   (kWhitePointChromaticityX, .one (.float (some (8, 0x0000000000000000))) false),
   (kWhitePointChromaticityY, .one (.float (some (8, 0x0000000000000000))) false),
   (kLuminanceMax, .one (.float (some (8, 0x0000000000000000))) false),
   (kLuminanceMin, .one (.float (some (8, 0x0000000000000000))) false)]

/-- `Colour`, webm_parser/include/webm/dom_types.h:805-876. -/
def sColour : List (Nat × Slot) :=
  [(kMatrixCoefficients, .one (.nat 2) false), (kBitsPerChannel, .one (.nat 0) false),
   (kChromaSubsamplingHorz, .one (.nat 0) false), (kChromaSubsamplingVert, .one (.nat 0) false),
   (kCbSubsamplingHorz, .one (.nat 0) false), (kCbSubsamplingVert, .one (.nat 0) false),
   (kChromaSitingHorz, .one (.nat 0) false), (kChromaSitingVert, .one (.nat 0) false), (kRange, .one (.nat 0) false),
   (kTransferCharacteristics, .one (.nat 2) false), (kPrimaries, .one (.nat 2) false), (kMaxCll, .one (.nat 0) false),
   (kMaxFall, .one (.nat 0) false), (kMasteringMetadata, .one (.nil) false)]

/-- `Projection`, webm_parser/include/webm/dom_types.h:925-949. -/
def sProjection : List (Nat × Slot) :=
  [(kProjectionType, .one (.nat 0) false), (kProjectionPrivate, .one (.bytes []) false),
   (kProjectionPoseYaw, .one (.float (some (8, 0x0000000000000000))) false),
   (kProjectionPosePitch, .one (.float (some (8, 0x0000000000000000))) false),
   (kProjectionPoseRoll, .one (.float (some (8, 0x0000000000000000))) false)]

/-- `Video`, webm_parser/include/webm/dom_types.h:1122-1201. -/
def sVideo : List (Nat × Slot) :=
  [(kFlagInterlaced, .one (.nat 0) false), (kStereoMode, .one (.nat 0) false), (kAlphaMode, .one (.nat 0) false),
   (kPixelWidth, .one (.nat 0) false), (kPixelHeight, .one (.nat 0) false), (kPixelCropBottom, .one (.nat 0) false),
   (kPixelCropTop, .one (.nat 0) false), (kPixelCropLeft, .one (.nat 0) false), (kPixelCropRight, .one (.nat 0) false),
   (kDisplayWidth, .one (.nat 0) false), (kDisplayHeight, .one (.nat 0) false), (kDisplayUnit, .one (.nat 0) false),
   (kAspectRatioType, .one (.nat 0) false), (kFrameRate, .one (.float (some (8, 0x0000000000000000))) false),
   (kColour, .one (.nil) false), (kProjection, .one (.nil) false)]

/-- `Audio`, webm_parser/include/webm/dom_types.h:451-470. -/
def sAudio : List (Nat × Slot) :=
  [(kSamplingFrequency, .one (.float (some (8, 0x40BF400000000000))) false),
   (kOutputSamplingFrequency, .one (.float (some (8, 0x40BF400000000000))) false), (kChannels, .one (.nat 1) false),
   (kBitDepth, .one (.nat 0) false)]

/-- `ContentEncAesSettings`, webm_parser/include/webm/dom_types.h:1236-1241. -/
def sContentEncAesSettings : List (Nat × Slot) :=
  [(kAesSettingsCipherMode, .one (.nat 1) false)]

/-- `ContentEncryption`, webm_parser/include/webm/dom_types.h:1289-1303. -/
def sContentEncryption : List (Nat × Slot) :=
  [(kContentEncAlgo, .one (.nat 0) false), (kContentEncKeyId, .one (.bytes []) false),
   (kContentEncAesSettings, .one (.nil) false)]

/-- `ContentEncoding`, webm_parser/include/webm/dom_types.h:1332-1351. -/
def sContentEncoding : List (Nat × Slot) :=
  [(kContentEncodingOrder, .one (.nat 0) false), (kContentEncodingScope, .one (.nat 1) false),
   (kContentEncodingType, .one (.nat 0) false), (kContentEncryption, .one (.nil) false)]

/-- `ContentEncodings`, webm_parser/include/webm/dom_types.h:1365-1369. -/
def sContentEncodings : List (Nat × Slot) :=
  [(kContentEncoding, .many [])]

/-- `TrackEntry`, webm_parser/include/webm/dom_types.h:1422-1511. -/
def sTrackEntry : List (Nat × Slot) :=
  [(kTrackNumber, .one (.nat 0) false), (kTrackUid, .one (.nat 0) false), (kTrackType, .one (.nat 0) false),
   (kFlagEnabled, .one (.flag true) false), (kFlagDefault, .one (.flag true) false), (kFlagForced, .one (.flag false) false),
   (kFlagLacing, .one (.flag true) false), (kDefaultDuration, .one (.nat 0) false), (kName, .one (.bytes []) false),
   (kLanguage, .one (.bytes [0x65, 0x6E, 0x67]) false), (kCodecId, .one (.bytes []) false),
   (kCodecPrivate, .one (.bytes []) false), (kCodecName, .one (.bytes []) false), (kCodecDelay, .one (.nat 0) false),
   (kSeekPreRoll, .one (.nat 0) false), (kVideo, .one (.nil) false), (kAudio, .one (.nil) false),
   (kContentEncodings, .one (.nil) false)]

/-- The structure for an element (0: none), one line per parser class of webm_parser/src. -/
def structFor (id : Nat) : List (Nat × Slot) :=
  if id = kEbml then sEbml else
  if id = kChapterDisplay then sChapterDisplay else
  if id = kChapterAtom then sChapterAtom else
  if id = kEditionEntry then sEditionEntry else
  if id = kBlockMore then sBlockMore else
  if id = kBlockAdditions then sBlockAdditions else
  if id = kTimeSlice then sTimeSlice else
  if id = kSlices then sSlices else
  if id = kBlockGroup then sBlockGroup else
  if id = kCluster then sCluster else
  if id = kCueTrackPositions then sCueTrackPositions else
  if id = kCuePoint then sCuePoint else
  if id = kInfo then sInfo else
  if id = kSeek then sSeek else
  if id = kTargets then sTargets else
  if id = kSimpleTag then sSimpleTag else
  if id = kTag then sTag else
  if id = kMasteringMetadata then sMasteringMetadata else
  if id = kColour then sColour else
  if id = kProjection then sProjection else
  if id = kVideo then sVideo else
  if id = kAudio then sAudio else
  if id = kContentEncAesSettings then sContentEncAesSettings else
  if id = kContentEncryption then sContentEncryption else
  if id = kContentEncoding then sContentEncoding else
  if id = kContentEncodings then sContentEncodings else
  if id = kTrackEntry then sTrackEntry else
  []

/-! ### Storing children -/

/-- The default that the parser of a child is given, for an element of size zero: `MakeChildParser`,
webm_parser/src/master_value_parser.h:487-519.  Of a repeated child, that of the first item. -/
def Slot.fallback : Slot → Val
  | .one d _ => d
  | .many [] => .dflt
  | .many (x :: _) => x.1

/-- The functions that store the value of a child: of a single one, webm_parser/src/master_value_parser.h:174-176, of a repeated or recursive
one, webm_parser/src/master_value_parser.h:218-223, 265-270. -/
def Slot.put : Slot → Val → Slot
  | .one _ _, v => .one v true
  | .many items, v =>
    if items.length = 1 ∧ items.head?.map (·.2) = some false then .many [(v, true)]
    else .many (items ++ [(v, true)])

/-- The default for an element of size zero inside a structure.  `Value default_value{}` for a repeated child without a first item:
numbers are 0, strings and binary data empty. -/
def resolve (initial : Slot) (zero : Val) (v : Val) : Val :=
  if v = .dflt then (if initial.fallback = .dflt then zero else initial.fallback) else v

/-- What `Value{}` is for the repeated scalars without a first item: `ChapCountry` is a string, the others (`ReferenceBlock`,
`TagTrackUID`) are numbers; webm_parser/include/webm/dom_types.h:271, 1609, 1742. -/
def zeroFor (id : Nat) : Val := if id = kChapCountry then .bytes [] else .nat 0

/-- Store the value of a child with this ID.  The defaults were taken when the parser was made, from the structure as it was at
first. -/
def putChild (initial : List (Nat × Slot)) (s : List (Nat × Slot)) (id : Nat) (v : Val) : List (Nat × Slot) :=
  s.map fun f => if f.1 = id then
    (f.1, f.2.put (resolve ((initial.lookup id).getD (.many [])) (zeroFor id) v)) else f

/-- Store the values of all children. -/
def putAll (initial : List (Nat × Slot)) : List (Nat × Slot) → Val → List (Nat × Slot)
  | s, .cons id v rest => putAll initial (putChild initial s id v) rest
  | s, _ => s

/-- Whether the last child with this ID had a size: `OnChildParsed`, webm_parser/src/audio_parser.h:65-69,
webm_parser/src/video_parser.h:92-101. -/
def hasValue (id : Nat) : Val → Bool → Bool
  | .cons i v rest, b => hasValue id rest (if i = id then v != .dflt else b)
  | _, b => b

/-- The value of a single member. -/
def valueOf (s : List (Nat × Slot)) (id : Nat) : Val :=
  match s.lookup id with
  | some (.one v _) => v
  | _ => .nil

/-- `*mutable_value()->a.mutable_value() = value().b.value()`: the presence of the member stays. -/
def copyValue (s : List (Nat × Slot)) (to_ from_ : Nat) : List (Nat × Slot) :=
  s.map fun f => if f.1 = to_ then
    (f.1, match f.2 with | .one _ p => .one (valueOf s from_) p | x => x) else f

/-- The structure a parser for element `id` ends up with: with `FixMissingOutputFrequency`, webm_parser/src/audio_parser.h:74-79, and
`FixMissingDisplaySize`, webm_parser/src/video_parser.h:107-117. -/
def structOf (id : Nat) (v : Val) : List (Nat × Slot) :=
  let s := putAll (structFor id) (structFor id) v
  if id = kAudio then
    if hasValue kOutputSamplingFrequency v false then s else copyValue s kOutputSamplingFrequency kSamplingFrequency
  else if id = kVideo then
    let s := if hasValue kDisplayWidth v false then s else copyValue s kDisplayWidth kPixelWidth
    if hasValue kDisplayHeight v false then s else copyValue s kDisplayHeight kPixelHeight
  else s

end Verif.Web
