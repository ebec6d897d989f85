/-
Which element of a WebM file may contain which: the element hierarchy of the WebM/Matroska
specification, by EBML ID, and the chain of ancestors it gives every element.
-/

namespace Verif.Spec

/-- The elements of a WebM document that stand at the top level: EBML and Segment. -/
def rootIds : List Nat := [0x1A45DFA3, 0x18538067]

/-- The parent of every other element, with its children, from the WebM container guidelines and
the Matroska specification.  ChapterAtom and SimpleTag may also contain themselves; the
outermost parent is given. -/
def hierarchy : List (Nat × List Nat) := [
  -- EBML: EBMLVersion, EBMLReadVersion, EBMLMaxIDLength, EBMLMaxSizeLength, DocType,
  --   DocTypeVersion, DocTypeReadVersion
  (0x1A45DFA3, [0x4286, 0x42F7, 0x42F2, 0x42F3, 0x4282, 0x4287, 0x4285]),
  -- Segment: SeekHead, Info, Cluster, Tracks, Cues, Chapters, Tags
  (0x18538067, [0x114D9B74, 0x1549A966, 0x1F43B675, 0x1654AE6B, 0x1C53BB6B, 0x1043A770,
    0x1254C367]),
  -- SeekHead: Seek;  Seek: SeekID, SeekPosition
  (0x114D9B74, [0x4DBB]),
  (0x4DBB, [0x53AB, 0x53AC]),
  -- Info: TimecodeScale, Duration, DateUTC, Title, MuxingApp, WritingApp
  (0x1549A966, [0x2AD7B1, 0x4489, 0x4461, 0x7BA9, 0x4D80, 0x5741]),
  -- Cluster: Timecode, PrevSize, SimpleBlock, BlockGroup
  (0x1F43B675, [0xE7, 0xAB, 0xA3, 0xA0]),
  -- BlockGroup: Block, BlockVirtual, BlockAdditions, BlockDuration, ReferenceBlock,
  --   DiscardPadding, Slices
  (0xA0, [0xA1, 0xA2, 0x75A1, 0x9B, 0xFB, 0x75A2, 0x8E]),
  -- BlockAdditions: BlockMore;  BlockMore: BlockAddID, BlockAdditional
  (0x75A1, [0xA6]),
  (0xA6, [0xEE, 0xA5]),
  -- Slices: TimeSlice;  TimeSlice: LaceNumber
  (0x8E, [0xE8]),
  (0xE8, [0xCC]),
  -- Tracks: TrackEntry
  (0x1654AE6B, [0xAE]),
  -- TrackEntry: TrackNumber, TrackUID, TrackType, FlagEnabled, FlagDefault, FlagForced,
  --   FlagLacing, DefaultDuration, Name, Language, CodecID, CodecPrivate, CodecName, CodecDelay,
  --   SeekPreRoll, Video, Audio, ContentEncodings
  (0xAE, [0xD7, 0x73C5, 0x83, 0xB9, 0x88, 0x55AA, 0x9C, 0x23E383, 0x536E, 0x22B59C, 0x86,
    0x63A2, 0x258688, 0x56AA, 0x56BB, 0xE0, 0xE1, 0x6D80]),
  -- Video: FlagInterlaced, StereoMode, AlphaMode, PixelWidth, PixelHeight, PixelCropBottom,
  --   PixelCropTop, PixelCropLeft, PixelCropRight, DisplayWidth, DisplayHeight, DisplayUnit,
  --   AspectRatioType, FrameRate, Colour, Projection
  (0xE0, [0x9A, 0x53B8, 0x53C0, 0xB0, 0xBA, 0x54AA, 0x54BB, 0x54CC, 0x54DD, 0x54B0, 0x54BA,
    0x54B2, 0x54B3, 0x2383E3, 0x55B0, 0x7670]),
  -- Colour: MatrixCoefficients, BitsPerChannel, ChromaSubsamplingHorz, ChromaSubsamplingVert,
  --   CbSubsamplingHorz, CbSubsamplingVert, ChromaSitingHorz, ChromaSitingVert, Range,
  --   TransferCharacteristics, Primaries, MaxCLL, MaxFALL, MasteringMetadata
  (0x55B0, [0x55B1, 0x55B2, 0x55B3, 0x55B4, 0x55B5, 0x55B6, 0x55B7, 0x55B8, 0x55B9, 0x55BA,
    0x55BB, 0x55BC, 0x55BD, 0x55D0]),
  -- MasteringMetadata: the chromaticities of the primaries and the white point, LuminanceMax,
  --   LuminanceMin
  (0x55D0, [0x55D1, 0x55D2, 0x55D3, 0x55D4, 0x55D5, 0x55D6, 0x55D7, 0x55D8, 0x55D9, 0x55DA]),
  -- Projection: ProjectionType, ProjectionPrivate, ProjectionPoseYaw, ProjectionPosePitch,
  --   ProjectionPoseRoll
  (0x7670, [0x7671, 0x7672, 0x7673, 0x7674, 0x7675]),
  -- Audio: SamplingFrequency, OutputSamplingFrequency, Channels, BitDepth
  (0xE1, [0xB5, 0x78B5, 0x9F, 0x6264]),
  -- ContentEncodings: ContentEncoding;  ContentEncoding: ContentEncodingOrder,
  --   ContentEncodingScope, ContentEncodingType, ContentEncryption
  (0x6D80, [0x6240]),
  (0x6240, [0x5031, 0x5032, 0x5033, 0x5035]),
  -- ContentEncryption: ContentEncAlgo, ContentEncKeyID, ContentEncAESSettings;
  -- ContentEncAESSettings: AESSettingsCipherMode
  (0x5035, [0x47E1, 0x47E2, 0x47E7]),
  (0x47E7, [0x47E8]),
  -- Cues: CuePoint;  CuePoint: CueTime, CueTrackPositions;
  -- CueTrackPositions: CueTrack, CueClusterPosition, CueRelativePosition, CueDuration,
  --   CueBlockNumber
  (0x1C53BB6B, [0xBB]),
  (0xBB, [0xB3, 0xB7]),
  (0xB7, [0xF7, 0xF1, 0xF0, 0xB2, 0x5378]),
  -- Chapters: EditionEntry;  EditionEntry: ChapterAtom;
  -- ChapterAtom: ChapterUID, ChapterStringUID, ChapterTimeStart, ChapterTimeEnd, ChapterDisplay;
  -- ChapterDisplay: ChapString, ChapLanguage, ChapCountry
  (0x1043A770, [0x45B9]),
  (0x45B9, [0xB6]),
  (0xB6, [0x73C4, 0x5654, 0x91, 0x92, 0x80]),
  (0x80, [0x85, 0x437C, 0x437E]),
  -- Tags: Tag;  Tag: Targets, SimpleTag;  Targets: TargetTypeValue, TargetType, TagTrackUID;
  -- SimpleTag: TagName, TagLanguage, TagDefault, TagString, TagBinary
  (0x1254C367, [0x7373]),
  (0x7373, [0x63C0, 0x67C8]),
  (0x63C0, [0x68CA, 0x63CA, 0x63C5]),
  (0x67C8, [0x45A3, 0x447A, 0x4484, 0x4487, 0x4485])]

/-- `p` is the parent of `id`. -/
def ParentOf (p id : Nat) : Prop := ∃ l, (p, l) ∈ hierarchy ∧ id ∈ l

/-- `anc` are the ancestors of an element `id`, outermost first. -/
inductive Ancestors : Nat → List Nat → Prop where
  | root {id} : id ∈ rootIds → Ancestors id []
  | child {p id anc} : ParentOf p id → Ancestors p anc → Ancestors id (anc ++ [p])

/-- The elements of Colour, MasteringMetadata and Projection, and those elements themselves. -/
def colourAndProjection : List Nat :=
  [0x55B0, 0x7670] ++
  [0x55B1, 0x55B2, 0x55B3, 0x55B4, 0x55B5, 0x55B6, 0x55B7, 0x55B8, 0x55B9, 0x55BA,
    0x55BB, 0x55BC, 0x55BD, 0x55D0] ++
  [0x55D1, 0x55D2, 0x55D3, 0x55D4, 0x55D5, 0x55D6, 0x55D7, 0x55D8, 0x55D9, 0x55DA] ++
  [0x7671, 0x7672, 0x7673, 0x7674, 0x7675]

end Verif.Spec
