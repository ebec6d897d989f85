/-
The elements of the Matroska/WebM format that the incremental parser is meant to know, as in RFC 8794
(EBML header) and RFC 9559 (Matroska): which element stands in which, and what it holds.
-/
import Verif.Model.WebmGrammar

namespace Verif.Spec
open Verif Verif.Web

/-- What an element holds. -/
inductive Holds where
  | uint | int | float | string | utf8 | date | binary
  /-- an unsigned integer that is 0 or 1 -/
  | flag
  /-- the ID of an element -/
  | id
  /-- a block of frames: SimpleBlock, Block; or the header of one: BlockVirtual -/
  | simpleBlock | block | blockHeader
  /-- other elements -/
  | elements
  deriving DecidableEq, Repr

/-- The elements of the format: the ID of the parent, the ID, the contents. -/
def formatTable : List (Nat × Nat × Holds) :=
  -- EBML: EBMLVersion, EBMLReadVersion, EBMLMaxIDLength, EBMLMaxSizeLength, DocType, DocTypeVersion, DocTypeReadVersion
  [(0x1A45DFA3, 0x4286, .uint), (0x1A45DFA3, 0x42F7, .uint), (0x1A45DFA3, 0x42F2, .uint), (0x1A45DFA3, 0x42F3, .uint),
   (0x1A45DFA3, 0x4282, .string), (0x1A45DFA3, 0x4287, .uint), (0x1A45DFA3, 0x4285, .uint),
  -- Segment: SeekHead, Info, Cluster, Tracks, Cues, Chapters, Tags
   (0x18538067, 0x114D9B74, .elements), (0x18538067, 0x1549A966, .elements), (0x18538067, 0x1F43B675, .elements),
   (0x18538067, 0x1654AE6B, .elements), (0x18538067, 0x1C53BB6B, .elements), (0x18538067, 0x1043A770, .elements),
   (0x18538067, 0x1254C367, .elements),
  -- SeekHead: Seek (SeekID, SeekPosition)
   (0x114D9B74, 0x4DBB, .elements), (0x4DBB, 0x53AB, .id), (0x4DBB, 0x53AC, .uint),
  -- Info: TimestampScale, Duration, DateUTC, Title, MuxingApp, WritingApp
   (0x1549A966, 0x2AD7B1, .uint), (0x1549A966, 0x4489, .float), (0x1549A966, 0x4461, .date), (0x1549A966, 0x7BA9, .utf8),
   (0x1549A966, 0x4D80, .utf8), (0x1549A966, 0x5741, .utf8),
  -- Cluster: Timestamp, PrevSize, SimpleBlock, BlockGroup
   (0x1F43B675, 0xE7, .uint), (0x1F43B675, 0xAB, .uint), (0x1F43B675, 0xA3, .simpleBlock), (0x1F43B675, 0xA0, .elements),
  -- BlockGroup: Block, BlockVirtual, BlockAdditions, BlockDuration, ReferenceBlock, DiscardPadding, Slices
   (0xA0, 0xA1, .block), (0xA0, 0xA2, .blockHeader), (0xA0, 0x75A1, .elements), (0xA0, 0x9B, .uint), (0xA0, 0xFB, .int),
   (0xA0, 0x75A2, .int), (0xA0, 0x8E, .elements),
  -- BlockAdditions: BlockMore (BlockAddID, BlockAdditional); Slices: TimeSlice (LaceNumber)
   (0x75A1, 0xA6, .elements), (0xA6, 0xEE, .uint), (0xA6, 0xA5, .binary), (0x8E, 0xE8, .elements), (0xE8, 0xCC, .uint),
  -- Tracks: TrackEntry: TrackNumber, TrackUID, TrackType, FlagEnabled, FlagDefault, FlagForced, FlagLacing,
  -- DefaultDuration, Name, Language, CodecID, CodecPrivate, CodecName, CodecDelay, SeekPreRoll, Video, Audio,
  -- ContentEncodings
   (0x1654AE6B, 0xAE, .elements), (0xAE, 0xD7, .uint), (0xAE, 0x73C5, .uint), (0xAE, 0x83, .uint), (0xAE, 0xB9, .flag),
   (0xAE, 0x88, .flag), (0xAE, 0x55AA, .flag), (0xAE, 0x9C, .flag), (0xAE, 0x23E383, .uint), (0xAE, 0x536E, .utf8),
   (0xAE, 0x22B59C, .string), (0xAE, 0x86, .string), (0xAE, 0x63A2, .binary), (0xAE, 0x258688, .utf8),
   (0xAE, 0x56AA, .uint), (0xAE, 0x56BB, .uint), (0xAE, 0xE0, .elements), (0xAE, 0xE1, .elements),
   (0xAE, 0x6D80, .elements),
  -- Video: FlagInterlaced, StereoMode, AlphaMode, PixelWidth, PixelHeight, PixelCropBottom, PixelCropTop,
  -- PixelCropLeft, PixelCropRight, DisplayWidth, DisplayHeight, DisplayUnit, AspectRatioType, FrameRate, Colour,
  -- Projection
   (0xE0, 0x9A, .uint), (0xE0, 0x53B8, .uint), (0xE0, 0x53C0, .uint), (0xE0, 0xB0, .uint), (0xE0, 0xBA, .uint),
   (0xE0, 0x54AA, .uint), (0xE0, 0x54BB, .uint), (0xE0, 0x54CC, .uint), (0xE0, 0x54DD, .uint), (0xE0, 0x54B0, .uint),
   (0xE0, 0x54BA, .uint), (0xE0, 0x54B2, .uint), (0xE0, 0x54B3, .uint), (0xE0, 0x2383E3, .float),
   (0xE0, 0x55B0, .elements), (0xE0, 0x7670, .elements),
  -- Colour: MatrixCoefficients, BitsPerChannel, ChromaSubsampling and CbSubsampling (horizontal, vertical),
  -- ChromaSiting, Range, TransferCharacteristics, Primaries, MaxCLL, MaxFALL, MasteringMetadata
   (0x55B0, 0x55B1, .uint), (0x55B0, 0x55B2, .uint), (0x55B0, 0x55B3, .uint), (0x55B0, 0x55B4, .uint),
   (0x55B0, 0x55B5, .uint), (0x55B0, 0x55B6, .uint), (0x55B0, 0x55B7, .uint), (0x55B0, 0x55B8, .uint),
   (0x55B0, 0x55B9, .uint), (0x55B0, 0x55BA, .uint), (0x55B0, 0x55BB, .uint), (0x55B0, 0x55BC, .uint),
   (0x55B0, 0x55BD, .uint), (0x55B0, 0x55D0, .elements),
  -- MasteringMetadata: chromaticities of red, green, blue and white, LuminanceMax, LuminanceMin
   (0x55D0, 0x55D1, .float), (0x55D0, 0x55D2, .float), (0x55D0, 0x55D3, .float), (0x55D0, 0x55D4, .float),
   (0x55D0, 0x55D5, .float), (0x55D0, 0x55D6, .float), (0x55D0, 0x55D7, .float), (0x55D0, 0x55D8, .float),
   (0x55D0, 0x55D9, .float), (0x55D0, 0x55DA, .float),
  -- Projection: ProjectionType, ProjectionPrivate, yaw, pitch, roll
   (0x7670, 0x7671, .uint), (0x7670, 0x7672, .binary), (0x7670, 0x7673, .float), (0x7670, 0x7674, .float),
   (0x7670, 0x7675, .float),
  -- Audio: SamplingFrequency, OutputSamplingFrequency, Channels, BitDepth
   (0xE1, 0xB5, .float), (0xE1, 0x78B5, .float), (0xE1, 0x9F, .uint), (0xE1, 0x6264, .uint),
  -- ContentEncodings: ContentEncoding: Order, Scope, Type, ContentEncryption
   (0x6D80, 0x6240, .elements), (0x6240, 0x5031, .uint), (0x6240, 0x5032, .uint), (0x6240, 0x5033, .uint),
   (0x6240, 0x5035, .elements),
  -- ContentEncryption: ContentEncAlgo, ContentEncKeyID, ContentEncAESSettings (AESSettingsCipherMode)
   (0x5035, 0x47E1, .uint), (0x5035, 0x47E2, .binary), (0x5035, 0x47E7, .elements), (0x47E7, 0x47E8, .uint),
  -- Cues: CuePoint: CueTime, CueTrackPositions: CueTrack, CueClusterPosition, CueRelativePosition, CueDuration,
  -- CueBlockNumber
   (0x1C53BB6B, 0xBB, .elements), (0xBB, 0xB3, .uint), (0xBB, 0xB7, .elements), (0xB7, 0xF7, .uint), (0xB7, 0xF1, .uint),
   (0xB7, 0xF0, .uint), (0xB7, 0xB2, .uint), (0xB7, 0x5378, .uint),
  -- Chapters: EditionEntry: ChapterAtom: ChapterUID, ChapterStringUID, ChapterTimeStart, ChapterTimeEnd,
  -- ChapterDisplay (ChapString, ChapLanguage, ChapCountry), ChapterAtom
   (0x1043A770, 0x45B9, .elements), (0x45B9, 0xB6, .elements), (0xB6, 0x73C4, .uint), (0xB6, 0x5654, .utf8),
   (0xB6, 0x91, .uint), (0xB6, 0x92, .uint), (0xB6, 0x80, .elements), (0x80, 0x85, .utf8), (0x80, 0x437C, .string),
   (0x80, 0x437E, .string), (0xB6, 0xB6, .elements),
  -- Tags: Tag: Targets (TargetTypeValue, TargetType, TagTrackUID), SimpleTag: TagName, TagLanguage, TagDefault,
  -- TagString, TagBinary, SimpleTag
   (0x1254C367, 0x7373, .elements), (0x7373, 0x63C0, .elements), (0x63C0, 0x68CA, .uint), (0x63C0, 0x63CA, .string),
   (0x63C0, 0x63C5, .uint), (0x7373, 0x67C8, .elements), (0x67C8, 0x45A3, .utf8), (0x67C8, 0x447A, .string),
   (0x67C8, 0x4484, .flag), (0x67C8, 0x4487, .utf8), (0x67C8, 0x4485, .binary), (0x67C8, 0x67C8, .elements)]

/-- The parser that suits the contents. -/
def Holds.Reader : Holds → Leaf → Prop
  | .uint, .uint => True
  | .int, .sint => True
  | .float, .float => True
  | .string, .str | .utf8, .str => True
  | .date, .date => True
  | .binary, .bin => True
  | .flag, .bool => True
  | .id, .idElem => True
  | .simpleBlock, .block true => True
  | .block, .block false => True
  | .blockHeader, .virt => True
  | _, _ => False

instance (h : Holds) (l : Leaf) : Decidable (h.Reader l) := by
  cases h <;> cases l <;> first | exact .isTrue trivial | exact .isFalse id | (rename_i b; cases b <;> first | exact .isTrue trivial | exact .isFalse id)

mutual
/-- All parsers below an element's parser: the parent's ID, the ID, and the parser if it is one for
elements without children.  (`tooDeep`, the end of the recursion, is left out.) -/
def gramTable : Gram → List (Nat × Nat × Option Leaf)
  | .leaf _ => []
  | .master w ks => kidsTable w.id ks
def kidsTable (parent : Nat) : Kids → List (Nat × Nat × Option Leaf)
  | .nil => []
  | .cons id _ _ g rest =>
    (match g with
     | .leaf .tooDeep => []
     | .leaf l => [(parent, id, some l)]
     | .master .. => [(parent, id, none)]) ++ gramTable g ++ kidsTable parent rest
end

/-- The row of the format's table that a parser belongs to. -/
def Row (p : Nat × Nat × Option Leaf) (f : Nat × Nat × Holds) : Prop :=
  p.1 = f.1 ∧ p.2.1 = f.2.1 ∧ match p.2.2 with
    | none => f.2.2 = .elements
    | some l => f.2.2.Reader l

instance (p : Nat × Nat × Option Leaf) (f : Nat × Nat × Holds) : Decidable (Row p f) := by
  unfold Row
  have : Decidable (match p.2.2 with | none => f.2.2 = Holds.elements | some l => f.2.2.Reader l) := by
    split <;> infer_instance
  infer_instance

end Verif.Spec
