/-
What the callbacks of webm_parser should be told about the settings of a file made with the muxer: for each object a user sets up,
the members of the structure that is handed over.
-/
import Verif.Spec.WebmDom
import Verif.Spec.FileTree
import Verif.Spec.Timeline

namespace Verif.Spec
open Verif Verif.Web Verif.Web.Id Verif.Mux

/-! ### Members -/

/-- A number that is always written. -/
def num (v : Nat) : Slot := .one (.nat v) true

/-- A number that is not written if it is zero, which is also its default. -/
def numIf (v : UInt64) : Slot := .one (.nat v.toNat) (v != 0)

/-- A number that is not written if it is not set. -/
def numSet (d : Nat) (v : UInt64) : Slot := if v = 0xFFFFFFFFFFFFFFFF then .one (.nat d) false else .one (.nat v.toNat) true

/-- A float that is always written (the bits of a `float`). -/
def flt (v : UInt32) : Slot := .one (.float (some (4, v.toNat))) true

/-- A float that may not be there; its default is zero. -/
def fltIf : Option UInt32 → Slot
  | none => .one (.float (some (8, 0))) false
  | some v => flt v

/-- The ASCII letters "eng". -/
def eng : Bytes := [0x65, 0x6E, 0x67]

/-- The ASCII letters "und". -/
def und : Bytes := [0x75, 0x6E, 0x64]

/-- The ASCII letters "matroska". -/
def matroska : Bytes := [0x6D, 0x61, 0x74, 0x72, 0x6F, 0x73, 0x6B, 0x61]

/-- A string with a default.  An empty one counts as the default. -/
def str (d : Bytes) : Option Bytes → Slot
  | none => .one (.bytes d) false
  | some b => .one (.bytes (if b = [] then d else dropNuls b)) true

/-- Binary data. -/
def bin : Option Bytes → Slot
  | none => .one (.bytes []) false
  | some b => .one (.bytes b) true

/-- A member that is not there. -/
def absent (d : Val) : Slot := .one d false

/-- What an element contains, as its parser sees it. -/
def contents : Gram → Tree → Val
  | .master _ ks, .node _ _ _ kids _ => chain (kids.values ks)
  | _, _ => .nil

/-- A member that is a structure; if nothing is written it is not there. -/
def held (g : Gram) : Tree → Slot
  | .nil => .one .nil false
  | t => .one (contents g t) true

/-! ### Structures -/

/-- `Ebml`. -/
def ebmlSeen (docType : Bytes) : List (Nat × Slot) :=
  [(kEbmlVersion, num 1), (kEbmlReadVersion, num 1), (kEbmlMaxIdLength, num 4), (kEbmlMaxSizeLength, num 8),
   (kDocType, str matroska (some docType)), (kDocTypeVersion, num 4), (kDocTypeReadVersion, num 2)]

/-- `Info`: the duration is the (32) bits of a `float`, the date nanoseconds since 2001 as a 64-bit number. -/
def infoSeen (scale : Nat) (duration : Option Nat) (date : Option Int) (muxing writing : Bytes) : List (Nat × Slot) :=
  [(kTimecodeScale, num scale),
   (kDuration, match duration with | none => absent (.float (some (8, 0))) | some d => .one (.float (some (4, d % 2 ^ 32))) true),
   (kDateUtc, match date with | none => absent (.nat 0) | some d => num (d % 2 ^ 64).toNat),
   (kTitle, absent (.bytes [])), (kMuxingApp, str [] (some muxing)), (kWritingApp, str [] (some writing))]

/-- `Audio`: the output frequency is the sampling frequency. -/
def audioSeen (a : AudioPart) : List (Nat × Slot) :=
  [(kSamplingFrequency, flt a.sampleRate), (kOutputSamplingFrequency, absent (.float (some (4, a.sampleRate.toNat)))),
   (kChannels, num a.channels.toNat), (kBitDepth, numIf a.bitDepth)]

/-- `MasteringMetadata`. -/
def masteringSeen (m : MasteringMetadata) : List (Nat × Slot) :=
  [(kPrimaryRChromaticityX, fltIf (m.r.map (·.x))), (kPrimaryRChromaticityY, fltIf (m.r.map (·.y))),
   (kPrimaryGChromaticityX, fltIf (m.g.map (·.x))), (kPrimaryGChromaticityY, fltIf (m.g.map (·.y))),
   (kPrimaryBChromaticityX, fltIf (m.b.map (·.x))), (kPrimaryBChromaticityY, fltIf (m.b.map (·.y))),
   (kWhitePointChromaticityX, fltIf (m.whitePoint.map (·.x))), (kWhitePointChromaticityY, fltIf (m.whitePoint.map (·.y))),
   (kLuminanceMax, fltIf (if m.luminanceMax = 0x7F7FFFFF then none else some m.luminanceMax)),
   (kLuminanceMin, fltIf (if m.luminanceMin = 0x7F7FFFFF then none else some m.luminanceMin))]

/-- `Colour`. -/
def colourSeen (c : Colour) : List (Nat × Slot) :=
  [(kMatrixCoefficients, numSet 2 c.matrixCoefficients), (kBitsPerChannel, numSet 0 c.bitsPerChannel),
   (kChromaSubsamplingHorz, numSet 0 c.chromaSubsamplingHorz), (kChromaSubsamplingVert, numSet 0 c.chromaSubsamplingVert),
   (kCbSubsamplingHorz, numSet 0 c.cbSubsamplingHorz), (kCbSubsamplingVert, numSet 0 c.cbSubsamplingVert),
   (kChromaSitingHorz, numSet 0 c.chromaSitingHorz), (kChromaSitingVert, numSet 0 c.chromaSitingVert), (kRange, numSet 0 c.range),
   (kTransferCharacteristics, numSet 2 c.transferCharacteristics), (kPrimaries, numSet 2 c.primaries), (kMaxCll, numSet 0 c.maxCll),
   (kMaxFall, numSet 0 c.maxFall), (kMasteringMetadata, held gMasteringMetadata (optional masteringTree c.mastering))]

/-- `Projection`. -/
def projectionSeen (p : Projection) : List (Nat × Slot) :=
  [(kProjectionType, num p.type.toNat), (kProjectionPrivate, bin p.privateData), (kProjectionPoseYaw, flt p.yaw),
   (kProjectionPosePitch, flt p.pitch), (kProjectionPoseRoll, flt p.roll)]

/-- The size in pixels. -/
def pixels (v : VideoPart) : UInt64 × UInt64 :=
  (if v.pixelWidth = 0 then v.width else v.pixelWidth, if v.pixelHeight = 0 then v.height else v.pixelHeight)

/-- `Video`: a display size that is not set is the size in pixels.  (The colour space is not among the members.) -/
def videoSeen (v : VideoPart) : List (Nat × Slot) :=
  [(kFlagInterlaced, absent (.nat 0)), (kStereoMode, numIf v.stereoMode), (kAlphaMode, numIf v.alphaMode),
   (kPixelWidth, num (pixels v).1.toNat), (kPixelHeight, num (pixels v).2.toNat), (kPixelCropBottom, numIf v.cropBottom),
   (kPixelCropTop, numIf v.cropTop), (kPixelCropLeft, numIf v.cropLeft), (kPixelCropRight, numIf v.cropRight),
   (kDisplayWidth, if v.displayWidth = 0 then absent (.nat (pixels v).1.toNat) else num v.displayWidth.toNat),
   (kDisplayHeight, if v.displayHeight = 0 then absent (.nat (pixels v).2.toNat) else num v.displayHeight.toNat),
   (kDisplayUnit, absent (.nat 0)), (kAspectRatioType, absent (.nat 0)), (kFrameRate, fltIf v.frameRate),
   (kColour, held gColour (optional colourTree v.colour)), (kProjection, held gProjection (optional projectionTree v.projection))]

/-- `ContentEncAesSettings`. -/
def aesSeen (e : ContentEncoding) : List (Nat × Slot) := [(kAesSettingsCipherMode, num e.cipherMode.toNat)]

/-- The element with the AES settings. -/
def aesTree (e : ContentEncoding) : Tree := group 0x47E7 (number 0x47E8 e.cipherMode)

/-- `ContentEncryption`. -/
def encryptionSeen (e : ContentEncoding) : List (Nat × Slot) :=
  [(kContentEncAlgo, num e.encAlgo.toNat), (kContentEncKeyId, bin e.keyId), (kContentEncAesSettings, held gContentEncAesSettings (aesTree e))]

/-- The element with the encryption. -/
def encryptionTree (e : ContentEncoding) : Tree := group 0x5035 (seq [number 0x47E1 e.encAlgo, text 0x47E2 e.keyId, aesTree e])

/-- `ContentEncoding`. -/
def encodingSeen (e : ContentEncoding) : List (Nat × Slot) :=
  [(kContentEncodingOrder, num e.order.toNat), (kContentEncodingScope, num e.scope.toNat), (kContentEncodingType, num e.type.toNat),
   (kContentEncryption, held gContentEncryption (encryptionTree e))]

/-- `ContentEncodings`. -/
def encodingsSeen (es : List ContentEncoding) : List (Nat × Slot) :=
  [(kContentEncoding, .many (es.map fun e => (contents gContentEncoding (encodingTree e), true)))]

/-- `TrackEntry`.  (The largest ID of block additions is not among the members.) -/
def trackSeen (t : Track) : List (Nat × Slot) :=
  [(kTrackNumber, num t.number.toNat), (kTrackUid, num t.uid.toNat), (kTrackType, num t.type.toNat), (kFlagEnabled, absent (.flag true)),
   (kFlagDefault, absent (.flag true)), (kFlagForced, absent (.flag false)), (kFlagLacing, absent (.flag true)),
   (kDefaultDuration, numIf t.defaultDuration), (kName, str [] t.name), (kLanguage, str eng t.language),
   (kCodecId, str [] t.codecId), (kCodecPrivate, bin t.codecPrivate), (kCodecName, absent (.bytes [])), (kCodecDelay, numIf t.codecDelay),
   (kSeekPreRoll, numIf t.seekPreRoll),
   (kVideo, match t.part with | .video v => held gVideo (videoTree v) | _ => absent .nil),
   (kAudio, match t.part with | .audio a => held gAudio (audioTree a) | _ => absent .nil),
   (kContentEncodings, held gContentEncodings (groupIf 0x6D80 (each encodingTree t.encodings)))]

/-- `ChapterDisplay`. -/
def displaySeen (d : Display) : List (Nat × Slot) :=
  [(kChapString, str [] d.title),
   (kChapLanguage, match d.language with
     | none => .many [(.bytes eng, false)]
     | some b => .many [(.bytes (if b = [] then eng else dropNuls b), true)]),
   (kChapCountry, match d.country with | none => .many [] | some b => .many [(.bytes (dropNuls b), true)])]

/-- `ChapterAtom`. -/
def chapterSeen (c : Chapter) : List (Nat × Slot) :=
  [(kChapterUid, num c.uid.toNat), (kChapterStringUid, str [] c.id), (kChapterTimeStart, num c.start.toNat),
   (kChapterTimeEnd, num c.stop.toNat), (kChapterDisplay, .many (c.displays.map fun d => (contents gChapterDisplay (displayTree d), true))),
   (kChapterAtom, .many [])]

/-- `EditionEntry`. -/
def editionSeen (cs : List Chapter) : List (Nat × Slot) :=
  [(kChapterAtom, .many (cs.map fun c => (contents (gChapterAtom maxRecursionDepth true) (chapterTree c), true)))]

/-- `SimpleTag`. -/
def simpleTagSeen (t : SimpleTag) : List (Nat × Slot) :=
  [(kTagName, str [] t.name), (kTagLanguage, absent (.bytes und)), (kTagDefault, absent (.flag true)),
   (kTagString, str [] t.string), (kTagBinary, absent (.bytes [])), (kSimpleTag, .many [])]

/-- `Tag`. -/
def tagSeen (t : Tag) : List (Nat × Slot) :=
  [(kTargets, absent .nil), (kSimpleTag, .many (t.map fun s => (contents (gSimpleTag maxRecursionDepth true) (simpleTagTree s), true)))]

/-! ### What is announced -/

/-- The announcements that are about the settings of a file. -/
def aboutSettings (id : Nat) : Bool := [kEbml, kInfo, kTrackEntry, kEditionEntry, kTag].contains id

/-- What should be announced about the settings of a file, in this order. -/
def settingsSeen (docType : Bytes) (scale : Nat) (duration : Option Nat) (date : Option Int) (muxing writing : Bytes)
    (ts : List Track) (ch : Option (List Chapter)) (tg : Option (List Tag)) : List (Nat × List (Nat × Slot)) :=
  [(kEbml, ebmlSeen docType), (kInfo, infoSeen scale duration date muxing writing)] ++ ts.map (fun t => (kTrackEntry, trackSeen t)) ++
    ch.toList.map (fun cs => (kEditionEntry, editionSeen cs)) ++ (tg.getD []).map (fun t => (kTag, tagSeen t))

/-- **Reading a file announces these settings**: however the bytes arrive, with every callback that takes all it is offered, what
`OnEbml`, `OnInfo`, `OnTrackEntry`, `OnEditionEntry` and `OnTag` are given, in this order. -/
def AnnouncesAs (file : Bytes) (xs : List (Nat × List (Nat × Slot))) : Prop :=
  ∀ cb : Cb, cb.Reads → (∀ L m, (cb L (.element m)).2 = false) →
    ∀ s : Src, s.bytes = file → s.pos + file.length + 1 < 2 ^ 64 → ∀ fuel, s.stalls < fuel →
      (completions (drive (Parser.feed cb) fuel ({}, []) s).2.1.2).filter (fun x => aboutSettings x.1) = xs

end Verif.Spec
