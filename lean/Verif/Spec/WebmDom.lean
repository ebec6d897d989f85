/-
What the structures handed to the callbacks should hold, told from the elements of the document; and the defaults of the format.
-/
import Verif.Spec.Document
import Verif.Model.WebmDom

namespace Verif.Spec
open Verif Verif.Web Verif.Web.Id

/-- The value of an element without children. -/
def Payload.worth : Leaf → Payload → Val
  | .block simple, .block _ track tc flags frames _ => .block (blockNamed simple track tc flags frames.length)
  | l, p => p.value l

/-- A value made of the values of children. -/
def chain : List (Nat × Val) → Val
  | [] => .nil
  | (id, v) :: rest => .cons id v (chain rest)

/-- The IDs and values of the elements in a sequence that belong to their parent's structure. -/
def Tree.values : Kids → Tree → List (Nat × Val)
  | _, .nil => []
  | ks, .leaf id _ p next =>
    (match ks.entry id with
      | some (_, true, .leaf l) => [(id, p.worth l)]
      | _ => []) ++ next.values ks
  | ks, .node id _ _ kids next =>
    (match ks.entry id with
      | some (_, true, .master _ ks') => [(id, chain (kids.values ks'))]
      | _ => []) ++ next.values ks

/-- The elements whose end is announced to the callback, in order, each with what it contains. -/
def Tree.completed : Kids → Tree → List (Nat × List (Nat × Val))
  | _, .nil => []
  | ks, .leaf _ _ _ next => next.completed ks
  | ks, .node id _ _ kids next =>
    (match ks.entry id with
      | some (_, _, .master r ks') => kids.completed ks' ++ (if r.complete then [(id, kids.values ks')] else [])
      | _ => []) ++ next.completed ks

/-- A sequence of elements without those of known size that have certain IDs. -/
def Tree.without (skip : Nat → Bool) : Tree → Tree
  | .nil => .nil
  | .leaf id w p next => if skip id then next.without skip else .leaf id w p (next.without skip)
  | .node id w known kids next =>
    if known && skip id then next.without skip else .node id w known (kids.without skip) (next.without skip)

/-- The announcements among some calls: which element ended, and its structure. -/
def completions : Log → List (Nat × List (Nat × Slot))
  | [] => []
  | .complete m v :: L => (m.id, structOf m.id v) :: completions L
  | _ :: L => completions L

/-- The values of the children with an ID, in order. -/
def occurrences (id : Nat) (vals : List (Nat × Val)) : List Val := (vals.filter (·.1 == id)).map (·.2)

/-- An element of size zero stands for the default. -/
def orDefault (d v : Val) : Val := if v = .dflt then d else v

/-- Members whose default is another member: the output frequency is the sampling frequency, the display size the pixel size. -/
def borrowed : List (Nat × Nat) :=
  [(kOutputSamplingFrequency, kSamplingFrequency), (kDisplayWidth, kPixelWidth), (kDisplayHeight, kPixelHeight)]

/-- A single member: the last of the children with its ID; if there is none or it is empty, the default. -/
def single (id : Nat) (d : Val) (vals : List (Nat × Val)) : Val :=
  match (occurrences id vals).getLast? with
  | some v => orDefault d v
  | none => d

/-- What a member should be, given what it is without any children (`initial`), the structure without any children (`whole`), and the
children. -/
def memberFor (whole : List (Nat × Slot)) (vals : List (Nat × Val)) (id : Nat) (initial : Slot) : Slot :=
  match initial with
  | .one d _ =>
    let d' := match borrowed.lookup id with
      | some other => (match whole.lookup other with
        | some (.one d2 _) => single other d2 vals
        | _ => d)
      | none => d
    .one (single id d' vals) (occurrences id vals != [])
  | .many items =>
    if occurrences id vals = [] then .many items
    else .many ((occurrences id vals).map fun v => (orDefault ((items.head?.map (·.1)).getD (zeroFor id)) v, true))

/-- What the structure of an element should be, given its children. -/
def structFrom (id : Nat) (vals : List (Nat × Val)) : List (Nat × Slot) :=
  (structFor id).map fun f => (f.1, memberFor (structFor id) vals f.1 f.2)

/-- The defaults of the format (Matroska element specification, WebM container guidelines). -/
def formatDefaults : List (Nat × Val) :=
  [(kEbmlVersion, .nat 1), (kEbmlReadVersion, .nat 1), (kEbmlMaxIdLength, .nat 4), (kEbmlMaxSizeLength, .nat 8),
   (kDocType, .bytes "matroska".toUTF8.toList), (kDocTypeVersion, .nat 1), (kDocTypeReadVersion, .nat 1), (kTimecodeScale, .nat 1000000),
   (kBlockAddId, .nat 1), (kLaceNumber, .nat 0), (kFlagEnabled, .flag true), (kFlagDefault, .flag true), (kFlagForced, .flag false),
   (kFlagLacing, .flag true), (kLanguage, .bytes "eng".toUTF8.toList), (kCodecDelay, .nat 0), (kSeekPreRoll, .nat 0),
   (kFlagInterlaced, .nat 0), (kStereoMode, .nat 0), (kAlphaMode, .nat 0), (kPixelCropBottom, .nat 0), (kPixelCropTop, .nat 0),
   (kPixelCropLeft, .nat 0), (kPixelCropRight, .nat 0), (kDisplayUnit, .nat 0), (kAspectRatioType, .nat 0),
   (kMatrixCoefficients, .nat 2), (kBitsPerChannel, .nat 0), (kChromaSitingHorz, .nat 0), (kChromaSitingVert, .nat 0),
   (kRange, .nat 0), (kTransferCharacteristics, .nat 2), (kPrimaries, .nat 2), (kProjectionType, .nat 0),
   (kSamplingFrequency, .float (some (8, 0x40BF400000000000))), (kChannels, .nat 1), (kContentEncodingOrder, .nat 0),
   (kContentEncodingScope, .nat 1), (kContentEncodingType, .nat 0), (kContentEncAlgo, .nat 0), (kCueBlockNumber, .nat 1),
   (kTargetTypeValue, .nat 50), (kTagLanguage, .bytes "und".toUTF8.toList), (kTagDefault, .flag true)]

/-- All the elements that have a structure. -/
def structured : List Nat :=
  [kEbml, kChapterDisplay, kChapterAtom, kEditionEntry, kBlockMore, kBlockAdditions, kTimeSlice, kSlices, kBlockGroup, kCluster,
   kCueTrackPositions, kCuePoint, kInfo, kSeek, kTargets, kSimpleTag, kTag, kMasteringMetadata, kColour, kProjection, kVideo, kAudio,
   kContentEncAesSettings, kContentEncryption, kContentEncoding, kContentEncodings, kTrackEntry]

end Verif.Spec
