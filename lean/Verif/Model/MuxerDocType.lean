/-
The document type written into the EBML header.
-/
import Verif.Model.MuxerHeaders

namespace Verif.Mux

/-- `kWebmCodecIds` of `Segment::DocTypeIsWebm`, mkvmuxer/mkvmuxer.cc:4186-4191, with the strings of
mkvmuxer/mkvmuxer.cc:1726-1734: "A_OPUS", "A_VORBIS", "V_AV1", "V_VP8", "V_VP9", "D_WEBVTT/CAPTIONS",
"D_WEBVTT/DESCRIPTIONS", "D_WEBVTT/METADATA", "D_WEBVTT/SUBTITLES". -/
def kWebmCodecIds : List Bytes :=
  [[0x41, 0x5F, 0x4F, 0x50, 0x55, 0x53],
   [0x41, 0x5F, 0x56, 0x4F, 0x52, 0x42, 0x49, 0x53],
   kAv1CodecId,
   [0x56, 0x5F, 0x56, 0x50, 0x38],
   [0x56, 0x5F, 0x56, 0x50, 0x39],
   [0x44, 0x5F, 0x57, 0x45, 0x42, 0x56, 0x54, 0x54, 0x2F, 0x43, 0x41, 0x50, 0x54, 0x49, 0x4F, 0x4E, 0x53],
   [0x44, 0x5F, 0x57, 0x45, 0x42, 0x56, 0x54, 0x54, 0x2F, 0x44, 0x45, 0x53, 0x43, 0x52, 0x49, 0x50, 0x54, 0x49, 0x4F, 0x4E, 0x53],
   [0x44, 0x5F, 0x57, 0x45, 0x42, 0x56, 0x54, 0x54, 0x2F, 0x4D, 0x45, 0x54, 0x41, 0x44, 0x41, 0x54, 0x41],
   [0x44, 0x5F, 0x57, 0x45, 0x42, 0x56, 0x54, 0x54, 0x2F, 0x53, 0x55, 0x42, 0x54, 0x49, 0x54, 0x4C, 0x45, 0x53]]

/-- The inner loop of `Segment::DocTypeIsWebm`, mkvmuxer/mkvmuxer.cc:4198-4204: is `codec` one of `ids`? -/
def idIsWebm (codec : Bytes) : List Bytes → Bool
  | [] => false
  | id :: ids => if codec == id then true else idIsWebm codec ids

/-- `Segment::DocTypeIsWebm`, mkvmuxer/mkvmuxer.cc:4182-4211: the loop over the tracks.  A `std::string` is made
of the codec of each track it comes to; made of a null pointer (a track without codec) it is undefined. -/
def docTypeIsWebm : List Track → Res Bool
  | [] => .ok true
  | t :: ts =>
    match t.codecId with
    | none => .ub
    | some codec => if idIsWebm codec kWebmCodecIds then docTypeIsWebm ts else .ok false

/-- The choice of the document type in `Segment::WriteSegmentHeader` (and, the same, in `Segment::Finalize`),
mkvmuxer/mkvmuxer.cc:3701-3702, 3322-3323, with the strings of mkvmuxer/mkvmuxer.cc:41-42: "webm" and "matroska". -/
def chosenDocType (ts : List Track) : Res Bytes := do
  let webm ← docTypeIsWebm ts
  .ok (if webm then [0x77, 0x65, 0x62, 0x6D] else [0x6D, 0x61, 0x74, 0x72, 0x6F, 0x73, 0x6B, 0x61])

end Verif.Mux
