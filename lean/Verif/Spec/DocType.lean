/-
What the document type says: "webm" for files with the codecs of WebM only, "matroska" for all others.
-/
import Verif.Model.Sink

namespace Verif.Spec

/-- The characters of a name. -/
def letters (s : String) : Bytes := s.toList.map fun c => UInt8.ofNat c.toNat

/-- The codecs that a WebM file may have. -/
def webmCodecs : List Bytes :=
  ["V_VP8", "V_VP9", "V_AV1", "A_VORBIS", "A_OPUS", "D_WEBVTT/SUBTITLES", "D_WEBVTT/CAPTIONS", "D_WEBVTT/DESCRIPTIONS",
   "D_WEBVTT/METADATA"].map letters

/-- The file says "webm" if all codecs are those of WebM, otherwise "matroska". -/
def LabelledAs (docType : Bytes) (codecs : List (Option Bytes)) : Prop :=
  (docType = letters "webm" ∧ ∀ c ∈ codecs, ∃ x ∈ webmCodecs, c = some x) ∨
  (docType = letters "matroska" ∧ ∃ c ∈ codecs, ∀ x ∈ webmCodecs, c ≠ some x)

end Verif.Spec
