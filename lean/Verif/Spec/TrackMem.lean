/-
What the track entries of a file say.
-/
import Verif.Model.ParserTrackMem
import Verif.Spec.EncodingMem
import Verif.Spec.TextMem

namespace Verif.Spec
open Verif Verif.Par.TrackMem Verif.Par.Enc Verif.Par.Texts Verif.Mux.Build

/-- What is known of a track: its number, its texts up to the first zero byte, and its codec private data if there is any. -/
structure TrackTexts where
  number : Nat
  text : Field → Option Bytes
  priv : Option Bytes

/-- The last text of a kind. -/
def lastField (f : Field) (ps : List TrackPart) : Option Bytes :=
  (ps.filterMap fun p => match p with | .text f' s _ => if f' = f then some s else none | _ => none).getLast?

/-- The last codec private data. -/
def lastPriv (ps : List TrackPart) : Option Bytes := (ps.filterMap fun p => match p with | .priv s _ => some s | _ => none).getLast?

/-- The last track number. -/
def lastNumber (ps : List TrackPart) : Option Nat := (ps.filterMap fun p => match p with | .number n => some n | _ => none).getLast?

/-- What a track entry says. -/
def trackSaid (ps : List TrackPart) : TrackTexts :=
  ⟨(lastNumber ps).getD 0, fun f => (lastField f ps).map (·.takeWhile (· ≠ 0)), (lastPriv ps).filter (· ≠ [])⟩

/-- What the getters of a track show. -/
def trackTexts (t : TrackObj) : TrackTexts := ⟨t.number, fun f => (t.info.get f).map (·.2), t.info.priv.map (·.2)⟩

/-- No content encoding of a track is both a compression and an encryption. -/
def TracksNotBoth (es : List (Part (List TrackPart))) : Prop :=
  ∀ ps ∈ kids es, ∀ e, TrackPart.encodings e ∈ ps → NotBoth e

/-- The last element of a kind. -/
def lastOf {α : Type} (f : TrackPart → Option α) (ps : List TrackPart) : Option α := (ps.filterMap f).getLast?

def lastKind : List TrackPart → Option Kind := lastOf fun p => match p with | .kind k => some k | _ => none
def lastVideo : List TrackPart → Option (List VideoPart) := lastOf fun p => match p with | .video v => some v | _ => none
def lastAudio : List TrackPart → Option Bool := lastOf fun p => match p with | .audio b => some b | _ => none
def lastEncodings : List TrackPart → Option (List EncsPart) := lastOf fun p => match p with | .encodings e => some e | _ => none

def isMm : ColourPart → Bool
  | .mm _ => true
  | _ => false

def isPriv : ProjPart → Bool
  | .priv _ _ => true
  | _ => false

/-- A colour that is accepted: at most one mastering metadata, and nothing malformed. -/
def ColourGood (cs : List ColourPart) : Prop :=
  ColourPart.bad ∉ cs ∧ cs.countP isMm ≤ 1 ∧
    ∀ ps, ColourPart.mm ps ∈ cs → MmPart.bad ∉ ps ∧ ∀ i, MmPart.chroma i false ∉ ps

/-- A projection that is accepted: at most one private data, not empty and readable, and nothing malformed. -/
def ProjGood (cs : List ProjPart) : Prop :=
  ProjPart.bad ∉ cs ∧ cs.countP isPriv ≤ 1 ∧
    ∀ n b, ProjPart.priv n b ∈ cs → n ≠ 0 ∧ b = true

/-- A child of a video element that is accepted.  (A read of the colour space that answers with a positive number is not taken for an error.) -/
def VideoPart.Good : VideoPart → Prop
  | .colour cs => ColourGood cs
  | .projection cs => ProjGood cs
  | .space s read => 0 ≤ read ∧ s.length ≤ 20000000
  | .other => True
  | .bad => False

/-- A child of a track entry that can be read, with texts no longer than the parser takes. -/
def TrackPart.Good : TrackPart → Prop
  | .text _ s read => read = 0 ∧ s.length ≤ 20000000
  | .priv s read => s ≠ [] → read = 0
  | .bad => False
  | _ => True

/-- A track entry that is accepted: it has a number, and what its kind demands. -/
def TrackGood (ps : List TrackPart) : Prop :=
  (∀ p ∈ ps, TrackPart.Good p) ∧ (trackSaid ps).number ≠ 0 ∧
    match lastKind ps with
    | none => False
    | some .video => lastAudio ps = none ∧ ∃ v, lastVideo ps = some v ∧ ∀ p ∈ v, VideoPart.Good p
    | some .audio => lastAudio ps = some true ∧ lastVideo ps = none
    | some .metadata => lastAudio ps = none ∧ lastVideo ps = none ∧ lastEncodings ps = none
    | some .other => lastAudio ps = none ∧ lastVideo ps = none

/-- Tracks that are accepted: none malformed, and all with different numbers. -/
def TracksGood (es : List (Part (List TrackPart))) : Prop :=
  Part.bad ∉ es ∧ (∀ ps ∈ kids es, TrackGood ps) ∧ ((kids es).map fun ps => (trackSaid ps).number).Nodup

end Verif.Spec
