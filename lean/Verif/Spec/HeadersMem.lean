/-
What the headers of a segment say.
-/
import Verif.Model.ParserHeadersMem
import Verif.Spec.TrackMem

namespace Verif.Spec
open Verif Verif.Par.HdrMem Verif.Par.TrackMem Verif.Par.Enc Verif.Par.Texts Verif.Mux.Build

/-- What a user is shown of the headers. -/
structure HdrLook where
  info : Option (Option Bytes × Option Bytes × Option Bytes) := none
  tracks : Option (List TrackTexts) := none
  cues : Bool := false
  seek : Option (List (Nat × Nat) × List (Nat × Nat)) := none
  chapters : Option (List (List (Option Bytes × List (Option Bytes × Option Bytes × Option Bytes)))) := none
  tags : Option (List (List (Option Bytes × Option Bytes × Option Bytes))) := none

/-- What the objects show. -/
def hdrShown (x : Hdr) : HdrLook :=
  { info := x.info.map fun p => threeShown p.2
    tracks := x.tracks.map fun p => p.2.items.map (trackTexts ·.2)
    cues := x.cues.isSome
    seek := x.seek.map fun p => (p.2.es, p.2.vs)
    chapters := x.chapters.map fun p => chaptersShown p.2
    tags := x.tags.map fun p => tagsShown p.2 }

/-- The seek entries that are in order, and the void elements. -/
def seekSaid (ps : List SeekPart) : List (Nat × Nat) × List (Nat × Nat) :=
  (ps.filterMap fun | .seek v => v | _ => none, ps.filterMap fun | .void v => some v | _ => none)

/-- What the elements of a file say on top of what is known: the first of each kind counts. -/
def hdrSaid : HdrLook → List HdrPart → HdrLook
  | v, [] => v
  | v, .info ps :: es => hdrSaid { v with info := v.info.or (some (threeSaid ps)) } es
  | v, .tracks ts :: es => hdrSaid { v with tracks := v.tracks.or (some ((kids ts).map trackSaid)) } es
  | v, .cues :: es => hdrSaid { v with cues := true } es
  | v, .seek ps :: es => hdrSaid { v with seek := v.seek.or (some (seekSaid ps)) } es
  | v, .chapters cs :: es => hdrSaid { v with chapters := v.chapters.or (some (chaptersSaid cs)) } es
  | v, .tags ts :: es => hdrSaid { v with tags := v.tags.or (some (tagsSaid ts)) } es
  | v, _ :: es => hdrSaid v es

/-- The tags and chapters have fewer than 2^30 elements each, and no content encoding is both a compression and an encryption. -/
def HdrPart.Usual : HdrPart → Prop
  | .tracks ts => TracksNotBoth ts
  | .chapters cs => ChaptersSmall cs
  | .tags ts => TagsSmall ts
  | _ => True

/-- The reader never gives a positive value for a text of the element. -/
def HdrPart.NoPositive : HdrPart → Prop
  | .info ps => ∀ p ∈ ps, LeafPart.NoPositive p
  | .chapters cs => ChaptersNoPositive cs
  | .tags ts => TagsNoPositive ts
  | .bad st => st ≠ 0
  | _ => True

end Verif.Spec
