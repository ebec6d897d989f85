/-
What a series of calls that set up a track should have set.
-/
import Verif.Model.MuxerTrackBuild

namespace Verif.Spec
open Verif Verif.Mux Verif.Mux.Build

/-- What the getters of a track show. -/
structure TrackLook where
  codecId : Option Bytes := none
  language : Option Bytes := none
  name : Option Bytes := none
  colourSpace : Option Bytes := none
  codecPrivate : Option Bytes := none
  colour : Option Colour := none
  projection : Option Projection := none
  keyIds : List (Option Bytes) := []
  deriving DecidableEq

/-- The mastering metadata in memory, as the getters show it. -/
def mmShown (x : HeapMM) : MasteringMetadata :=
  { luminanceMax := x.luminanceMax, luminanceMin := x.luminanceMin, r := x.r.map (·.2), g := x.g.map (·.2), b := x.b.map (·.2),
    whitePoint := x.whitePoint.map (·.2) }

/-- The track in memory, as the getters show it. -/
def ownedShown (t : Owned) : TrackLook where
  codecId := t.codecId.map (·.2)
  language := t.language.map (·.2)
  name := t.name.map (·.2)
  colourSpace := t.colourSpace.map (·.2)
  codecPrivate := t.codecPrivate.map (·.2)
  colour := t.colour.map fun c => { c.2.plain with mastering := c.2.mastering.map fun x => mmShown x.2 }
  projection := t.projection.map fun p => { p.2.plain with privateData := p.2.data.map (·.2) }
  keyIds := t.encodings.items.map fun e => e.2.map (·.2)

/-- Data that can be set: not null and not empty. -/
def usable : Option Bytes → Bool
  | some (_ :: _) => true
  | _ => false

/-- The answer of a call, with memory enough. -/
def rightAnswer (v : TrackLook) : TrackCall → Bool
  | .codecPrivate b => usable b
  | .projection p => p.privateData != some []
  | .keyId i b => decide (i < v.keyIds.length) && usable b
  | _ => true

/-- The track after a call, with memory enough: a null text, and data that cannot be set, change nothing; the rest is set. -/
def trackAfter (v : TrackLook) : TrackCall → TrackLook
  | .codecId s => if s = none then v else { v with codecId := s }
  | .language s => if s = none then v else { v with language := s }
  | .name s => if s = none then v else { v with name := s }
  | .colourSpace s => if s = none then v else { v with colourSpace := s }
  | .codecPrivate b => if usable b then { v with codecPrivate := b } else v
  | .colour c => { v with colour := some c }
  | .projection p => if p.privateData = some [] then v else { v with projection := some p }
  | .addEncoding => { v with keyIds := v.keyIds ++ [none] }
  | .keyId i b => if usable b then { v with keyIds := v.keyIds.set i b } else v

/-- The answers of a series of calls, with memory enough. -/
def rightAnswers (v : TrackLook) : List TrackCall → List Bool
  | [] => []
  | c :: cs => rightAnswer v c :: rightAnswers (trackAfter v c) cs

/-- Memory is never short. -/
def Enough (can : Nat → Bool) : Prop := ∀ n, can n = true

/-- The same colour, perhaps without some of the chromaticities of its mastering metadata. -/
def Faded (c c' : Colour) : Prop :=
  { c with mastering := none } = { c' with mastering := none } ∧
    match c.mastering, c'.mastering with
    | none, none => True
    | some m, some m' => m.luminanceMax = m'.luminanceMax ∧ m.luminanceMin = m'.luminanceMin ∧ (m'.r = m.r ∨ m'.r = none) ∧
        (m'.g = m.g ∨ m'.g = none) ∧ (m'.b = m.b ∨ m'.b = none) ∧ (m'.whitePoint = m.whitePoint ∨ m'.whitePoint = none)
    | _, _ => False

/-- The track after a call with its answer, when memory may be short.  A text may be lost.  Data is lost if setting it failed.  A colour,
a projection or a content encoding stays as it was if setting another one, or adding one, failed. -/
def Allowed (v : TrackLook) (c : TrackCall) (ok : Bool) (v' : TrackLook) : Prop :=
  match c with
  | .codecId s => v' = trackAfter v c ∨ s ≠ none ∧ v' = { v with codecId := none }
  | .language s => v' = trackAfter v c ∨ s ≠ none ∧ v' = { v with language := none }
  | .name s => v' = trackAfter v c ∨ s ≠ none ∧ v' = { v with name := none }
  | .colourSpace s => v' = trackAfter v c ∨ s ≠ none ∧ v' = { v with colourSpace := none }
  | .codecPrivate b => if ok then usable b ∧ v' = trackAfter v c else v' = if usable b then { v with codecPrivate := none } else v
  | .colour c => if ok then ∃ c', Faded c c' ∧ v' = { v with colour := some c' } else v' = v
  | .projection p => if ok then p.privateData ≠ some [] ∧ v' = trackAfter v (.projection p) else v' = v
  | .addEncoding => v' = if ok then trackAfter v c else v
  | .keyId i b =>
    if ok then i < v.keyIds.length ∧ usable b ∧ v' = trackAfter v c
    else v' = if usable b then { v with keyIds := v.keyIds.set i none } else v

/-- The same for a history of calls with their answers. -/
def AllowedAll : TrackLook → List (TrackCall × Bool) → TrackLook → Prop
  | v, [], w => w = v
  | v, (c, ok) :: cs, w => ∃ u, Allowed v c ok u ∧ AllowedAll u cs w

end Verif.Spec
