/-
What the cue points of a file say.
-/
import Verif.Model.ParserCuesMem
import Verif.Spec.TrackBuilding

namespace Verif.Spec
open Verif Verif.Par.CuesMem

/-- The cue points in the file. -/
def pointsIn (es : List CuesPart) : List (List PointPart) := es.filterMap fun e => match e with | .point _ ps => some ps | _ => none

/-- The last time of a cue point. -/
def lastTime (ps : List PointPart) : Option Int := (ps.filterMap fun p => match p with | .time t => some t | _ => none).getLast?

/-- Its track positions. -/
def positionsIn (ps : List PointPart) : List Pos := ps.filterMap fun p => match p with | .tp v => v | _ => none

/-- What a cue point says. -/
def pointSaid (ps : List PointPart) : Int × List Pos := ((lastTime ps).getD (-1), positionsIn ps)

/-- A cue point that is whole: nothing malformed, a time that can be read, and track positions, all of them accepted. -/
def PointGood (ps : List PointPart) : Prop :=
  PointPart.bad ∉ ps ∧ PointPart.tp none ∉ ps ∧ 0 ≤ (pointSaid ps).1 ∧ positionsIn ps ≠ []

/-- No cue point is at the very beginning of the file. -/
def Placed (es : List CuesPart) : Prop := ∀ pos ps, CuesPart.point pos ps ∈ es → pos ≠ 0

end Verif.Spec
