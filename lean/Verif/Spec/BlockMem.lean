/-
What a cluster should hold after its blocks are parsed.
-/
import Verif.Model.ParserBlockMem
import Verif.Spec.TrackBuilding

namespace Verif.Spec
open Verif Verif.Par.BlockMem

/-- What the parser should say of a block: 0 if it is well formed, else that the format is invalid. -/
def toldOf : Found → Int
  | .frames _ => 0
  | _ => -2

/-- The frames of a block, if it is well formed. -/
def framesFound : Found → List (List Frame)
  | .frames l => [l]
  | _ => []

/-- The frames of the blocks for which 0 was returned. -/
def keptOf (fs : List Found) (cs : List Int) : List (List Frame) := (fs.zip cs).flatMap fun p => if p.2 = 0 then framesFound p.1 else []

/-- Every answer is the one the block deserves, or -1 where memory ran out. -/
def Answers (fs : List Found) (cs : List Int) : Prop := cs.length = fs.length ∧ ∀ p ∈ fs.zip cs, p.2 = toldOf p.1 ∨ p.2 = -1

end Verif.Spec
