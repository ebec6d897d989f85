/-
What the VP9 level statistics should be, as functions of the whole list of frames.
-/
import Verif.Model.Vp9Level

namespace Verif.Spec.Vp9Level
open Verif Vp9

/-- `m` is the largest of the numbers, or zero if there is none. -/
def IsMax (m : Int) (vs : List Int) : Prop := (∀ v ∈ vs, v ≤ m) ∧ (m ∈ vs ∨ (vs = [] ∧ m = 0))

/-- The stream after its first frame, after its second frame, and so on. -/
def moments (fs : List LevelFrame) : List (List LevelFrame) :=
  (List.range fs.length).map fun i => fs.take (i + 1)

/-- Luma samples of a frame. -/
def luma (f : LevelFrame) : Int := (f.width * f.height : Nat)

/-- Larger side of a frame. -/
def breadth (f : LevelFrame) : Int := (max f.width f.height : Nat)

/-- The samples of the frames in the second (a half-open interval of 1000000000 ns) that ends
with the last frame. -/
def lastSecond (fs : List LevelFrame) : Int :=
  match fs.getLast? with
  | none => 0
  | some l => ((fs.filter fun f => l.time - 1000000000 < f.time).map luma).sum

/-- The bytes of the last four frames, or of all if there are fewer. -/
def lastFour (fs : List LevelFrame) : Int :=
  ((fs.reverse.take 4).map fun f => (f.bytes : Int)).sum

/-- Two consecutive alternate reference frames with `n` other frames between them. -/
def AltrefGap (fs : List LevelFrame) (n : Nat) : Prop :=
  ∃ pre a mid b post, fs = pre ++ a :: mid ++ b :: post ∧ a.altref = true ∧ b.altref = true ∧
    (∀ f ∈ mid, f.altref = false) ∧ mid.length = n

/-- How many of the eight reference slots were refreshed since the last key frame. -/
def slotsUsed (fs : List LevelFrame) : Int :=
  ((List.range 8).countP fun k =>
    (fs.reverse.takeWhile fun f => !f.key).any fun f => f.refresh.testBit k : Nat)

end Verif.Spec.Vp9Level

namespace Verif.Spec.Vp9Level
open Verif Vp9

/-- A stream keeps the upper limits of a level.  A CPB limit of zero in the table means that
none is defined. -/
def Keeps (n : Needs) (r : LevelRow) : Prop :=
  n.lumaRateOk r.lumaRate = true ∧ n.pictureSize ≤ r.pictureSize ∧ n.breadth ≤ r.breadth ∧
  n.bitrateOk r.bitrate = true ∧ (r.cpb = 0 ∨ n.cpbOk r.cpb = true) ∧ n.tiles ≤ r.tiles ∧
  n.refs ≤ r.refs

/-- A comparison that a larger limit cannot turn from true to false. -/
def Upward (ok : Nat → Bool) : Prop := ∀ a b, a ≤ b → ok a = true → ok b = true

end Verif.Spec.Vp9Level
