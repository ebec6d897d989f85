/-
What it takes for a WebVTT cue to go through a WebM file and come out again, said without the programs that do it.
-/
import Verif.Spec.WebVtt

namespace Verif.Vtt.Spec
open Verif

/-- A cue as it can stand in a WebVTT file. -/
structure Proper (c : Cue) : Prop where
  ident : Readable c.identifier ∧ ¬ HasArrow c.identifier
  start : Normal c.start ∧ c.start.hours ≤ 2147483647
  stop : Normal c.stop ∧ c.stop.hours ≤ 2147483647
  settings : ∀ g ∈ c.settings, Word g.name ∧ Readable g.name ∧ Word g.value ∧ Readable g.value
  payload : c.payload ≠ [] ∧ ∀ l ∈ c.payload, l ≠ [] ∧ Readable l

/-- A time whose milliseconds have no leading zeros when they are written with three digits, or are none. -/
def PlainMs (t : Time) : Prop := t.milliseconds = 0 ∨ 100 ≤ t.milliseconds

/-- There is no NUL in the text. -/
def NoNul (l : Bytes) : Prop := ∀ c ∈ l, c ≠ 0

/-- A cue that keeps its meaning on the way through a WebM file: no NUL in the identifier and the payload, milliseconds
that libwebm's parser reads as they are written, settings that leave room for the times on their line, and an end that
is counted in nanoseconds with 63 bits. -/
structure Keepable (c : Cue) : Prop where
  ident : NoNul c.identifier
  payload : ∀ l ∈ c.payload, NoNul l
  start : PlainMs c.start
  stop : PlainMs c.stop
  settings : (c.settings.map fun g => g.name.length + g.value.length + 2).sum ≤ 9900
  order : millisOf c.start ≤ millisOf c.stop
  range : millisOf c.stop * 1000000 < 2 ^ 63

end Verif.Vtt.Spec
