/-
What WebVTT text means, said without the parser.

The only things taken from the model are the result types `Time`, `Setting` and `Cue`.
-/
import Verif.Model.WebVtt

namespace Verif.Vtt.Spec
open Verif

/-! ### Lines -/

/-- The three ways to end a line. -/
inductive Ending where
  | lf
  | cr
  | crlf
  deriving DecidableEq, Repr

def Ending.bytes : Ending → Bytes
  | .lf => [0x0A]
  | .cr => [0x0D]
  | .crlf => [0x0D, 0x0A]

/-- A line's text holds neither CR nor LF. -/
def Plain (l : Bytes) : Prop := ∀ c ∈ l, c ≠ 0x0A ∧ c ≠ 0x0D

/-- A file: lines with their endings, then possibly text without an ending. -/
def fileOf : List (Bytes × Ending) → Bytes → Bytes
  | [], last => last
  | (l, e) :: r, last => l ++ e.bytes ++ fileOf r last

/-- A CR directly followed by a blank line that ends in LF would read as CR LF; a text that does
this does not have the lines it claims to have. -/
def Unambiguous : List (Bytes × Ending) → Prop
  | (_, e) :: (l, f) :: r => ¬ (e = .cr ∧ l = [] ∧ f = .lf) ∧ Unambiguous ((l, f) :: r)
  | _ => True

/-- The longest line the parser takes. -/
def maxLine : Nat := 10000

/-- A line the parser takes: no line ending, no 0xFE or 0xFF, not too long. -/
def Readable (l : Bytes) : Prop :=
  (∀ c ∈ l, c ≠ 0x0A ∧ c ≠ 0x0D ∧ c ≠ 0xFE ∧ c ≠ 0xFF) ∧ l.length ≤ maxLine

/-! ### Numbers and times -/

/-- Decimal digits `0` to `9`. -/
def Digits (s : Bytes) : Prop := s ≠ [] ∧ ∀ c ∈ s, 48 ≤ c.toNat ∧ c.toNat ≤ 57

/-- The number a string of digits denotes. -/
def dec : Bytes → Nat
  | [] => 0
  | c :: r => (c.toNat - 48) * 10 ^ r.length + dec r

/-- Spaces and tabs. -/
def Blank (s : Bytes) : Prop := ∀ c ∈ s, c = 0x20 ∨ c = 0x09

/-- The three ways to write a time of day: `SS`, `MM:SS` and `HH:MM:SS`. -/
inductive Clock where
  | sec (s : Bytes)
  | minSec (m s : Bytes)
  | hourMinSec (h m s : Bytes)

def Clock.text : Clock → Bytes
  | .sec s => s
  | .minSec m s => m ++ [0x3A] ++ s
  | .hourMinSec h m s => h ++ [0x3A] ++ m ++ [0x3A] ++ s

/-- Digits throughout; minutes and seconds below 60 except that a time written in seconds only
is unlimited; the leading number fits an `int`. -/
def Clock.Legal : Clock → Prop
  | .sec s => Digits s ∧ dec s ≤ 2147483647
  | .minSec m s => Digits m ∧ Digits s ∧ dec m < 60 ∧ dec s < 60
  | .hourMinSec h m s => Digits h ∧ Digits m ∧ Digits s ∧ dec h ≤ 2147483647 ∧ dec m < 60 ∧ dec s < 60

/-- The seconds written. -/
def Clock.seconds : Clock → Nat
  | .sec s => dec s
  | .minSec m s => 60 * dec m + dec s
  | .hourMinSec h m s => 3600 * dec h + 60 * dec m + dec s

/-- A time stamp: a clock and, after a full stop, perhaps a decimal fraction of a second. -/
structure Stamp where
  clock : Clock
  frac : Option Bytes

def Stamp.text (w : Stamp) : Bytes :=
  w.clock.text ++ match w.frac with
    | none => []
    | some f => [0x2E] ++ f

/-- The fraction is digits whose value is below 1000. -/
def Stamp.Legal (w : Stamp) : Prop :=
  w.clock.Legal ∧ ∀ f, w.frac = some f → Digits f ∧ dec f < 1000

/-- One to three digits of which the first is not a zero, or nothing but zeros.  WebVTT itself
asks for three digits, among them those with leading zeros. -/
def Stamp.NoLeadingZero (w : Stamp) : Prop :=
  ∀ f, w.frac = some f → (f.head? ≠ some 0x30 ∨ dec f = 0)

/-- The milliseconds of the fraction: `.7` is 700, `.07` is 70, `.007` is 7. -/
def Stamp.fracMs (w : Stamp) : Nat :=
  match w.frac with
  | none => 0
  | some f => dec f * 1000 / 10 ^ f.length

/-- The time written, in milliseconds. -/
def Stamp.millis (w : Stamp) : Nat := 1000 * w.clock.seconds + w.fracMs

/-- Fields in their usual ranges. -/
def Normal (t : Time) : Prop :=
  0 ≤ t.hours ∧ 0 ≤ t.minutes ∧ t.minutes < 60 ∧ 0 ≤ t.seconds ∧ t.seconds < 60 ∧
    0 ≤ t.milliseconds ∧ t.milliseconds < 1000

/-- Fields that an `int` can hold. -/
def InInt (t : Time) : Prop :=
  ∀ f, f = t.hours ∨ f = t.minutes ∨ f = t.seconds ∨ f = t.milliseconds →
    -2147483648 ≤ f ∧ f ≤ 2147483647

/-- The milliseconds a time stands for. -/
def millisOf (t : Time) : Int :=
  3600000 * t.hours + 60000 * t.minutes + 1000 * t.seconds + t.milliseconds

/-! ### Cues -/

/-- A setting's name or value: not empty, without colon, blank or NUL. -/
def Word (s : Bytes) : Prop := s ≠ [] ∧ ∀ c ∈ s, c ≠ 0 ∧ c ≠ 0x20 ∧ c ≠ 0x09 ∧ c ≠ 0x3A

/-- A setting as written, after at least one blank. -/
def settingText (g : Bytes × Setting) : Bytes := g.1 ++ g.2.name ++ [0x3A] ++ g.2.value

def settingsText : List (Bytes × Setting) → Bytes
  | [] => []
  | g :: r => settingText g ++ settingsText r

/-- The timings line: blanks, start, blanks, arrow, blanks, stop, settings, blanks. -/
structure Timings where
  b1 : Bytes
  start : Stamp
  b2 : Bytes
  b3 : Bytes
  stop : Stamp
  settings : List (Bytes × Setting)
  b4 : Bytes

def arrow : Bytes := [0x2D, 0x2D, 0x3E]

def Timings.text (t : Timings) : Bytes :=
  t.b1 ++ t.start.text ++ t.b2 ++ arrow ++ t.b3 ++ t.stop.text ++ settingsText t.settings ++ t.b4

def Timings.Legal (t : Timings) : Prop :=
  Blank t.b1 ∧ Blank t.b2 ∧ Blank t.b3 ∧ Blank t.b4 ∧ t.start.Legal ∧ t.stop.Legal ∧
    t.start.NoLeadingZero ∧ t.stop.NoLeadingZero ∧
    ∀ g ∈ t.settings, Blank g.1 ∧ g.1 ≠ [] ∧ Word g.2.name ∧ Word g.2.value

/-- A cue as written: blank lines before it, perhaps an identifier, timings, payload. -/
structure Written where
  blanks : Nat
  ident : Option Bytes
  timings : Timings
  payload : List Bytes

/-- The text contains the arrow. -/
def HasArrow (l : Bytes) : Prop := ∃ a b, l = a ++ arrow ++ b

def Written.lines (w : Written) : List Bytes :=
  List.replicate w.blanks [] ++ w.ident.toList ++ [w.timings.text] ++ w.payload

def Written.Legal (w : Written) : Prop :=
  w.timings.Legal ∧ Readable w.timings.text ∧
  (∀ i, w.ident = some i → i ≠ [] ∧ Readable i ∧ ¬ HasArrow i) ∧
  w.payload ≠ [] ∧ ∀ l ∈ w.payload, l ≠ [] ∧ Readable l

/-- The cue read is the cue written. -/
def Written.Is (w : Written) (c : Cue) : Prop :=
  c.identifier = w.ident.getD [] ∧
  Normal c.start ∧ millisOf c.start = w.timings.start.millis ∧
  Normal c.stop ∧ millisOf c.stop = w.timings.stop.millis ∧
  c.settings = w.timings.settings.map Prod.snd ∧
  c.payload = w.payload

end Verif.Vtt.Spec
