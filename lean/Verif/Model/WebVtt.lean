/-
The WebVTT parser, webvtt/webvttparser.{h,cc}.

Characters are bytes.  `isdigit` is called with a `char`: for a byte above 127 the argument is
negative where `char` is signed, which the C standard leaves undefined; the model takes such a
byte not to be a digit, as the usual C libraries do.
-/
import Verif.Base.Bytes
import Verif.Base.Res

namespace Verif.Vtt
open Verif

/-! ### Characters and lines -/

/-- What `Reader::GetChar` delivers (webvtt/webvttparser.h:17-27): a character, the end of the
stream (positive), or an error (negative, here always -1). -/
inductive Got where
  | char (c : UInt8)
  | eof
  | error
  deriving DecidableEq, Repr

/-- The parser object (webvtt/webvttparser.h:151-154) with its reader: the characters still to
come, and whether the stream ends in an error rather than regularly; `unget` is `unget_`. -/
structure Parser where
  unget : Option UInt8 := none
  rest : Bytes
  fails : Bool := false
  deriving DecidableEq, Repr

/-- `Parser::GetChar` (webvtt/webvttparser.cc:261-269). -/
def Parser.getChar (p : Parser) : Got × Parser :=
  match p.unget with
  | some c => (.char c, { p with unget := none })
  | none =>
    match p.rest with
    | c :: r => (.char c, { p with rest := r })
    | [] => (if p.fails then .error else .eof, p)

/-- `Parser::UngetChar` (webvtt/webvttparser.cc:271). -/
def Parser.ungetChar (p : Parser) (c : UInt8) : Parser := { p with unget := some c }

/-- Number of characters still to come. -/
def Parser.size (p : Parser) : Nat := p.unget.toList.length + p.rest.length

theorem Parser.getChar_size {p p' : Parser} {c : UInt8} (h : p.getChar = (.char c, p')) :
    p'.size + 1 = p.size := by
  unfold Parser.getChar at h
  cases hu : p.unget with
  | some d => rw [hu] at h; cases h; simp [Parser.size, hu]; omega
  | none =>
    rw [hu] at h
    cases hr : p.rest with
    | cons d r => rw [hr] at h; cases h; simp [Parser.size, hu, hr]
    | nil =>
      rw [hr] at h
      by_cases hf : p.fails = true <;> simp [hf] at h

/-- The look-ahead after a CR (webvtt/webvttparser.cc:87-105). -/
def Parser.afterCr (p : Parser) : Int × Parser :=
  match p.getChar with
  | (.error, p') => (-1, p')
  | (.eof, p') => (0, p')
  | (.char c, p') => if c ≠ 0x0A then (0, p'.ungetChar c) else (0, p')

/-- The loop of `LineReader::GetLine` (webvtt/webvttparser.cc:52-85), with what follows it. -/
def Parser.lineLoop (p : Parser) (ln : Bytes) : Int × Bytes × Parser :=
  match h : p.getChar with
  | (.error, p') => (-1, ln, p')
  | (.eof, p') => (if ln.isEmpty then 1 else 0, ln, p')
  | (.char c, p') =>
    if c = 0x0A then (0, ln, p')
    else if c = 0x0D then
      let (e, p'') := p'.afterCr
      (e, ln, p'')
    else if c = 0xFE ∨ c = 0xFF then (-1, ln, p')
    else if ln.length ≥ 10000 then (-1, ln, p')
    else p'.lineLoop (ln ++ [c])
termination_by p.size
decreasing_by have := Parser.getChar_size h; omega

/-- `LineReader::GetLine` (webvtt/webvttparser.cc:32-106): status, line, parser. -/
def Parser.getLine (p : Parser) : Int × Bytes × Parser := p.lineLoop []

theorem Parser.afterCr_size (p : Parser) : p.afterCr.2.size ≤ p.size := by
  unfold Parser.afterCr
  rcases h : p.getChar with ⟨g, p'⟩
  cases g with
  | char c =>
    have := Parser.getChar_size h
    have hu : p'.unget = none := by
      unfold Parser.getChar at h
      cases hu : p.unget with
      | some d => rw [hu] at h; cases h; rfl
      | none =>
        rw [hu] at h
        cases hr : p.rest with
        | cons d r => rw [hr] at h; cases h; rfl
        | nil =>
          rw [hr] at h
          by_cases hf : p.fails = true <;> simp [hf] at h
    simp only
    split
    · simp [Parser.ungetChar, Parser.size, hu] at this ⊢; omega
    · show p'.size ≤ _; omega
  | eof =>
    unfold Parser.getChar at h
    split at h
    · cases h
    · split at h
      · cases h
      · split at h <;> cases h; simp
  | error =>
    unfold Parser.getChar at h
    split at h
    · cases h
    · split at h
      · cases h
      · split at h <;> cases h; simp

theorem Parser.lineLoop_size (p : Parser) (ln : Bytes) :
    ∀ {l p'}, p.lineLoop ln = (0, l, p') → p'.size < p.size ∨ (ln ≠ [] ∧ p'.size ≤ p.size) := by
  fun_induction Parser.lineLoop p ln with
  | case1 p ln p' h => intro l q e; simp at e
  | case2 p ln p' h =>
    intro l q e
    right
    simp only [Prod.mk.injEq] at e
    have hp : p' = p := by
      unfold Parser.getChar at h
      split at h
      · cases h
      · split at h
        · cases h
        · split at h <;> cases h; rfl
    cases ln with
    | nil => simp at e
    | cons a b => exact ⟨by simp, by rw [← e.2.2, hp]; exact Nat.le_refl _⟩
  | case3 p ln p' h =>
    intro l q e
    left
    have := Parser.getChar_size h
    simp only [Prod.mk.injEq] at e
    rw [← e.2.2]; omega
  | case4 p ln p' e1 p'' hcr h hne =>
    intro l q e
    left
    have := Parser.getChar_size h
    have h2 := Parser.afterCr_size p'
    rw [hcr] at h2
    simp only [Prod.mk.injEq] at e
    rw [← e.2.2]; simp only at h2; omega
  | case5 => intro l q e; simp at e
  | case6 => intro l q e; simp at e
  | case7 p ln c p' h h1 h2 h3 h4 ih =>
    intro l q e
    left
    have := Parser.getChar_size h
    rcases ih e with h | ⟨-, h⟩ <;> omega

theorem Parser.getLine_size {p p' : Parser} {l : Bytes} (h : p.getLine = (0, l, p')) :
    p'.size < p.size := by
  rcases Parser.lineLoop_size p [] h with h | ⟨h, -⟩
  · exact h
  · exact absurd rfl h

/-! ### The start of the file -/

/-- The loop of `ParseBOM` (webvtt/webvttparser.cc:273-301) from index `i`. -/
def Parser.bomLoop (p : Parser) : List UInt8 → Bool → Int × Parser
  | [], _ => (0, p)
  | b :: bs, first =>
    match p.getChar with
    | (.error, p') => (-1, p')
    | (.eof, p') => (1, p')
    | (.char c, p') =>
      if c ≠ b then if first then (0, p'.ungetChar c) else (-1, p')
      else Parser.bomLoop p' bs false

/-- `Parser::ParseBOM` (webvtt/webvttparser.cc:273-301). -/
def Parser.parseBom (p : Parser) : Int × Parser := p.bomLoop [0xEF, 0xBB, 0xBF] true

/-- The loop over "WEBVTT" (webvtt/webvttparser.cc:127-139). -/
def Parser.idLoop (p : Parser) : List UInt8 → Int × Parser
  | [] => (0, p)
  | b :: bs =>
    match p.getChar with
    | (.error, p') => (-1, p')
    | (.eof, p') => (-1, p')
    | (.char c, p') => if c ≠ b then (-1, p') else Parser.idLoop p' bs

/-- "WEBVTT". -/
def kWebVtt : List UInt8 := [0x57, 0x45, 0x42, 0x56, 0x54, 0x54]

/-- `Parser::Init` (webvtt/webvttparser.cc:112-176). -/
def Parser.init (p : Parser) : Int × Parser :=
  match p.parseBom with
  | (e, p) =>
    if e < 0 then (e, p)
    else if e > 0 then (-1, p)
    else
      match p.idLoop kWebVtt with
      | (e, p) =>
        if e ≠ 0 then (e, p)
        else
          match p.getLine with
          | (e, line, p) =>
            if e < 0 then (e, p)
            else if e > 0 then (0, p)
            else if !line.isEmpty ∧ line.headD 0 ≠ 0x20 ∧ line.headD 0 ≠ 0x09 then (-1, p)
            else
              match p.getLine with
              | (e, line, p) =>
                if e < 0 then (e, p)
                else if e > 0 then (0, p)
                else if !line.isEmpty then (-1, p)
                else (0, p)

/-! ### The timings line -/

/-- `Time` (webvtt/webvttparser.h:47-67). -/
structure Time where
  hours : Int
  minutes : Int
  seconds : Int
  milliseconds : Int
  deriving DecidableEq, Repr

/-- `Setting` (webvtt/webvttparser.h:69-72). -/
structure Setting where
  name : Bytes
  value : Bytes
  deriving DecidableEq, Repr

/-- `Cue` (webvtt/webvttparser.h:74-85). -/
structure Cue where
  identifier : Bytes
  start : Time
  stop : Time
  settings : List Setting
  payload : List Bytes
  deriving DecidableEq, Repr

/-- `line[idx]` on a `std::string`: the position after the last character holds NUL, further
positions must not be looked at. -/
def charAt (line : Bytes) (idx : Nat) : Res UInt8 :=
  if h : idx < line.length then .ok line[idx] else if idx = line.length then .ok 0 else .ub

/-- `isdigit`. -/
def isDigit (c : UInt8) : Bool := 48 ≤ c.toNat && c.toNat ≤ 57

/-- `INT_MAX`. -/
def intMax : Nat := 2147483647

/-- The loop of `ParseNumber` (webvtt/webvttparser.cc:591-609): value and new index. -/
def numLoop (line : Bytes) (idx result : Nat) : Res (Nat × Nat) :=
  if h : idx < line.length then
    let c := line[idx]
    if isDigit c then
      let i := c.toNat - 48
      if result > intMax / 10 then .err (-1)
      else if result * 10 > intMax - i then .err (-1)
      else numLoop line (idx + 1) (result * 10 + i)
    else .ok (result, idx)
  else if idx = line.length then .ok (result, idx)
  else .ub
termination_by line.length - idx

/-- `Parser::ParseNumber` (webvtt/webvttparser.cc:578-611). -/
def parseNumber (line : Bytes) (idx : Nat) : Res (Nat × Nat) := do
  Res.refuse (idx ≥ line.length) (-1)
  let c ← charAt line idx
  Res.refuse (isDigit c = false) (-1)
  numLoop line idx 0

/-- The whitespace loop `while (char c = line[idx])` of `ParseTime`
(webvtt/webvttparser.cc:365-369). -/
def skipWs (line : Bytes) (idx : Nat) : Res Nat :=
  if h : idx < line.length then
    let c := line[idx]
    if c = 0x20 ∨ c = 0x09 then skipWs line (idx + 1) else .ok idx
  else if idx = line.length then .ok idx
  else .ub
termination_by line.length - idx

/-- The hours, minutes and seconds part of `ParseTime` (webvtt/webvttparser.cc:376-451). -/
def parseClock (line : Bytes) (idx : Nat) : Res (Int × Int × Int × Nat) := do
  let (first, idx) ← parseNumber line idx
  let c ← charAt line idx
  if c = 0x3A then do
    let (second, idx) ← parseNumber line (idx + 1)
    Res.refuse (second ≥ 60) (-1)
    let c ← charAt line idx
    if c = 0x3A then do
      let (third, idx) ← parseNumber line (idx + 1)
      Res.refuse (third ≥ 60) (-1)
      .ok (first, second, third, idx)
    else do
      Res.refuse (first ≥ 60) (-1)
      .ok (0, first, second, idx)
  else
    let minutes := first / 60
    let seconds := first - minutes * 60
    let hours := minutes / 60
    .ok (hours, minutes - hours * 60, seconds, idx)

/-- The milliseconds part of `ParseTime` (webvtt/webvttparser.cc:456-492). -/
def parseFraction (line : Bytes) (idx : Nat) : Res (Int × Nat) := do
  let c ← charAt line idx
  if c = 0x2E then do
    let (val, idx) ← parseNumber line (idx + 1)
    Res.refuse (val ≥ 1000) (-1)
    .ok (if val < 10 then (val * 100 : Nat) else if val < 100 then (val * 10 : Nat) else val, idx)
  else .ok (0, idx)

/-- `Parser::ParseTime` (webvtt/webvttparser.cc:350-504). -/
def parseTime (line : Bytes) (idx : Nat) : Res (Time × Nat) := do
  Res.refuse (idx ≥ line.length) (-1)
  let idx ← skipWs line idx
  let (h, m, s, idx) ← parseClock line idx
  let (ms, idx) ← parseFraction line idx
  let c ← charAt line idx
  Res.refuse (c ≠ 0 ∧ c ≠ 0x20 ∧ c ≠ 0x09) (-1)
  .ok (⟨h, m, s, ms⟩, idx)

/-- The loop over a setting's name (webvtt/webvttparser.cc:539-551). -/
def nameLoop (line : Bytes) (idx : Nat) (name : Bytes) : Res (Bytes × Nat) :=
  if h : idx < line.length then
    let c := line[idx]
    if c = 0x3A then .ok (name, idx)
    else if c = 0 ∨ c = 0x20 ∨ c = 0x09 then .err (-1)
    else nameLoop line (idx + 1) (name ++ [c])
  else if idx = line.length then .err (-1)
  else .ub
termination_by line.length - idx

/-- The loop over a setting's value (webvtt/webvttparser.cc:560-572). -/
def valueLoop (line : Bytes) (idx : Nat) (value : Bytes) : Res (Bytes × Nat) :=
  if h : idx < line.length then
    let c := line[idx]
    if c = 0 ∨ c = 0x20 ∨ c = 0x09 then .ok (value, idx)
    else if c = 0x3A then .err (-1)
    else valueLoop line (idx + 1) (value ++ [c])
  else if idx = line.length then .ok (value, idx)
  else .ub
termination_by line.length - idx

/-- The loop of `ParseSettings` (webvtt/webvttparser.cc:513-575).  Each turn consumes at least
a colon, so the length of the line bounds the turns; running out of fuel is `ub`. -/
def settingsLoop (line : Bytes) : Nat → Nat → Res (List Setting)
  | 0, _ => .ub
  | fuel + 1, idx => do
    let idx ← skipWs line idx
    let c ← charAt line idx
    if c = 0 then .ok []
    else do
      let (name, idx) ← nameLoop line idx []
      Res.refuse (name.isEmpty = true) (-1)
      let (value, idx) ← valueLoop line (idx + 1) []
      Res.refuse (value.isEmpty = true) (-1)
      let more ← settingsLoop line fuel idx
      .ok (⟨name, value⟩ :: more)

/-- `Parser::ParseSettings` (webvtt/webvttparser.cc:506-576). -/
def parseSettings (line : Bytes) (idx : Nat) : Res (List Setting) := do
  Res.refuse (idx ≥ line.length) (-1)
  settingsLoop line (line.length + 1) idx

/-- The junk test between the start time and the arrow (webvtt/webvttparser.cc:326-330). -/
def junkLoop (line : Bytes) (idx : Nat) : Res Unit :=
  if h : idx < line.length then
    let c := line[idx]
    if c = 0 then .ok ()
    else if c ≠ 0x20 ∧ c ≠ 0x09 then .err (-1)
    else junkLoop line (idx + 1)
  else if idx = line.length then .ok ()
  else .ub
termination_by line.length - idx

/-- `Parser::ParseTimingsLine` (webvtt/webvttparser.cc:303-348). -/
def parseTimingsLine (line : Bytes) (arrow : Nat) : Res (Time × Time × List Setting) := do
  Res.refuse (arrow ≥ line.length) (-1)
  let line := line.set arrow 0
  let (start, idx) ← parseTime line 0
  junkLoop line idx
  let line := line ++ [0]
  let (stop, idx) ← parseTime line (arrow + 3)
  let settings ← parseSettings line idx
  .ok (start, stop, settings)

/-- `line.find("-->")` (webvtt/webvttparser.cc:203-204): the first occurrence. -/
def findArrow : Nat → Bytes → Option Nat
  | off, 0x2D :: 0x2D :: 0x3E :: _ => some off
  | off, _ :: r => findArrow (off + 1) r
  | _, [] => none

/-! ### Cues -/

/-- The loop over blank lines at the start of `Parse` (webvtt/webvttparser.cc:187-195): the
status and, if it is zero, the first line that is not empty. -/
def Parser.firstLine (p : Parser) : Int × Bytes × Parser :=
  match h : p.getLine with
  | (e, line, p') =>
    if he : e ≠ 0 then (e, line, p')
    else if line.isEmpty then p'.firstLine
    else (0, line, p')
termination_by p.size
decreasing_by
  have : e = 0 := by simpa using he
  exact Parser.getLine_size (this ▸ h)

/-- The payload loop of `Parse` (webvtt/webvttparser.cc:243-253).  At the end of the stream
`GetLine` leaves the line empty. -/
def Parser.payloadLoop (p : Parser) (acc : List Bytes) : Int × List Bytes × Parser :=
  match h : p.getLine with
  | (e, line, p') =>
    if e < 0 then (e, acc, p')
    else if he : line.isEmpty = true ∨ e ≠ 0 then (0, acc, p')
    else p'.payloadLoop (acc ++ [line])
termination_by p.size
decreasing_by
  have : e = 0 := by
    have := not_or.mp he
    simpa using this.2
  exact Parser.getLine_size (this ▸ h)

/-- The identifier and timings lines (webvtt/webvttparser.cc:197-231): the identifier, the
timings line and the position of the arrow in it. -/
def Parser.timingsLine (p : Parser) : Int × (Bytes × Bytes × Nat) × Parser :=
  match p.firstLine with
  | (e, line, p) =>
    if e ≠ 0 then (e, ([], [], 0), p)
    else
      match findArrow 0 line with
      | some a => (0, ([], line, a), p)
      | none =>
        match p.getLine with
        | (e, line2, p) =>
          if e < 0 then (e, ([], [], 0), p)
          else if e > 0 then (-1, ([], [], 0), p)
          else
            match findArrow 0 line2 with
            | none => (-1, ([], [], 0), p)
            | some a => (0, (line, line2, a), p)

/-- `Parser::Parse` (webvtt/webvttparser.cc:178-259): the cue, or the status returned (`err`;
positive at the end of the stream). -/
def Parser.parse (p : Parser) : Res Cue × Parser :=
  match p.timingsLine with
  | (e, (ident, line, arrow), p) =>
    if e ≠ 0 then (.err e, p)
    else
      match parseTimingsLine line arrow with
      | .ub => (.ub, p)
      | .err c => (.err c, p)
      | .ok (start, stop, settings) =>
        match p.payloadLoop [] with
        | (e, payload, p) =>
          if e < 0 then (.err e, p)
          else if payload.isEmpty then (.err (-1), p)
          else (.ok ⟨ident, start, stop, settings, payload⟩, p)

/-! ### Times -/

/-- `Time::operator==` (webvtt/webvttparser.cc:613-624). -/
def Time.eq (a b : Time) : Bool :=
  if a.hours ≠ b.hours then false
  else if a.minutes ≠ b.minutes then false
  else if a.seconds ≠ b.seconds then false
  else a.milliseconds = b.milliseconds

/-- `Time::operator<` (webvtt/webvttparser.cc:626-646). -/
def Time.lt (a b : Time) : Bool :=
  if a.hours < b.hours then true
  else if a.hours > b.hours then false
  else if a.minutes < b.minutes then true
  else if a.minutes > b.minutes then false
  else if a.seconds < b.seconds then true
  else if a.seconds > b.seconds then false
  else a.milliseconds < b.milliseconds

/-- `Time::operator>`, `<=`, `>=` (webvtt/webvttparser.cc:648-652). -/
def Time.gt (a b : Time) : Bool := b.lt a
def Time.le (a b : Time) : Bool := !a.gt b
def Time.ge (a b : Time) : Bool := !a.lt b

/-- A signed 64-bit operation's result: undefined outside the range. -/
def i64 (v : Int) : Res Int := if v < -9223372036854775808 ∨ v > 9223372036854775807 then .ub else .ok v

/-- A signed 32-bit operation's result: undefined outside the range. -/
def i32 (v : Int) : Res Int := if v < -2147483648 ∨ v > 2147483647 then .ub else .ok v

/-- `Time::presentation() const` (webvtt/webvttparser.cc:654-660), for fields that fit `int`
(the products and sums then fit `long long`). -/
def Time.presentation (t : Time) : Int :=
  1000 * 3600 * t.hours + 1000 * 60 * t.minutes + 1000 * t.seconds + t.milliseconds

/-- `Time::presentation(presentation_t)` (webvtt/webvttparser.cc:662-682).  `d / 1000` is
converted to `int` (taken modulo `2^32`); `1000 * seconds` is computed in `int`. -/
def Time.ofPresentation (d : Int) : Res Time :=
  if d < 0 then .ok ⟨0, 0, 0, 0⟩
  else do
    let seconds := toI32 (d / 1000)
    let k ← i32 (1000 * seconds)
    let milliseconds := toI32 (d - k)
    let minutes := Int.tdiv seconds 60
    let seconds := seconds - 60 * minutes
    let hours := Int.tdiv minutes 60
    let minutes := minutes - 60 * hours
    .ok ⟨hours, minutes, seconds, milliseconds⟩

/-- `Time::operator+=` and `+` (webvtt/webvttparser.cc:684-695). -/
def Time.add (t : Time) (d : Int) : Res Time := do
  let dd ← i64 (t.presentation + d)
  Time.ofPresentation dd

/-- `Time::operator-=` (webvtt/webvttparser.cc:697). -/
def Time.subDuration (t : Time) (d : Int) : Res Time := do
  let m ← i64 (-d)
  t.add m

/-- `Time::operator-` (webvtt/webvttparser.cc:699-704). -/
def Time.sub (t u : Time) : Int := t.presentation - u.presentation

end Verif.Vtt
