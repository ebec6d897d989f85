/-
The memory of the cue points in mkvparser: the table of cue points, which is filled with places before the first is loaded, the loading of one
cue point after the other, failing allocations, and the destructors.

Simplification: the elements are given as a list of what the reader finds, instead of as bytes; `ParserCues` has the parsing of the bytes.
-/
import Verif.Model.ParserEncodingMem

namespace Verif.Par.CuesMem
open Verif Verif.Mux.Build Verif.Par.Enc

/-- A `TrackPosition`, mkvparser/mkvparser.h:907-916: track, cluster position, block. -/
abbrev Pos := Nat × Nat × Nat

/-- A child of a `CuePoint` element, mkvparser/mkvparser.cc:2311-2341, 2362-2388: a time, negative if it cannot be read, track positions, which
may be refused, another element, or something malformed. -/
inductive PointPart where
  | time (t : Int)
  | tp (v : Option Pos)
  | other
  | bad

/-- A child of the `Cues` element, mkvparser/mkvparser.cc:1883-1911: a cue point at a place in the file, another element, or something
malformed. -/
inductive CuesPart where
  | point (pos : Nat) (ps : List PointPart)
  | other
  | bad

/-- `CuePoint`, mkvparser/mkvparser.h:889-925: `m_timecode`, `m_track_positions_count`, the array and how much of it was parsed. -/
structure Point where
  time : Int
  count : Nat := 0
  arr : Option Nat := none
  filled : List Pos := []

/-- The first loop of `CuePoint::Load`, mkvparser/mkvparser.cc:2311-2341: whether it got to the end, `m_timecode` and the count. -/
def scan : List PointPart → Int → Nat → Bool × Int × Nat
  | [], t, n => (true, t, n)
  | .time t :: ps, _, n => scan ps t n
  | .tp _ :: ps, t, n => scan ps t (n + 1)
  | .other :: ps, t, n => scan ps t n
  | .bad :: _, t, n => (false, t, n)

/-- The second loop of `CuePoint::Load`, mkvparser/mkvparser.cc:2362-2388; undefined outside the array of `n` positions. -/
def fill (n : Nat) : List PointPart → List Pos → Res (Bool × List Pos)
  | [], l => .ok (true, l)
  | .tp v :: ps, l =>
    if n ≤ l.length then .ub
    else
      match v with
      | none => .ok (false, l)
      | some v => fill n ps (l ++ [v])
  | .time _ :: ps, l => fill n ps l
  | .other :: ps, l => fill n ps l
  | .bad :: _, l => .ok (false, l)

/-- `CuePoint::Load`, mkvparser/mkvparser.cc:2272-2396.  Simplified: there are fewer than 2³² elements. -/
def Point.load (can : Nat → Bool) (ps : List PointPart) (x : Point) (m : Mem) : Res (Bool × Point × Mem) :=
  if 0 ≤ x.time then .ok (true, x, m)
  else if x.arr ≠ none ∨ x.count ≠ 0 then .ub
  else
    match scan ps x.time 0 with
    | (false, t, _) => .ok (false, { x with time := t }, m)
    | (true, t, n) =>
      if t < 0 ∨ n = 0 then .ok (false, { x with time := t, count := n }, m)
      else
        match m.alloc can with
        | (none, m) => .ok (false, { x with time := t, count := n }, m)
        | (some a, m) => do
          let (b, l) ← fill n ps []
          .ok (b, { time := t, count := n, arr := some a, filled := l }, m)

/-- `CuePoint::~CuePoint`, mkvparser/mkvparser.cc:2270. -/
def Point.destroy (x : Point) (m : Mem) : Res Mem := m.free x.arr

/-- The time and the track positions of a cue point, as `GetTimeCode` and `Find`, mkvparser/mkvparser.cc:2444-2464, read them; undefined if
there is no array, or it holds what was never written. -/
def Point.show (x : Point) : Res (Int × List Pos) :=
  if x.count ≠ 0 ∧ x.arr = none ∨ x.filled.length < x.count then .ub else .ok (x.time, x.filled.take x.count)

/-- `Cues`, mkvparser/mkvparser.h:927-968: the array, the cue points loaded (`m_count`) and the ones not loaded (`m_preload_count`) behind
them, and the elements from `m_pos` on. -/
structure Cues where
  arr : Option Nat := none
  loaded : List (Nat × Point) := []
  pre : List (Nat × Point) := []
  rest : List CuesPart

/-- The growing of the array in `Cues::PreloadCuePoint`, mkvparser/mkvparser.cc:1919-1938: the new size, or that there is no memory. -/
def grow (can : Nat → Bool) (room : Nat) (x : Cues) (m : Mem) : Res (Option Nat × Cues × Mem) :=
  if room ≤ x.pre.length then
    match m.alloc can with
    | (none, m) => .ok (none, x, m)
    | (some a, m) => do
      let m ← m.free x.arr
      .ok (some (if room = 0 then 2048 else 2 * room), { x with arr := some a }, m)
  else .ok (some room, x, m)

/-- `Cues::PreloadCuePoint`, mkvparser/mkvparser.cc:1915-1946, with the assertion of `CuePoint::CuePoint`, mkvparser/mkvparser.cc:2260-2268;
undefined when writing outside the array. -/
def preload (can : Nat → Bool) (room : Nat) (pos : Nat) (x : Cues) (m : Mem) : Res (Option Nat × Cues × Mem) :=
  if x.loaded ≠ [] then .ok (none, x, m)
  else do
    let (r, x, m) ← grow can room x m
    match r with
    | none => .ok (none, x, m)
    | some room =>
      match m.alloc can with
      | (none, m) => .ok (none, x, m)
      | (some a, m) =>
        if pos = 0 ∨ x.arr = none ∨ room ≤ x.pre.length then .ub
        else .ok (some room, { x with pre := x.pre ++ [(a, { time := -(pos : Int) })] }, m)

/-- The loop of `Cues::Init`, mkvparser/mkvparser.cc:1883-1911. -/
def initLoop (can : Nat → Bool) : List CuesPart → Nat → Cues → Mem → Res (Bool × Cues × Mem)
  | [], _, x, m => .ok (true, x, m)
  | .point pos _ :: es, room, x, m => do
    let (r, x, m) ← preload can room pos x m
    match r with
    | none => .ok (false, x, m)
    | some room => initLoop can es room x m
  | .other :: es, room, x, m => initLoop can es room x m
  | .bad :: _, _, x, m => .ok (false, x, m)

/-- `Cues::Init`, mkvparser/mkvparser.cc:1869-1913. -/
def init (can : Nat → Bool) (all : List CuesPart) (x : Cues) (m : Mem) : Res (Bool × Cues × Mem) :=
  if x.arr ≠ none then .ok (true, x, m)
  else if x.loaded ≠ [] ∨ x.pre ≠ [] then .ok (false, x, m)
  else initLoop can all 0 x m

/-- The loop of `Cues::LoadCuePoint`, mkvparser/mkvparser.cc:1961-2007.  Simplified: where it gives up without setting `m_pos` to the end,
`m_pos` stays before the element; that never happens after `Init` had success. -/
def loadLoop (can : Nat → Bool) : List CuesPart → Cues → Mem → Res (Bool × Cues × Mem)
  | [], x, m => .ok (false, { x with rest := [] }, m)
  | .other :: es, x, m => loadLoop can es x m
  | .bad :: es, x, m => .ok (false, { x with rest := .bad :: es }, m)
  | .point pos ps :: es, x, m =>
    match x.pre with
    | [] => .ok (false, { x with rest := .point pos ps :: es }, m)
    | (a, p) :: pre =>
      if p.time < 0 ∧ -p.time ≠ (pos : Int) then .ok (false, { x with rest := .point pos ps :: es }, m)
      else do
        let (b, p, m) ← p.load can ps m
        if !b then .ok (false, { x with pre := (a, p) :: pre, rest := [] }, m)
        else .ok (true, { x with loaded := x.loaded ++ [(a, p)], pre := pre, rest := es }, m)

/-- `Cues::LoadCuePoint`, mkvparser/mkvparser.cc:1948-2010. -/
def loadCuePoint (can : Nat → Bool) (all : List CuesPart) (x : Cues) (m : Mem) : Res (Bool × Cues × Mem) :=
  match x.rest with
  | [] => .ok (false, x, m)
  | _ :: _ => do
    let (b, x, m) ← init can all x m
    if !b then .ok (false, { x with rest := [] }, m)
    else loadLoop can x.rest x m

/-- `n` calls of `LoadCuePoint`, mkvparser/mkvparser.cc:1948-2010: the answers. -/
def loads (can : Nat → Bool) (all : List CuesPart) : Nat → Cues → Mem → Res (List Bool × Cues × Mem)
  | 0, x, m => .ok ([], x, m)
  | n + 1, x, m => do
    let (b, x, m) ← loadCuePoint can all x m
    let (bs, x, m) ← loads can all n x m
    .ok (b :: bs, x, m)

/-- `Cues::~Cues`, mkvparser/mkvparser.cc:1841-1855. -/
def destroy (x : Cues) (m : Mem) : Res Mem := do
  let m ← deleteItems Point.destroy (x.loaded ++ x.pre) m
  m.free x.arr

/-- What `GetFirst` and `GetNext`, mkvparser/mkvparser.cc:2077-2090, 2109-2134, lead to: the cue points loaded. -/
def shown : List (Nat × Point) → Res (List (Int × List Pos))
  | [] => .ok []
  | (_, p) :: ps => do
    let v ← p.show
    let vs ← shown ps
    .ok (v :: vs)

end Verif.Par.CuesMem
