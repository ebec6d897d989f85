/-
Model of the cues of mkvparser: loading (mkvparser/mkvparser.cc:1828-2010, 2263-2442) and looking
up (mkvparser/mkvparser.cc:2012-2134, 2444-2480).
-/
import Verif.Model.ParserWalk
import Verif.Model.MuxerCues

namespace Verif.Par
open Verif

theorem readID_len {r : Rdr} {pos : Int} {id len : Nat} (h : readID r pos = .ok (id, len)) : 1 ≤ len := by
  unfold readID at h
  repeat' split at h
  all_goals first | (cases h; done) | skip
  simp only [Res.ok.injEq, Prod.mk.injEq] at h
  omega

/-- The header read at the top of the loops that answer `false` on bad input:
`id = ReadID(…); if (id < 0 || pos + len > stop) return false; pos += len; size = ReadUInt(…);
if (size < 0 || pos + len > stop) return false; pos += len; if (pos + size > stop) return false;`
(for example mkvparser/mkvparser.cc:2315-2331).  `.error p`: failure, with the value of `pos` at
that time. -/
def headerIn (r : Rdr) (pos stop : Nat) : Except Nat Hdr :=
  match readID r pos with
  | .ok (id, len) =>
    if pos + len > stop then .error pos
    else
      match readUInt r ((pos + len : Nat) : Int) with
      | .ok (size, len2) =>
        if pos + len + len2 > stop then .error (pos + len)
        else if pos + len + len2 + size > stop then .error (pos + len + len2)
        else .ok ⟨pos + len + len2, id, size⟩
      | _ => .error (pos + len)
  | _ => .error pos

theorem headerIn_pos {r : Rdr} {pos stop : Nat} {h : Hdr} (hp : headerIn r pos stop = .ok h) :
    pos < h.pos := by
  unfold headerIn at hp
  split at hp
  · rename_i id len h1
    have := readID_len h1
    split at hp
    · cases hp
    · split at hp
      · split at hp
        · cases hp
        · split at hp
          · cases hp
          · cases hp; simp only; omega
      · cases hp
  · cases hp

/-- The loop `while (pos < stop) { header; body; pos += size; }` with these headers.  The result
is the answer and the state; a body answering `false` ends the loop with `return false`. -/
def walkIn {σ : Type} (r : Rdr) (stop : Nat) (step : Nat → Hdr → σ → Res (Bool × σ)) (pos : Nat)
    (st : σ) : Res (Bool × σ) :=
  if pos < stop then
    match _hp : headerIn r pos stop with
    | .error _ => .ok (false, st)
    | .ok h =>
      match step pos h st with
      | .err c => .err c
      | .ub => .ub
      | .ok (false, st') => .ok (false, st')
      | .ok (true, st') => walkIn r stop step (h.pos + h.size) st'
  else .ok (true, st)
  termination_by stop - pos
  decreasing_by
    have := headerIn_pos ‹_›
    omega

/-- The value a variable gets from `x = UnserializeUInt(…)`: an error code is stored like any other
number. -/
def stored (x : Res Int) (k : Int → Res (Bool × σ)) : Res (Bool × σ) :=
  match x with
  | .ok v => k v
  | .err c => k c
  | .ub => .ub

/-- `CuePoint::TrackPosition`, mkvparser/mkvparser.h:907-916. -/
structure TrackPosition where
  track : Int := -1
  pos : Int := -1
  block : Int := 1
  deriving DecidableEq, Repr

/-- The body of the loop in `TrackPosition::Parse`, mkvparser/mkvparser.cc:2426-2433. -/
def trackPositionStep (r : Rdr) (h : Hdr) (t : TrackPosition) : Res (Bool × TrackPosition) :=
  if h.id = Mux.kMkvCueTrack then
    stored (unserializeUInt r h.pos h.size) fun v => .ok (true, { t with track := v })
  else if h.id = Mux.kMkvCueClusterPosition then
    stored (unserializeUInt r h.pos h.size) fun v => .ok (true, { t with pos := v })
  else if h.id = Mux.kMkvCueBlockNumber then
    stored (unserializeUInt r h.pos h.size) fun v => .ok (true, { t with block := v })
  else .ok (true, t)

/-- `TrackPosition::Parse`, mkvparser/mkvparser.cc:2398-2442.  (`m_block > LONG_MAX` is never true
where `long` has 64 bits.) -/
def trackPositionParse (r : Rdr) (start size : Nat) : Res (Bool × TrackPosition) :=
  match walkIn r (start + size) (fun _ h t => trackPositionStep r h t) start {} with
  | .err c => .err c
  | .ub => .ub
  | .ok (false, t) => .ok (false, t)
  | .ok (true, t) => .ok (decide (0 ≤ t.pos ∧ 0 < t.track ∧ 0 ≤ t.block), t)

/-- `CuePoint`, mkvparser/mkvparser.h:889-925: a negative timecode is the negated position of an
element not loaded yet. -/
structure CuePoint where
  timecode : Int
  positions : List TrackPosition := []
  deriving DecidableEq, Repr

/-- First pass of `CuePoint::Load`, mkvparser/mkvparser.cc:2333-2341: timecode and number of track
positions.  (The `UINT_MAX` check needs more than 2^32 elements and is left out.) -/
def cueCountStep (r : Rdr) (h : Hdr) (st : Int × Nat) : Res (Bool × (Int × Nat)) :=
  if h.id = Mux.kMkvCueTime then
    stored (unserializeUInt r h.pos h.size) fun v => .ok (true, (v, st.2))
  else if h.id = Mux.kMkvCueTrackPositions then .ok (true, (st.1, st.2 + 1))
  else .ok (true, st)

/-- Second pass of `CuePoint::Load`, mkvparser/mkvparser.cc:2378-2383. -/
def cuePositionStep (r : Rdr) (h : Hdr) (ts : List TrackPosition) : Res (Bool × List TrackPosition) :=
  if h.id = Mux.kMkvCueTrackPositions then
    match trackPositionParse r h.pos h.size with
    | .err c => .err c
    | .ub => .ub
    | .ok (b, t) => .ok (b, ts ++ [t])
  else .ok (true, ts)

/-- Second half of `CuePoint::Load`, mkvparser/mkvparser.cc:2345-2395.  (The second pass asserts
what the first has checked for the same bytes, so it is modelled with the same loop.) -/
def cueLoadPositions (r : Rdr) (c : CuePoint) (pos stop : Nat) (st : Int × Nat) : Res (Bool × CuePoint) :=
  if st.1 < 0 ∨ st.2 = 0 then .ok (false, { c with timecode := st.1 })
  else
    match walkIn r stop (fun _ h ts => cuePositionStep r h ts) pos [] with
    | .err c => .err c
    | .ub => .ub
    | .ok (b, ts) => .ok (b, ⟨st.1, ts⟩)

/-- `CuePoint::Load`, mkvparser/mkvparser.cc:2272-2396.  `assert(size >= 0)` failing is `ub`. -/
def cueLoad (r : Rdr) (c : CuePoint) : Res (Bool × CuePoint) :=
  if c.timecode ≥ 0 then .ok (true, c)
  else
    let start := (-c.timecode).toNat
    match readID r start with
    | .ok (id, len) =>
      if id ≠ Mux.kMkvCuePoint then .ok (false, c)
      else
        match readUInt r ((start + len : Nat) : Int) with
        | .ok (size, len2) =>
          let pos := start + len + len2
          match walkIn r (pos + size) (fun _ h st => cueCountStep r h st) pos (c.timecode, 0) with
          | .err e => .err e
          | .ub => .ub
          | .ok (false, st) => .ok (false, { c with timecode := st.1 })
          | .ok (true, st) => cueLoadPositions r c pos (pos + size) st
        | _ => .ub
    | _ => .ok (false, c)

/-- `mkvparser::Cues`, mkvparser/mkvparser.h:927-975: the table holds loaded cue points (`count`
of them), then preloaded ones. -/
structure Cues where
  start : Nat
  size : Nat
  points : List CuePoint := []
  count : Nat := 0
  pos : Nat
  deriving DecidableEq, Repr

/-- The constructor, mkvparser/mkvparser.cc:1828-1838. -/
def Cues.new (start size : Nat) : Cues := { start, size, pos := start }

/-- `Cues::DoneParsing`, mkvparser/mkvparser.cc:1863-1866. -/
def Cues.doneParsing (q : Cues) : Bool := decide (q.start + q.size ≤ q.pos)

/-- `Cues::Init` (with `PreloadCuePoint`), mkvparser/mkvparser.cc:1868-1946: one entry per CuePoint
element, holding its position.  Allocation succeeds; `CuePoint`'s constructor asserts that the
position is positive. -/
def Cues.init (r : Rdr) (q : Cues) : Res (Bool × Cues) :=
  if q.points ≠ [] then .ok (true, q)
  else
    match walkIn r (q.start + q.size) (fun idpos h ps =>
        if h.id = Mux.kMkvCuePoint then
          if idpos = 0 then .ub else .ok (true, ps ++ [(⟨-(idpos : Int), []⟩ : CuePoint)])
        else .ok (true, ps)) q.start [] with
    | .err c => .err c
    | .ub => .ub
    | .ok (b, ps) => .ok (b, { q with points := ps })

/-- Looking for the next CuePoint element, the loop of `Cues::LoadCuePoint` up to its first cue
point, mkvparser/mkvparser.cc:1961-1986.  `.error p`: `return false` with `m_pos = p`;
`.ok none`: the end was reached. -/
def nextCue (r : Rdr) (stop pos : Nat) : Except Nat (Option (Nat × Hdr)) :=
  if pos < stop then
    match _hp : headerIn r pos stop with
    | .error p => .error p
    | .ok h => if h.id ≠ Mux.kMkvCuePoint then nextCue r stop (h.pos + h.size) else .ok (some (pos, h))
  else .ok none
  termination_by stop - pos
  decreasing_by
    have := headerIn_pos ‹_›
    omega

/-- The part of `Cues::LoadCuePoint` after a cue point has been found,
mkvparser/mkvparser.cc:1988-2006. -/
def Cues.loadAt (r : Rdr) (q : Cues) (idpos : Nat) (h : Hdr) : Res (Bool × Cues) :=
  match q.points[q.count]? with
  | none => .ok (false, { q with pos := h.pos })
  | some c =>
    if c.timecode < 0 ∧ -c.timecode ≠ idpos then .ok (false, { q with pos := h.pos })
    else
      match cueLoad r c with
      | .err e => .err e
      | .ub => .ub
      | .ok (false, c') =>
        .ok (false, { q with points := q.points.set q.count c', pos := q.start + q.size })
      | .ok (true, c') =>
        .ok (true, { q with points := q.points.set q.count c', count := q.count + 1, pos := h.pos + h.size })

/-- The loop of `Cues::LoadCuePoint`, mkvparser/mkvparser.cc:1961-2010. -/
def Cues.loadLoop (r : Rdr) (q : Cues) : Res (Bool × Cues) :=
  match nextCue r (q.start + q.size) q.pos with
  | .error p => .ok (false, { q with pos := p })
  | .ok none => .ok (false, { q with pos := q.start + q.size })
  | .ok (some (idpos, h)) => q.loadAt r idpos h

/-- `Cues::LoadCuePoint`, mkvparser/mkvparser.cc:1948-2010. -/
def Cues.loadCuePoint (r : Rdr) (q : Cues) : Res (Bool × Cues) :=
  if q.start + q.size ≤ q.pos then .ok (false, q)
  else
    match q.init r with
    | .err c => .err c
    | .ub => .ub
    | .ok (false, q') => .ok (false, { q' with pos := q.start + q.size })
    | .ok (true, q') => q'.loadLoop r

/-- `CuePoint::GetTime`, mkvparser/mkvparser.cc:2464-2480: `scale * m_timecode` in `long long`.
Overflow (undefined) is `ub`, and so is the failing `assert(m_timecode >= 0)`. -/
def CuePoint.getTime (scale : Int) (c : CuePoint) : Res Int :=
  if c.timecode < 0 then .ub
  else if scale * c.timecode > llongMax then .ub
  else .ok (scale * c.timecode)

/-- `CuePoint::Find`, mkvparser/mkvparser.cc:2444-2462: the first position of the track. -/
def CuePoint.find (track : Int) (c : CuePoint) : Option TrackPosition :=
  c.positions.find? fun p => p.track = track

/-- The binary search of `Cues::Find`, mkvparser/mkvparser.cc:2031-2056, on indices `i`, `j` into a
table with `n` entries; `none` for `return false`. -/
def findLoop (scale : Int) (ps : List CuePoint) (n : Nat) (time : Int) (i j : Nat) : Res (Option (Nat × Nat)) :=
  if i < j then
    let k := i + (j - i) / 2
    if k ≥ n then .ok none
    else
      match ps[k]? with
      | none => .ub
      | some c =>
        match c.getTime scale with
        | .err e => .err e
        | .ub => .ub
        | .ok t =>
          if t ≤ time then findLoop scale ps n time (k + 1) j
          else findLoop scale ps n time i k
  else .ok (some (i, j))
  termination_by j - i
  decreasing_by all_goals omega

/-- The end of `Cues::Find`, mkvparser/mkvparser.cc:2058-2075. -/
def Cues.findPick (scale : Int) (q : Cues) (time track : Int) (i j : Nat) : Res (Option (CuePoint × TrackPosition)) :=
  if i ≠ j ∨ i > q.count ∨ i = 0 then .ok none
  else
    match q.points[i - 1]? with
    | none => .ub
    | some c =>
      match c.getTime scale with
      | .err e => .err e
      | .ub => .ub
      | .ok t => if t > time then .ok none else .ok ((c.find track).map fun p => (c, p))

/-- `Cues::Find`, mkvparser/mkvparser.cc:2012-2075, for a track that exists; `none` for
`return false`.  (`if (i > j) return false` in the loop never fires and is left out.) -/
def Cues.find (scale : Int) (q : Cues) (time track : Int) : Res (Option (CuePoint × TrackPosition)) :=
  if time < 0 ∨ q.points = [] ∨ q.count = 0 then .ok none
  else
    match q.points[0]? with
    | none => .ok none
    | some c =>
      match c.getTime scale with
      | .err e => .err e
      | .ub => .ub
      | .ok t =>
        if time ≤ t then .ok ((c.find track).map fun p => (c, p))
        else
          match findLoop scale q.points q.count time 0 q.count with
          | .err e => .err e
          | .ub => .ub
          | .ok none => .ok none
          | .ok (some (i, j)) => q.findPick scale time track i j

end Verif.Par
