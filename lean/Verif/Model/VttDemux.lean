/-
Getting WebVTT cues out of a WebM file: vttdemux.cc.

Output goes to one text per track, output files are taken not to fail.  When the program gives up, with or without a
message, the result is `err (-1)`, and what has been written before is not kept in the model.
-/
import Verif.Model.WebVtt
import Verif.Model.VttMux
import Verif.Model.ParserTrack

namespace Verif.Vtt
open Verif Verif.Par

/-! ### Times -/

/-- A natural number in decimal. -/
def decimal (n : Nat) : Bytes :=
  if n < 10 then [UInt8.ofNat (48 + n)] else decimal (n / 10) ++ [UInt8.ofNat (48 + n % 10)]
termination_by n

/-- `%0<w>lld` of `fprintf`. -/
def padded (w : Nat) (x : Int) : Bytes :=
  let d := decimal x.natAbs
  if x < 0 then 0x2D :: (List.replicate (w - 1 - d.length) 0x30 ++ d) else List.replicate (w - d.length) 0x30 ++ d

/-- `WriteCueTime`, vttdemux.cc:908-929.  Divisions truncate. -/
def cueTime (ns : Int) : Bytes :=
  let ms := ns.tdiv 1000000
  let sec := ms.tdiv 1000
  let ms := ms - sec * 1000
  let min := sec.tdiv 60
  let sec := sec - 60 * min
  let hr := min.tdiv 60
  let min := min - 60 * hr
  (if hr > 0 then padded 2 hr ++ [0x3A] else []) ++ padded 2 min ++ [0x3A] ++ padded 2 sec ++ [0x2E] ++ padded 3 ms

/-! ### Cues -/

/-- `WriteCueIdentifier`, vttdemux.cc:823-844: the text and the rest of the stream. -/
def demuxIdentifier (p : Parser) : Res (Bytes × Parser) :=
  match p.getLine with
  | (e, line, p') => if e ≠ 0 then .err (-1) else .ok (if line.isEmpty then [] else cText line ++ [0x0A], p')

/-- The settings part of `WriteCueTimings`, vttdemux.cc:887-905. -/
def demuxSettings (p : Parser) : Res (Bytes × Parser) :=
  match p.getLine with
  | (e, line, p') => if e ≠ 0 then .err (-1) else .ok ((if line.isEmpty then [] else 0x20 :: cText line) ++ [0x0A], p')

/-- The loop of `WriteCuePayload`, vttdemux.cc:931-952, and of `WriteChaptersCuePayload`, vttdemux.cc:715-741: the lines
that were written.  At the end of the stream `GetLine` leaves the line empty. -/
def demuxLines (p : Parser) : Res (List Bytes) :=
  match h : p.getLine with
  | (e, line, p') =>
    if e < 0 then .err (-1)
    else if he : line.isEmpty = true ∨ e ≠ 0 then .ok []
    else (demuxLines p').map (line :: ·)
termination_by p.size
decreasing_by
  have : e = 0 := by
    have := not_or.mp he
    simpa using this.2
  exact Parser.getLine_size (this ▸ h)

/-- `WriteCuePayload`, vttdemux.cc:931-952, and `WriteChaptersCuePayload`, vttdemux.cc:715-741. -/
def demuxPayload (p : Parser) : Res Bytes := do
  let ls ← demuxLines p
  Res.refuse (ls.isEmpty = true) (-1)
  .ok (ls.flatMap fun l => cText l ++ [0x0A])

/-- `FrameParser`, vttdemux.cc:45-81 and 222-259, for the frame `f`: the stream holds the bytes of the frame, and ends in
an error if the file does not have all of them.  Putting back a character is moving the position back, after which
the same character is read again. -/
def frameParser (r : Rdr) (f : BFrame) : Parser :=
  { rest := (r.data.drop f.pos).take f.len, fails := decide (((r.data.drop f.pos).take f.len).length < f.len) }

/-- `WriteCue`, vttdemux.cc:796-821, with `WriteCueTimings`, vttdemux.cc:846-906, for a BlockGroup with this block and
duration in a cluster with the time `tc`; `scale` is that of the segment's information.  `GetTime` asserts that there is
information. -/
def demuxCue (r : Rdr) (scale : Option Int) (tc : Int) (b : Block) (duration : Int) : Res Bytes :=
  match b.frames with
  | [] => .ub
  | f :: _ => do
    let (ident, p) ← demuxIdentifier (frameParser r f)
    match scale with
    | none => .ub
    | some k => do
      let start ← blockGetTime k tc b.timecode
      Res.refuse (duration < 0) (-1)
      Res.refuse (k ≤ 0) (-1)
      let d ← i64 (duration * k)
      let stop ← i64 (start + d)
      let (settings, p) ← demuxSettings p
      let payload ← demuxPayload p
      .ok ([0x0A] ++ ident ++ cueTime start ++ [0x20, 0x2D, 0x2D, 0x3E, 0x20] ++ cueTime stop ++ settings ++ payload)

/-! ### The output files -/

/-- `MetadataInfo::Type`, vttdemux.cc:33. -/
inductive VttKind where
  | subtitles
  | captions
  | descriptions
  | metadata
  | chapters
  deriving DecidableEq, Repr

/-- An entry of the map, vttdemux.cc:32-39, with what has been written to its file. -/
structure VttFile where
  key : Nat
  kind : VttKind
  text : Bytes := []
  deriving DecidableEq, Repr

/-- `m[key] = info`: the map is kept in the order of the keys. -/
def setFile (x : VttFile) : List VttFile → List VttFile
  | [] => [x]
  | y :: ys => if x.key < y.key then x :: y :: ys else if x.key = y.key then x :: ys else y :: setFile x ys

/-- The comparison with the codec IDs, vttdemux.cc:376-386. -/
def vttKind (codec : Bytes) : Option VttKind :=
  if codec = "D_WEBVTT/SUBTITLES".toUTF8.toList then some .subtitles
  else if codec = "D_WEBVTT/CAPTIONS".toUTF8.toList then some .captions
  else if codec = "D_WEBVTT/DESCRIPTIONS".toUTF8.toList then some .descriptions
  else if codec = "D_WEBVTT/METADATA".toUTF8.toList then some .metadata
  else none

/-- The loop of `BuildMap` over the tracks, vttdemux.cc:357-389. -/
def mapTracks : List ReadTrack → List VttFile → List VttFile
  | [], m => m
  | t :: ts, m =>
    if t.info.number ≤ 0 then mapTracks ts m
    else
      match t.info.codecId with
      | none => mapTracks ts m
      | some c =>
        match vttKind c with
        | none => mapTracks ts m
        | some k => mapTracks ts (setFile { key := t.info.number.toNat, kind := k } m)

/-- `BuildMap`, vttdemux.cc:333-390. -/
def buildMap (g : ReadSegment) : List VttFile :=
  mapTracks (g.tracks.getD []) (if g.chapters.isSome then [{ key := 0, kind := .chapters }] else [])

/-- Writing to the file of a track, if it has one. -/
def appendText (key : Nat) (b : Bytes) : List VttFile → List VttFile
  | [] => []
  | x :: xs => if x.key = key then { x with text := x.text ++ b } :: xs else x :: appendText key b xs

/-! ### The walk through the file -/

/-- `ProcessBlockEntry`, vttdemux.cc:770-794. -/
def processEntry (r : Rdr) (scale : Option Int) (tc : Int) (e : Entry) (m : List VttFile) : Res (List VttFile) :=
  if m.any (·.key = e.block.track) then
    match e with
    | .simple _ => .err (-1)
    | .group b _ _ d => (demuxCue r scale tc b d).map fun t => appendText b.track t m
  else .ok m

/-- The loop of `ProcessCluster`, vttdemux.cc:756-765, from entry `e` with index `idx` on. -/
def processFrom (r : Rdr) (scale : Option Int) (tc : Int) : (fuel : Nat) → ReadCluster → (idx : Nat) → Entry → List VttFile →
    Res (List VttFile)
  | 0, _, _, _, _ => .ub
  | n + 1, c, idx, e, m => do
    let m ← processEntry r scale tc e m
    match ← c.getNext r idx with
    | (_, none) => .ok m
    | (c', some e') => processFrom r scale tc n c' (idx + 1) e' m

/-- `ProcessCluster`, vttdemux.cc:743-768.  The time of the cluster is asked for with each block; it is the same each
time. -/
def processCluster (r : Rdr) (scale : Option Int) (fuel : Nat) (c : ReadCluster) (m : List VttFile) : Res (List VttFile) := do
  let (c, tc) ← c.getTimeCode r
  match ← c.getFirst r with
  | (_, none) => .ok m
  | (c, some e) => processFrom r scale tc fuel c 0 e m

/-- The loop of `WriteFiles` over the clusters, vttdemux.cc:544-551. -/
def processClusters (r : Rdr) (g : ReadSegment) (rounds : Nat) : (fuel : Nat) → (idx : Option Nat) → List VttFile →
    Res (List VttFile)
  | _, none, m => .ok m
  | 0, some _, _ => .ub
  | n + 1, some idx, m =>
    match g.clusters[idx]? with
    | none => .ub
    | some c => do
      let m ← processCluster r (g.info.map (·.timecodeScale)) rounds c m
      processClusters r g rounds n (g.getNext idx) m

/-! ### Chapters -/

/-- `ChapterAtomParser`, vttdemux.cc:88-119 and 261-286: the stream is the string of the display, if it has one. -/
def displayParser (d : ReadDisplay) : Parser := { rest := cText (d.string.getD []) }

/-- `WriteChaptersCue`, vttdemux.cc:649-713, for an atom with one display. -/
def chapterCue (scale : Option Int) (a : ReadAtom) (d : ReadDisplay) : Res Bytes := do
  let start ← ReadAtom.getTime scale a.start
  Res.refuse (start < 0) (-1)
  let stop ← ReadAtom.getTime scale a.stop
  Res.refuse (stop < 0) (-1)
  let payload ← demuxPayload (displayParser d)
  .ok ([0x0A] ++ (match a.stringUid with
    | none => []
    | some i => cText i ++ [0x0A]) ++ cueTime start ++ [0x20, 0x2D, 0x2D, 0x3E, 0x20] ++ cueTime stop ++ [0x0A] ++ payload)

/-- The loop of `WriteChaptersFile`, vttdemux.cc:605-644. -/
def chapterCues (scale : Option Int) : List ReadAtom → Res Bytes
  | [] => .ok []
  | a :: as =>
    match a.displays with
    | [] => chapterCues scale as
    | [d] => do
      Res.refuse (∃ l, d.language = some l ∧ cText l ≠ "eng".toUTF8.toList) (-1)
      let t ← chapterCue scale a d
      let ts ← chapterCues scale as
      .ok (t ++ ts)
    | _ :: _ :: _ => .err (-1)

/-- `WriteChaptersFile`, vttdemux.cc:577-647. -/
def writeChapters (g : ReadSegment) (m : List VttFile) : Res (List VttFile) :=
  if m.any (·.key = 0) then
    match g.chapters with
    | none => .ok m
    | some [] => .ok m
    | some [atoms] => (chapterCues (g.info.map (·.timecodeScale)) atoms).map fun t => appendText 0 t m
    | some (_ :: _ :: _) => .err (-1)
  else .ok m

/-- `WriteFiles` and `InitializeFiles`, vttdemux.cc:533-575. -/
def writeFiles (r : Rdr) (fuel : Nat) (g : ReadSegment) (m : List VttFile) : Res (List VttFile) := do
  let m := m.map fun x => { x with text := "WEBVTT\n".toUTF8.toList }
  let m ← writeChapters g m
  processClusters r g fuel fuel g.getFirst m

/-- `main`, vttdemux.cc:956-1004, with `ParseHeader` and `ParseSegment`, vttdemux.cc:290-331: the output files. -/
def vttdemux (r : Rdr) (fuel : Nat) : Res (List VttFile) :=
  match ebmlHeadParse r with
  | .ok (.done pos head) => do
    Res.refuse (head.docType.map cText ≠ some "webm".toUTF8.toList) (-1)
    match createInstance r pos with
    | .ok g =>
      match g.load r fuel with
      | (g', .ok ()) => do
        let m := buildMap g'
        Res.refuse (m.isEmpty = true) (-1)
        writeFiles r fuel g' m
      | (_, .ub) => .ub
      | (_, .err _) => .err (-1)
    | .ub => .ub
    | .err _ => .err (-1)
  | .ub => .ub
  | _ => .err (-1)

/-- `OpenFiles`, vttdemux.cc:392-506: the name of the output file of one entry; `base` is the name of the input file up
to its last dot. -/
def fileName (base : Bytes) (m : List VttFile) (x : VttFile) : Bytes :=
  base ++ (match x.kind with
    | .subtitles => "_SUBTITLES"
    | .captions => "_CAPTIONS"
    | .descriptions => "_DESCRIPTIONS"
    | .metadata => "_METADATA"
    | .chapters => "_CHAPTERS").toUTF8.toList ++
  (if (m.filter fun y => y.kind == x.kind).length > 1 then decimal x.key else []) ++ ".vtt".toUTF8.toList

end Verif.Vtt
