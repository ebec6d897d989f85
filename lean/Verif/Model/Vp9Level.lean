/-
VP9 level statistics (common/vp9_level_stats.cc, .h).
-/
import Verif.Base.Res
import Verif.Base.Bytes

namespace Verif.Vp9
open Verif

/-- What `AddFrame` takes from the parsed header (common/vp9_level_stats.cc:36-124): the frame's
time, width, height, compressed size, and the other fields used. -/
structure LevelFrame where
  time : Int
  width : Nat
  height : Nat
  bytes : Nat
  altref : Bool := false
  key : Bool := false
  bitDepth : Nat := 8
  refresh : Nat := 0
  columnTiles : Nat := 1
  deriving DecidableEq, Repr

/-- The statistics (common/vp9_level_stats.h:153-203), without the fields that only record where
a maximum was reached.  Counters and 64-bit sums are unbounded integers here: they overflow only
after `2^31` frames or `2^63` bytes.  `minAltref` is `none` for `INT_MAX`. -/
structure Stats where
  frames : Nat := 0
  displayed : Nat := 0
  start : Int := -1
  finish : Int := -1
  maxPicture : Nat := 0
  maxBreadth : Nat := 0
  lumaWindow : List (Int × Nat) := []
  currentLuma : Int := 0
  maxLuma : Int := 0
  firstAltref : Bool := true
  sinceAltref : Nat := 0
  minAltref : Option Nat := none
  cpbWindow : List Nat := []
  currentCpb : Int := 0
  maxCpb : Int := 0
  totalCompressed : Nat := 0
  totalUncompressed : Nat := 0
  refreshed : Nat := 0
  maxRefreshed : Nat := 0
  maxTiles : Nat := 0
  deriving DecidableEq, Repr

/-- The loop that drops old frames from the luma window (common/vp9_level_stats.cc:53-58). -/
def dropLuma (now : Int) : List (Int × Nat) → Int → List (Int × Nat) × Int
  | [], cur => ([], cur)
  | (t, n) :: w, cur =>
    if t < now - (1000000000 - 1) then dropLuma now w (cur - n) else ((t, n) :: w, cur)

/-- The loop that drops old frames from the CPB window (common/vp9_level_stats.cc:68-71). -/
def dropCpb : List Nat → Int → List Nat × Int
  | [], cur => ([], cur)
  | n :: w, cur => if (n :: w).length > 3 then dropCpb w (cur - n) else (n :: w, cur)

/-- The count of references (common/vp9_level_stats.cc:111-114): the loop over the eight flags. -/
def countBits (v : Nat) : Nat → Nat
  | 0 => 0
  | n + 1 => countBits v n + ((v >>> n) &&& 1)

/-- The luma and CPB part of `AddFrame` (common/vp9_level_stats.cc:37-84). -/
def Stats.addWindows (s : Stats) (f : LevelFrame) : Stats :=
  let picture := f.width * f.height
  let breadth := if f.width > f.height then f.width else f.height
  let (lw, lc) := dropLuma f.time s.lumaWindow s.currentLuma
  let lc := lc + picture
  let (cw, cc) := dropCpb s.cpbWindow s.currentCpb
  let cc := cc + f.bytes
  { s with
    frames := s.frames + 1
    start := if s.start = -1 then f.time else s.start
    finish := f.time
    maxPicture := if picture > s.maxPicture then picture else s.maxPicture
    maxBreadth := if breadth > s.maxBreadth then breadth else s.maxBreadth
    totalCompressed := s.totalCompressed + f.bytes
    lumaWindow := lw ++ [(f.time, picture)]
    currentLuma := lc
    maxLuma := if lc > s.maxLuma then lc else s.maxLuma
    cpbWindow := cw ++ [f.bytes]
    currentCpb := cc
    maxCpb := if cc > s.maxCpb then cc else s.maxCpb }

/-- The alternate reference part (common/vp9_level_stats.cc:86-103). -/
def Stats.addAltref (s : Stats) (f : LevelFrame) : Stats :=
  if f.altref then
    if s.firstAltref then { s with firstAltref := false, sinceAltref := 0 }
    else
      { s with
        minAltref := match s.minAltref with
          | none => some s.sinceAltref
          | some m => if s.sinceAltref < m then some s.sinceAltref else some m
        sinceAltref := 0 }
  else
    { s with sinceAltref := s.sinceAltref + 1, displayed := s.displayed + 1,
             totalUncompressed := s.totalUncompressed + (f.width * f.height * f.bitDepth * 3) / 2 }

/-- The reference and tile part (common/vp9_level_stats.cc:105-123). -/
def Stats.addRefs (s : Stats) (f : LevelFrame) : Stats :=
  let s := if f.key then { s with refreshed := 0 }
    else
      let r := s.refreshed ||| f.refresh
      let n := countBits r 8
      { s with refreshed := r, maxRefreshed := if n > s.maxRefreshed then n else s.maxRefreshed }
  { s with maxTiles := if f.columnTiles > s.maxTiles then f.columnTiles else s.maxTiles }

/-- `Vp9LevelStats::AddFrame` (common/vp9_level_stats.cc:36-124).  `width * height` is computed in
`int`: from `2^31` samples on it is undefined. -/
def Stats.add (s : Stats) (f : LevelFrame) : Res Stats :=
  if f.width * f.height ≥ 2 ^ 31 then .ub
  else .ok (((s.addWindows f).addAltref f).addRefs f)

/-- Adding frames one after the other. -/
def Stats.addAll (s : Stats) : List LevelFrame → Res Stats
  | [] => .ok s
  | f :: fs =>
    match s.add f with
    | .ok s' => s'.addAll fs
    | .err c => .err c
    | .ub => .ub

/-! ### Levels -/

/-- A row of the level table (common/vp9_level_stats.h:42-53); bit rates and sizes in kilobits
are whole numbers in the table. -/
structure LevelRow where
  level : Nat
  lumaRate : Nat
  pictureSize : Nat
  breadth : Nat
  bitrate : Nat
  cpb : Nat
  ratio : Nat
  tiles : Nat
  altref : Nat
  refs : Nat
  deriving DecidableEq, Repr

/-- `Vp9LevelTable` (common/vp9_level_stats.cc:19-34). -/
def levelTable : List LevelRow :=
  [⟨10, 829440, 36864, 512, 200, 400, 2, 1, 4, 8⟩,
   ⟨11, 2764800, 73728, 768, 800, 1000, 2, 1, 4, 8⟩,
   ⟨20, 4608000, 122880, 960, 1800, 1500, 2, 1, 4, 8⟩,
   ⟨21, 9216000, 245760, 1344, 3600, 2800, 2, 2, 4, 8⟩,
   ⟨30, 20736000, 552960, 2048, 7200, 6000, 2, 4, 4, 8⟩,
   ⟨31, 36864000, 983040, 2752, 12000, 10000, 2, 4, 4, 8⟩,
   ⟨40, 83558400, 2228224, 4160, 18000, 16000, 4, 4, 4, 8⟩,
   ⟨41, 160432128, 2228224, 4160, 30000, 18000, 4, 4, 5, 6⟩,
   ⟨50, 311951360, 8912896, 8384, 60000, 36000, 6, 8, 6, 4⟩,
   ⟨51, 588251136, 8912896, 8384, 120000, 46000, 8, 8, 10, 4⟩,
   ⟨52, 1176502272, 8912896, 8384, 180000, 0, 8, 8, 10, 4⟩,
   ⟨60, 1176502272, 35651584, 16832, 180000, 0, 8, 16, 10, 4⟩,
   ⟨61, 2353004544, 35651584, 16832, 240000, 0, 8, 16, 10, 4⟩,
   ⟨62, 4706009088, 35651584, 16832, 480000, 0, 8, 16, 10, 4⟩]

/-- One of the `for` loops of `GetLevel` (common/vp9_level_stats.cc:141-207): find the first row
that satisfies the criterion and raise the level to it. -/
def raise (ok : LevelRow → Bool) (best : Option LevelRow) : Option LevelRow :=
  match levelTable.find? ok with
  | none => best
  | some row =>
    match best with
    | none => some row
    | some b => if b.level < row.level then some row else best

/-- What a stream needs: the integer statistics, and the comparisons of the floating-point ones
with a limit of the table.  The comparisons are parameters: the model says nothing about how
the average bit rate, the CPB size, the grace factor and the compression ratio are rounded. -/
structure Needs where
  lumaRateOk : Nat → Bool
  pictureSize : Nat
  breadth : Nat
  bitrateOk : Nat → Bool
  cpbOk : Nat → Bool
  tiles : Nat
  refs : Nat
  altref : Int
  ratioOk : Nat → Bool

/-- The result of the seven loops of `GetLevel`. -/
def bestRow (n : Needs) : Option LevelRow :=
  raise (fun r => n.refs ≤ r.refs) <|
  raise (fun r => n.tiles ≤ r.tiles) <|
  raise (fun r => r.cpb > 0 ∧ n.cpbOk r.cpb) <|
  raise (fun r => n.bitrateOk r.bitrate) <|
  raise (fun r => n.breadth ≤ r.breadth) <|
  raise (fun r => n.pictureSize ≤ r.pictureSize) <|
  raise (fun r => n.lumaRateOk r.lumaRate) none

/-- `Vp9LevelStats::GetLevel` (common/vp9_level_stats.cc:126-221).  Zero is `LEVEL_UNKNOWN`; if
no loop finds a row, row 0 is the one whose last two limits are checked. -/
def getLevel (n : Needs) : Nat :=
  let best := bestRow n
  let row := best.getD (levelTable.headD ⟨0, 0, 0, 0, 0, 0, 0, 0, 0, 0⟩)
  if n.altref < row.altref then 0
  else if ¬ n.ratioOk row.ratio then 0
  else match best with
    | none => 0
    | some r => r.level

end Verif.Vp9
