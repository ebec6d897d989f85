/-
The VP9 uncompressed header parser (common/vp9_header_parser.cc, .h).
-/
import Verif.Base.Res
import Verif.Base.Bytes

namespace Verif.Vp9
open Verif

/-- The frame being read and `bit_offset_` (common/vp9_header_parser.h:105-107). -/
structure Bits where
  frame : Bytes
  off : Nat
  deriving DecidableEq, Repr

/-- Code that reads bits: it may read memory outside the frame (`ub`), or give a value and move
the offset. -/
def BitM (α : Type) := Bits → Res (α × Bits)

namespace BitM
protected def pure {α} (a : α) : BitM α := fun s => .ok (a, s)
protected def bind {α β} (m : BitM α) (f : α → BitM β) : BitM β := fun s =>
  match m s with
  | .ok (a, s') => f a s'
  | .err c => .err c
  | .ub => .ub
instance : Monad BitM where
  pure := BitM.pure
  bind := BitM.bind
end BitM

/-- `Vp9HeaderParser::ReadBit` (common/vp9_header_parser.cc:117-128).  The access
`frame_[byte_offset]` is `ub` when it is outside the frame. -/
def readBit : BitM Nat := fun s =>
  let byteOffset := s.off >>> 3
  let bitShift := 7 - (s.off &&& 7)
  if byteOffset < s.frame.length then
    match s.frame[byteOffset]? with
    | some b => .ok ((b.toNat >>> bitShift) &&& 1, { s with off := s.off + 1 })
    | none => .ub
  else .ok (0, s)

/-- `Vp9HeaderParser::VpxReadLiteral` (common/vp9_header_parser.cc:130-135): `bits` is the loop
variable plus one. -/
def readLiteralLoop : Nat → Nat → BitM Nat
  | 0, value => pure value
  | bit + 1, value => do
    let b ← readBit
    readLiteralLoop bit (value ||| b <<< bit)

@[inherit_doc readLiteralLoop]
def readLiteral (bits : Nat) : BitM Nat := readLiteralLoop bits 0

/-- The results of a parse (common/vp9_header_parser.h:108-127), with `frame_size_` apart.  The
constructor leaves `display_width_` and `display_height_` uninitialised; the model starts them at
zero. -/
structure Hdr where
  profile : Int := -1
  showExisting : Nat := 0
  key : Bool := false
  altref : Bool := false
  errorResilient : Nat := 0
  intraOnly : Nat := 0
  resetFrameContext : Nat := 0
  bitDepth : Nat := 0
  colorSpace : Nat := 0
  colorRange : Nat := 0
  subsamplingX : Nat := 0
  subsamplingY : Nat := 0
  refreshFlags : Nat := 0
  width : Nat := 0
  height : Nat := 0
  displayWidth : Nat := 0
  displayHeight : Nat := 0
  rowTiles : Nat := 0
  columnTiles : Nat := 0
  frameParallel : Nat := 0
  deriving DecidableEq, Repr

/-- The resets in `Vp9HeaderParser::SetFrame` (common/vp9_header_parser.cc:18-33). -/
def Hdr.reset (h : Hdr) : Hdr :=
  { h with profile := -1, showExisting := 0, key := false, altref := false, errorResilient := 0,
           intraOnly := 0, resetFrameContext := 0, colorSpace := 0, colorRange := 0,
           subsamplingX := 0, subsamplingY := 0, refreshFlags := 0 }

/-- `ValidateVp9SyncCode` (common/vp9_header_parser.cc:137-142). -/
def syncCode : BitM Bool := do
  let c0 ← readLiteral 8
  let c1 ← readLiteral 8
  let c2 ← readLiteral 8
  pure (c0 = 0x49 ∧ c1 = 0x83 ∧ c2 = 0x42)

/-- `ParseColorSpace` (common/vp9_header_parser.cc:144-167). -/
def colorSpace (h : Hdr) : BitM Hdr := do
  let bitDepth ← (if h.profile ≥ 2 then do
      let b ← readBit
      pure (if b ≠ 0 then 12 else 10)
    else pure 8)
  let cs ← readLiteral 3
  let h := { h with bitDepth := bitDepth, colorSpace := cs }
  if cs ≠ 7 then do
    let range ← readBit
    let h := { h with colorRange := range }
    if h.profile = 1 ∨ h.profile = 3 then do
      let x ← readBit
      let y ← readBit
      let _ ← readBit
      pure { h with subsamplingX := x, subsamplingY := y }
    else pure { h with subsamplingX := 1, subsamplingY := 1 }
  else
    let h := { h with colorRange := 1 }
    if h.profile = 1 ∨ h.profile = 3 then do
      let _ ← readBit
      pure { h with subsamplingX := 0, subsamplingY := 0 }
    else pure h

/-- `ParseFrameResolution` (common/vp9_header_parser.cc:169-179). -/
def frameResolution (h : Hdr) : BitM Hdr := do
  let w ← readLiteral 16
  let ht ← readLiteral 16
  let b ← readBit
  if b ≠ 0 then do
    let dw ← readLiteral 16
    let dh ← readLiteral 16
    pure { h with width := w + 1, height := ht + 1, displayWidth := dw + 1, displayHeight := dh + 1 }
  else
    pure { h with width := w + 1, height := ht + 1, displayWidth := w + 1, displayHeight := ht + 1 }

/-- `ParseFrameParallelMode` (common/vp9_header_parser.cc:181-188). -/
def frameParallelMode (h : Hdr) : BitM Hdr :=
  if h.errorResilient = 0 then do
    let _ ← readBit
    let b ← readBit
    pure { h with frameParallel := b }
  else pure { h with frameParallel := 1 }

/-- The loops at common/vp9_header_parser.cc:203-212: `n` times, an optional seven-bit delta. -/
def skipDeltas : Nat → BitM Unit
  | 0 => pure ()
  | n + 1 => do
    let b ← readBit
    let _ ← (if b ≠ 0 then do let _ ← readLiteral 7; pure () else pure ())
    skipDeltas n

/-- `SkipDeltaQ` (common/vp9_header_parser.cc:259-262). -/
def skipDeltaQ : BitM Unit := do
  let b ← readBit
  if b ≠ 0 then do
    let _ ← readLiteral 4
    pure ()
  else pure ()

/-- `AlignPowerOfTwo` with `n = 3` (common/vp9_header_parser.cc:264-266): clearing the three low
bits of `value + 7`. -/
def align8 (value : Nat) : Nat := ((value + 7) >>> 3) <<< 3

/-- The loop for `max_log2_n_tiles` (common/vp9_header_parser.cc:230-233).  `fuel` is 32: a shift
of an `int` by more is undefined. -/
def maxLog2Loop (sbCols : Nat) : Nat → Nat → Option Nat
  | 0, _ => none
  | fuel + 1, k => if sbCols >>> k ≥ 4 then maxLog2Loop sbCols fuel (k + 1) else some k

/-- The loop for `min_log2_n_tiles` (common/vp9_header_parser.cc:238-240); `fuel` as above (the
shifted value 64 already overflows at 25). -/
def minLog2Loop (sbCols : Nat) : Nat → Nat → Option Nat
  | 0, _ => none
  | fuel + 1, k => if 64 <<< k < sbCols then minLog2Loop sbCols fuel (k + 1) else some k

/-- `while (max_ones-- && ReadBit()) log2_tile_cols++` (common/vp9_header_parser.cc:246-247), for
a non-negative `max_ones`. -/
def tileColsLoop : Nat → Nat → BitM Nat
  | 0, n => pure n
  | ones + 1, n => do
    let b ← readBit
    if b ≠ 0 then tileColsLoop ones (n + 1) else pure n

/-- `ParseTileInfo` (common/vp9_header_parser.cc:190-257).  A negative `max_ones` would make the
loop run on; it is `ub` here and shown not to happen. -/
def tileInfo (h : Hdr) : BitM Hdr := do
  let _ ← readLiteral 2
  let _ ← readLiteral 6
  let _ ← readLiteral 3
  let enabled ← readBit
  let _ ← (if enabled ≠ 0 then do
      let update ← readBit
      if update ≠ 0 then do
        let _ ← skipDeltas 4
        skipDeltas 2
      else pure ()
    else pure ())
  let _ ← readLiteral 8
  let _ ← skipDeltaQ
  let _ ← skipDeltaQ
  let _ ← skipDeltaQ
  let segmentation ← readBit
  if segmentation = 0 then
    let miCols := align8 h.width >>> 3
    let sbCols := align8 miCols >>> 3
    match maxLog2Loop sbCols 32 0, minLog2Loop sbCols 25 0 with
    | some maxPlus, some min =>
      let max := maxPlus - 1
      if max < min then fun _ => .ub
      else do
        let cols ← tileColsLoop (max - min) min
        let r ← readBit
        let rows ← (if r ≠ 0 then do
            let r2 ← readBit
            pure (r + r2)
          else pure r)
        pure { h with rowTiles := 1 <<< rows, columnTiles := 1 <<< cols }
    | _, _ => fun _ => .ub
  else pure h

/-- The loop over the references (common/vp9_header_parser.cc:91-94). -/
def skipRefs : Nat → BitM Unit
  | 0 => pure ()
  | n + 1 => do
    let _ ← readLiteral 3
    let _ ← readBit
    skipRefs n

/-- The loop looking for a reference of the same size (common/vp9_header_parser.cc:96-104). -/
def findRef : Nat → BitM Bool
  | 0 => pure false
  | n + 1 => do
    let b ← readBit
    if b ≠ 0 then pure true else findRef n

/-- The key frame branch (common/vp9_header_parser.cc:60-69). -/
def keyFrame (h : Hdr) : BitM (Bool × Hdr) := do
  let ok ← syncCode
  if ok then do
    let h ← colorSpace h
    let h ← frameResolution h
    let h ← frameParallelMode h
    let h ← tileInfo h
    pure (true, h)
  else pure (false, h)

/-- The other branch (common/vp9_header_parser.cc:70-113). -/
def nonKeyFrame (h : Hdr) : BitM (Bool × Hdr) := do
  let intra ← (if h.altref then readBit else pure 0)
  let ctx ← (if h.errorResilient ≠ 0 then pure 0 else readLiteral 2)
  let h := { h with intraOnly := intra, resetFrameContext := ctx }
  if intra ≠ 0 then do
    let ok ← syncCode
    if ok then do
      let h ← (if h.profile > 0 then colorSpace h
        else pure { h with colorSpace := 1, colorRange := 0, subsamplingX := 1, subsamplingY := 1,
                           bitDepth := 8 })
      let flags ← readLiteral 8
      let h ← frameResolution { h with refreshFlags := flags }
      pure (true, h)
    else pure (false, h)
  else do
    let flags ← readLiteral 8
    let h := { h with refreshFlags := flags }
    let _ ← skipRefs 3
    let found ← findRef 3
    if found then pure (true, h)
    else do
      let h ← frameResolution h
      pure (true, h)

/-- `ParseUncompressedHeader` after `SetFrame` (common/vp9_header_parser.cc:40-115). -/
def uncompressedHeader (h : Hdr) : BitM (Bool × Hdr) := do
  let marker ← readLiteral 2
  if marker ≠ 2 then pure (false, h)
  else do
    let p0 ← readBit
    let p1 ← readBit
    let p := p0 ||| p1 <<< 1
    let p ← (if p > 2 then do
        let b ← readBit
        pure (p + b)
      else pure p)
    let h := { h with profile := (p : Int) }
    let showExisting ← readBit
    let h := { h with showExisting := showExisting }
    if showExisting ≠ 0 then pure (true, h)
    else do
      let k ← readBit
      let a ← readBit
      let e ← readBit
      let h := { h with key := k = 0, altref := a = 0, errorResilient := e }
      if h.key then keyFrame h else nonKeyFrame h

/-- `ParseUncompressedHeader` (common/vp9_header_parser.cc:36-115): the return value, the
results and the number of bits read.  The parser object is reused from frame to frame, so it
starts from the results of the frame before. -/
def parseHeader (h : Hdr) (frame : Bytes) : Res (Bool × Hdr × Nat) :=
  if frame.length = 0 then .ok (false, h, 0)
  else
    match uncompressedHeader h.reset ⟨frame, 0⟩ with
    | .ok ((ok, h'), s) => .ok (ok, h', s.off)
    | .err c => .err c
    | .ub => .ub

end Verif.Vp9
