/-
Reference notions for VP9: the uncompressed header as a bit string (VP9 bitstream
specification, section 6.2), independent of the parser.
-/
import Verif.Base.Bytes

namespace Verif.Spec.Vp9

/-- The `n` low bits of `v`, most significant first. -/
def bitsOfNat : Nat → Nat → List Bool
  | 0, _ => []
  | n + 1, v => decide (v / 2 ^ n % 2 = 1) :: bitsOfNat n v

/-- The bits of a byte string, most significant first. -/
def bitsOf (bs : Bytes) : List Bool := bs.flatMap fun b => bitsOfNat 8 b.toNat

/-- `color_config()`: twelve rather than ten bits (profiles 2 and 3), colour space, range and
subsampling (profiles 1 and 3). -/
structure Color where
  twelve : Bool
  space : Nat
  range : Bool
  subX : Bool
  subY : Bool

/-- `color_config()` in the given profile. -/
def Color.bits (profile : Nat) (c : Color) : List Bool :=
  (if profile ≥ 2 then [c.twelve] else []) ++ bitsOfNat 3 c.space ++
  (if c.space ≠ 7 then
    [c.range] ++ (if profile % 2 = 1 then [c.subX, c.subY, false] else [])
   else if profile % 2 = 1 then [false] else [])

/-- The bit depth it denotes. -/
def Color.depth (profile : Nat) (c : Color) : Nat :=
  if profile ≥ 2 then (if c.twelve then 12 else 10) else 8

/-- `frame_size()` and `render_size()`. -/
structure Size where
  width : Nat
  height : Nat
  render : Option (Nat × Nat)

/-- Sizes are stored less one in sixteen bits. -/
def Size.Valid (z : Size) : Prop :=
  1 ≤ z.width ∧ z.width ≤ 65536 ∧ 1 ≤ z.height ∧ z.height ≤ 65536 ∧
  ∀ r, z.render = some r → 1 ≤ r.1 ∧ r.1 ≤ 65536 ∧ 1 ≤ r.2 ∧ r.2 ≤ 65536

/-- `frame_size()` and `render_size()`. -/
def Size.bits (z : Size) : List Bool :=
  bitsOfNat 16 (z.width - 1) ++ bitsOfNat 16 (z.height - 1) ++
  match z.render with
  | none => [false]
  | some (w, h) => [true] ++ bitsOfNat 16 (w - 1) ++ bitsOfNat 16 (h - 1)

/-- An optional field of `n` bits behind a presence flag. -/
def optBits (n : Nat) : Option Nat → List Bool
  | none => [false]
  | some v => [true] ++ bitsOfNat n v

/-- `loop_filter_params()`, `quantization_params()`: the parts that are skipped.  `deltas` is
`none` if deltas are disabled, `some none` if they are not updated. -/
structure Filter where
  contextIdx : Nat
  level : Nat
  sharpness : Nat
  deltas : Option (Option (List (Option Nat) × List (Option Nat)))
  baseQ : Nat
  q1 : Option Nat
  q2 : Option Nat
  q3 : Option Nat

/-- There are four reference deltas and two mode deltas. -/
def Filter.Valid (f : Filter) : Prop :=
  ∀ r m, f.deltas = some (some (r, m)) → r.length = 4 ∧ m.length = 2

/-- `frame_context_idx`, `loop_filter_params()`, `quantization_params()`. -/
def Filter.bits (f : Filter) : List Bool :=
  bitsOfNat 2 f.contextIdx ++ bitsOfNat 6 f.level ++ bitsOfNat 3 f.sharpness ++
  (match f.deltas with
   | none => [false]
   | some none => [true, false]
   | some (some (r, m)) => [true, true] ++ r.flatMap (optBits 7) ++ m.flatMap (optBits 7)) ++
  bitsOfNat 8 f.baseQ ++ optBits 4 f.q1 ++ optBits 4 f.q2 ++ optBits 4 f.q3

/-- Width in superblocks of 64 samples. -/
def sbCols (width : Nat) : Nat := (width + 63) / 64

/-- The least number of tile columns (as a power of two): tiles are at most 64 superblocks wide. -/
def MinLog2 (sb k : Nat) : Prop := sb ≤ 64 * 2 ^ k ∧ ∀ j, j < k → 64 * 2 ^ j < sb

/-- The greatest number of tile columns: tiles are at least 4 superblocks wide. -/
def MaxLog2 (sb k : Nat) : Prop := (k = 0 ∨ 4 * 2 ^ k ≤ sb) ∧ ∀ j, k < j → sb < 4 * 2 ^ j

/-- `tile_info()`: `cols` between `lo` and `hi` in unary, rows zero, one or two. -/
def tileBits (lo hi cols rows : Nat) : List Bool :=
  List.replicate (cols - lo) true ++ (if cols < hi then [false] else []) ++
  (match rows with
   | 0 => [false]
   | 1 => [true, false]
   | _ => [true, true])

/-- `segmentation_enabled`, and if it is zero `tile_info()`. -/
def tilesBits (lo hi : Nat) : Option (Nat × Nat) → List Bool
  | none => [true]
  | some (c, r) => [false] ++ tileBits lo hi c r

/-- `frame_marker`, `profile` (with the reserved bit of profile 3). -/
def startBits (profile : Nat) : List Bool :=
  [true, false] ++ [decide (profile % 2 = 1), decide (profile / 2 = 1)] ++ (if profile = 3 then [false] else [])

/-- `frame_sync_code()`. -/
def syncBits : List Bool := bitsOfNat 8 0x49 ++ bitsOfNat 8 0x83 ++ bitsOfNat 8 0x42

/-- A key frame header up to the tile information; `tiles` is `none` when segmentation is
enabled, else the logarithms of the columns and rows. -/
structure KeyFrame where
  profile : Nat
  show' : Bool
  resilient : Bool
  color : Color
  size : Size
  refreshContext : Bool
  parallel : Bool
  filter : Filter
  tiles : Option (Nat × Nat)

/-- The header of a key frame, given the bounds on the number of tile columns. -/
def KeyFrame.bits (k : KeyFrame) (lo hi : Nat) : List Bool :=
  startBits k.profile ++ [false] ++ [false, k.show', k.resilient] ++ syncBits ++
  k.color.bits k.profile ++ k.size.bits ++
  (if k.resilient then [] else [k.refreshContext, k.parallel]) ++ k.filter.bits ++
  tilesBits lo hi k.tiles

/-- An intra-only frame header up to the render size (it is never shown). -/
structure IntraFrame where
  profile : Nat
  resilient : Bool
  resetContext : Nat
  color : Color
  refresh : Nat
  size : Size

/-- The header of an intra-only frame. -/
def IntraFrame.bits (k : IntraFrame) : List Bool :=
  startBits k.profile ++ [false] ++ [true, false, k.resilient] ++ [true] ++
  (if k.resilient then [] else bitsOfNat 2 k.resetContext) ++ syncBits ++
  (if k.profile > 0 then k.color.bits k.profile else []) ++ bitsOfNat 8 k.refresh ++ k.size.bits

/-- An inter frame header up to the frame size: the size is new, or that of the reference
number `found`. -/
structure InterFrame where
  profile : Nat
  show' : Bool
  resilient : Bool
  resetContext : Nat
  refresh : Nat
  refs : List (Nat × Bool)
  size : Nat ⊕ Size

/-- The header of an inter frame. -/
def InterFrame.bits (k : InterFrame) : List Bool :=
  startBits k.profile ++ [false] ++ [true, k.show', k.resilient] ++
  (if k.show' then [] else [false]) ++ (if k.resilient then [] else bitsOfNat 2 k.resetContext) ++
  bitsOfNat 8 k.refresh ++ (k.refs.flatMap fun r => bitsOfNat 3 r.1 ++ [r.2]) ++
  (match k.size with
   | .inl i => List.replicate i false ++ [true]
   | .inr z => [false, false, false] ++ z.bits)

end Verif.Spec.Vp9
