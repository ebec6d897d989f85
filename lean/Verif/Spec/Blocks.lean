/-
What the Matroska format says about blocks and lacing, independently of the parsers.
-/
import Verif.Spec.Ebml
import Verif.Model.WebmBlock

namespace Verif.Spec

/-- `Tiles spans a b`: the (position, length) pairs are non-empty and cover `[a, b)` exactly,
in order and without gaps. -/
def Tiles : List (Nat × Nat) → Nat → Nat → Prop
  | [], a, b => a = b
  | (p, n) :: rest, a, b => p = a ∧ 0 < n ∧ Tiles rest (a + n) b

/-- Start of a block payload: track number (a size-like integer of `w` bytes), relative time
code (16-bit two's complement), flags. -/
def blockHead (w track : Nat) (tc : Int) (flags : UInt8) : Bytes :=
  vint w track ++ twosBytes 2 tc ++ [flags]

/-- Xiph lacing: a size is a run of 255s and a final byte below 255, adding up. -/
def xiphSizeBytes (n : Nat) : Bytes := List.replicate (n / 255) 255 ++ [UInt8.ofNat (n % 255)]

/-- Xiph lacing: the sizes of all frames but the last. -/
def XiphLace (sizes : List Nat) : Bytes := (sizes.map xiphSizeBytes).flatten

/-- EBML lacing: each further size is stored as the difference to the previous one, as a
variable-length integer of any width `w`, biased by `2^(7w-1) - 1`. -/
inductive EbmlDeltas : Nat → List Nat → Bytes → Prop
  | nil (prev) : EbmlDeltas prev [] []
  | cons {prev size : Nat} {rest : List Nat} {bs : Bytes} {w v : Nat} (h1 : 1 ≤ w) (h8 : w ≤ 8)
      (hv : v < 2 ^ (7 * w)) (hd : (v : Int) - (2 ^ (7 * w - 1) - 1) = (size : Int) - prev)
      (hr : EbmlDeltas size rest bs) : EbmlDeltas prev (size :: rest) (vint w v ++ bs)

/-- EBML lacing: the sizes of all frames but the last; the first one as a plain
variable-length integer of any width. -/
inductive EbmlLace : List Nat → Bytes → Prop
  | mk {first : Nat} {rest : List Nat} {bs : Bytes} {w : Nat} (h1 : 1 ≤ w) (h8 : w ≤ 8)
      (hv : first < 2 ^ (7 * w)) (hr : EbmlDeltas first rest bs) :
      EbmlLace (first :: rest) (vint w first ++ bs)

/-- `Laced kind frames hdr`: `hdr` is a lace header (what follows the count byte) for these
frames; kind 1 is Xiph, 2 fixed size, 3 EBML lacing. -/
def Laced (kind : UInt8) (frames : List Bytes) (hdr : Bytes) : Prop :=
  (kind = 1 ∧ hdr = XiphLace (frames.dropLast.map List.length)) ∨
  (kind = 2 ∧ hdr = [] ∧ ∃ n, ∀ f ∈ frames, f.length = n) ∨
  (kind = 3 ∧ EbmlLace (frames.dropLast.map List.length) hdr)

/-- `BlockBody kind frames bs`: what follows the block header.  Kind 0 (no lacing): one frame;
otherwise a byte holding the number of frames minus one, the lace header and the frames. -/
def BlockBody (kind : UInt8) (frames : List Bytes) (bs : Bytes) : Prop :=
  (kind = 0 ∧ frames = [bs]) ∨
  (1 ≤ frames.length ∧ frames.length ≤ 256 ∧ ∃ hdr, Laced kind frames hdr ∧
    bs = [UInt8.ofNat (frames.length - 1)] ++ (hdr ++ frames.flatten))

end Verif.Spec

namespace Verif.Spec

/-- The frame callbacks for consecutive frames `ds`: announced from position `ann` on, truly
starting at position `at_`; each with its size and its bytes. -/
def frameEvents (ann at_ : Nat) : List Bytes → List Web.BlockEv
  | [] => []
  | d :: ds => .frame ann d.length at_ d :: frameEvents (ann + d.length) (at_ + d.length) ds

end Verif.Spec
