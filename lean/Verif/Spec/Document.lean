/-
Documents as trees of elements, which of them are well formed for a table of elements, and the
calls a reader of such a document should make.  Nothing here mentions the parsers: the table
(`Kids`) only says which elements may occur where and what is announced about them.
-/
import Verif.Spec.Blocks
import Verif.Model.WebmDoc

namespace Verif.Spec
open Verif Verif.Web

/-- The payload of an element without children: the fields of a block, or plain bytes. -/
inductive Payload where
  | bytes (b : Bytes)
  /-- track number (on `w` bytes), relative time code, flags, frames, and how the frames are laid
  out after the block's header -/
  | block (w track : Nat) (tc : Int) (flags : UInt8) (frames : List Bytes) (body : Bytes)

/-- The bytes of a payload. -/
def Payload.data : Payload → Bytes
  | .bytes b => b
  | .block w track tc flags _ body => blockHead w track tc flags ++ body

/-- A sequence of elements.  `w` is the width of the size field. -/
inductive Tree where
  | nil
  | leaf (id w : Nat) (p : Payload) (next : Tree)
  /-- an element with children, its size recorded (`known`) or not -/
  | node (id w : Nat) (known : Bool) (kids next : Tree)

/-- An element's ID and size field. -/
def header (id w size : Nat) : Bytes := beBytes (byteWidth id) id ++ vint w size

/-- The bytes of a sequence of elements.  The reserved size with all bits set stands for
"unknown". -/
def Tree.bytes : Tree → Bytes
  | .nil => []
  | .leaf id w p next => header id w p.data.length ++ p.data ++ next.bytes
  | .node id w known kids next =>
    header id w (if known then kids.bytes.length else 2 ^ (7 * w) - 1) ++ kids.bytes ++ next.bytes

/-- The ID of the element that comes next, given the one after the whole sequence. -/
def Tree.follow : Tree → Option Nat → Option Nat
  | .nil, after => after
  | .leaf id .., _ => some id
  | .node id .., _ => some id

/-- What a table of elements says about an ID: whether it counts as a child that makes the parent
begin, whether its value belongs to the parent's, and how it is read.  Void elements may occur
anywhere. -/
def _root_.Verif.Web.Kids.entry : Kids → Nat → Option (Bool × Bool × Gram)
  | .nil, id => if id = kVoid then some (false, false, .leaf .void) else none
  | .cons i st co g rest, id => if id = i then some (st, co, g) else rest.entry id

/-- The value of a string does not include NULs at its end. -/
def dropNuls (b : Bytes) : Bytes := (b.reverse.dropWhile (· == 0)).reverse

/-- The payload is one the format allows for this kind of element: numbers of at most eight bytes,
a flag of value 0 or 1, a float of 0, 4 or 8 bytes, a date of 0 or 8 bytes, an ID of 1 to 4
bytes, a block with its frames laced as its flags say and the last one not empty.  (BlockVirtual
is left out.) -/
def Payload.Allowed : Leaf → Payload → Prop
  | .uint, .bytes b | .sint, .bytes b => b.length ≤ 8
  | .bool, .bytes b => b.length ≤ 8 ∧ beVal b ≤ 1
  | .float, .bytes b => b.length = 0 ∨ b.length = 4 ∨ b.length = 8
  | .date, .bytes b => b.length = 0 ∨ b.length = 8
  | .str, .bytes _ | .bin, .bytes _ | .void, .bytes _ => True
  | .idElem, .bytes b => 1 ≤ b.length ∧ b.length ≤ 4
  | .block _, .block w track _ flags frames body =>
    1 ≤ w ∧ w ≤ 8 ∧ track < 2 ^ (7 * w) ∧ BlockBody ((flags &&& 6) >>> 1) frames body ∧
      frames.getLast? ≠ some []
  | _, _ => False

/-- `ks.WellFormed sized after t`: the elements `t` may stand inside an element with children table
`ks`.  `sized` says whether the enclosing element's size is recorded; if not, it ends where an
element begins that it cannot contain (`after`), or with the document (`none`).

An element of unknown size ends in the same way, so whatever follows it must be something it
cannot contain, and it may only stand inside elements of unknown size. -/
def Tree.WellFormed : Kids → (sized : Bool) → (after : Option Nat) → Tree → Prop
  | _, _, _, .nil => True
  | ks, sized, after, .leaf id w p next =>
    IsId (byteWidth id) id ∧ 1 ≤ w ∧ w ≤ 8 ∧ p.data.length + 1 < 2 ^ (7 * w) ∧
    (match ks.entry id with
      | some (_, _, .leaf l) => p.Allowed l
      | some (_, _, .master ..) => False
      | none => sized = true ∧ ∃ b, p = .bytes b) ∧
    next.WellFormed ks sized after
  | ks, sized, after, .node id w known kids next =>
    IsId (byteWidth id) id ∧ 1 ≤ w ∧ w ≤ 8 ∧
    (match ks.entry id with
      | some (_, _, .master r ks') =>
        if known then kids.bytes.length + 1 < 2 ^ (7 * w) ∧ kids.WellFormed ks' true none
        else sized = false ∧ r.forward = true ∧ (∀ i ∈ next.follow after, ks'.entry i = none) ∧
          kids.WellFormed ks' false (next.follow after)
      | _ => False) ∧
    next.WellFormed ks sized after

/-- What a reader has announced while it reads the children of one element: all calls so far, the
element's value so far, and whether the element itself has been announced as begun. -/
structure Told where
  log : Log
  value : Val
  begun : Bool

/-- The value of a scalar, as the bit pattern of the variable it is stored in. -/
def Payload.value : Leaf → Payload → Val
  | .uint, .bytes b | .date, .bytes b | .idElem, .bytes b => if b = [] then .dflt else .nat (beVal b)
  | .sint, .bytes b => if b = [] then .dflt else .nat (twosVal b % 2 ^ 64).toNat
  | .bool, .bytes b => if b = [] then .dflt else .flag (beVal b == 1)
  | .float, .bytes b => if b = [] then .dflt else .float (some (b.length, beVal b))
  | .str, .bytes b => if b = [] then .dflt else .bytes (dropNuls b)
  | .bin, .bytes b => if b = [] then .dflt else .bytes b
  | _, _ => .nil

/-- The lacing the flags of a block announce. -/
def lacingNamed (flags : UInt8) : Lacing :=
  if (flags &&& 6) >>> 1 = 0 then .none else if (flags &&& 6) >>> 1 = 1 then .xiph
  else if (flags &&& 6) >>> 1 = 2 then .fixed else .ebml

/-- What is announced about a block. -/
def blockNamed (simple : Bool) (track : Nat) (tc : Int) (flags : UInt8) (count : Nat) : BlockVal where
  track := track
  numFrames := count
  timecode := (tc % 2 ^ 16).toNat
  lacing := lacingNamed flags
  isVisible := !flags.toNat.testBit 3
  isKey := simple && flags.toNat.testBit 7
  isDiscardable := simple && flags.toNat.testBit 0

/-- The frames of a block, one call each: position, size, bytes. -/
def frameCalls : Nat → List Bytes → Log
  | _, [] => []
  | pos, f :: fs => .frame pos f.length f :: frameCalls (pos + f.length) fs

/-- The calls for a block: its beginning, its frames (which are its last bytes), its end.  For
fixed-size lacing of several frames the announced positions are those the library announces,
too small by the length of the block's element header (see C16). -/
def blockCalls (m : Meta) (v : BlockVal) (frames : List Bytes) : Log :=
  let first := m.position + m.headerSize + m.size - frames.flatten.length
  [.blockStart m v] ++
    frameCalls (if v.lacing = .fixed ∧ v.numFrames ≠ 1 then first - m.headerSize else first) frames ++
    [.blockEnd m v]

/-- The calls made and the value found for an element without children. -/
def Payload.read (m : Meta) : Option Leaf → Payload → Log × Val
  | some .void, p => ([.void m p.data], .nil)
  | none, p => ([.unknown m p.data], .nil)
  | some (.block simple), .block _ track tc flags frames _ =>
    (blockCalls m (blockNamed simple track tc flags frames.length) frames,
      .block (blockNamed simple track tc flags frames.length))
  | some l, p => ([], p.value l)

/-- Announce an element, and then its parent if that waits for a child like this one to begin
(`due`: the parent, if it is of that sort). -/
def Told.announce (t : Told) (due : Option Meta) (m : Meta) (starts : Bool) : Told :=
  match due with
  | some me =>
    if starts && !t.begun then
      { t with log := t.log ++ [.element m, .start me t.value], begun := true }
    else { t with log := t.log ++ [.element m] }
  | none => { t with log := t.log ++ [.element m] }

/-- A child is complete: `calls` were made for it, its value is `v`. -/
def Told.close (t : Told) (consume : Bool) (id : Nat) (log : Log) (v : Val) : Told :=
  { t with log := log, value := if consume then t.value.push id v else t.value }

/-- `t.read skips ks due pos told`: what a reader has announced after reading the elements `t`, which
start at position `pos` inside an element with children table `ks`.  `skips` is asked, with the
calls before, whether to leave out an element of known size that is being announced. -/
def Tree.read (skips : Log → Meta → Bool) : Kids → (due : Option Meta) → Tree → Nat → Told → Told
  | _, _, .nil, _, t => t
  | ks, due, .leaf id w p next, pos, t =>
    let m : Meta := ⟨id, byteWidth id + w, p.data.length, pos⟩
    let after := pos + m.headerSize + m.size
    if skips t.log m then
      next.read skips ks due after { t with log := t.log ++ [.element m] }
    else
      match ks.entry id with
      | some (starts, consume, .leaf l) =>
        let t' := t.announce due m starts
        let (calls, v) := p.read m (some l)
        next.read skips ks due after (t'.close consume id (t'.log ++ calls) v)
      | _ =>
        let t' := t.announce due m false
        next.read skips ks due after (t'.close false id (t'.log ++ (p.read m none).1) .nil)
  | ks, due, .node id w known kids next, pos, t =>
    let m : Meta := ⟨id, byteWidth id + w, if known then kids.bytes.length else 2 ^ 64 - 1, pos⟩
    let after := pos + m.headerSize + kids.bytes.length
    if known && skips t.log m then
      next.read skips ks due after { t with log := t.log ++ [.element m] }
    else
      match ks.entry id with
      | some (starts, consume, .master r ks') =>
        let t' := t.announce due m starts
        let begin_ : Log := if r.start = .first then [.start m .nil] else []
        let inner := kids.read skips ks' (if r.start = .tagged then some m else none)
          (pos + m.headerSize) ⟨t'.log ++ begin_, .nil, false⟩
        let begin' : Log := if r.start = .tagged ∧ inner.begun = false then [.start m inner.value] else []
        let end_ : Log := if r.complete then [.complete m inner.value] else []
        next.read skips ks due after
          (t'.close consume id (inner.log ++ begin' ++ end_) inner.value)
      | _ => t

/-- A whole document is well formed: its elements are those of the table of top-level elements, or
any other element of known size; an element of unknown size can only be the last one. -/
def Tree.Document (ks : Kids) : Tree → Prop
  | .nil => True
  | .leaf id w p next => Tree.WellFormed ks true none (.leaf id w p .nil) ∧ next.Document ks
  | .node id w true kids next => Tree.WellFormed ks true none (.node id w true kids .nil) ∧ next.Document ks
  | .node id w false kids next => Tree.WellFormed ks false none (.node id w false kids .nil) ∧ next = .nil

/-- A callback that never fails, and answers "skip" at most about elements of known size it is asked
about by `OnElementBegin`. -/
def _root_.Verif.Web.Cb.Reads (cb : Cb) : Prop :=
  ∀ L e, (cb L e).1 = .okCompleted ∧
    ((cb L e).2 = true → ∃ m : Meta, e = .element m ∧ m.size ≠ kUnknownElementSize)

/-- The calls a reader should make for a whole document starting at position `pos`. -/
def Tree.calls (skips : Log → Meta → Bool) (ks : Kids) (pos : Nat) (t : Tree) : Log :=
  (t.read skips ks none pos ⟨[], .nil, false⟩).log

/-- The frames in a document, in order. -/
def Tree.frames : Tree → List Bytes
  | .nil => []
  | .leaf _ _ (.block _ _ _ _ frames _) next => frames ++ next.frames
  | .leaf _ _ (.bytes _) next => next.frames
  | .node _ _ _ kids next => kids.frames ++ next.frames

/-- The frames among some calls. -/
def framesTold : Log → List Bytes
  | [] => []
  | .frame _ _ d :: L => d :: framesTold L
  | _ :: L => framesTold L

end Verif.Spec
