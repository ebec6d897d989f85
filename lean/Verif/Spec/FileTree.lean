/-
The elements of a muxer file around its clusters, as trees.
-/
import Verif.Spec.Headers
import Verif.Spec.Segment

namespace Verif.Spec
open Verif Verif.Mux

/-- Elements given by ID and payload. -/
def fieldsTree (fs : List (Nat × Bytes)) : Tree := each (fun f => plain f.1 f.2) fs

/-- The EBML header. -/
def ebmlTree (docType : Bytes) : Tree :=
  group 0x1A45DFA3 (fieldsTree [uintField 0x4286 1, uintField 0x42F7 1, uintField 0x42F2 4, uintField 0x42F3 8,
    (0x4282, docType), uintField 0x4287 4, uintField 0x4285 2])

/-- The Info element. -/
def infoTree (scale : Nat) (duration : Option Nat) (date : Option Int) (muxing writing : Bytes) : Tree :=
  group 0x1549A966 (fieldsTree (infoFields scale duration date muxing writing))

/-- The seek head. -/
def seekTree (places : List (Nat × Nat)) : Tree :=
  group 0x114D9B74 (each (fun e => group 0x4DBB (fieldsTree [uintField 0x53AB e.1, uintField 0x53AC e.2])) places)

/-- A cue. -/
def cueTree (c : Cue) : Tree :=
  group 0xBB (seq [plain 0xB3 (beBytes (byteWidth c.time) c.time),
    group 0xB7 (fieldsTree ([uintField 0xF7 c.track, uintField 0xF1 c.pos] ++
      match c.block with
      | none => []
      | some b => [uintField 0x5378 b]))])

/-- The Cues element. -/
def cuesTree (q : List Cue) : Tree := group 0x1C53BB6B (each cueTree q)

/-- A file: the EBML header, and a Segment with its size on eight bytes, known or not. -/
def fileTree (docType : Bytes) (known : Bool) (payload : Tree) : Tree :=
  (ebmlTree docType).append (.node 0x18538067 8 known payload .nil)

end Verif.Spec
