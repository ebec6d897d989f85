/-
What the Matroska format says about the seek head.
-/
import Verif.Spec.Tree

namespace Verif.Spec

/-- The Seek element for (ID, position): both numbers on as few bytes as possible. -/
def seekEntry (e : Nat × Nat) : Bytes :=
  element 0x4DBB (element 0x53AB (beBytes (byteWidth e.1) e.1) ++
    element 0x53AC (beBytes (byteWidth e.2) e.2))

/-- The payload of a seek head with these entries. -/
def seekEntries : List (Nat × Nat) → Bytes
  | [] => []
  | e :: es => seekEntry e ++ seekEntries es

end Verif.Spec
