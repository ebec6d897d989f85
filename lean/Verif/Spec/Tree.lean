/-
Sequences of EBML elements.
-/
import Verif.Spec.Ebml

namespace Verif.Spec

/-- Elements, given by ID and payload, one after the other. -/
def elements : List (Nat × Bytes) → Bytes
  | [] => []
  | (id, payload) :: rest => element id payload ++ elements rest

end Verif.Spec
