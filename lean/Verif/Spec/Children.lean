/-
A stretch of a file that consists of elements.
-/
import Verif.Spec.Ebml
import Verif.Base.Bytes

namespace Verif.Spec
open Verif

/-- At position `p` stands the header of an element: an ID of `n` bytes and a size on `m` bytes. -/
structure HeaderAt (data : Bytes) (p n id m size : Nat) : Prop where
  isId : IsId n id
  idBytes : slice data p n = beBytes n id
  pos : 1 ≤ m
  le : m ≤ 8
  fits : size < 2 ^ (7 * m)
  sizeBytes : slice data (p + n) m = vint m size

/-- The bytes from `p` to `stop` are elements, one after the other, the last ending at `stop`: each begins with its ID and its size,
and its payload is followed by the next. -/
inductive Children (data : Bytes) : Nat → Nat → Prop
  | nil (p : Nat) : Children data p p
  | cons {p n id m size stop : Nat} (h : HeaderAt data p n id m size) (rest : Children data (p + n + m + size) stop) : Children data p stop

end Verif.Spec
