/-
VPx codec private data, as http://www.webmproject.org/vp9/profiles/ defines it: a list of
records (id, length, value).
-/
import Verif.Base.Bytes

namespace Verif.Spec.CodecPrivate
open Verif

/-- A record of three bytes. -/
structure Record where
  id : Nat
  len : Nat
  value : Nat
  deriving DecidableEq, Repr

/-- The records of a byte string; one or two bytes after the last record are not one. -/
def records : Bytes → List Record
  | a :: b :: c :: rest => ⟨a.toNat, b.toNat, c.toNat⟩ :: records rest
  | _ => []

/-- The values that a feature may have: profile, level, bit depth, chroma subsampling. -/
def LegalValue (id value : Nat) : Prop :=
  (id = 1 ∧ value ≤ 3) ∨
  (id = 2 ∧ value ∈ [10, 11, 20, 21, 30, 31, 40, 41, 50, 51, 52, 60, 61, 62]) ∨
  (id = 3 ∧ value ∈ [8, 10, 12]) ∨ (id = 4 ∧ value ≤ 3)

/-- A record that the format allows. -/
def Record.Legal (r : Record) : Prop := r.len = 1 ∧ LegalValue r.id r.value

/-- The value stored for a feature: that of the first record with its id. -/
def stored (id : Nat) (rs : List Record) : Option Nat :=
  (rs.find? (fun r => r.id = id)).map Record.value

/-- No feature is stored with two different values. -/
def Consistent (rs : List Record) : Prop :=
  ∀ r ∈ rs, ∀ q ∈ rs, r.id = q.id → r.value = q.value

end Verif.Spec.CodecPrivate
