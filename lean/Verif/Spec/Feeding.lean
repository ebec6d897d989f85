/-
What it means for an incremental parser not to depend on how the data arrives.
-/
import Verif.Model.WebmScalar

namespace Verif.Spec
open Verif.Web

/-- The caller's loop: keep feeding the parser until its answer is something else than "would
block" or "partial", adding up the bytes read (at most `fuel` calls). -/
def drive {σ} (feed : σ → Src → Fed σ) : (fuel : Nat) → σ → Src → Fed σ
  | 0, p, s => (.wouldBlock, p, s, 0)
  | f + 1, p, s =>
    match feed p s with
    | (st, p', s', k) =>
      if st.isStall then
        match drive feed f p' s' with
        | (st', p'', s'', k') => (st', p'', s'', k + k')
      else (st, p', s', k)

/-- A reader on which all of `bs` is available at once. -/
def allAtOnce (bs : Bytes) (pos : Nat := 0) : Src := { evs := bs.map some, pos := pos }

/-- `feed` started in state `p` does not depend on how data arrives: however the same bytes are
split by unavailable points, the caller's loop ends with the same status, parser state,
number of bytes read and unread bytes as one call with everything available. -/
def ScheduleIndependent {σ} (feed : σ → Src → Fed σ) (p : σ) : Prop :=
  ∀ (s : Src) (fuel : Nat), s.stalls < fuel →
    match drive feed fuel p s with
    | (st, p', s', k) => feed p (allAtOnce s.bytes s.pos) = (st, p', allAtOnce s'.bytes s'.pos, k)

end Verif.Spec

namespace Verif.Spec
open Verif.Web

/-- Read one whole element with the incremental parsers, in the order the library uses them:
ID, size, then the payload parser set up for that size.  Returns the ID, the final state of
the payload parser and the reader afterwards. -/
def incElement {σ} (init : Nat → Except Status σ) (feed : σ → Src → Fed σ) (s : Src) :
    Option (Nat × σ × Src) :=
  match IdP.feed {} s with
  | (.okCompleted, i, s1, _) =>
    match SizeP.feed {} s1 with
    | (.okCompleted, z, s2, _) =>
      match init (SizeP.size z) with
      | .ok p =>
        match feed p s2 with
        | (.okCompleted, p', s3, _) => some (i.id, p', s3)
        | _ => none
      | .error _ => none
    | _ => none
  | _ => none

end Verif.Spec
