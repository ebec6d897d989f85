/-
What it means for an output routine to report a failing output honestly.
-/
import Verif.Model.Sink

namespace Verif.Spec

/-- `w` writes the encoding `enc` and is honest about it.  Started at the end of the file
with any plan of failing or short write calls:
it reports success exactly when none of the write calls it made failed;
on success the file is extended by exactly `enc`;
otherwise it reports an error and the file is extended by a prefix of `enc`. -/
def HonestOutput (w : W Unit) (enc : Bytes) : Prop :=
  ∀ s : Sink, s.pos = s.data.length → ∀ res s', w s = (res, s') →
    (res = .ok () ↔ ∀ i, s.calls ≤ i → i < s'.calls → s.plan i = none) ∧
    (res = .ok () → s'.data = s.data ++ enc) ∧
    (res ≠ .ok () → (∃ c, res = .err c) ∧ ∃ p, p <+: enc ∧ s'.data = s.data ++ p)

end Verif.Spec
