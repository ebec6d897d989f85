/-
What a file may have for the content encodings of its tracks.
-/
import Verif.Model.ParserEncodingMem
import Verif.Spec.TrackBuilding

namespace Verif.Spec
open Verif Verif.Par.Enc

/-- No encoding is both a compression and an encryption, as the format demands. -/
def NotBoth (es : List EncsPart) : Prop :=
  ∀ ps, EncsPart.encoding ps ∈ es → ∀ cs ds, ¬(EncPart.compression cs ∈ ps ∧ EncPart.encryption ds ∈ ps)

end Verif.Spec
