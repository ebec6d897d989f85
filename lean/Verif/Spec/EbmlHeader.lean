/-
The header of a WebM/Matroska file.
-/
import Verif.Spec.Cues

namespace Verif.Spec

/-- The payload of the EBML element: EBMLVersion 1, EBMLReadVersion 1, EBMLMaxIDLength 4,
EBMLMaxSizeLength 8, DocType, DocTypeVersion, DocTypeReadVersion 2. -/
def ebmlHeaderPayload (docType : Bytes) (version : Nat) : Bytes :=
  elements [uintField 0x4286 1, uintField 0x42F7 1, uintField 0x42F2 4, uintField 0x42F3 8,
    (0x4282, docType), uintField 0x4287 version, uintField 0x4285 2]

/-- The EBML element. -/
def ebmlHeader (docType : Bytes) (version : Nat) : Bytes :=
  element 0x1A45DFA3 (ebmlHeaderPayload docType version)

end Verif.Spec
