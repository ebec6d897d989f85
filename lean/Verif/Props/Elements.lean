/-
C62: the incremental parser's table of elements is the format's.
-/
import Verif.Spec.Elements
import Verif.Spec.Document

namespace Verif.Props
open Verif Verif.Web Verif.Spec

/-- C62. Every element below EBML and Segment is read by the parser for the contents the format gives
it, where the format has it; ... -/
theorem C62_known_elements : ∀ p ∈ gramTable gSegment ++ gramTable gEbml, ∃ f ∈ formatTable, Row p f := by
  decide +kernel

/-- ... every element in the table of the format is known there; ... -/
theorem C62_all_known : ∀ f ∈ formatTable, ∃ p ∈ gramTable gSegment ++ gramTable gEbml, Row p f := by
  decide +kernel

/-- ... and a parent has only one parser for an ID, so the first one found is the right one. -/
theorem C62_unique : ∀ p ∈ gramTable gSegment ++ gramTable gEbml, ∀ q ∈ gramTable gSegment ++ gramTable gEbml,
    p.1 = q.1 → p.2.1 = q.2.1 → p = q := by
  decide +kernel

/-- (The table of the format has no two rows for an element either.) -/
theorem C62_format_unique : ∀ f ∈ formatTable, ∀ g ∈ formatTable, f.1 = g.1 → f.2.1 = g.2.1 → f = g := by
  decide +kernel

/-- The two top-level elements. -/
theorem C62_top : topKids.entry 0x1A45DFA3 = some (false, false, gEbml) ∧
    topKids.entry 0x18538067 = some (false, false, gSegment) := ⟨rfl, rfl⟩

example : (0xE0, 0x2383E3, some Leaf.float) ∈ gramTable gSegment ∧ formatTable.length = 147 := by decide +kernel

/-- **Two elements the muxer writes are not known**: MaxBlockAdditionID of a track, ColourSpace of a video
track (RFC 9559 has both). -/
theorem C62_unknown_to_parser : (∀ p ∈ gramTable gSegment, ¬(p.1 = 0xAE ∧ p.2.1 = 0x55EE)) ∧
    ∀ p ∈ gramTable gSegment, ¬(p.1 = 0xE0 ∧ p.2.1 = 0x2EB524) := by
  constructor <;> decide +kernel

end Verif.Props
