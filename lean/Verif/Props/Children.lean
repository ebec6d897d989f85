/-
C08, the payloads of children.
-/
import Verif.Spec.Children
import Verif.Props.Ebml
import Verif.Model.ParserChapters
import Verif.Model.SeekHead

namespace Verif.Props
open Verif Verif.Par Spec

private theorem header_at {r : Rdr} {p : Nat} {stop : Int} {h : Hdr} (hp : parseElementHeader r p stop = .ok h) :
    ∃ n m, HeaderAt r.data p n h.id m h.size ∧ h.pos = p + n + m := by
  obtain ⟨p', n, m, h1, h2, h3, h4, h5, h6, h7, h8, -⟩ := C08_header_in_bounds hp
  have : p' = p := by omega
  subst this
  exact ⟨n, m, ⟨h2, h3, h4, h5, h6, h7⟩, h8⟩

private theorem walk_children {σ : Type} {r : Rdr} {stop : Nat} {step : Nat → Hdr → σ → Res σ} {pos : Nat} {st st' : σ}
    (h : walk r stop step pos st = .ok st') : Children r.data pos stop := by
  revert h
  fun_induction walk r stop step pos st with
  | case1 => intro h; cases h
  | case2 => intro h; cases h
  | case3 => intro h; cases h
  | case4 => intro h; cases h
  | case5 => intro h; cases h
  | case6 pos st hlt hd hp st1 hs hle ih =>
    intro h
    obtain ⟨n, m, h1, h2⟩ := header_at hp
    refine .cons h1 ?_
    rw [← h2]
    exact ih h
  | case7 => intro _; exact .nil _
  | case8 => intro h; cases h

private theorem orErr_ok {α : Type} {x : Res α} {c : Int} {a : α} (h : x.orErr c = .ok a) : x = .ok a := by
  cases x <;> first | exact h | cases h

private theorem bind_ok' {α β : Type} {x : Res α} {f : α → Res β} {b : β} (h : (x >>= f) = .ok b) : ∃ a, x = .ok a := by
  cases x with
  | ok a => exact ⟨a, rfl⟩
  | err c => cases h
  | ub => cases h

/-- **C08, children, partial.** What mkvparser accepts as segment information, tracks, a track entry, video, audio, colour, mastering metadata or projection
settings, a content encoding, a seek head, chapters, an edition, a chapter, a chapter display, tags, a tag or a simple tag consists of whole elements, from the first
byte of the payload to its last: every child begins behind the one before and ends inside the parent.

Missing: the EBML header, cues and clusters, which have loops of their own (see C25, C26, C66); false for ContentEncodings
(`C08_encodings_unchecked`). -/
theorem C08_children_inside_partial {r : Rdr} {start size : Nat} :
    (∀ x, infoParse r start size = .ok x → Children r.data start (start + size)) ∧
    (∀ x, tracksParse r start size = .ok x → Children r.data start (start + size)) ∧
    (∀ before x, entryParse r before start size = .ok x → Children r.data start (start + size)) ∧
    (∀ x, videoParse r start size = .ok x → Children r.data start (start + size)) ∧
    (∀ x, audioParse r start size = .ok x → Children r.data start (start + size)) ∧
    (∀ x, colourParse r start size = .ok x → Children r.data start (start + size)) ∧
    (∀ x, masteringParse r start size = .ok x → Children r.data start (start + size)) ∧
    (∀ x, projectionParse r start size = .ok x → Children r.data start (start + size)) ∧
    (∀ x, encodingParse r start size = .ok x → Children r.data start (start + size)) ∧
    (∀ mode x, aesParse r start size mode = .ok x → Children r.data start (start + size)) ∧
    (∀ x, chaptersParse r start size = .ok x → Children r.data start (start + size)) ∧
    (∀ x, editionParse r start size = .ok x → Children r.data start (start + size)) ∧
    (∀ x, atomParse r start size = .ok x → Children r.data start (start + size)) ∧
    (∀ x, displayParse r start size = .ok x → Children r.data start (start + size)) ∧
    (∀ x, tagsParse r start size = .ok x → Children r.data start (start + size)) ∧
    (∀ x, tagParse r start size = .ok x → Children r.data start (start + size)) ∧
    (∀ x, seekHeadParse r start size = .ok x → Children r.data start (start + size)) ∧
    ∀ x, simpleTagParse r start size = .ok x → Children r.data start (start + size) := by
  refine ⟨?_, ?_, ?_, ?_, ?_, ?_, ?_, ?_, ?_, ?_, ?_, ?_, ?_, ?_, ?_, ?_, ?_, ?_⟩
  · intro x h; obtain ⟨_, h⟩ := bind_ok' h; exact walk_children h
  · intro x h; obtain ⟨_, h⟩ := bind_ok' h; exact walk_children h
  · intro b x h; obtain ⟨_, h⟩ := bind_ok' h; exact walk_children h
  · intro x h; exact walk_children h
  · intro x h; exact walk_children h
  · intro x h; exact walk_children (orErr_ok h)
  · intro x h; exact walk_children (orErr_ok h)
  · intro x h; exact walk_children (orErr_ok h)
  · intro x h; obtain ⟨_, h⟩ := bind_ok' h; exact walk_children h
  · intro m x h; exact walk_children h
  · intro x h; exact walk_children h
  · intro x h; exact walk_children h
  · intro x h; exact walk_children h
  · intro x h; exact walk_children h
  · intro x h; exact walk_children h
  · intro x h; exact walk_children h
  · intro x h; obtain ⟨_, h⟩ := bind_ok' h; exact walk_children h
  · intro x h; exact walk_children h

private theorem header_unique {data : Bytes} {p n id m size n' id' m' size' : Nat} (h : HeaderAt data p n id m size)
    (h' : HeaderAt data p n' id' m' size') : n = n' ∧ id = id' ∧ m = m' ∧ size = size' := by
  have a := readID_of_slice (r := { data := data }) h.isId h.idBytes
  rw [readID_of_slice (r := { data := data }) h'.isId h'.idBytes] at a
  simp only [Res.ok.injEq, Prod.mk.injEq] at a
  obtain ⟨rfl, rfl⟩ := a
  have b := readUInt_of_slice (r := { data := data }) h.pos h.le h.fits h.sizeBytes
  rw [readUInt_of_slice (r := { data := data }) h'.pos h'.le h'.fits h'.sizeBytes] at b
  simp only [Res.ok.injEq, Prod.mk.injEq] at b
  obtain ⟨rfl, rfl⟩ := b
  exact ⟨rfl, rfl, rfl, rfl⟩

private theorem children_le {data : Bytes} {p stop : Nat} (h : Children data p stop) : p ≤ stop := by
  induction h with
  | nil => exact Nat.le_refl _
  | cons h _ ih => omega

/-- C08: a stretch of elements is read in one way only, so every child of an accepted parent ends inside it: where whole elements lead
from the start to `q` and an element stands at `q`, it ends inside the parent.  So a parent one of whose children would cross its
end is not accepted. -/
theorem C08_crossing_payload_refused {data : Bytes} {start stop q n id m size : Nat} (h : Children data start stop)
    (hq : Children data start q) (hlt : q < stop) (hc : HeaderAt data q n id m size) : q + n + m + size ≤ stop := by
  induction hq with
  | nil p =>
    cases h with
    | nil => omega
    | cons h' hr =>
      obtain ⟨rfl, rfl, rfl, rfl⟩ := header_unique hc h'
      exact children_le hr
  | cons h1 h2 ih =>
    cases h with
    | nil =>
      have := children_le h2
      omega
    | cons h' hr =>
      obtain ⟨rfl, rfl, rfl, rfl⟩ := header_unique h1 h'
      exact ih hr hlt hc

/-- Two chapters, of which the second would end one byte behind its edition, are refused although the byte is there. -/
example : (editionParse { data := [0xB6, 0x80, 0xB6, 0x83, 0x91, 0x81, 5, 0xEC] } 0 7).isOk = true ∧
    editionParse { data := [0xB6, 0x80, 0xB6, 0x84, 0x91, 0x81, 5, 0xEC] } 0 7 = .err E_FILE_FORMAT_INVALID := by
  decide +kernel

/-- **C08 fails for content encodings.** An audio track is accepted although the only child of its ContentEncodings goes one byte beyond that
element: the caller ignores the error (mkvparser/mkvparser.cc:5964-5965, 5986-5987). -/
theorem C08_encodings_unchecked : ∃ (data : Bytes) (t : ReadTrack),
    entryParse { data := data } [] 0 data.length = .ok t ∧
    slice data 12 7 = [0x6D, 0x80, 0x83, 0x62, 0x40, 0x81, 0xEC] ∧ ¬ Children data 15 18 := by
  refine ⟨[0xD7, 0x81, 1, 0x73, 0xC5, 0x81, 1, 0x83, 0x81, 2, 0xE1, 0x80, 0x6D, 0x80, 0x83, 0x62, 0x40, 0x81, 0xEC, 0x80], ?_⟩
  have he : (entryParse { data := [0xD7, 0x81, 1, 0x73, 0xC5, 0x81, 1, 0x83, 0x81, 2, 0xE1, 0x80, 0x6D, 0x80, 0x83, 0x62, 0x40, 0x81, 0xEC, 0x80] } [] 0 20).isOk = true := by
    decide +kernel
  cases h : entryParse { data := [0xD7, 0x81, 1, 0x73, 0xC5, 0x81, 1, 0x83, 0x81, 2, 0xE1, 0x80, 0x6D, 0x80, 0x83, 0x62, 0x40, 0x81, 0xEC, 0x80] } [] 0 20 with
  | ok t =>
    refine ⟨t, rfl, by decide +kernel, fun hc => ?_⟩
    have := C08_crossing_payload_refused hc (.nil _) (by decide) (n := 2) (id := 0x6240) (m := 1) (size := 1)
      ⟨by unfold IsId; decide, by decide +kernel, by decide, by decide, by decide, by decide +kernel⟩
    omega
  | err c => rw [h] at he; cases he
  | ub => rw [h] at he; cases he

end Verif.Props
