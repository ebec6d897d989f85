/-
C79: the structures handed to the callbacks of webm_parser hold what the document says, and the defaults of the format.
-/
import Verif.Lemmas.WebmDom

namespace Verif.Props
open Verif Verif.Web Verif.Web.Id Verif.Spec

/-- For every well-formed document, every way the data arrives, and every callback that reads what it is offered and leaves out the
elements of known size with the IDs it chooses (`skip`): the elements whose end is announced (`OnEbml`, `OnInfo`, `OnSeek`,
`OnTrackEntry`, `OnCuePoint`, `OnClusterEnd`, …) are those of the document that are not left out, in order, and every structure has in
each member what the children of the element say: the last child of that kind, all the children of that kind, or the default.
What is left out is as if it were not there. -/
theorem C79_structures (cb : Cb) (hcb : cb.Reads) (skip : Nat → Bool)
    (hskip : ∀ L (m : Meta), m.size ≠ kUnknownElementSize → (cb L (.element m)).2 = skip m.id)
    (t : Tree) (ht : t.Document topKids) (s : Src) (hb : s.bytes = t.bytes)
    (hfit : s.pos + t.bytes.length + 1 < 2 ^ 64) (fuel : Nat) (hf : s.stalls < fuel) :
    completions (drive (Parser.feed cb) fuel ({}, []) s).2.1.2 =
      ((t.without skip).completed topKids).map fun x => (x.1, structFrom x.1 x.2) := by
  have h := C58_document_read cb hcb t ht s hb hfit fuel hf
  rcases hd : drive (Parser.feed cb) fuel ({}, []) s with ⟨st, ⟨p', L'⟩, s', k⟩
  rw [hd] at h
  obtain ⟨-, h2, -⟩ := h
  simp only [h2]
  unfold Tree.calls
  rw [show (fun L m => (cb L (.element m)).2) = skipping skip from
    funext fun L => funext fun m => by
      by_cases hm : m.size = kUnknownElementSize
      · have : (cb L (.element m)).2 = false := by
          cases hc : (cb L (.element m)).2 with
          | false => rfl
          | true =>
            obtain ⟨m', he, hne⟩ := (hcb L (.element m)).2 hc
            injection he with he
            exact absurd hm (he ▸ hne)
        simp [skipping, hm, this]
      · rw [hskip L m hm]; simp [skipping, hm]]
  rw [told_document skip t ht _ _ [] rfl]
  rfl

/-- In particular, if nothing is left out. -/
theorem C79_everything (cb : Cb) (hcb : cb.Reads) (hall : ∀ L m, (cb L (.element m)).2 = false)
    (t : Tree) (ht : t.Document topKids) (s : Src) (hb : s.bytes = t.bytes)
    (hfit : s.pos + t.bytes.length + 1 < 2 ^ 64) (fuel : Nat) (hf : s.stalls < fuel) :
    completions (drive (Parser.feed cb) fuel ({}, []) s).2.1.2 = (t.completed topKids).map fun x => (x.1, structFrom x.1 x.2) := by
  have hw : t.without (fun _ => false) = t := by
    clear ht hb hfit
    induction t with
    | nil => rfl
    | leaf id w p next ih => simp [Tree.without, ih]
    | node id w known kids next ihk ih => simp [Tree.without, ih, ihk]
  have := C79_structures cb hcb (fun _ => false) (fun L m _ => hall L m) t ht s hb hfit fuel hf
  rwa [hw] at this

/-- The same of the structures inside structures, which are made of what the element contains. -/
theorem C79_inner (id : Nat) (vals : List (Nat × Val)) : structOf id (chain vals) = structFrom id vals := structOf_chain id vals

/-- A member is present exactly if there is an element for it. -/
theorem C79_presence (id : Nat) (vals : List (Nat × Val)) (i : Nat) (v : Val) (p : Bool)
    (h : (i, Slot.one v p) ∈ structOf id (chain vals)) : p = true ↔ ∃ x ∈ vals, x.1 = i := by
  rw [structOf_chain, structFrom, List.mem_map] at h
  obtain ⟨⟨j, sl⟩, -, hj⟩ := h
  simp only [Prod.mk.injEq] at hj
  obtain ⟨rfl, hj⟩ := hj
  cases sl with
  | many items =>
    simp only [memberFor] at hj
    split at hj <;> simp at hj
  | one d q =>
    simp only [memberFor, Slot.one.injEq] at hj
    rw [← hj.2]
    simp only [bne_iff_ne, ne_eq, occurrences, List.map_eq_nil_iff, List.filter_eq_nil_iff, beq_iff_eq]
    constructor
    · intro hne
      by_cases hx : ∃ x ∈ vals, x.1 = j
      · exact hx
      · exact absurd (fun x hm he => hx ⟨x, hm, he⟩) hne
    · rintro ⟨x, hm, he⟩ hn
      exact hn x hm he

/-- Without children, every member of a structure is absent and has the default of the format, if that has one. -/
theorem C79_defaults : ∀ id ∈ structured, ∀ f ∈ structOf id .nil, ∀ d, formatDefaults.lookup f.1 = some d → f.2 = .one d false := by
  have key : ∀ id ∈ structured, ∀ f ∈ structOf id .nil,
      (match formatDefaults.lookup f.1 with | some d => decide (f.2 = .one d false) | none => true) = true := by decide +kernel
  intro id hid f hf d hd
  have := key id hid f hf
  rw [hd] at this
  simpa using this

/-- The one default of a repeated element: a chapter title without a language is in English. -/
theorem C79_chapter_language : (kChapLanguage, Slot.many [(.bytes "eng".toUTF8.toList, false)]) ∈ structOf kChapterDisplay .nil := by
  decide +kernel

mutual
/-- The elements of a grammar that have children, each with the IDs of the children that belong to its structure. -/
def mastersOf : Gram → List (Nat × List Nat)
  | .leaf _ => []
  | .master r ks => (r.id, ownIds ks) :: mastersOfKids ks
/-- The IDs of the children that belong to the parent's structure. -/
def ownIds : Kids → List Nat
  | .nil => []
  | .cons id _ consume _ rest => if consume then id :: ownIds rest else ownIds rest
/-- The elements of a table of children that have children. -/
def mastersOfKids : Kids → List (Nat × List Nat)
  | .nil => []
  | .cons _ _ _ g rest => mastersOf g ++ mastersOfKids rest
end

/-- Nothing is missing: in the whole table of elements, the children that belong to a structure are its members. -/
theorem C79_nothing_missing : ∀ x ∈ mastersOfKids topKids, x.2 = (structFor x.1).map (·.1) := by
  decide +kernel

/-! ### Cases -/

/-- Two time scales, an empty title; an audio track without output frequency and with an empty language. -/
def plainDoc : Tree :=
  .node kSegment 1 true
    (.node kInfo 1 true
      (.leaf kTimecodeScale 1 (.bytes [7]) (.leaf kTimecodeScale 1 (.bytes [1, 0]) (.leaf kTitle 1 (.bytes []) .nil)))
    (.node kTracks 1 true
      (.node kTrackEntry 1 true
        (.leaf kTrackNumber 1 (.bytes [3]) (.leaf kLanguage 1 (.bytes [])
          (.node kAudio 1 true (.leaf kSamplingFrequency 1 (.bytes [0x47, 0x3B, 0x80, 0]) .nil) .nil)))
        .nil)
      .nil))
    .nil

theorem plainDoc_document : plainDoc.Document topKids := by
  have i : ∀ id ∈ [kSegment, kInfo, kTimecodeScale, kTitle, kTracks, kTrackEntry, kTrackNumber, kLanguage, kAudio, kSamplingFrequency],
      IsId (byteWidth id) id := by unfold IsId; decide +kernel
  have w : 1 ≤ (1 : Nat) ∧ (1 : Nat) ≤ 8 := by decide
  refine ⟨⟨i _ (by decide), w.1, w.2, ⟨by decide +kernel, ?_⟩, trivial⟩, trivial⟩
  refine ⟨i _ (by decide), w.1, w.2, ⟨by decide +kernel, ?_⟩, i _ (by decide), w.1, w.2, ⟨by decide +kernel, ?_⟩, trivial⟩
  · refine ⟨i _ (by decide), w.1, w.2, by decide, ?_, i _ (by decide), w.1, w.2, by decide, ?_, i _ (by decide), w.1, w.2, by decide, ?_, trivial⟩
    · exact Nat.le_of_ble_eq_true rfl
    · exact Nat.le_of_ble_eq_true rfl
    · exact trivial
  · refine ⟨i _ (by decide), w.1, w.2, ⟨by decide +kernel, ?_⟩, trivial⟩
    refine ⟨i _ (by decide), w.1, w.2, by decide, ?_, i _ (by decide), w.1, w.2, by decide, ?_, i _ (by decide), w.1, w.2, ⟨by decide +kernel, ?_⟩, trivial⟩
    · exact Nat.le_of_ble_eq_true rfl
    · exact trivial
    · refine ⟨i _ (by decide), w.1, w.2, by decide, ?_, trivial⟩
      exact Or.inr (Or.inl rfl)

/-- Non-vacuity: what is announced about it when it arrives byte by byte: the last time scale, a title that is there and empty, no
application; track 3, in English by default though the element is there; enabled by default. -/
example : let r := completions (drive (Parser.feed acceptAll) 200 ({}, []) ⟨plainDoc.bytes.flatMap (fun b => [none, some b]), 0⟩).2.1.2
    r.map (·.1) = [kInfo, kTrackEntry, kSegment] ∧
    (r.lookup kInfo).map (fun s => (s.lookup kTimecodeScale, s.lookup kTitle, s.lookup kMuxingApp)) =
      some (some (.one (.nat 256) true), some (.one (.bytes []) true), some (.one (.bytes []) false)) ∧
    (r.lookup kTrackEntry).map (fun s => (s.lookup kTrackNumber, s.lookup kLanguage, s.lookup kFlagEnabled)) =
      some (some (.one (.nat 3) true), some (.one (.bytes [0x65, 0x6E, 0x67]) true), some (.one (.flag true) false)) := by
  intro r
  have h : r = _ := C79_everything acceptAll acceptAll_reads (fun _ _ => rfl) plainDoc plainDoc_document
    ⟨plainDoc.bytes.flatMap (fun b => [none, some b]), 0⟩ (by decide +kernel) (by decide +kernel) 200 (by decide +kernel)
  rw [h]
  decide +kernel

/-- A callback that leaves out languages and segment information. -/
def fewer : Cb := fun _ e => (.okCompleted, match e with
  | .element m => (m.id == kLanguage || m.id == kInfo) && m.size != kUnknownElementSize
  | _ => false)

/-- What it is told of the same document: nothing of the segment information, and the language of the track is not there. -/
example : let r := completions (drive (Parser.feed fewer) 200 ({}, []) ⟨plainDoc.bytes.flatMap (fun b => [none, some b]), 0⟩).2.1.2
    r.map (·.1) = [kTrackEntry, kSegment] ∧
    (r.lookup kTrackEntry).map (fun s => (s.lookup kTrackNumber, s.lookup kLanguage)) =
      some (some (.one (.nat 3) true), some (.one (.bytes [0x65, 0x6E, 0x67]) false)) := by
  intro r
  have hr : fewer.Reads := by
    intro L e
    refine ⟨rfl, fun h => ?_⟩
    cases e <;> simp [fewer] at h
    exact ⟨_, rfl, h.2⟩
  have h : r = _ := C79_structures fewer hr (fun id => id == kLanguage || id == kInfo) (fun L m hm => by simp [fewer, hm]) plainDoc plainDoc_document
    ⟨plainDoc.bytes.flatMap (fun b => [none, some b]), 0⟩ (by decide +kernel) (by decide +kernel) 200 (by decide +kernel)
  rw [h]
  decide +kernel

/-- And the audio settings inside: 48000 Hz, also as output frequency, though there is no element for that. -/
example : (structOf kAudio (.cons kSamplingFrequency (.float (some (4, 0x473B8000))) .nil)).take 2 =
    [(kSamplingFrequency, .one (.float (some (4, 0x473B8000))) true),
     (kOutputSamplingFrequency, .one (.float (some (4, 0x473B8000))) false)] := by decide +kernel

end Verif.Props
