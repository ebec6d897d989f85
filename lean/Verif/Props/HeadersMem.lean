/-
C97: the memory and the completeness of the headers of a segment as parsed.
-/
import Verif.Lemmas.ParserHeadersMem

namespace Verif.Props
open Verif Verif.Spec Verif.Par.HdrMem Verif.Par.TrackMem Verif.Par.Enc Verif.Par.Texts Verif.Mux.Build

/-- However often the headers of a new segment are parsed, whatever is found each time and whichever allocations fail: nothing is undefined, nor
in the destructor of the segment, which leaves nothing allocated.  Partial: elements are as `HdrPart.Usual` says. -/
theorem C97_freed_partial (can : Nat → Bool) (calls : List (List HdrPart)) (hu : ∀ es ∈ calls, ∀ e ∈ es, HdrPart.Usual e) :
    ∃ x m m', parseAgain can calls {} {} = .ok (x, m) ∧ x.destroy m = .ok m' ∧ m'.live = [] := by
  obtain ⟨x, m, e, hx, h⟩ := parseAgain_spec (can := can) (x := {}) (m := {}) (f := fun _ => 0) hu (fun _ h => by cases h)
    (fun a => by simp [hdrA, delA])
  obtain ⟨m', e', h'⟩ := destroy_spec hx h
  exact ⟨x, m, m', e, e', nothing_live h'⟩

/-- If the headers of a new segment are parsed with success at the first call, there are an info and tracks, and everything is shown that the
first element of each kind says, also if allocations have failed.  Partial: as above, and the reader never gives a positive value. -/
theorem C97_shown_partial (can : Nat → Bool) (es : List HdrPart) (hu : ∀ e ∈ es, HdrPart.Usual e) (hn : ∀ e ∈ es, HdrPart.NoPositive e)
    (x : Hdr) (rest : List HdrPart) (m : Mem) (h : parseHeaders can es {} {} = .ok (0, x, rest, m)) :
    rest = [] ∧ x.info.isSome ∧ x.tracks.isSome ∧ hdrShown x = hdrSaid {} es := by
  obtain ⟨st, x', rest', m', e, -, -, -, hd⟩ := parseHeaders_spec (can := can) (x := {}) (m := {}) (f := fun _ => 0) hu (fun _ h => by cases h)
    (fun a => by simp [hdrA, delA])
  rw [h] at e
  cases e
  exact hd rfl hn

/-- What is left for the next call is always the end of what there was. -/
theorem C97_rest_partial (can : Nat → Bool) (es : List HdrPart) (hu : ∀ e ∈ es, HdrPart.Usual e) :
    ∃ status x done rest m, parseHeaders can es {} {} = .ok (status, x, rest, m) ∧ es = done ++ rest := by
  obtain ⟨st, x', rest', m', e, -, -, ⟨d, hd⟩, -⟩ := parseHeaders_spec (can := can) (x := {}) (m := {}) (f := fun _ => 0) hu
    (fun _ h => by cases h) (fun a => by simp [hdrA, delA])
  exact ⟨st, x', d, rest', m', e, hd⟩

/-- An info, a track, a seek head with two entries of which one is refused, and a void, chapters, cues and tags, twice. -/
private def sample : List HdrPart :=
  [.seek [.seek (some (1, 2)), .seek none, .void (3, 4), .other], .other, .info [], .tracks [.child [.number 1, .kind .audio, .audio true]],
    .chapters [.child []], .cues, .tags [.child []], .chapters [], .tags [], .seek [.bad], .cues]

private theorem sample_usual : ∀ e ∈ sample, HdrPart.Usual e := by
  intro e he
  simp only [sample, List.mem_cons, List.not_mem_nil, or_false] at he
  rcases he with h | h | h | h | h | h | h | h | h | h | h <;> subst h <;>
    simp [HdrPart.Usual, TracksNotBoth, ChaptersSmall, TagsSmall, kids]

/-- It meets the hypotheses, and is parsed with success; six objects, two arrays in the seek head and three others are then allocated, and the
track. -/
example : ∃ x m, parseHeaders (fun _ => true) sample {} {} = .ok (0, x, [], m) ∧ m.live.length = 12 ∧
    (hdrShown x).seek = some ([(1, 2)], [(3, 4)]) ∧ (hdrShown x).chapters = some [[]] := ⟨_, _, rfl, rfl, rfl, rfl⟩

example : ∃ x m m', parseAgain (fun n => n != 4) [sample, sample] {} {} = .ok (x, m) ∧ x.destroy m = .ok m' ∧ m'.live = [] :=
  C97_freed_partial _ _ fun es he => by
    simp only [List.mem_cons, List.not_mem_nil, or_false, or_self] at he
    subst he
    exact sample_usual

/-- Without an info or tracks there is no success, nor with two of them. -/
example : ∃ x m, parseHeaders (fun _ => true) [.info []] {} {} = .ok (-2, x, [], m) := ⟨_, _, rfl⟩
example : ∃ x m, parseHeaders (fun _ => true) [.info [], .tracks [], .info []] {} {} = .ok (-2, x, [.info []], m) := ⟨_, _, rfl⟩

/-- The restriction to the first call is needed: if memory runs out once while the chapters are parsed, the call fails, but the next call
passes over the same chapters and has success, although they are in the file and are not shown. -/
theorem C97_retry_drops : ∃ (can : Nat → Bool) (es rest : List HdrPart) (x x' : Hdr) (m m' : Mem),
    parseHeaders can es {} {} = .ok (-1, x, rest, m) ∧ parseHeaders can rest x m = .ok (0, x', [], m') ∧
      (hdrShown x').chapters = some [] ∧ (hdrSaid {} es).chapters = some [[], []] :=
  ⟨fun n => n != 3, [.info [], .tracks [], .chapters [.child [], .child []]], _, _, _, _, _, rfl, rfl, rfl, rfl⟩

end Verif.Props
