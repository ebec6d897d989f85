/-
C93: the memory and the completeness of the tracks as parsed.
-/
import Verif.Lemmas.ParserTrackMem

namespace Verif.Props
open Verif Verif.Spec Verif.Par.TrackMem Verif.Par.Enc Verif.Par.Texts Verif.Mux.Build

/-- Whatever the tracks of a file are, whatever cannot be read and whichever allocations fail: parsing them has no undefined behaviour, nor has
the destructor, which leaves nothing allocated.  Partial: no content encoding is both a compression and an encryption. -/
theorem C93_freed_partial (can : Nat → Bool) (es : List (Part (List TrackPart))) (hb : TracksNotBoth es) :
    ∃ status x m m', parseTracks can es = .ok (status, x, m) ∧ destroyTracks x m = .ok m' ∧ m'.live = [] := by
  obtain ⟨st, x, m, e, hx, hi, h, -⟩ := parseTracks_spec (can := can) fun ps hp e he => harmless_of_notBoth (hb ps hp e he)
  obtain ⟨m', e', h'⟩ := destroyTracks_spec hx hi h
  exact ⟨st, x, m, m', e, e', h'⟩

/-- It is so for any tracks if memory is never short. -/
theorem C93_enough (can : Nat → Bool) (hc : Enough can) (es : List (Part (List TrackPart))) :
    ∃ status x m m', parseTracks can es = .ok (status, x, m) ∧ destroyTracks x m = .ok m' ∧ m'.live = [] := by
  obtain ⟨st, x, m, e, hx, hi, h, -⟩ := parseTracks_spec (can := can) (es := es) fun _ _ _ _ _ _ => Or.inl hc
  obtain ⟨m', e', h'⟩ := destroyTracks_spec hx hi h
  exact ⟨st, x, m, m', e, e', h'⟩

/-- If the tracks are parsed with success, all of them are shown, in order and each with the texts and codec private data in the file, also if
allocations have failed; if not, the first ones are.  No two have the same number. -/
theorem C93_shown_partial (can : Nat → Bool) (es : List (Part (List TrackPart))) (hb : TracksNotBoth es ∨ Enough can) (status : Int)
    (x : Ptrs TrackObj) (m : Mem) (h : parseTracks can es = .ok (status, x, m)) :
    (∃ n, x.items.map (trackTexts ·.2) = ((kids es).take n).map trackSaid) ∧
      (status = 0 → x.items.map (trackTexts ·.2) = (kids es).map trackSaid) ∧ (x.items.map (·.2.number)).Nodup := by
  obtain ⟨st, x', m', e, -, -, -, hd, hn, hs⟩ := parseTracks_spec (can := can) (es := es) fun ps hp e he qs hq =>
    hb.elim (fun hb => harmless_of_notBoth (hb ps hp e he) qs hq) Or.inl
  rw [h] at e
  cases e
  exact ⟨hn, hs, hd⟩

/-- With memory enough, tracks that can be read and have what their kinds demand are parsed with success. -/
theorem C93_parsed (can : Nat → Bool) (hc : Enough can) (es : List (Part (List TrackPart))) (hg : TracksGood es) :
    ∃ x m, parseTracks can es = .ok (0, x, m) := by
  obtain ⟨st, x, m, -, e, -⟩ := C93_enough can hc es
  have : can = fun _ => true := funext hc
  subst this
  have := parseTracks_good hg e
  subst this
  exact ⟨x, m, e⟩

/-- Only such tracks are: whatever fails, if parsing has success then nothing was malformed, every text and data could be read, every track has a
number of its own and what its kind demands.  Partial: as `C93_shown_partial`. -/
theorem C93_accepted_partial (can : Nat → Bool) (es : List (Part (List TrackPart))) (hb : TracksNotBoth es ∨ Enough can) (x : Ptrs TrackObj)
    (m : Mem) (h : parseTracks can es = .ok (0, x, m)) : TracksGood es := by
  obtain ⟨h1, h2⟩ := parseTracks_conv h
  obtain ⟨-, hs, hd⟩ := C93_shown_partial can es hb 0 x m h
  refine ⟨h1, h2, ?_⟩
  have := congrArg (List.map TrackTexts.number) (hs rfl)
  rw [List.map_map, List.map_map] at this
  exact (show (kids es).map (fun ps => (trackSaid ps).number) = x.items.map (·.2.number) from this.symm) ▸ hd

/-- A video track with two names, codec private data, a colour with a chromaticity and a projection, and an audio track with an encoding. -/
private def sample : List (Part (List TrackPart)) :=
  [.other, .child [.number 1, .kind .video, .text .name [65, 66, 0, 67] 0, .text .codecId [86] 0, .priv [1, 0, 2] 0, .text .name [68, 0, 69] 0,
      .video [.other, .colour [.mm [.chroma 0 true, .chroma 0 true, .other]], .projection [.priv 4 true], .space [89] 0]],
    .child [.number 2, .kind .audio, .audio true, .priv [7] 0, .priv [] 0,
      .encodings [.encoding [.compression [.algo true, .settings 4 true]]]]]

example : TracksNotBoth sample := by
  intro ps hp e he qs hq cs ds h
  have hp : ps ∈ [_, _] := hp
  simp only [List.mem_cons, List.not_mem_nil, or_false] at hp
  rcases hp with rfl | rfl
  · simp at he
  · simp only [List.mem_cons, List.not_mem_nil, or_false, reduceCtorEq, false_or, TrackPart.encodings.injEq] at he
    subst he
    simp only [List.mem_cons, List.not_mem_nil, or_false, EncsPart.encoding.injEq] at hq
    subst hq
    simp at h

example : TracksGood sample := by
  refine ⟨by simp [sample], ?_, by decide⟩
  intro ps hp
  have hp : ps ∈ [_, _] := hp
  simp only [List.mem_cons, List.not_mem_nil, or_false] at hp
  rcases hp with rfl | rfl
  · refine ⟨by simp [TrackPart.Good], by decide, rfl, _, rfl, ?_⟩
    simp [VideoPart.Good, ColourGood, ProjGood, isMm, isPriv]
  · exact ⟨by simp [TrackPart.Good], by decide, rfl, rfl⟩

/-- With memory both are shown, the name as far as its first zero byte and the private data whole; the empty private data replaced the other. -/
example : ∃ x m, parseTracks (fun _ => true) sample = .ok (0, x, m) ∧ x.items.length = 2 ∧ m.live.length = 17 ∧
    (x.items.map fun t => (t.2.number, t.2.info.name.map (·.2), t.2.info.priv.map (·.2))) = [(1, some [68], some [1, 0, 2]), (2, none, none)] :=
  ⟨_, _, rfl, rfl, rfl, rfl⟩

/-- Without memory for the copy of the private data, parsing fails and there is no track. -/
example : ∃ x m m', parseTracks (fun n => n != 14) sample = .ok (-1, x, m) ∧ x.items.length = 0 ∧ m.live.length = 1 ∧
    destroyTracks x m = .ok m' ∧ m'.live = [] := ⟨_, _, _, rfl, rfl, rfl, rfl, rfl⟩

/-- But if an encoding is both a compression and an encryption, and there is no memory for the array of the second, parsing the tracks uses a
null pointer. -/
theorem C93_null_used : ∃ (can : Nat → Bool) (es : List (Part (List TrackPart))), parseTracks can es = .ub ∧ ∃ n, ∀ k, k ≠ n → can k = true :=
  ⟨fun n => n != 5, [.child [.number 1, .kind .audio, .audio true, .encodings [.encoding [.encryption [], .compression [.algo true]]]]], rfl, 5,
    fun k hk => by simpa using hk⟩

/-- The content encodings that cannot be parsed are left out without a word: parsing the tracks has success. -/
theorem C93_encodings_dropped (es : List EncsPart) (n : Nat) (hn : n ≠ 0) (hb : .bad ∈ es) :
    ∃ a t x m, parseTracks (fun _ => true) [.child [.number n, .kind .audio, .audio true, .encodings es]] = .ok (0, x, m) ∧
      x.items = [(a, t)] ∧ t.enc.items = [] := by
  have he : ∀ m : Mem, parseEncodings (fun _ => true) es m = .ok (false, {}, m) := fun m => by
    unfold parseEncodings
    rw [if_pos (List.any_eq_true.mpr ⟨_, hb, rfl⟩)]
  refine ⟨1, { number := n }, { addr := some 0, ended := true, room := 1, items := [(1, { number := n })] }, { live := [1, 0], next := 2 }, ?_, rfl, rfl⟩
  unfold parseTracks
  rw [if_neg (by simp [isBad]), if_neg (by simp [isChild])]
  show parseEntries _ _ _ _ = _
  unfold parseEntries parseEntry
  show ((makeTrack _ _ _ _ >>= _) >>= _) = _
  unfold makeTrack
  rw [if_neg (by simpa using hn)]
  show (((parseEncodings (fun _ => true) es _ >>= _) >>= _) >>= _) = _
  rw [he]
  rfl

end Verif.Props
