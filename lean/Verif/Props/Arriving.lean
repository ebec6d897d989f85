/-
C70: an application that loads a file while it arrives, and makes a call again when it needed more data, sees what it
would see if the whole file were there.
-/
import Verif.Lemmas.Arriving

namespace Verif.Props
open Verif Verif.Par Verif.Spec

/-! ### Any file, any calls, any way of arriving -/

/-- **C70, partial.** Whatever the file, whatever repeatable calls are made, and however many bytes are there each time a
call is made or repeated: the answers are those of the same calls when the whole file is there (an error stays an error),
and so is the segment, except for the content encodings of its tracks.  The length of the file may be known or not.  The
hypothesis on undefined behaviour is met by every file whose length is known, see `C70_file_partial`.

Missing for the full property: the content encodings (see `C70_encodings_differ`), which of two error codes it is, `Load`
(see `C70_load_cannot_be_repeated`), calls on tracks and cues. -/
theorem C70_calls_partial {file : Bytes} {total : Int} (ht : total < 0 ∨ (file.length : Int) ≤ total) (fuel : Nat)
    (g : ReadSegment) (calls : List (ApiCall × List Nat)) (hc : ∀ x ∈ calls, repeatable x.1 = true)
    (hub : ∀ x ∈ (atOnce file total fuel g (calls.map (·.1))).2, x ≠ .ub) :
    withoutEncodings (streamed file total fuel g calls).1 =
        withoutEncodings (atOnce file total fuel g (calls.map (·.1))).1 ∧
      SameAnswers (streamed file total fuel g calls).2 (atOnce file total fuel g (calls.map (·.1))).2 :=
  streamed_fits ht fuel calls (.refl g) hc hub

/-- **C70, creation.** `CreateInstance`, repeated while it needs more data, gives the segment it gives when the whole file
is there. -/
theorem C70_created {file : Bytes} {total : Int} (ht : total < 0 ∨ (file.length : Int) ≤ total) (pos : Nat) (ns : List Nat) :
    SameAnswer (createdPatiently file total pos ns) (createInstance (arrived file total file.length) pos) :=
  createdPatiently_same ht pos ns

/-- **C70, header.** `EBMLHeader::Parse`, repeated while it needs more data, gives the header it gives when the whole file is
there, provided that the ID of the header is there when it is first called (see `C70_header_too_early`). -/
theorem C70_header {file : Bytes} {total : Int} (ht : total < 0 ∨ (file.length : Int) ≤ total)
    (h4 : file.take 4 = [0x1A, 0x45, 0xDF, 0xA3]) {ns : List Nat} (hns : ∀ n ∈ ns, 4 ≤ n) :
    SameAnswer (headPatiently file total ns) (ebmlHeadParse (arrived file total file.length)) := by
  refine headPatiently_same ht ?_ ?_ ns hns
  · have := congrArg (·[0]?) h4
    simpa [List.getElem?_take] using this
  · have := congrArg List.length h4
    simp only [List.length_take, List.length_cons, List.length_nil] at this
    omega

/-- **C70, a file of known length, partial.** From `CreateInstance` on, for every file, every series of repeatable calls and
every way of arriving: the answers and the segment are those that the whole file gives, nothing undefined happens, and
every frame handed out lies inside the file and can be read once it is there.

Missing: as for `C70_calls_partial`. -/
theorem C70_file_partial {file : Bytes} {fuel : Nat} (hf : file.length < fuel) {pos : Nat} {ns : List Nat} {g : ReadSegment}
    (hg : createdPatiently file file.length pos ns = .ok g) (calls : List (ApiCall × List Nat))
    (hc : ∀ x ∈ calls, repeatable x.1 = true) :
    createInstance (arrived file file.length file.length) pos = .ok g ∧
    withoutEncodings (streamed file file.length fuel g calls).1 =
        withoutEncodings (atOnce file file.length fuel g (calls.map (·.1))).1 ∧
      SameAnswers (streamed file file.length fuel g calls).2 (atOnce file file.length fuel g (calls.map (·.1))).2 ∧
      ∀ x ∈ (streamed file file.length fuel g calls).2, Sound (arrived file file.length file.length) file x := by
  have ht : (file.length : Int) < 0 ∨ (file.length : Int) ≤ (file.length : Int) := .inr (Int.le_refl _)
  have h1 : createInstance (arrived file file.length file.length) pos = .ok g := by
    have := createdPatiently_same ht pos ns
    rw [hg] at this
    rcases this with e | ⟨c, d, e, -⟩
    · exact e.symm
    · cases e
  have h2 := atOnce_ok hf (calls.map (·.1)) (createInstance_state h1)
  obtain ⟨h3, h4⟩ := streamed_fits ht fuel calls (.refl g) hc fun x hx => (h2 x hx).1
  refine ⟨h1, h3, h4, fun x hx => ?_⟩
  obtain ⟨y, hy, hxy⟩ := sameAnswers_mem h4 x hx
  exact hxy.sound (h2 y hy)

/-- **C70, recordings.** What mkvparser shows of a file when it is all there (which C65 settles for the recordings made with
the muxer) it shows however the file arrives. -/
theorem C70_recording {file : Bytes} (h4 : file.take 4 = [0x1A, 0x45, 0xDF, 0xA3]) {h : Shown} {fs : List SeenFrame}
    (hw : WatchedAs file h fs) : StreamedAs file h fs :=
  watched_streamed h4 hw

/-! ### A file -/

/-- A file of 126 bytes: a video track and two clusters with a block each. -/
private def twoClusters : Bytes := [
  0x1A, 0x45, 0xDF, 0xA3, 0x9F, 0x42, 0x86, 0x81, 0x01, 0x42, 0xF7, 0x81, 0x01, 0x42, 0xF2, 0x81, 0x04, 0x42, 0xF3, 0x81,
  0x08, 0x42, 0x82, 0x84, 0x77, 0x65, 0x62, 0x6D, 0x42, 0x87, 0x81, 0x04, 0x42, 0x85, 0x81, 0x02, 0x18, 0x53, 0x80, 0x67,
  0x40, 0x54, 0x15, 0x49, 0xA9, 0x66, 0x94, 0x2A, 0xD7, 0xB1, 0x88, 0x40, 0x00, 0x00, 0x00, 0x00, 0x00, 0x00, 0x00, 0x4D,
  0x80, 0x81, 0x6D, 0x57, 0x41, 0x81, 0x77, 0x16, 0x54, 0xAE, 0x6B, 0x97, 0xAE, 0x95, 0xD7, 0x81, 0x01, 0x73, 0xC5, 0x81,
  0x01, 0x83, 0x81, 0x01, 0x86, 0x81, 0x56, 0xE0, 0x86, 0xB0, 0x81, 0x01, 0xBA, 0x81, 0x01, 0x1F, 0x43, 0xB6, 0x75, 0x8A,
  0xE7, 0x81, 0x01, 0xA3, 0x85, 0x81, 0x00, 0x00, 0x80, 0x07, 0x1F, 0x43, 0xB6, 0x75, 0x8B, 0xE7, 0x81, 0x02, 0xA3, 0x86,
  0x81, 0x00, 0x00, 0x80, 0x09, 0x0A]

/-- A file with a track whose compression has settings that go beyond their element. -/
private def overrun : Bytes := [
  0x1A, 0x45, 0xDF, 0xA3, 0x9F, 0x42, 0x86, 0x81, 0x01, 0x42, 0xF7, 0x81, 0x01, 0x42, 0xF2, 0x81, 0x04, 0x42, 0xF3, 0x81,
  0x08, 0x42, 0x82, 0x84, 0x77, 0x65, 0x62, 0x6D, 0x42, 0x87, 0x81, 0x04, 0x42, 0x85, 0x81, 0x02, 0x18, 0x53, 0x80, 0x67,
  0x40, 0x5E, 0x15, 0x49, 0xA9, 0x66, 0x8F, 0x2A, 0xD7, 0xB1, 0x83, 0x0F, 0x42, 0x40, 0x4D, 0x80, 0x81, 0x6D, 0x57, 0x41,
  0x81, 0x77, 0x16, 0x54, 0xAE, 0x6B, 0xA3, 0xAE, 0xA1, 0xD7, 0x81, 0x01, 0x73, 0xC5, 0x81, 0x01, 0x83, 0x81, 0x01, 0x86,
  0x81, 0x56, 0xE0, 0x86, 0xB0, 0x81, 0x01, 0xBA, 0x81, 0x01, 0x6D, 0x80, 0x89, 0x62, 0x40, 0x86, 0x50, 0x34, 0x83, 0x42,
  0x55, 0x95, 0x1F, 0x43, 0xB6, 0x75, 0x9D, 0xE7, 0x81, 0x01, 0xA3, 0x98, 0x81, 0x00, 0x00, 0x80, 0x07, 0x07, 0x07, 0x07,
  0x07, 0x07, 0x07, 0x07, 0x07, 0x07, 0x07, 0x07, 0x07, 0x07, 0x07, 0x07, 0x07, 0x07, 0x07, 0x07]

private def kinds (xs : List (Res (Option Entry))) : List (Option (Option Nat)) :=
  xs.map fun x => match x with
    | .ok none => some none
    | .ok (some e) => some (some e.block.frames.length)
    | _ => none

/-- The segment of a file. -/
private def segmentOf (file : Bytes) : Option ReadSegment :=
  match createInstance (arrived file file.length file.length) 36 with
  | .ok g => some g
  | _ => none

-- byte after byte where it matters: `CreateInstance` needs 42 bytes, the headers 99, the clusters 110 and 120
example : createdPatiently twoClusters 126 36 [0, 36, 37, 41, 42] = createInstance (arrived twoClusters 126 42) 36 ∧
    (createInstance (arrived twoClusters 126 41) 36 = .err 42) := by decide +kernel

example : (segmentOf twoClusters).map (fun g => kinds (streamed twoClusters 126 127 g
      [(.headers, [0, 42, 43, 60, 95, 98]), (.loadCluster, [99, 104, 108, 109, 110]), (.timeCode 0, [102, 103]),
       (.first 0, [100, 109]), (.next 0 0, [110, 115]), (.loadCluster, [110, 119, 121]), (.last 1, [110, 125]),
       (.loadCluster, [])]).2) =
    some [some none, some none, some none, some (some 1), some none, some none, some (some 1), some none] := by decide +kernel

-- of unknown length
example : (match createInstance (arrived twoClusters (-1) 126) 36 with
      | .ok g => some (kinds (streamed twoClusters (-1) 127 g [(.headers, [50, 98]), (.loadCluster, [104]), (.first 0, [104, 108])]).2)
      | _ => none) = some [some none, some none, some (some 1)] := by decide +kernel

example : headPatiently twoClusters 126 [4, 5, 20, 35] = ebmlHeadParse (arrived twoClusters 126 126) ∧
    (∃ e, ebmlHeadParse (arrived twoClusters 126 126) = .ok (.done 36 e)) ∧
    twoClusters.take 4 = [0x1A, 0x45, 0xDF, 0xA3] := by
  refine ⟨by decide +kernel, ⟨⟨1, 1, 4, 8, some [0x77, 0x65, 0x62, 0x6D], 4, 2⟩, by decide +kernel⟩,
    by decide +kernel⟩

/-! ### What differs -/

/-- C70 fails for `EBMLHeader::Parse` before the ID of the header is there: it answers that the file is invalid, and not
that more data is needed. -/
theorem C70_header_too_early : ∃ file : Bytes, ∃ pos e,
    ebmlHeadParse (arrived file file.length file.length) = .ok (.done pos e) ∧
    ∀ n, n < 4 → ebmlHeadParse (arrived file file.length n) = .err E_FILE_FORMAT_INVALID := by
  refine ⟨twoClusters, 36, ⟨1, 1, 4, 8, some [0x77, 0x65, 0x62, 0x6D], 4, 2⟩, by decide +kernel, ?_⟩
  decide +kernel

/-- C70 fails for `Load`: when it has loaded a cluster and then needs more data, calling it again is an error, although
`Load` succeeds when the whole file is there. -/
theorem C70_load_cannot_be_repeated : ∃ file g n,
    createInstance (arrived file file.length file.length) 36 = .ok g ∧
    (g.load (arrived file file.length file.length) (file.length + 1)).2 = .ok () ∧
    (g.load (arrived file file.length n) (file.length + 1)).2 = .err E_BUFFER_NOT_FULL ∧
    ((g.load (arrived file file.length n) (file.length + 1)).1.load (arrived file file.length file.length)
      (file.length + 1)).2 = .err E_PARSE_FAILED := by
  refine ⟨twoClusters, (segmentOf twoClusters).getD { start := 0, size := none, pos := 0 }, 110, ?_, ?_⟩ <;> decide +kernel

/-- A block may be handed out before its frames have arrived: they cannot be read then. -/
theorem C70_frame_not_there : ∃ (file : Bytes) (n : Nat) (g : ReadSegment) (e : Entry),
    createInstance (arrived file file.length n) 36 = .ok g ∧
    (streamed file file.length 127 g [(.headers, []), (.loadCluster, []), (.first 0, [n])]).2 =
      [.ok none, .ok none, .ok (some e)] ∧
    (ask (arrived file file.length n) 127 (streamed file file.length 127 g [(.headers, []), (.loadCluster, [])]).1
      (.first 0)).2 = .ok (some e) ∧
    e.block.frames.map (fun f => (f.read (arrived file file.length n)).toOption) = [none] ∧
    e.block.frames.map (fun f => (f.read (arrived file file.length file.length)).toOption) = [some [7]] := by
  refine ⟨twoClusters, 109, (segmentOf twoClusters).getD { start := 0, size := none, pos := 0 },
    .simple { start := 105, size := 5, track := 1, timecode := 0, flags := 0x80, frames := [⟨109, 1⟩], discardPadding := 0 }, ?_⟩
  decide +kernel

/-- C70 fails for the content encodings of a damaged file: settings that go beyond their element are refused when the whole
file is there, and overlooked when what they run into has not arrived. -/
theorem C70_encodings_differ : ∃ (file : Bytes) (n : Nat) (g : ReadSegment),
    createInstance (arrived file file.length n) 36 = .ok g ∧
    (g.parseHeaders (arrived file file.length n)).2 = .ok () ∧
    (g.parseHeaders (arrived file file.length n)).1.tracks.map (·.map fun t => t.encodings.length) = some [1] ∧
    (g.parseHeaders (arrived file file.length file.length)).2 = .ok () ∧
    (g.parseHeaders (arrived file file.length file.length)).1.tracks.map (·.map fun t => t.encodings.length) = some [0] := by
  refine ⟨overrun, 107, (segmentOf overrun).getD { start := 0, size := none, pos := 0 }, ?_⟩
  decide +kernel

end Verif.Props
