/-
C61: what the muxer writes is what the incremental parser reports.
-/
import Verif.Lemmas.Recorded

namespace Verif.Props
open Verif Verif.Web Verif.Mux Spec

/-- **C61, finished files, partial.** A recording made with the muxer and read with the incremental parser:
for all settings, tracks, chapters, tags and frames, and any way the file arrives, the parser completes
and its callback sees exactly the frames that were accepted, in order, each with its time (in timecode
units, rounded down), its track, its bytes, and its key flag, duration, discard padding and additional
data as far as a block carries them.

What is missing is as for `C21_file_partial`: without accurate cluster durations, on an output that
does not fail, files below 2⁴⁸ bytes. -/
theorem C61_recording_partial {g : Seg} {muxing writing : Bytes} {ts : List Track} {ch : Option (List Chapter)}
    {tg : Option (List Tag)}
    (hg : g.Settings muxing writing (tracksTree ts).bytes (ch.map fun c => (chaptersTree c).bytes)
      (tg.map fun t => (tagsTree t).bytes)) (hu : g.Unused) (hn : g.Numbered)
    (hacc : g.accurate = false) (hl : g.live = false)
    (hroom : g.Room (ch.map fun c => (chaptersTree c).bytes) (tg.map fun t => (tagsTree t).bytes))
    {xs : List SegCall} (hxs : g.WellFed xs) (hr : ∀ f, .frame f ∈ xs → f.InRange)
    {s : Sink} (hd : s.data = []) (hp : s.pos = 0) (hs : s.Sure)
    {rs : List (Res Unit)} {g1 g2 : Seg} {s1 s2 : Sink} {r : Res Unit} {d : Option Nat}
    (hrun : Seg.run xs g s = (rs, g1, s1)) (hfin : Seg.finalize d g1 s1 = (r, g2, s2))
    (hsm : s2.data.length < 2 ^ 48) (hw : ∃ f ∈ acceptedFrames xs rs, g.queues f = false) :
    r = .ok () ∧ PlaysAs s2.data ((acceptedFrames xs rs).map (Frame.asSeen g.info.scale)) := by
  obtain ⟨h1, h2, -⟩ := recorded_read hg hu hn hacc hl hroom hxs hr hd hp hs hrun hfin hsm hw
  exact ⟨h1, h2⟩

/-- **C61, live mode, partial.** As `C61_recording_partial`, in live mode. -/
theorem C61_live_partial {g : Seg} {muxing writing : Bytes} {ts : List Track} {ch : Option (List Chapter)}
    {tg : Option (List Tag)}
    (hg : g.Settings muxing writing (tracksTree ts).bytes (ch.map fun c => (chaptersTree c).bytes)
      (tg.map fun t => (tagsTree t).bytes)) (hu : g.Unused) (hn : g.Numbered)
    (hacc : g.accurate = false) (hl : g.live = true)
    {xs : List SegCall} (hxs : g.WellFed xs) (hr : ∀ f, .frame f ∈ xs → f.InRange)
    {s : Sink} (hd : s.data = []) (hp : s.pos = 0) (hs : s.Sure)
    {rs : List (Res Unit)} {g1 g2 : Seg} {s1 s2 : Sink} {r : Res Unit} {d : Option Nat}
    (hrun : Seg.run xs g s = (rs, g1, s1)) (hfin : Seg.finalize d g1 s1 = (r, g2, s2))
    (hsm : s2.data.length < 2 ^ 48) (hw : ∃ f ∈ acceptedFrames xs rs, g.queues f = false) :
    r = .ok () ∧ PlaysAs s2.data ((acceptedFrames xs rs).map (Frame.asSeen g.info.scale)) := by
  obtain ⟨h1, h2, -⟩ := live_read hg hu hn hacc hl hxs hr hd hp hs hrun hfin hsm hw
  exact ⟨h1, h2⟩

/-- **C61, unfinished files, partial.** The file as it is between two calls (so also what a crash leaves when
the output has everything written so far) is read completely too: the frames seen are the accepted
ones, up to the last few, which wait for a video frame. -/
theorem C61_interrupted_partial {g : Seg} {muxing writing : Bytes} {ts : List Track} {ch : Option (List Chapter)}
    {tg : Option (List Tag)}
    (hg : g.Settings muxing writing (tracksTree ts).bytes (ch.map fun c => (chaptersTree c).bytes)
      (tg.map fun t => (tagsTree t).bytes)) (hu : g.Unused) (hn : g.Numbered) (hacc : g.accurate = false)
    {xs : List SegCall} (hxs : g.WellFed xs) (hx : ∃ f, .frame f ∈ xs) (hr : ∀ f, .frame f ∈ xs → f.InRange)
    {s : Sink} (hd : s.data = []) (hp : s.pos = 0) (hs : s.Sure)
    {rs : List (Res Unit)} {g1 : Seg} {s1 : Sink} (hrun : Seg.run xs g s = (rs, g1, s1))
    (hsm : s1.data.length < 2 ^ 48) :
    ∃ written waiting : List SeenFrame,
      (acceptedFrames xs rs).map (Frame.asSeen g.info.scale) = written ++ waiting ∧ PlaysAs s1.data written ∧
      ∀ f ∈ waiting, g.hasVideo = true ∧ (g.tracks.byNumber f.track).any (fun e => e.kind == .audio) = true := by
  obtain ⟨a, b, h1, h2, -, h3⟩ := interrupted_read hg hu hn hacc hxs hx hr hd hp hs hrun hsm
  exact ⟨a, b, h1, h2, h3⟩

/-- **C61, after moving the cues to the front, partial.** The copy with the cues before the clusters shows
the same frames. -/
theorem C61_moved_partial {g : Seg} {muxing writing : Bytes} {ts : List Track} {ch : Option (List Chapter)}
    {tg : Option (List Tag)}
    (hg : g.Settings muxing writing (tracksTree ts).bytes (ch.map fun c => (chaptersTree c).bytes)
      (tg.map fun t => (tagsTree t).bytes)) (hu : g.Unused) (hn : g.Numbered)
    (hacc : g.accurate = false) (hl : g.live = false)
    (hroom : g.Room (ch.map fun c => (chaptersTree c).bytes) (tg.map fun t => (tagsTree t).bytes))
    (hcues : g.outputCues = true) (hseek : g.seekable = true)
    {xs : List SegCall} (hxs : g.WellFed xs) (hr : ∀ f, .frame f ∈ xs → f.InRange)
    {s : Sink} (hd : s.data = []) (hp : s.pos = 0) (hs : s.Sure)
    {rs : List (Res Unit)} {g1 g2 g3 : Seg} {s1 s2 s3 t : Sink} {r r' : Res Unit} {d : Option Nat}
    (hrun : Seg.run xs g s = (rs, g1, s1)) (hfin : Seg.finalize d g1 s1 = (r, g2, s2))
    (hsm : s2.data.length < 2 ^ 48) (hw : ∃ f ∈ acceptedFrames xs rs, g.queues f = false)
    (hmany : g2.cues.entries.length < 2 ^ 31) {depth : Nat} (hdepth : 7 * g2.cues.entries.length < depth)
    (htd : t.data = []) (htp : t.pos = 0) (hts : t.Sure)
    (hcopy : Seg.copyAndMoveCues depth true s2.data g2 t = (r', g3, s3)) (hsm3 : s3.data.length < 2 ^ 48) :
    r' = .ok () ∧ PlaysAs s3.data ((acceptedFrames xs rs).map (Frame.asSeen g.info.scale)) := by
  obtain ⟨h1, h2, -⟩ := moved_read hg hu hn hacc hl hroom hcues hseek hxs hr hd hp hs hrun hfin hsm hw hmany hdepth htd htp hts hcopy hsm3
  exact ⟨h1, h2⟩

/-! ### An example: a recording with two tracks and a tag -/

/-- A small video track. -/
def smallVideo : Track :=
  { number := 1, uid := 1, type := 1, codecId := some [0x56], part := .video { width := 32, height := 24 } }

/-- A segment with a video and an audio track, and a tag, for an output that cannot seek. -/
def recordingSeg : Seg :=
  { sampleSeg with seekable := false, tracksW := writeTracks [smallVideo, plainAudio],
                   tagsW := some (writeTags [[⟨some [0x54], some [0x56]⟩]]) }

theorem rec_ok : ∀ t ∈ [smallVideo, plainAudio], TrackOk t := by
  intro t ht
  rcases List.mem_cons.mp ht with rfl | ht
  · refine ⟨by decide, by decide, fun h => absurd h (by decide), ?_, ?_⟩
    · intro e he; cases he
    · intro v c hv hc; cases hv; cases hc
  · exact rich_ok t (.tail _ ht)

theorem rec_set : ∀ t ∈ [smallVideo, plainAudio], TrackSet t := by
  intro t ht
  rcases List.mem_cons.mp ht with rfl | ht
  · refine ⟨by decide, ?_, ?_⟩
    · intro e he; cases he
    · intro v c hv hc; cases hv; cases hc
  · exact rich_set t (.tail _ ht)

/-- Six frames: one with a duration and additional data, one that is a reference to another with a duration. -/
def recordedFrames : List Frame :=
  [video 0, { audio 1 with discardPadding := -5 },
   { video 33 with duration := 33500000, additional := some [7, 8], addId := 4 },
   { video 66 false with duration := 33000000, referenceBlockTimestamp := 33000000, referenceBlockTimestampSet := true },
   audio 70, video 99]

theorem rec_settings : recordingSeg.Settings [0x6D] [0x77] (tracksTree [smallVideo, plainAudio]).bytes
    ((none : Option (List Chapter)).map fun c => (chaptersTree c).bytes)
    ((some [[⟨some [0x54], some [0x56]⟩]]).map fun t => (tagsTree t).bytes) :=
  { muxing := ⟨rfl, by decide⟩
    writing := ⟨rfl, by decide⟩
    scale := by decide
    docType := by decide
    version := rfl
    tracks := tracks_puts rec_ok rec_set (C60_small_fits (by decide +kernel))
    chapters := trivial
    tags := tags_puts (by unfold TagOk; decide) (C60_small_fits (by decide +kernel))
    cues := fun _ => .inr (by decide) }

theorem rec_fed : recordingSeg.WellFed (recordedFrames.map .frame) where
  sound := by
    intro f hf
    simp only [recordedFrames, List.map_cons, List.map_nil, List.mem_cons, List.not_mem_nil, or_false, SegCall.frame.injEq] at hf
    rcases hf with rfl | rfl | rfl | rfl | rfl | rfl <;>
      exact ⟨by decide, by decide, ⟨⟨by decide, by intro a h; cases h; try decide⟩, by decide⟩, by decide⟩
  waiting := by decide
  start := by unfold Span; decide

theorem rec_range : ∀ f, .frame f ∈ recordedFrames.map SegCall.frame → f.InRange := by
  intro f hf
  simp only [recordedFrames, List.map_cons, List.map_nil, List.mem_cons, List.not_mem_nil, or_false, SegCall.frame.injEq] at hf
  rcases hf with rfl | rfl | rfl | rfl | rfl | rfl <;> exact ⟨by decide, by decide, by decide⟩

/-- All six calls succeed, ... -/
theorem rec_outcome :
    (Seg.run (recordedFrames.map .frame) recordingSeg freshSink).1 = [.ok (), .ok (), .ok (), .ok (), .ok (), .ok ()] := by
  decide +kernel

theorem rec_small :
    (Seg.finalize (some 0x40000000) (Seg.run (recordedFrames.map .frame) recordingSeg freshSink).2.1
      (Seg.run (recordedFrames.map .frame) recordingSeg freshSink).2.2).2.2.data.length < 2 ^ 48 := by decide +kernel

/-- ... so the theorem applies, and this is what is seen. -/
example : PlaysAs (Seg.finalize (some 0x40000000) (Seg.run (recordedFrames.map .frame) recordingSeg freshSink).2.1
      (Seg.run (recordedFrames.map .frame) recordingSeg freshSink).2.2).2.2.data
    [{ time := 0, track := 1, data := [1], key := true },
     { time := 1, track := 2, data := [2], key := true, padding := -5 },
     { time := 33, track := 1, data := [1], key := true, duration := 33, additional := some (4, [7, 8]) },
     { time := 66, track := 1, data := [1], key := false, duration := 33 },
     { time := 70, track := 2, data := [2], key := true },
     { time := 99, track := 1, data := [1], key := true }] := by
  have h1 := rec_outcome
  have h2 := rec_small
  rcases hrun : Seg.run (recordedFrames.map .frame) recordingSeg freshSink with ⟨rs, g1, s1⟩
  rw [hrun] at h1 h2
  simp only at h1 h2
  subst h1
  rcases hfin : Seg.finalize (some 0x40000000) g1 s1 with ⟨r, g2, s2⟩
  simp only [hfin] at h2 ⊢
  have h := (C61_recording_partial (ch := none) (tg := some _) rec_settings ⟨rfl, rfl, rfl, rfl, rfl, rfl, rfl, rfl, rfl, rfl⟩
    (by unfold Seg.Numbered; decide) rfl rfl (by unfold Seg.Room; decide) rec_fed rec_range rfl rfl (fun _ => rfl) hrun hfin h2
    ⟨video 0, by decide, by decide⟩).2
  have e : (acceptedFrames (recordedFrames.map .frame) [.ok (), .ok (), .ok (), .ok (), .ok (), .ok ()]).map (Frame.asSeen recordingSeg.info.scale) =
    [{ time := 0, track := 1, data := [1], key := true },
     { time := 1, track := 2, data := [2], key := true, padding := -5 },
     { time := 33, track := 1, data := [1], key := true, duration := 33, additional := some (4, [7, 8]) },
     { time := 66, track := 1, data := [1], key := false, duration := 33 },
     { time := 70, track := 2, data := [2], key := true },
     { time := 99, track := 1, data := [1], key := true }] := by decide
  rw [e] at h
  exact h

/-- On an output that can seek: the example of `Props/MuxerSegment.lean`, which has no tracks in its header. -/
example : PlaysAs (Seg.finalize (some 0x40000000) (Seg.run (usualFrames.map .frame) sampleSeg freshSink).2.1
      (Seg.run (usualFrames.map .frame) sampleSeg freshSink).2.2).2.2.data
    (usualFrames.map (Frame.asSeen 1000000)) := by
  have h1 : (Seg.run (usualFrames.map .frame) sampleSeg freshSink).1 = [.ok (), .ok (), .ok (), .ok (), .ok (), .ok ()] := by
    decide +kernel
  have h2 := usual_small
  rcases hrun : Seg.run (usualFrames.map .frame) sampleSeg freshSink with ⟨rs, g1, s1⟩
  rw [hrun] at h1 h2
  simp only at h1 h2
  subst h1
  rcases hfin : Seg.finalize (some 0x40000000) g1 s1 with ⟨r, g2, s2⟩
  simp only [hfin] at h2 ⊢
  have hset : sampleSeg.Settings [0x6D] [0x77] (tracksTree []).bytes ((none : Option (List Chapter)).map fun c => (chaptersTree c).bytes)
      ((none : Option (List Tag)).map fun t => (tagsTree t).bytes) :=
    { muxing := ⟨rfl, by decide⟩, writing := ⟨rfl, by decide⟩, scale := by decide, docType := by decide, version := rfl,
      tracks := by
        have e : (tracksTree []).bytes = [0x16, 0x54, 0xAE, 0x6B, 0x80] := by decide +kernel
        rw [e]; exact Emits.write _
      chapters := trivial, tags := trivial, cues := fun _ => .inr (by decide) }
  have hfed : sampleSeg.WellFed (usualFrames.map .frame) :=
    { sound := by
        intro f hf
        simp only [usualFrames, List.map_cons, List.map_nil, List.mem_cons, List.not_mem_nil, or_false, SegCall.frame.injEq] at hf
        rcases hf with rfl | rfl | rfl | rfl | rfl | rfl <;>
          exact ⟨by decide, by decide, ⟨⟨by decide, by intro a h; cases h⟩, by decide⟩, by decide⟩
      waiting := by decide
      start := by unfold Span; decide }
  have hrange : ∀ f, .frame f ∈ usualFrames.map SegCall.frame → f.InRange := by
    intro f hf
    simp only [usualFrames, List.map_cons, List.map_nil, List.mem_cons, List.not_mem_nil, or_false, SegCall.frame.injEq] at hf
    rcases hf with rfl | rfl | rfl | rfl | rfl | rfl <;> exact ⟨by decide, by decide, by decide⟩
  exact (C61_recording_partial (ch := none) (tg := none) hset ⟨rfl, rfl, rfl, rfl, rfl, rfl, rfl, rfl, rfl, rfl⟩
    (by unfold Seg.Numbered; decide) rfl rfl (by unfold Seg.Room; decide) hfed hrange rfl rfl (fun _ => rfl) hrun hfin h2
    ⟨video 0, by decide, by decide⟩).2

/-! ### What is not preserved -/

/-- The references reported in a reading, as signed numbers. -/
def referencesTold (L : Log) : List Int :=
  L.filterMap fun e => match e with
    | .complete _ g => (g.get Id.kReferenceBlock).map fun v => signedOf 64 (natOr 0 (some v))
    | _ => none

/-- The frames of the next theorem: the second refers to the first. -/
def referringFrames : List Frame :=
  [video 200,
   { video 233 false with duration := 1000000, referenceBlockTimestamp := 200000000, referenceBlockTimestampSet := true }]

/-- The file with them (on an output that cannot seek). -/
def referringFile : Bytes :=
  [0x1A, 0x45, 0xDF, 0xA3, 0x9F, 0x42, 0x86, 0x81, 0x01, 0x42, 0xF7, 0x81, 0x01, 0x42, 0xF2, 0x81, 0x04, 0x42,
   0xF3, 0x81, 0x08, 0x42, 0x82, 0x84, 0x77, 0x65, 0x62, 0x6D, 0x42, 0x87, 0x81, 0x04, 0x42, 0x85, 0x81, 0x02,
   0x18, 0x53, 0x80, 0x67, 0x01, 0xFF, 0xFF, 0xFF, 0xFF, 0xFF, 0xFF, 0xFF, 0x15, 0x49, 0xA9, 0x66, 0x8F, 0x2A,
   0xD7, 0xB1, 0x83, 0x0F, 0x42, 0x40, 0x4D, 0x80, 0x81, 0x6D, 0x57, 0x41, 0x81, 0x77, 0x16, 0x54, 0xAE, 0x6B,
   0x80, 0x1F, 0x43, 0xB6, 0x75, 0x01, 0xFF, 0xFF, 0xFF, 0xFF, 0xFF, 0xFF, 0xFF, 0xE7, 0x81, 0xC8, 0xA3, 0x85,
   0x81, 0x00, 0x00, 0x80, 0x01, 0xA0, 0x8D, 0xA1, 0x85, 0x81, 0x00, 0x21, 0x00, 0x01, 0xFB, 0x81, 0xC8, 0x9B,
   0x81, 0x01, 0x1C, 0x53, 0xBB, 0x6B, 0x8D, 0xBB, 0x8B, 0xB3, 0x81, 0xC8, 0xB7, 0x86, 0xF7, 0x81, 0x01, 0xF1,
   0x81, 0x19]

/-- **References change.** The frame at 233 refers to the one at 200.  Matroska's ReferenceBlock holds
the difference (-33) as a signed number.  The muxer writes the other frame's time as an unsigned
number (200, the byte C8), and the parser reads it as the signed number -56
(mkvmuxer/mkvmuxerutil.cc:69-74, 138-142, webm_parser/src/block_group_parser.h:35-37). -/
theorem C61_reference_sign :
    (let r := Seg.run (referringFrames.map .frame) { sampleSeg with seekable := false } freshSink
     let f := Seg.finalize none r.2.1 r.2.2
     (r.1, f.1, f.2.2.data) = ([.ok (), .ok ()], .ok (), referringFile)) ∧
    (let d := drive (Parser.feed acceptAll) 1 ({}, []) (allAtOnce referringFile)
     (d.1, referencesTold d.2.1.2) = (.okCompleted, [-56])) := by
  constructor <;> decide +kernel

end Verif.Props
