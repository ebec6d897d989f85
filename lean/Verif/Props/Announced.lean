/-
C80: the settings made at the muxer arrive at the callbacks of the incremental parser.
-/
import Verif.Props.Timeline

namespace Verif.Props
open Verif Verif.Web Verif.Web.Id Verif.Mux Spec

/-- **C80, finished files, partial.** A recording made with the muxer and read with the incremental parser, for all settings, tracks,
chapters, tags and frames, and any way the file arrives: a callback that takes what it is offered is told about the EBML header, the
segment information, every track, the chapters and every tag, in this order and nothing else of these kinds, and each member of each
structure is what was set at the muxer, or the default for what was not set.  What the structures hold is written out in
`Spec/Announced.lean`.

What is missing is as for `C61_recording_partial`. -/
theorem C80_recording_partial {g : Seg} {muxing writing : Bytes} {ts : List Track} {ch : Option (List Chapter)}
    {tg : Option (List Tag)}
    (hg : g.Settings muxing writing (tracksTree ts).bytes (ch.map fun c => (chaptersTree c).bytes)
      (tg.map fun t => (tagsTree t).bytes)) (hu : g.Unused) (hn : g.Numbered)
    (hacc : g.accurate = false) (hl : g.live = false)
    (hroom : g.Room (ch.map fun c => (chaptersTree c).bytes) (tg.map fun t => (tagsTree t).bytes))
    {xs : List SegCall} (hxs : g.WellFed xs) (hr : ∀ f, .frame f ∈ xs → f.InRange)
    {s : Sink} (hd : s.data = []) (hp : s.pos = 0) (hs : s.Sure)
    {rs : List (Res Unit)} {g1 g2 : Seg} {s1 s2 : Sink} {r : Res Unit} {d : Option Nat}
    (hrun : Seg.run xs g s = (rs, g1, s1)) (hfin : Seg.finalize d g1 s1 = (r, g2, s2))
    (hsm : s2.data.length < 2 ^ 48) (hw : ∃ f ∈ acceptedFrames xs rs, g.queues f = false) :
    r = .ok () ∧ AnnouncesAs s2.data (settingsSeen g.docType g.info.scale (g.lastDuration d) g.info.date muxing writing ts ch tg) := by
  obtain ⟨h1, -, h2⟩ := recorded_read hg hu hn hacc hl hroom hxs hr hd hp hs hrun hfin hsm hw
  exact ⟨h1, h2⟩

/-- **C80, live mode, partial.** As `C80_recording_partial`, in live mode. -/
theorem C80_live_partial {g : Seg} {muxing writing : Bytes} {ts : List Track} {ch : Option (List Chapter)}
    {tg : Option (List Tag)}
    (hg : g.Settings muxing writing (tracksTree ts).bytes (ch.map fun c => (chaptersTree c).bytes)
      (tg.map fun t => (tagsTree t).bytes)) (hu : g.Unused) (hn : g.Numbered)
    (hacc : g.accurate = false) (hl : g.live = true)
    {xs : List SegCall} (hxs : g.WellFed xs) (hr : ∀ f, .frame f ∈ xs → f.InRange)
    {s : Sink} (hd : s.data = []) (hp : s.pos = 0) (hs : s.Sure)
    {rs : List (Res Unit)} {g1 g2 : Seg} {s1 s2 : Sink} {r : Res Unit} {d : Option Nat}
    (hrun : Seg.run xs g s = (rs, g1, s1)) (hfin : Seg.finalize d g1 s1 = (r, g2, s2))
    (hsm : s2.data.length < 2 ^ 48) (hw : ∃ f ∈ acceptedFrames xs rs, g.queues f = false) :
    r = .ok () ∧ AnnouncesAs s2.data (settingsSeen g.docType g.info.scale g.info.duration g.info.date muxing writing ts ch tg) := by
  obtain ⟨h1, -, h2⟩ := live_read hg hu hn hacc hl hxs hr hd hp hs hrun hfin hsm hw
  exact ⟨h1, h2⟩

/-- **C80, unfinished files, partial.** Also the file between two calls has all the settings; the duration in it, on an output
that can seek, is the placeholder 1.0. -/
theorem C80_interrupted_partial {g : Seg} {muxing writing : Bytes} {ts : List Track} {ch : Option (List Chapter)}
    {tg : Option (List Tag)}
    (hg : g.Settings muxing writing (tracksTree ts).bytes (ch.map fun c => (chaptersTree c).bytes)
      (tg.map fun t => (tagsTree t).bytes)) (hu : g.Unused) (hn : g.Numbered) (hacc : g.accurate = false)
    {xs : List SegCall} (hxs : g.WellFed xs) (hx : ∃ f, .frame f ∈ xs) (hr : ∀ f, .frame f ∈ xs → f.InRange)
    {s : Sink} (hd : s.data = []) (hp : s.pos = 0) (hs : s.Sure)
    {rs : List (Res Unit)} {g1 : Seg} {s1 : Sink} (hrun : Seg.run xs g s = (rs, g1, s1))
    (hsm : s1.data.length < 2 ^ 48) :
    AnnouncesAs s1.data (settingsSeen g.docType g.info.scale (if !g.live && g.seekable then some 0x3F800000 else g.info.duration) g.info.date muxing writing ts ch tg) := by
  obtain ⟨a, b, -, -, h, -⟩ := interrupted_read hg hu hn hacc hxs hx hr hd hp hs hrun hsm
  exact h

/-- **C80, after moving the cues to the front, partial.** The copy has the same settings. -/
theorem C80_moved_partial {g : Seg} {muxing writing : Bytes} {ts : List Track} {ch : Option (List Chapter)}
    {tg : Option (List Tag)}
    (hg : g.Settings muxing writing (tracksTree ts).bytes (ch.map fun c => (chaptersTree c).bytes)
      (tg.map fun t => (tagsTree t).bytes)) (hu : g.Unused) (hn : g.Numbered)
    (hacc : g.accurate = false) (hl : g.live = false)
    (hroom : g.Room (ch.map fun c => (chaptersTree c).bytes) (tg.map fun t => (tagsTree t).bytes))
    (hcues : g.outputCues = true) (hseek : g.seekable = true)
    {xs : List SegCall} (hxs : g.WellFed xs) (hr : ∀ f, .frame f ∈ xs → f.InRange)
    {s : Sink} (hd : s.data = []) (hp : s.pos = 0) (hs : s.Sure)
    {rs : List (Res Unit)} {g1 g2 g3 : Seg} {s1 s2 s3 t : Sink} {r r' : Res Unit} {d : Option Nat}
    (hrun : Seg.run xs g s = (rs, g1, s1)) (hfin : Seg.finalize d g1 s1 = (r, g2, s2))
    (hsm : s2.data.length < 2 ^ 48) (hw : ∃ f ∈ acceptedFrames xs rs, g.queues f = false)
    (hmany : g2.cues.entries.length < 2 ^ 31) {depth : Nat} (hdepth : 7 * g2.cues.entries.length < depth)
    (htd : t.data = []) (htp : t.pos = 0) (hts : t.Sure)
    (hcopy : Seg.copyAndMoveCues depth true s2.data g2 t = (r', g3, s3)) (hsm3 : s3.data.length < 2 ^ 48) :
    r' = .ok () ∧ AnnouncesAs s3.data (settingsSeen g.docType g.info.scale (g.lastDuration d) g.info.date muxing writing ts ch tg) := by
  obtain ⟨h1, -, h2⟩ := moved_read hg hu hn hacc hl hroom hcues hseek hxs hr hd hp hs hrun hfin hsm hw hmany hdepth htd htp hts hcopy hsm3
  exact ⟨h1, h2⟩

/-! ### Structures inside structures -/

/-- What is told of the video settings. -/
theorem C80_video (v : VideoPart) : structOf kVideo (contents gVideo (videoTree v)) = videoSeen v := video_seen v

/-- What is told of the audio settings. -/
theorem C80_audio (a : AudioPart) : structOf kAudio (contents gAudio (audioTree a)) = audioSeen a := audio_seen a

/-- What is told of the colour settings, unless nothing is set. -/
theorem C80_colour (c : Colour) (h : colourTree c ≠ .nil) :
    structOf kColour (contents gColour (colourTree c)) = colourSeen c := colour_seen c h

/-- What is told of the mastering metadata, unless nothing is set. -/
theorem C80_mastering (m : MasteringMetadata) (h : masteringTree m ≠ .nil) :
    structOf kMasteringMetadata (contents gMasteringMetadata (masteringTree m)) = masteringSeen m := mastering_seen m h

/-- What is told of the projection. -/
theorem C80_projection (p : Projection) :
    structOf kProjection (contents gProjection (projectionTree p)) = projectionSeen p := projection_seen p

/-- What is told of the content encodings. -/
theorem C80_encodings (es : List ContentEncoding) (h : es ≠ []) :
    structOf kContentEncodings (contents gContentEncodings (groupIf 0x6D80 (each encodingTree es))) = encodingsSeen es := encodings_seen es h

/-- What is told of a content encoding. -/
theorem C80_encoding (e : ContentEncoding) :
    structOf kContentEncoding (contents gContentEncoding (encodingTree e)) = encodingSeen e := encoding_seen e

/-- What is told of its encryption. -/
theorem C80_encryption (e : ContentEncoding) :
    structOf kContentEncryption (contents gContentEncryption (encryptionTree e)) = encryptionSeen e := encryption_seen e

/-- What is told of the settings of that. -/
theorem C80_aes (e : ContentEncoding) :
    structOf kContentEncAesSettings (contents gContentEncAesSettings (aesTree e)) = aesSeen e := aes_seen e

/-- What is told of a chapter. -/
theorem C80_chapter (c : Chapter) :
    structOf kChapterAtom (contents (gChapterAtom maxRecursionDepth true) (chapterTree c)) = chapterSeen c := chapter_seen c

/-- What is told of a title of a chapter. -/
theorem C80_display (d : Display) :
    structOf kChapterDisplay (contents gChapterDisplay (displayTree d)) = displaySeen d := display_seen d

/-- What is told of a name and value of a tag. -/
theorem C80_simple_tag (t : SimpleTag) :
    structOf kSimpleTag (contents (gSimpleTag maxRecursionDepth true) (simpleTagTree t)) = simpleTagSeen t := simpleTag_seen t

/-- **Not everything arrives.** The largest ID of additional data (`set_max_block_additional_id`) and the colour space of the pixels
(`set_colour_space`) are written, but the structures have no members for them: recordings that differ in these only are told the same. -/
theorem C80_not_told (t : Track) (v : VideoPart) (n : UInt64) (b : Option Bytes) :
    trackSeen { t with maxBlockAdditionalId := n } = trackSeen t ∧ videoSeen { v with colourSpace := b } = videoSeen v := ⟨rfl, rfl⟩

/-! ### Examples -/

/-- The recording of `Props/Timeline.lean`: what is told. -/
example : ∃ xs, AnnouncesAs (Seg.finalize (some 0x40000000) (Seg.run (recordedFrames.map .frame) recordingSeg freshSink).2.1
      (Seg.run (recordedFrames.map .frame) recordingSeg freshSink).2.2).2.2.data xs ∧
    xs.map (·.1) = [kEbml, kInfo, kTrackEntry, kTrackEntry, kTag] ∧
    (xs[0]?.map fun s => s.2.lookup kDocType) = some (some (.one (.bytes recordingSeg.docType) true)) ∧
    (xs[1]?.map fun s => (s.2.lookup kTimecodeScale, s.2.lookup kMuxingApp, s.2.lookup kTitle)) =
      some (some (num 1000000), some (.one (.bytes [0x6D]) true), some (.one (.bytes []) false)) ∧
    (xs[2]?.map fun s => (s.2.lookup kTrackNumber, s.2.lookup kCodecId, s.2.lookup kLanguage)) =
      some (some (num 1), some (.one (.bytes [0x56]) true), some (.one (.bytes eng) false)) := by
  have h1 := rec_outcome
  have h2 := rec_small
  rcases hrun : Seg.run (recordedFrames.map .frame) recordingSeg freshSink with ⟨rs, g1, s1⟩
  rw [hrun] at h1 h2
  simp only at h1 h2
  subst h1
  rcases hfin : Seg.finalize (some 0x40000000) g1 s1 with ⟨r, g2, s2⟩
  simp only [hfin] at h2 ⊢
  have h := (C80_recording_partial (ch := none) (tg := some _) rec_settings ⟨rfl, rfl, rfl, rfl, rfl, rfl, rfl, rfl, rfl, rfl⟩
    (by unfold Seg.Numbered; decide) rfl rfl (by unfold Seg.Room; decide) rec_fed rec_range rfl rfl (fun _ => rfl) hrun hfin h2
    ⟨video 0, by decide, by decide⟩).2
  exact ⟨_, h, by decide +kernel, by decide +kernel, by decide +kernel, by decide +kernel⟩

/-- Colours and mastering metadata that are written. -/
example : colourTree { range := 2, mastering := some { luminanceMax := 0x3F800000 } } ≠ .nil ∧
    masteringTree { luminanceMax := 0x3F800000 } ≠ .nil := by
  constructor
  · intro h
    have := congrArg Tree.bytes h
    revert this
    decide +kernel
  · intro h
    have := congrArg Tree.bytes h
    revert this
    decide +kernel

/-- The video part of the first track. -/
example : structOf kVideo (contents gVideo (videoTree { width := 32, height := 24, displayWidth := 64 })) =
    [(kFlagInterlaced, .one (.nat 0) false), (kStereoMode, .one (.nat 0) false), (kAlphaMode, .one (.nat 0) false),
     (kPixelWidth, .one (.nat 32) true), (kPixelHeight, .one (.nat 24) true), (kPixelCropBottom, .one (.nat 0) false),
     (kPixelCropTop, .one (.nat 0) false), (kPixelCropLeft, .one (.nat 0) false), (kPixelCropRight, .one (.nat 0) false),
     (kDisplayWidth, .one (.nat 64) true), (kDisplayHeight, .one (.nat 24) false), (kDisplayUnit, .one (.nat 0) false),
     (kAspectRatioType, .one (.nat 0) false), (kFrameRate, .one (.float (some (8, 0))) false), (kColour, .one .nil false),
     (kProjection, .one .nil false)] := by
  rw [C80_video]; decide +kernel

end Verif.Props
