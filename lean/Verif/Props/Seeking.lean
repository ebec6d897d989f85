/-
C67: seeking by the cues of a recording.
-/
import Verif.Props.Watching
import Verif.Lemmas.ParserSeekFile

namespace Verif.Props
open Verif Verif.Par Verif.Mux Spec

/-- The frames of this track come in the order of their times. -/
def TrackInOrder (track : Nat) (fs : List Frame) : Prop :=
  (fs.filter fun f => decide (f.trackNumber = track)).Pairwise fun a b => a.timestamp ≤ b.timestamp

theorem watched_order {scale track : Nat} {fs : List Frame} (h : TrackInOrder track fs) :
    ((fs.map (Frame.asWatched scale)).filter fun f => decide (f.track = track)).Pairwise fun a b => a.time ≤ b.time := by
  rw [List.filter_map, List.pairwise_map]
  refine List.Pairwise.imp ?_ h
  intro a b hab
  rw [asWatched_time, asWatched_time]
  exact Int.ofNat_le.mpr (Nat.div_le_div_right hab)

theorem watched_times {scale : Nat} {fs : List Frame} (h : ∀ f ∈ fs, f.timestamp < 2 ^ 63) :
    ∀ f ∈ fs.map (Frame.asWatched scale), f.time * scale ≤ llongMax := by
  intro f hf
  obtain ⟨x, hx, rfl⟩ := List.mem_map.mp hf
  rw [asWatched_time]
  have h1 := h x hx
  have h2 : x.timestamp / scale * scale ≤ x.timestamp := Nat.div_mul_le_self _ _
  rw [← Int.natCast_mul]
  unfold llongMax
  omega

/-- **C67, partial.** Seeking in a recording made with the muxer, with mkvparser: for all settings, tracks, chapters,
tags and frames within mkvparser's limits, when the frames of the track that has the cues come in order of time, the
file loads into clusters that show the accepted frames, and every seek to a time arrives at the first frame of
that track in a cluster: the last such frame that is not later than the time, or the first one of all if none is
earlier.  From there on playing shows every following frame, on all tracks.  Block numbers must be written (the default) unless all frames
are of one track.

What is missing is as for `C65_recording_partial`, and that the frame is a key frame: see
`C67_lands_on_non_key`.  Without block numbers the seek can fail: see `C67_unnumbered`. -/
theorem C67_recording_partial {g : Seg} {muxing writing : Bytes} {ts : List Track} {ch : Option (List Chapter)}
    {tg : Option (List Tag)}
    (hg : g.Settings muxing writing (tracksTree ts).bytes (ch.map fun c => (chaptersTree c).bytes)
      (tg.map fun t => (tagsTree t).bytes)) (hu : g.Unused) (hn : g.Numbered)
    (hacc : g.accurate = false) (hl : g.live = false)
    (hroom : g.Room (ch.map fun c => (chaptersTree c).bytes) (tg.map fun t => (tagsTree t).bytes))
    (hcues : g.outputCues = true)
    {xs : List SegCall} (hxs : g.WellFed xs) (hr : ∀ f, .frame f ∈ xs → f.Showable g.info.scale)
    {s : Sink} (hd : s.data = []) (hp : s.pos = 0) (hs : s.Sure)
    {rs : List (Res Unit)} {g1 g2 : Seg} {s1 s2 : Sink} {r : Res Unit} {d : Option Nat} {du : Option UInt32}
    (hrun : Seg.run xs g s = (rs, g1, s1)) (hfin : Seg.finalize d g1 s1 = (r, g2, s2))
    (hsm : s2.data.length < 2 ^ 48) (hw : ∃ f ∈ acceptedFrames xs rs, g.queues f = false)
    (hdu : g.lastDuration d = du.map UInt32.toNat) (hv : Viewable g.docType g.info.scale du muxing writing ts ch tg)
    (horder : TrackInOrder g.cuesOn (acceptedFrames xs rs)) (htimes : ∀ f ∈ acceptedFrames xs rs, f.timestamp < 2 ^ 63)
    (hnum : g.cues.outputBlockNumber = true ∨ ∀ f ∈ acceptedFrames xs rs, f.trackNumber = g.cuesOn) :
    r = .ok () ∧ ∃ clusters : List (List SeenFrame),
      clusters.flatten = (acceptedFrames xs rs).map (Frame.asWatched g.info.scale) ∧
      SeeksAs s2.data g.info.scale g.cuesOn clusters := by
  obtain ⟨h1, off, at', cs, bs, q, h2, h3, h4, -, -, h6, h7, h8, -⟩ :=
    recording_opens hg hu hn hacc hl hroom hxs hr hd hp hs hrun hfin hsm hw hdu hv
  obtain ⟨cues, rfl, h9⟩ := h8 hcues
  have e : (watchedClusters g.info.scale cs).flatten = (acceptedFrames xs rs).map (Frame.asWatched g.info.scale) := by
    rw [watchedClusters_flatten, h7]
  refine ⟨h1, watchedClusters g.info.scale cs, e, ?_⟩
  refine seeks_file h2 ?_ h3 h4 h9 ?_ h6 hv.info.ticks.1 rfl (e ▸ watched_order horder) (e ▸ watched_times htimes)
  · simp only [tailCues]
    have := cuesPayload_count cues
    split
    · rename_i h0
      exact .inr ⟨rfl, List.length_eq_zero_iff.mp (by omega)⟩
    · exact .inl ⟨_, rfl, by omega⟩
  · refine hnum.imp id fun h f hf => ?_
    rw [e] at hf
    obtain ⟨x, hx, rfl⟩ := List.mem_map.mp hf
    exact h x hx

/-- **C67, after moving the cues to the front, partial.** The same for the copy that has the cues before the
clusters. -/
theorem C67_moved_partial {g : Seg} {muxing writing : Bytes} {ts : List Track} {ch : Option (List Chapter)}
    {tg : Option (List Tag)}
    (hg : g.Settings muxing writing (tracksTree ts).bytes (ch.map fun c => (chaptersTree c).bytes)
      (tg.map fun t => (tagsTree t).bytes)) (hu : g.Unused) (hn : g.Numbered)
    (hacc : g.accurate = false) (hl : g.live = false)
    (hroom : g.Room (ch.map fun c => (chaptersTree c).bytes) (tg.map fun t => (tagsTree t).bytes))
    (hcues : g.outputCues = true) (hseek : g.seekable = true)
    {xs : List SegCall} (hxs : g.WellFed xs) (hr : ∀ f, .frame f ∈ xs → f.Showable g.info.scale)
    {s : Sink} (hd : s.data = []) (hp : s.pos = 0) (hs : s.Sure)
    {rs : List (Res Unit)} {g1 g2 g3 : Seg} {s1 s2 s3 t : Sink} {r r' : Res Unit} {d : Option Nat} {du : Option UInt32}
    (hrun : Seg.run xs g s = (rs, g1, s1)) (hfin : Seg.finalize d g1 s1 = (r, g2, s2))
    (hsm : s2.data.length < 2 ^ 48) (hw : ∃ f ∈ acceptedFrames xs rs, g.queues f = false)
    (hmany : g2.cues.entries.length < 2 ^ 31) {depth : Nat} (hdepth : 7 * g2.cues.entries.length < depth)
    (htd : t.data = []) (htp : t.pos = 0) (hts : t.Sure)
    (hcopy : Seg.copyAndMoveCues depth true s2.data g2 t = (r', g3, s3)) (hsm3 : s3.data.length < 2 ^ 48)
    (hdu : g.lastDuration d = du.map UInt32.toNat) (hv : Viewable g.docType g.info.scale du muxing writing ts ch tg)
    (horder : TrackInOrder g.cuesOn (acceptedFrames xs rs)) (htimes : ∀ f ∈ acceptedFrames xs rs, f.timestamp < 2 ^ 63)
    (hnum : g.cues.outputBlockNumber = true ∨ ∀ f ∈ acceptedFrames xs rs, f.trackNumber = g.cuesOn) :
    r' = .ok () ∧ ∃ clusters : List (List SeenFrame),
      clusters.flatten = (acceptedFrames xs rs).map (Frame.asWatched g.info.scale) ∧
      SeeksAs s3.data g.info.scale g.cuesOn clusters := by
  obtain ⟨h1, off, at', cs, bs, q, h2, h3, h4, -, -, h6, h7, h9, -⟩ :=
    moved_opens hg hu hn hacc hl hroom hcues hseek hxs hr hd hp hs hrun hfin hsm hw hmany hdepth htd htp hts hcopy hsm3 hdu hv
  have e : (watchedClusters g.info.scale cs).flatten = (acceptedFrames xs rs).map (Frame.asWatched g.info.scale) := by
    rw [watchedClusters_flatten, h7]
  refine ⟨h1, watchedClusters g.info.scale cs, e, ?_⟩
  refine seeks_file h2 (.inl ⟨_, rfl, by omega⟩) h3 h4 h9 ?_ h6 hv.info.ticks.1 rfl (e ▸ watched_order horder)
    (e ▸ watched_times htimes)
  refine hnum.imp id fun h f hf => ?_
  rw [e] at hf
  obtain ⟨x, hx, rfl⟩ := List.mem_map.mp hf
  exact h x hx

/-! ### What a seek does not do -/

/-- The file made of these frames. -/
def recordedBy (g : Seg) (fs : List Frame) : Bytes :=
  (Seg.finalize none (Seg.run (fs.map .frame) g freshSink).2.1 (Seg.run (fs.map .frame) g freshSink).2.2).2.2.data

/-- Opening a file and seeking in it. -/
def seekIn (file : Bytes) (time track : Nat) : Res (Option (List SeenFrame)) :=
  match createInstance { data := file, total := file.length } 0 with
  | .ok g =>
    seekTo { data := file, total := file.length } 1000 (g.load { data := file, total := file.length } 1000).1 time track
  | .err c => .err c
  | .ub => .ub

/-- A segment with clusters of at most 50 ms. -/
def longSeg : Seg := { recordingSeg with maxDuration := 50000000, tagsW := none }

/-- The file of `C67_lands_on_non_key`. -/
def longFile : Bytes :=
  [26, 69, 223, 163, 159, 66, 134, 129, 1, 66, 247, 129, 1, 66, 242, 129, 4, 66, 243, 129, 8, 66, 130, 132,
   119, 101, 98, 109, 66, 135, 129, 4, 66, 133, 129, 2, 24, 83, 128, 103, 1, 255, 255, 255, 255, 255, 255,
   255, 21, 73, 169, 102, 143, 42, 215, 177, 131, 15, 66, 64, 77, 128, 129, 109, 87, 65, 129, 119, 22, 84,
   174, 107, 193, 174, 149, 215, 129, 1, 115, 197, 129, 1, 131, 129, 1, 134, 129, 86, 224, 134, 176, 129, 32,
   186, 129, 24, 174, 168, 215, 129, 2, 115, 197, 130, 190, 239, 131, 129, 2, 86, 170, 131, 99, 46, 160, 134,
   134, 65, 95, 79, 80, 85, 83, 225, 141, 181, 132, 71, 59, 128, 0, 159, 129, 2, 98, 100, 129, 16, 31, 67,
   182, 117, 1, 255, 255, 255, 255, 255, 255, 255, 231, 129, 0, 163, 133, 129, 0, 0, 128, 1, 163, 133, 129, 0,
   33, 0, 1, 31, 67, 182, 117, 1, 255, 255, 255, 255, 255, 255, 255, 231, 129, 66, 163, 133, 129, 0, 0, 0, 1,
   28, 83, 187, 107, 154, 187, 139, 179, 129, 0, 183, 134, 247, 129, 1, 241, 129, 90, 187, 139, 179, 129, 66,
   183, 134, 247, 129, 1, 241, 129, 119]

theorem longFile_eq : recordedBy longSeg [video 0, video 33 false, video 66 false] = longFile := by
  decide +kernel

/-- **A seek may arrive at a frame that is not a key frame**: when a cluster was begun because the last one had
become too long, its first video frame gets a cue, key frame or not. -/
theorem C67_lands_on_non_key :
    seekIn (recordedBy longSeg [video 0, video 33 false, video 66 false])
      66000000 1 = .ok (some [{ time := 66, track := 1, data := [1], key := false }]) := by
  rw [longFile_eq]
  decide +kernel

/-- A segment with clusters of at most 30 ms, and cues without block numbers. -/
def unnumberedSeg : Seg :=
  { recordingSeg with maxDuration := 30000000, tagsW := none, cues := { recordingSeg.cues with outputBlockNumber := false } }

/-- The file of `C67_unnumbered`. -/
def unnumberedFile : Bytes :=
  [26, 69, 223, 163, 159, 66, 134, 129, 1, 66, 247, 129, 1, 66, 242, 129, 4, 66, 243, 129, 8, 66, 130, 132,
   119, 101, 98, 109, 66, 135, 129, 4, 66, 133, 129, 2, 24, 83, 128, 103, 1, 255, 255, 255, 255, 255, 255,
   255, 21, 73, 169, 102, 143, 42, 215, 177, 131, 15, 66, 64, 77, 128, 129, 109, 87, 65, 129, 119, 22, 84,
   174, 107, 193, 174, 149, 215, 129, 1, 115, 197, 129, 1, 131, 129, 1, 134, 129, 86, 224, 134, 176, 129, 32,
   186, 129, 24, 174, 168, 215, 129, 2, 115, 197, 130, 190, 239, 131, 129, 2, 86, 170, 131, 99, 46, 160, 134,
   134, 65, 95, 79, 80, 85, 83, 225, 141, 181, 132, 71, 59, 128, 0, 159, 129, 2, 98, 100, 129, 16, 31, 67,
   182, 117, 1, 255, 255, 255, 255, 255, 255, 255, 231, 129, 0, 163, 133, 129, 0, 0, 128, 1, 31, 67, 182, 117,
   1, 255, 255, 255, 255, 255, 255, 255, 231, 129, 31, 163, 133, 130, 0, 0, 128, 2, 163, 133, 129, 0, 2, 0, 1,
   28, 83, 187, 107, 154, 187, 139, 179, 129, 0, 183, 134, 247, 129, 1, 241, 129, 90, 187, 139, 179, 129, 33,
   183, 134, 247, 129, 1, 241, 129, 112]

theorem unnumberedFile_eq : recordedBy unnumberedSeg [video 0, audio 31, video 33 false] = unnumberedFile := by
  decide +kernel

/-- **Without block numbers a seek may fail**: when the first frame of the track in a cluster is a video frame
that is not a key frame, and not the first frame of the cluster, nothing is found. -/
theorem C67_unnumbered :
    seekIn (recordedBy unnumberedSeg [video 0, audio 31, video 33 false]) 33000000 1 =
      .ok none := by
  rw [unnumberedFile_eq]
  decide +kernel

/-! ### Examples -/

/-- The recording of `Props/Timeline.lean`: six frames in two tracks, in three clusters. -/
example : ∃ clusters : List (List SeenFrame),
    clusters.flatten = recordedFrames.map (Frame.asWatched 1000000) ∧
    SeeksAs (Seg.finalize (some 0x40000000) (Seg.run (recordedFrames.map .frame) recordingSeg freshSink).2.1
      (Seg.run (recordedFrames.map .frame) recordingSeg freshSink).2.2).2.2.data 1000000 1 clusters := by
  have h1 := rec_outcome
  have h2 := rec_small
  rcases hrun : Seg.run (recordedFrames.map .frame) recordingSeg freshSink with ⟨rs, g1, s1⟩
  rw [hrun] at h1 h2
  simp only at h1 h2
  subst h1
  rcases hfin : Seg.finalize (some 0x40000000) g1 s1 with ⟨r, g2, s2⟩
  simp only [hfin] at h2 ⊢
  exact (C67_recording_partial (ch := none) (tg := some _) rec_settings ⟨rfl, rfl, rfl, rfl, rfl, rfl, rfl, rfl, rfl, rfl⟩
    (by unfold Seg.Numbered; decide) rfl rfl (by unfold Seg.Room; decide) rfl rec_fed (fun f hf => by
      simp only [recordedFrames, List.map_cons, List.map_nil, List.mem_cons, List.not_mem_nil, or_false, SegCall.frame.injEq] at hf
      rcases hf with rfl | rfl | rfl | rfl | rfl | rfl <;> exact ⟨by decide, by decide⟩) rfl rfl (fun _ => rfl) hrun hfin h2
    ⟨video 0, by decide, by decide⟩ rfl rec_viewable (by unfold TrackInOrder; decide) (by decide) (.inl rfl)).2

/-- And these are the other seeks in the file above. -/
example :
    seekIn longFile 0 1 = .ok (some [{ time := 0, track := 1, data := [1], key := true },
      { time := 33, track := 1, data := [1], key := false }, { time := 66, track := 1, data := [1], key := false }]) ∧
    seekIn longFile 65999999 1 = seekIn longFile 0 1 ∧ seekIn longFile 0 2 = .ok none := by
  refine ⟨?_, ?_, ?_⟩ <;> decide +kernel

end Verif.Props
