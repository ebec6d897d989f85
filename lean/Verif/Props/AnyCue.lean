/-
C69: following a cue point, whoever wrote it.
-/
import Verif.Props.OneTrack
import Verif.Lemmas.ParserAnyCue

namespace Verif.Props
open Verif Verif.Par Verif.Mux Spec

/-- **C69, partial.** Following cue points in a recording made with the muxer, with mkvparser: for all settings, tracks,
chapters, tags and frames within mkvparser's limits the file loads into clusters that show the accepted frames, and for every
cue point, whatever time, track, position and block number it has, `Segment::GetBlock` leads to the frame that `named` names
in the cluster at its position, from where playing shows all following frames; when no cluster begins at the
position, and one begins later, it leads nowhere.

`C69_right_frame`, `C69_by_number` and `C69_by_search` say what `named` means.  What is missing is as for `C65_recording_partial`, and cue
points behind the last cluster, which mkvparser follows without checks. -/
theorem C69_recording_partial {g : Seg} {muxing writing : Bytes} {ts : List Track} {ch : Option (List Chapter)}
    {tg : Option (List Tag)}
    (hg : g.Settings muxing writing (tracksTree ts).bytes (ch.map fun c => (chaptersTree c).bytes)
      (tg.map fun t => (tagsTree t).bytes)) (hu : g.Unused) (hn : g.Numbered)
    (hacc : g.accurate = false) (hl : g.live = false)
    (hroom : g.Room (ch.map fun c => (chaptersTree c).bytes) (tg.map fun t => (tagsTree t).bytes))
    {xs : List SegCall} (hxs : g.WellFed xs) (hr : ∀ f, .frame f ∈ xs → f.Showable g.info.scale)
    {s : Sink} (hd : s.data = []) (hp : s.pos = 0) (hs : s.Sure)
    {rs : List (Res Unit)} {g1 g2 : Seg} {s1 s2 : Sink} {r : Res Unit} {d : Option Nat} {du : Option UInt32}
    (hrun : Seg.run xs g s = (rs, g1, s1)) (hfin : Seg.finalize d g1 s1 = (r, g2, s2))
    (hsm : s2.data.length < 2 ^ 48) (hw : ∃ f ∈ acceptedFrames xs rs, g.queues f = false)
    (hdu : g.lastDuration d = du.map UInt32.toNat) (hv : Viewable g.docType g.info.scale du muxing writing ts ch tg) :
    r = .ok () ∧ ∃ clusters : List (Nat × List SeenFrame),
      (clusters.map (·.2)).flatten = (acceptedFrames xs rs).map (Frame.asWatched g.info.scale) ∧
      (clusters.map (·.1)).Pairwise (· < ·) ∧
      LeadsAs s2.data (shownAs g.docType g.info.scale du muxing writing ts ch tg).tracks clusters := by
  obtain ⟨h1, off, at', cs, bs, q, h2, h3, h4, -, h5, h6, h7, -, h8⟩ :=
    recording_opens hg hu hn hacc hl hroom hxs hr hd hp hs hrun hfin hsm hw hdu hv
  refine ⟨h1, placed g.info.scale cs, ?_, ?_, leads_file h2 h3⟩
  · rw [placed_in, watchedClusters_flatten, h7]
  · simpa only [placed, List.map_map, Function.comp_def] using (clusters_ordered h3).1

/-- **C69, after moving the cues to the front, partial.** The same for the copy that has the cues before the
clusters. -/
theorem C69_moved_partial {g : Seg} {muxing writing : Bytes} {ts : List Track} {ch : Option (List Chapter)}
    {tg : Option (List Tag)}
    (hg : g.Settings muxing writing (tracksTree ts).bytes (ch.map fun c => (chaptersTree c).bytes)
      (tg.map fun t => (tagsTree t).bytes)) (hu : g.Unused) (hn : g.Numbered)
    (hacc : g.accurate = false) (hl : g.live = false)
    (hroom : g.Room (ch.map fun c => (chaptersTree c).bytes) (tg.map fun t => (tagsTree t).bytes))
    (hcues : g.outputCues = true) (hseek : g.seekable = true)
    {xs : List SegCall} (hxs : g.WellFed xs) (hr : ∀ f, .frame f ∈ xs → f.Showable g.info.scale)
    {s : Sink} (hd : s.data = []) (hp : s.pos = 0) (hs : s.Sure)
    {rs : List (Res Unit)} {g1 g2 g3 : Seg} {s1 s2 s3 t : Sink} {r r' : Res Unit} {d : Option Nat} {du : Option UInt32}
    (hrun : Seg.run xs g s = (rs, g1, s1)) (hfin : Seg.finalize d g1 s1 = (r, g2, s2))
    (hsm : s2.data.length < 2 ^ 48) (hw : ∃ f ∈ acceptedFrames xs rs, g.queues f = false)
    (hmany : g2.cues.entries.length < 2 ^ 31) {depth : Nat} (hdepth : 7 * g2.cues.entries.length < depth)
    (htd : t.data = []) (htp : t.pos = 0) (hts : t.Sure)
    (hcopy : Seg.copyAndMoveCues depth true s2.data g2 t = (r', g3, s3)) (hsm3 : s3.data.length < 2 ^ 48)
    (hdu : g.lastDuration d = du.map UInt32.toNat) (hv : Viewable g.docType g.info.scale du muxing writing ts ch tg) :
    r' = .ok () ∧ ∃ clusters : List (Nat × List SeenFrame),
      (clusters.map (·.2)).flatten = (acceptedFrames xs rs).map (Frame.asWatched g.info.scale) ∧
      (clusters.map (·.1)).Pairwise (· < ·) ∧
      LeadsAs s3.data (shownAs g.docType g.info.scale du muxing writing ts ch tg).tracks clusters := by
  obtain ⟨h1, off, at', cs, bs, q, h2, h3, h4, -, h5, h6, h7, -, h8⟩ :=
    moved_opens hg hu hn hacc hl hroom hcues hseek hxs hr hd hp hs hrun hfin hsm hw hmany hdepth htd htp hts hcopy hsm3 hdu hv
  refine ⟨h1, placed g.info.scale cs, ?_, ?_, leads_file h2 h3⟩
  · rw [placed_in, watchedClusters_flatten, h7]
  · simpa only [placed, List.map_map, Function.comp_def] using (clusters_ordered h3).1

/-! ### What this means -/

private theorem searched_right {ts : List ReadTrack} {cp : Par.CuePoint} {tp : TrackPosition} : ∀ {fs l : List SeenFrame},
    searched ts cp tp fs = some l →
    ∃ before f rest, fs = before ++ f :: rest ∧ l = f :: rest ∧ (f.track : Int) = tp.track ∧ f.time = cp.timecode := by
  intro fs
  induction fs with
  | nil => intro l h; cases h
  | cons f fs ih =>
    intro l h
    rw [searched] at h
    split at h
    · obtain ⟨b, x, rest, e1, e2⟩ := ih h
      exact ⟨f :: b, x, rest, by rw [e1]; rfl, e2⟩
    · rename_i h1
      split at h
      · rename_i h2
        cases h
        exact ⟨[], f, fs, rfl, rfl, by simp only [not_or, Decidable.not_not] at h1; exact h1.1, h2.1⟩
      · cases h

/-- **C69, never to a wrong frame.** Where a cue point leads is a frame of its track, with its time. -/
theorem C69_right_frame {ts : List ReadTrack} {cp : Par.CuePoint} {tp : TrackPosition} {fs l : List SeenFrame}
    (h : named ts cp tp fs = some l) :
    ∃ before f rest, fs = before ++ f :: rest ∧ l = f :: rest ∧ (f.track : Int) = tp.track ∧ f.time = cp.timecode := by
  unfold named at h
  split at h
  · split at h
    · cases h
    · rename_i f rest hd
      split at h
      · rename_i h1
        cases h
        exact ⟨fs.take (tp.block - 1).toNat, f, rest, by rw [← hd, List.take_append_drop], rfl, h1⟩
      · exact searched_right h
  · exact searched_right h

/-- **C69, by number.** A cue point with the number (from 1), the track and the time of a frame leads to that frame. -/
theorem C69_by_number {ts : List ReadTrack} {cp : Par.CuePoint} {tp : TrackPosition} {before rest : List SeenFrame} {f : SeenFrame}
    (hb : tp.block = before.length + 1) (ht : (f.track : Int) = tp.track) (htime : f.time = cp.timecode) :
    named ts cp tp (before ++ f :: rest) = some (f :: rest) := by
  unfold named
  rw [if_pos (by omega)]
  have e : (tp.block - 1).toNat = before.length := by omega
  rw [e, List.drop_left]
  simp only
  rw [if_pos ⟨ht, htime⟩]

/-- **C69, by search.** A cue point without block number leads to the first frame of its track that has its time, when no
frame of the track before it is later, and the frame is on an audio track or a key frame on a video track. -/
theorem C69_by_search {ts : List ReadTrack} {t : ReadTrack} {cp : Par.CuePoint} {tp : TrackPosition} {before rest : List SeenFrame}
    {f : SeenFrame} (hb : tp.block ≤ 0) (ht : (f.track : Int) = tp.track) (htime : f.time = cp.timecode)
    (htrack : ts.find? (fun t => decide (t.info.number = tp.track)) = some t)
    (hgood : t.info.type = 2 ∨ (t.info.type = 1 ∧ f.key = true))
    (hbefore : ∀ x ∈ before, (x.track : Int) = tp.track → x.time < cp.timecode) :
    named ts cp tp (before ++ f :: rest) = some (f :: rest) := by
  unfold named
  rw [if_neg (by omega)]
  induction before with
  | nil =>
    have hn : ¬ ((f.track : Int) ≠ tp.track ∨ f.time < cp.timecode) := fun h => h.elim (fun h => h ht) (by omega)
    have hy : f.time = cp.timecode ∧ ((ts.find? fun t => decide (t.info.number = tp.track)).any fun t => t.accepts f) = true := by
      refine ⟨htime, ?_⟩
      rw [htrack, Option.any_some, ReadTrack.accepts]
      rcases hgood with h | ⟨h1, h2⟩
      · simp [h]
      · simp [h1, h2]
    rw [List.nil_append, searched, if_neg hn, if_pos hy]
  | cons a before ih =>
    have hy : (a.track : Int) ≠ tp.track ∨ a.time < cp.timecode := by
      by_cases h : (a.track : Int) = tp.track
      · exact .inr (hbefore a List.mem_cons_self h)
      · exact .inl h
    rw [List.cons_append, searched, if_pos hy]
    exact ih fun x hx => hbefore x (List.mem_cons_of_mem _ hx)

/-- Opening a file and following a cue point with this time, track, position and block number. -/
def followIn (file : Bytes) (time track pos block : Int) : Res (Option (List SeenFrame)) :=
  match createInstance { data := file, total := file.length } 0 with
  | .ok g =>
    goTo { data := file, total := file.length } 1000 (g.load { data := file, total := file.length } 1000).1
      ⟨time, [⟨track, pos, block⟩]⟩ ⟨track, pos, block⟩
  | .err c => .err c
  | .ub => .ub

/-- **A number that is too large is not forgiven**: when a cluster has fewer blocks than the cue point says, its frames are not
searched, although the frame with the time of the cue is there; a wrong number within the cluster does no harm. -/
theorem C69_number_beyond :
    followIn (recordedBy longSeg [video 0, video 33 false, video 66 false]) 0 1 90 3 = .ok none ∧
    (followIn (recordedBy longSeg [video 0, video 33 false, video 66 false]) 0 1 90 2).bind
      (fun o => .ok (o.map List.length)) = .ok (some 3) := by
  rw [longFile_eq]
  constructor <;> decide +kernel

/-! ### Examples -/

/-- The recording of `Props/Timeline.lean`: six frames in two tracks, in three clusters. -/
example : ∃ clusters : List (Nat × List SeenFrame),
    (clusters.map (·.2)).flatten = recordedFrames.map (Frame.asWatched 1000000) ∧ (clusters.map (·.1)).Pairwise (· < ·) ∧
    LeadsAs (Seg.finalize (some 0x40000000) (Seg.run (recordedFrames.map .frame) recordingSeg freshSink).2.1
      (Seg.run (recordedFrames.map .frame) recordingSeg freshSink).2.2).2.2.data
      (shownAs recordingSeg.docType recordingSeg.info.scale none [0x6D] [0x77] [smallVideo, plainAudio] none none).tracks clusters := by
  have h1 := rec_outcome
  have h2 := rec_small
  rcases hrun : Seg.run (recordedFrames.map .frame) recordingSeg freshSink with ⟨rs, g1, s1⟩
  rw [hrun] at h1 h2
  simp only at h1 h2
  subst h1
  rcases hfin : Seg.finalize (some 0x40000000) g1 s1 with ⟨r, g2, s2⟩
  simp only [hfin] at h2 ⊢
  exact (C69_recording_partial (ch := none) (tg := some _) rec_settings ⟨rfl, rfl, rfl, rfl, rfl, rfl, rfl, rfl, rfl, rfl⟩
    (by unfold Seg.Numbered; decide) rfl rfl (by unfold Seg.Room; decide) rec_fed (fun f hf => by
      simp only [recordedFrames, List.map_cons, List.map_nil, List.mem_cons, List.not_mem_nil, or_false, SegCall.frame.injEq] at hf
      rcases hf with rfl | rfl | rfl | rfl | rfl | rfl <;> exact ⟨by decide, by decide⟩) rfl rfl (fun _ => rfl) hrun hfin h2
    ⟨video 0, by decide, by decide⟩ rfl rec_viewable).2

/-- Some cue points in the file of `C67_unnumbered`, with a video frame in the first cluster, and an audio frame and a video frame
that is not a key frame in the second: the audio frame is found without a number, and with a wrong one; the video frame only with
its number; and nothing is found where no cluster begins. -/
example :
    followIn unnumberedFile 31 2 112 0 = .ok (some [{ time := 31, track := 2, data := [2], key := true },
      { time := 33, track := 1, data := [1], key := false }]) ∧
    followIn unnumberedFile 31 2 112 2 = followIn unnumberedFile 31 2 112 0 ∧
    followIn unnumberedFile 33 1 112 2 = .ok (some [{ time := 33, track := 1, data := [1], key := false }]) ∧
    followIn unnumberedFile 33 1 112 1 = .ok none ∧ followIn unnumberedFile 31 2 100 1 = .ok none ∧
    followIn unnumberedFile 31 2 (-5) 1 = .ok none := by
  refine ⟨?_, ?_, ?_, ?_, ?_, ?_⟩ <;> decide +kernel

end Verif.Props
