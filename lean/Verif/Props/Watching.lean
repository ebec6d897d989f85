/-
C65: what the muxer writes is what an application sees that opens the file with mkvparser.
-/
import Verif.Lemmas.ParserOpens

namespace Verif.Props
open Verif Verif.Par Verif.Mux Spec

/-- **C65, finished files, partial.** A recording made with the muxer and opened with mkvparser: for all
settings, tracks, chapters, tags and frames within mkvparser's limits, header, segment and clusters load
without error, the header shows the document type, the information, the tracks, the chapters and the tags that
were set up, and going through the blocks of the clusters shows exactly the frames that were accepted, in
order, each with its time, track, bytes, key flag, duration and discard padding.  (mkvparser gives no access to
the additional data.)

What is missing is as for `C21_file_partial`: without accurate cluster durations, on an output that
does not fail, files below 2⁴⁸ bytes. -/
theorem C65_recording_partial {g : Seg} {muxing writing : Bytes} {ts : List Track} {ch : Option (List Chapter)}
    {tg : Option (List Tag)}
    (hg : g.Settings muxing writing (tracksTree ts).bytes (ch.map fun c => (chaptersTree c).bytes)
      (tg.map fun t => (tagsTree t).bytes)) (hu : g.Unused) (hn : g.Numbered)
    (hacc : g.accurate = false) (hl : g.live = false)
    (hroom : g.Room (ch.map fun c => (chaptersTree c).bytes) (tg.map fun t => (tagsTree t).bytes))
    {xs : List SegCall} (hxs : g.WellFed xs) (hr : ∀ f, .frame f ∈ xs → f.Showable g.info.scale)
    {s : Sink} (hd : s.data = []) (hp : s.pos = 0) (hs : s.Sure)
    {rs : List (Res Unit)} {g1 g2 : Seg} {s1 s2 : Sink} {r : Res Unit} {d : Option Nat} {du : Option UInt32}
    (hrun : Seg.run xs g s = (rs, g1, s1)) (hfin : Seg.finalize d g1 s1 = (r, g2, s2))
    (hsm : s2.data.length < 2 ^ 48) (hw : ∃ f ∈ acceptedFrames xs rs, g.queues f = false)
    (hdu : g.lastDuration d = du.map UInt32.toNat) (hv : Viewable g.docType g.info.scale du muxing writing ts ch tg) :
    r = .ok () ∧ WatchedAs s2.data (shownAs g.docType g.info.scale du muxing writing ts ch tg)
      ((acceptedFrames xs rs).map (Frame.asWatched g.info.scale)) := by
  obtain ⟨h1, _, _, _, _, _, h2, -, -, -, -, -, h3, -⟩ :=
    recording_opens hg hu hn hacc hl hroom hxs hr hd hp hs hrun hfin hsm hw hdu hv
  exact ⟨h1, h3 ▸ h2.watched⟩

/-- **C65, live mode, partial.** As `C65_recording_partial`, in live mode. -/
theorem C65_live_partial {g : Seg} {muxing writing : Bytes} {ts : List Track} {ch : Option (List Chapter)}
    {tg : Option (List Tag)}
    (hg : g.Settings muxing writing (tracksTree ts).bytes (ch.map fun c => (chaptersTree c).bytes)
      (tg.map fun t => (tagsTree t).bytes)) (hu : g.Unused) (hn : g.Numbered)
    (hacc : g.accurate = false) (hl : g.live = true)
    {xs : List SegCall} (hxs : g.WellFed xs) (hr : ∀ f, .frame f ∈ xs → f.Showable g.info.scale)
    {s : Sink} (hd : s.data = []) (hp : s.pos = 0) (hs : s.Sure)
    {rs : List (Res Unit)} {g1 g2 : Seg} {s1 s2 : Sink} {r : Res Unit} {d : Option Nat} {du : Option UInt32}
    (hrun : Seg.run xs g s = (rs, g1, s1)) (hfin : Seg.finalize d g1 s1 = (r, g2, s2))
    (hsm : s2.data.length < 2 ^ 48) (hw : ∃ f ∈ acceptedFrames xs rs, g.queues f = false)
    (hdu : g.info.duration = du.map UInt32.toNat) (hv : Viewable g.docType g.info.scale du muxing writing ts ch tg) :
    r = .ok () ∧ WatchedAs s2.data (shownAs g.docType g.info.scale du muxing writing ts ch tg)
      ((acceptedFrames xs rs).map (Frame.asWatched g.info.scale)) := by
  obtain ⟨h1, -, p, cs, last, h3, h4, h5, h6, h7, h8, h9⟩ :=
    C21_live_partial hg hu hn hacc hl hxs hd hp hs hrun hfin hsm hw
  obtain ⟨c1, c2⟩ := carried_watched (scale := g.info.scale) h9 fun f hf => hr f (accepted_frame hf)
  obtain ⟨off, hchain⟩ := chain_open h3 (accepted_fine hxs h9 c1)
  have := (opens_file (q := none) hv (.inl h4) (by rw [h5, hdu]) h6 h7 h8 h3.1 hsm h3.2.1 hchain (.inr h3.2.1)).watched
  rw [open_frames] at this
  exact ⟨h1, c2 ▸ this⟩

/-- **C65, unfinished files, partial.** What a crash leaves when the output has everything written so far can be
opened and watched too, up to the last few frames, which wait for a video frame. -/
theorem C65_interrupted_partial {g : Seg} {muxing writing : Bytes} {ts : List Track} {ch : Option (List Chapter)}
    {tg : Option (List Tag)}
    (hg : g.Settings muxing writing (tracksTree ts).bytes (ch.map fun c => (chaptersTree c).bytes)
      (tg.map fun t => (tagsTree t).bytes)) (hu : g.Unused) (hn : g.Numbered) (hacc : g.accurate = false)
    {xs : List SegCall} (hxs : g.WellFed xs) (hx : ∃ f, .frame f ∈ xs) (hr : ∀ f, .frame f ∈ xs → f.Showable g.info.scale)
    {s : Sink} (hd : s.data = []) (hp : s.pos = 0) (hs : s.Sure)
    {rs : List (Res Unit)} {g1 : Seg} {s1 : Sink} {du : Option UInt32} (hrun : Seg.run xs g s = (rs, g1, s1))
    (hsm : s1.data.length < 2 ^ 48)
    (hdu : (if !g.live && g.seekable then some 0x3F800000 else g.info.duration) = du.map UInt32.toNat)
    (hv : Viewable g.docType g.info.scale du muxing writing ts ch tg) :
    ∃ written waiting : List SeenFrame,
      (acceptedFrames xs rs).map (Frame.asWatched g.info.scale) = written ++ waiting ∧
      WatchedAs s1.data (shownAs g.docType g.info.scale du muxing writing ts ch tg) written ∧
      ∀ f ∈ waiting, g.hasVideo = true ∧ (g.tracks.byNumber f.track).any (fun e => e.kind == .audio) = true := by
  obtain ⟨p, cs, last, waiting, h1, h2, h3, h4, h5, h6, h7, h8⟩ := C57_between_calls hg hu hn hacc hxs hx hd hp hs hrun hsm
  obtain ⟨c1, c2⟩ := carried_watched (scale := g.info.scale) h7 fun f hf => hr f (accepted_frame hf)
  have hregion : RegionOk p.region := by
    split at h6
    · exact .inr (.inl h6)
    · exact .inl h6
  obtain ⟨off, hchain⟩ := chain_open h1 fun f hf => accepted_fine hxs h7 c1 f (List.mem_append_left _ hf)
  have := (opens_file (q := none) hv hregion (by rw [h2, hdu]) h3 h4 h5 h1.1 hsm h1.2.1 hchain (.inr h1.2.1)).watched
  rw [open_frames] at this
  refine ⟨_, waiting.map (Frame.asWatched g.info.scale), by rw [← c2, List.map_append], this, ?_⟩
  intro f hf
  obtain ⟨w, hw, rfl⟩ := List.mem_map.mp hf
  have := h8 w hw
  unfold Seg.queues at this
  exact Bool.and_eq_true_iff.mp this

/-- **C65, after moving the cues to the front, partial.** The copy with the cues before the clusters shows
the same. -/
theorem C65_moved_partial {g : Seg} {muxing writing : Bytes} {ts : List Track} {ch : Option (List Chapter)}
    {tg : Option (List Tag)}
    (hg : g.Settings muxing writing (tracksTree ts).bytes (ch.map fun c => (chaptersTree c).bytes)
      (tg.map fun t => (tagsTree t).bytes)) (hu : g.Unused) (hn : g.Numbered)
    (hacc : g.accurate = false) (hl : g.live = false)
    (hroom : g.Room (ch.map fun c => (chaptersTree c).bytes) (tg.map fun t => (tagsTree t).bytes))
    (hcues : g.outputCues = true) (hseek : g.seekable = true)
    {xs : List SegCall} (hxs : g.WellFed xs) (hr : ∀ f, .frame f ∈ xs → f.Showable g.info.scale)
    {s : Sink} (hd : s.data = []) (hp : s.pos = 0) (hs : s.Sure)
    {rs : List (Res Unit)} {g1 g2 g3 : Seg} {s1 s2 s3 t : Sink} {r r' : Res Unit} {d : Option Nat} {du : Option UInt32}
    (hrun : Seg.run xs g s = (rs, g1, s1)) (hfin : Seg.finalize d g1 s1 = (r, g2, s2))
    (hsm : s2.data.length < 2 ^ 48) (hw : ∃ f ∈ acceptedFrames xs rs, g.queues f = false)
    (hmany : g2.cues.entries.length < 2 ^ 31) {depth : Nat} (hdepth : 7 * g2.cues.entries.length < depth)
    (htd : t.data = []) (htp : t.pos = 0) (hts : t.Sure)
    (hcopy : Seg.copyAndMoveCues depth true s2.data g2 t = (r', g3, s3)) (hsm3 : s3.data.length < 2 ^ 48)
    (hdu : g.lastDuration d = du.map UInt32.toNat) (hv : Viewable g.docType g.info.scale du muxing writing ts ch tg) :
    r' = .ok () ∧ WatchedAs s3.data (shownAs g.docType g.info.scale du muxing writing ts ch tg)
      ((acceptedFrames xs rs).map (Frame.asWatched g.info.scale)) := by
  obtain ⟨h1, _, _, _, _, _, h2, -, -, -, -, -, h3, -⟩ :=
    moved_opens hg hu hn hacc hl hroom hcues hseek hxs hr hd hp hs hrun hfin hsm hw hmany hdepth htd htp hts hcopy hsm3 hdu hv
  exact ⟨h1, h3 ▸ h2.watched⟩

/-! ### What is not shown -/

private theorem size_none_scan {r : Rdr} {g : ReadSegment} {pos : Nat} {x : Scan} (ht : r.total < 0) (hs : g.size = none)
    (h : scanStep r g pos = .ok x) : x ≠ .finished ∧ ∀ a b, x = .skip a b → a.size = none := by
  unfold scanStep at h
  have hst : g.stop = none := by unfold ReadSegment.stop; rw [hs]; rfl
  rw [if_neg (by rw [hst]; simp [atEnd, reached]; omega)] at h
  obtain ⟨_, -, h⟩ := Res.bind_eq_ok.mp h
  obtain ⟨_, -, h⟩ := Res.bind_eq_ok.mp h
  obtain ⟨_, -, h⟩ := Res.bind_eq_ok.mp h
  obtain ⟨_, -, h⟩ := Res.bind_eq_ok.mp h
  simp only at h
  split at h
  · cases h; exact ⟨by simp, fun a b e => by cases e; exact hs⟩
  · obtain ⟨_, -, h⟩ := Res.bind_eq_ok.mp h
    split at h
    · obtain ⟨_, -, h⟩ := Res.bind_eq_ok.mp h
      cases h; exact ⟨by simp, fun a b e => by cases e; exact hs⟩
    · split at h
      · obtain ⟨_, -, h⟩ := Res.bind_eq_ok.mp h
        cases h; exact ⟨by simp, fun a b e => by cases e; exact hs⟩
      · cases h; exact ⟨by simp, fun a b e => by cases e⟩

private theorem size_none_loop {r : Rdr} (ht : r.total < 0) : ∀ {f : Nat} {g : ReadSegment} {pos : Nat}, g.size = none →
    (scanLoop r f g pos).1.size = none ∧ (scanLoop r f g pos).2 ≠ .ok none := by
  intro f
  induction f with
  | zero =>
    intro g pos hs
    have hst : g.stop = none := by unfold ReadSegment.stop; rw [hs]; rfl
    rw [scanLoop, if_neg (by rw [hst]; simp [atEnd, reached]; omega)]
    exact ⟨hs, by simp⟩
  | succ f ih =>
    intro g pos hs
    rw [scanLoop]
    cases hx : scanStep r g pos with
    | err c => exact ⟨hs, by simp⟩
    | ub => exact ⟨hs, by simp⟩
    | ok x =>
      obtain ⟨h1, h2⟩ := size_none_scan ht hs hx
      cases x with
      | finished => exact absurd rfl h1
      | skip a b => exact ih (h2 a b rfl)
      | cluster a b c => exact ⟨hs, by simp⟩

private theorem size_none_load {r : Rdr} (ht : r.total < 0) {g : ReadSegment} (hs : g.size = none) :
    (g.doLoadCluster r).1.size = none ∧ (g.doLoadCluster r).2 ≠ .ok 1 := by
  unfold ReadSegment.doLoadCluster
  split
  · unfold ReadSegment.loadUnknownSize
    split
    · split
      · exact ⟨hs, by simp⟩
      · exact ⟨hs, by simp⟩
      · exact ⟨hs, by simp⟩
      · split
        · exact ⟨hs, by simp⟩
        · exact ⟨hs, by simp⟩
    · exact ⟨hs, by simp⟩
  · rw [if_neg (by omega)]
    have h := size_none_loop ht (f := r.data.length + 1 - g.pos.toNat) (pos := g.pos.toNat) hs
    rcases hx : scanLoop r (r.data.length + 1 - g.pos.toNat) g g.pos.toNat with ⟨g', y⟩
    rw [hx] at h
    obtain ⟨h1, h2⟩ := h
    simp only at h1 h2
    cases y with
    | err c => exact ⟨h1, by simp⟩
    | ub => exact ⟨h1, by simp⟩
    | ok z =>
      cases z with
      | none => exact absurd rfl h2
      | some z =>
        obtain ⟨a, b, c⟩ := z
        simp only
        cases hasBlockEntries r g'.stop a with
        | err c => exact ⟨h1, by simp⟩
        | ub => exact ⟨h1, by simp⟩
        | ok has =>
          have hst : g'.stop = none := by unfold ReadSegment.stop; rw [h1]; rfl
          simp only
          unfold ReadSegment.takeCluster
          split
          · split
            · refine ⟨h1, ?_⟩
              simp only
              split <;> simp
            · exact ⟨h1, by simp⟩
          · simp only
            rw [if_neg (by simp [atEnd]; omega), if_neg (by rw [hst]; simp [reached])]
            exact ⟨h1, by simp⟩

private theorem size_none_cluster {r : Rdr} (ht : r.total < 0) : ∀ {f : Nat} {g : ReadSegment}, g.size = none →
    (ReadSegment.loadCluster r f g).1.size = none ∧ (ReadSegment.loadCluster r f g).2 ≠ .ok false := by
  intro f
  induction f with
  | zero => intro g hs; exact ⟨hs, by simp [ReadSegment.loadCluster]⟩
  | succ f ih =>
    intro g hs
    have h := size_none_load ht hs
    rw [ReadSegment.loadCluster]
    rcases hx : g.doLoadCluster r with ⟨g', y⟩
    rw [hx] at h
    obtain ⟨h1, h2⟩ := h
    simp only at h1 h2
    cases y with
    | err c => exact ⟨h1, by simp⟩
    | ub => exact ⟨h1, by simp⟩
    | ok n =>
      simp only
      split
      · have : n = 0 := by
          have : n ≠ 1 := fun e => h2 (by rw [e])
          omega
        subst this
        exact ⟨h1, by simp⟩
      · exact ih h1

private theorem size_none_headers {r : Rdr} : ∀ {f : Nat} {g : ReadSegment} {pos : Nat}, g.size = none →
    (headersLoop r f g pos).1.size = none := by
  intro f
  induction f with
  | zero => intro g pos hs; exact hs
  | succ f ih =>
    intro g pos hs
    rw [headersLoop]
    cases hx : headersStep r g pos with
    | err c => exact hs
    | ub => exact hs
    | ok x =>
      cases x with
      | none => exact hs
      | some x =>
        obtain ⟨g', p'⟩ := x
        refine ih ?_
        unfold headersStep at hx
        split at hx
        · cases hx
        obtain ⟨_, -, hx⟩ := Res.bind_eq_ok.mp hx
        obtain ⟨_, -, hx⟩ := Res.bind_eq_ok.mp hx
        simp only at hx
        split at hx
        · cases hx
        obtain ⟨_, -, hx⟩ := Res.bind_eq_ok.mp hx
        obtain ⟨_, -, hx⟩ := Res.bind_eq_ok.mp hx
        obtain ⟨_, -, hx⟩ := Res.bind_eq_ok.mp hx
        obtain ⟨_, -, hx⟩ := Res.bind_eq_ok.mp hx
        obtain ⟨g2, he, hx⟩ := Res.bind_eq_ok.mp hx
        cases hx
        unfold headersElement at he
        repeat' split at he
        · obtain ⟨_, -, he⟩ := Res.bind_eq_ok.mp he
          obtain ⟨_, -, he⟩ := Res.bind_eq_ok.mp he
          cases he; exact hs
        · obtain ⟨_, -, he⟩ := Res.bind_eq_ok.mp he
          obtain ⟨_, -, he⟩ := Res.bind_eq_ok.mp he
          cases he; exact hs
        · cases he; exact hs
        · cases he; exact hs
        · obtain ⟨_, -, he⟩ := Res.bind_eq_ok.mp he
          cases he; exact hs
        · cases he; exact hs
        · obtain ⟨_, -, he⟩ := Res.bind_eq_ok.mp he
          cases he; exact hs
        · cases he; exact hs
        · obtain ⟨_, -, he⟩ := Res.bind_eq_ok.mp he
          cases he; exact hs
        · cases he; exact hs

private theorem size_none_all {r : Rdr} (ht : r.total < 0) {rounds : Nat} : ∀ {f : Nat} {g : ReadSegment}, g.size = none →
    (ReadSegment.loadAll r rounds f g).2 ≠ .ok () := by
  intro f
  induction f with
  | zero => intro g _; simp [ReadSegment.loadAll]
  | succ f ih =>
    intro g hs
    have h := size_none_cluster ht (f := rounds) hs
    rw [ReadSegment.loadAll]
    rcases hx : ReadSegment.loadCluster r rounds g with ⟨g', y⟩
    rw [hx] at h
    cases y with
    | err c => simp
    | ub => simp
    | ok b =>
      cases b with
      | true => exact ih h.1
      | false => exact absurd rfl h.2

/-- **A reader that does not know the length of its data can never have `Load` succeed**, whatever the data are:
the end of the segment is then not recognised. -/
theorem C65_unknown_length {r : Rdr} (ht : r.total < 0) {pos : Nat} {g : ReadSegment} (hc : createInstance r pos = .ok g)
    (fuel : Nat) : (g.load r fuel).2 ≠ .ok () := by
  have hs : g.size = none := by
    unfold createInstance at hc
    obtain ⟨_, -, hc⟩ := Res.bind_eq_ok.mp hc
    have key : ∀ f p, createLoop r f p = .ok g → g.size = none := by
      intro f
      induction f with
      | zero => intro p h; unfold createLoop at h; split at h <;> cases h
      | succ f ih =>
        intro p h
        rw [createLoop] at h
        obtain ⟨_, -, h⟩ := Res.bind_eq_ok.mp h
        obtain ⟨_, -, h⟩ := Res.bind_eq_ok.mp h
        obtain ⟨_, -, h⟩ := Res.bind_eq_ok.mp h
        obtain ⟨_, -, h⟩ := Res.bind_eq_ok.mp h
        obtain ⟨_, -, h⟩ := Res.bind_eq_ok.mp h
        simp only at h
        split at h
        · cases h
          exact if_pos (.inr (.inl ht))
        · obtain ⟨_, -, h⟩ := Res.bind_eq_ok.mp h
          obtain ⟨_, -, h⟩ := Res.bind_eq_ok.mp h
          obtain ⟨_, -, h⟩ := Res.bind_eq_ok.mp h
          exact ih _ h
    exact key _ _ hc
  unfold ReadSegment.load
  split
  · simp
  · have hp : (g.parseHeaders r).1.size = none := by
      unfold ReadSegment.parseHeaders
      repeat' split
      · exact hs
      · exact hs
      · exact hs
      · exact size_none_headers hs
    rcases hx : g.parseHeaders r with ⟨g', y⟩
    rw [hx] at hp
    cases y with
    | err c => simp
    | ub => simp
    | ok _ => exact size_none_all ht hp

/-! ### Examples -/

theorem rec_viewable : Viewable recordingSeg.docType recordingSeg.info.scale none [0x6D] [0x77] [smallVideo, plainAudio] none
    (some [[⟨some [0x54], some [0x56]⟩]]) where
  docType := by decide
  info := ⟨by decide, by decide, by decide, fun d hd => by cases hd⟩
  tracks := ⟨C60_small_fits (by decide +kernel), by
    intro t ht
    rcases List.mem_cons.mp ht with rfl | ht
    · refine ⟨by decide, by decide, by decide, ?_, ?_, ?_, ?_, ?_, ?_⟩
      · intro s hs; cases hs; decide
      · intro s hs; cases hs
      · intro s hs; cases hs
      · intro s hs; cases hs
      · intro e he; cases he
      · refine ⟨rfl, by decide, by decide, by decide, ?_, ?_, ?_, ?_⟩
        · intro b hb; cases hb
        · intro s hs; cases hs
        · intro c hc; cases hc
        · intro q hq; cases hq
    · exact rich_readable t (.tail _ ht)⟩
  numbers := by decide
  chapters := by intro cs h; cases h
  tags := by
    intro t h
    cases h
    refine ⟨C60_small_fits (by decide +kernel), ?_⟩
    intro x hx
    rw [List.mem_singleton.mp hx]
    refine ⟨by unfold TagOk; decide, ?_⟩
    intro s hs
    rw [List.mem_singleton.mp hs]
    constructor <;> (intro b hb; cases hb; decide)

/-- The recording of `Props/Timeline.lean`: six frames in two tracks, a tag. -/
example : WatchedAs (Seg.finalize (some 0x40000000) (Seg.run (recordedFrames.map .frame) recordingSeg freshSink).2.1
      (Seg.run (recordedFrames.map .frame) recordingSeg freshSink).2.2).2.2.data
    { docType := [0x77, 0x65, 0x62, 0x6D]
      info := { timecodeScale := 1000000, duration := none, muxingApp := some [0x6D], writingApp := some [0x77] }
      tracks := [seenTrack smallVideo, seenTrack plainAudio]
      chapters := none
      tags := some [[⟨some [0x54], some [0x56]⟩]] }
    [{ time := 0, track := 1, data := [1], key := true },
     { time := 1, track := 2, data := [2], key := true, padding := -5 },
     { time := 33, track := 1, data := [1], key := true, duration := 33 },
     { time := 66, track := 1, data := [1], key := false, duration := 33 },
     { time := 70, track := 2, data := [2], key := true },
     { time := 99, track := 1, data := [1], key := true }] := by
  have h1 := rec_outcome
  have h2 := rec_small
  rcases hrun : Seg.run (recordedFrames.map .frame) recordingSeg freshSink with ⟨rs, g1, s1⟩
  rw [hrun] at h1 h2
  simp only at h1 h2
  subst h1
  rcases hfin : Seg.finalize (some 0x40000000) g1 s1 with ⟨r, g2, s2⟩
  simp only [hfin] at h2 ⊢
  have h := (C65_recording_partial (ch := none) (tg := some _) rec_settings ⟨rfl, rfl, rfl, rfl, rfl, rfl, rfl, rfl, rfl, rfl⟩
    (by unfold Seg.Numbered; decide) rfl rfl (by unfold Seg.Room; decide) rec_fed (fun f hf => by
      simp only [recordedFrames, List.map_cons, List.map_nil, List.mem_cons, List.not_mem_nil, or_false, SegCall.frame.injEq] at hf
      rcases hf with rfl | rfl | rfl | rfl | rfl | rfl <;> exact ⟨by decide, by decide⟩) rfl rfl (fun _ => rfl) hrun hfin h2
    ⟨video 0, by decide, by decide⟩ rfl rec_viewable).2
  exact h

/-- And this is the model of the parser at work on that file when it does not know its length. -/
example : (do
    let g ← createInstance { data := (Seg.finalize none (Seg.run ([video 0].map .frame) recordingSeg freshSink).2.1
      (Seg.run ([video 0].map .frame) recordingSeg freshSink).2.2).2.2.data } 0
    Res.ok (g.load { data := (Seg.finalize none (Seg.run ([video 0].map .frame) recordingSeg freshSink).2.1
      (Seg.run ([video 0].map .frame) recordingSeg freshSink).2.2).2.2.data } 1000).2) = .ok (.err E_BUFFER_NOT_FULL) := by
  decide +kernel

end Verif.Props
