/-
C83: seeking and playing by the seek head, without loading the file.
-/
import Verif.Props.Seeking
import Verif.Lemmas.ParserAheadFile
import Verif.Lemmas.ArrivingCluster
import Verif.Lemmas.ParserSafeCluster

namespace Verif.Props
open Verif Verif.Par Verif.Mux Spec

/-- **C83, partial.** An application that does not load a recording: it parses the header, follows the seek head to the
cues, and seeks to any times, one after the other; then it plays the whole file from the cluster the seek head
names, and seeks again.  For all settings, tracks, chapters, tags and frames within mkvparser's limits, with an output
that can seek, when the frames of the track that has the cues come in order of time: nothing fails, no cluster is
loaded in advance, each seek shows what `landing` says (as in C67, for a file that was loaded), and playing shows the
accepted frames, each once.

What is missing is as for `C67_recording_partial`.  Files made without seeking have no seek head: see
`C83_live_next` for what happens when such a file is read ahead. -/
theorem C83_recording_partial {g : Seg} {muxing writing : Bytes} {ts : List Track} {ch : Option (List Chapter)}
    {tg : Option (List Tag)}
    (hg : g.Settings muxing writing (tracksTree ts).bytes (ch.map fun c => (chaptersTree c).bytes)
      (tg.map fun t => (tagsTree t).bytes)) (hu : g.Unused) (hn : g.Numbered)
    (hacc : g.accurate = false) (hl : g.live = false)
    (hroom : g.Room (ch.map fun c => (chaptersTree c).bytes) (tg.map fun t => (tagsTree t).bytes))
    (hcues : g.outputCues = true) (hseek : g.seekable = true)
    {xs : List SegCall} (hxs : g.WellFed xs) (hr : ∀ f, .frame f ∈ xs → f.Showable g.info.scale)
    {s : Sink} (hd : s.data = []) (hp : s.pos = 0) (hs : s.Sure)
    {rs : List (Res Unit)} {g1 g2 : Seg} {s1 s2 : Sink} {r : Res Unit} {d : Option Nat} {du : Option UInt32}
    (hrun : Seg.run xs g s = (rs, g1, s1)) (hfin : Seg.finalize d g1 s1 = (r, g2, s2))
    (hsm : s2.data.length < 2 ^ 48) (hw : ∃ f ∈ acceptedFrames xs rs, g.queues f = false)
    (hdu : g.lastDuration d = du.map UInt32.toNat) (hv : Viewable g.docType g.info.scale du muxing writing ts ch tg)
    (horder : TrackInOrder g.cuesOn (acceptedFrames xs rs)) (htimes : ∀ f ∈ acceptedFrames xs rs, f.timestamp < 2 ^ 63)
    (hnum : g.cues.outputBlockNumber = true ∨ ∀ f ∈ acceptedFrames xs rs, f.trackNumber = g.cuesOn) :
    r = .ok () ∧ ∃ clusters : List (List SeenFrame),
      clusters.flatten = (acceptedFrames xs rs).map (Frame.asWatched g.info.scale) ∧
      SeeksAheadAs s2.data g.info.scale g.cuesOn clusters := by
  obtain ⟨h1, -, p, cs, h3, h4, h5, h6, h7, h8, h9, h10, h11, -, -, -, -, -⟩ :=
    whole_file hg hu hn hacc hl hroom hxs hd hp hs hrun hfin hsm hw
  rw [if_pos hcues] at h11
  rw [hseek] at h3 h4 h9
  obtain ⟨c1, c2⟩ := carried_watched (scale := g.info.scale) h10 fun f hf => hr f (accepted_frame hf)
  have e : (watchedClusters g.info.scale cs).flatten = (acceptedFrames xs rs).map (Frame.asWatched g.info.scale) := by
    rw [watchedClusters_flatten, c2]
  refine ⟨h1, watchedClusters g.info.scale cs, e, ?_⟩
  refine ahead_file hv h4 (by rw [h5, hdu]) h6 h7 h8 h3 hsm h11.1 h9 ?_ (accepted_fine hxs h10 c1) h11.2 ?_ hv.info.ticks.1
    (e ▸ watched_order horder) (e ▸ watched_times htimes)
  · intro h0
    subst h0
    refine carried_ne h10 ?_ rfl
    obtain ⟨f, hf, -⟩ := hw
    intro h; rw [h] at hf; cases hf
  · refine hnum.imp id fun h f hf => ?_
    rw [e] at hf
    obtain ⟨x, hx, rfl⟩ := List.mem_map.mp hf
    exact h x hx

/-- **C83, after moving the cues to the front, partial.** The same for the copy that has the cues before the
clusters. -/
theorem C83_moved_partial {g : Seg} {muxing writing : Bytes} {ts : List Track} {ch : Option (List Chapter)}
    {tg : Option (List Tag)}
    (hg : g.Settings muxing writing (tracksTree ts).bytes (ch.map fun c => (chaptersTree c).bytes)
      (tg.map fun t => (tagsTree t).bytes)) (hu : g.Unused) (hn : g.Numbered)
    (hacc : g.accurate = false) (hl : g.live = false)
    (hroom : g.Room (ch.map fun c => (chaptersTree c).bytes) (tg.map fun t => (tagsTree t).bytes))
    (hcues : g.outputCues = true) (hseek : g.seekable = true)
    {xs : List SegCall} (hxs : g.WellFed xs) (hr : ∀ f, .frame f ∈ xs → f.Showable g.info.scale)
    {s : Sink} (hd : s.data = []) (hp : s.pos = 0) (hs : s.Sure)
    {rs : List (Res Unit)} {g1 g2 g3 : Seg} {s1 s2 s3 t : Sink} {r r' : Res Unit} {d : Option Nat} {du : Option UInt32}
    (hrun : Seg.run xs g s = (rs, g1, s1)) (hfin : Seg.finalize d g1 s1 = (r, g2, s2))
    (hsm : s2.data.length < 2 ^ 48) (hw : ∃ f ∈ acceptedFrames xs rs, g.queues f = false)
    (hmany : g2.cues.entries.length < 2 ^ 31) {depth : Nat} (hdepth : 7 * g2.cues.entries.length < depth)
    (htd : t.data = []) (htp : t.pos = 0) (hts : t.Sure)
    (hcopy : Seg.copyAndMoveCues depth true s2.data g2 t = (r', g3, s3)) (hsm3 : s3.data.length < 2 ^ 48)
    (hdu : g.lastDuration d = du.map UInt32.toNat) (hv : Viewable g.docType g.info.scale du muxing writing ts ch tg)
    (horder : TrackInOrder g.cuesOn (acceptedFrames xs rs)) (htimes : ∀ f ∈ acceptedFrames xs rs, f.timestamp < 2 ^ 63)
    (hnum : g.cues.outputBlockNumber = true ∨ ∀ f ∈ acceptedFrames xs rs, f.trackNumber = g.cuesOn) :
    r' = .ok () ∧ ∃ clusters : List (List SeenFrame),
      clusters.flatten = (acceptedFrames xs rs).map (Frame.asWatched g.info.scale) ∧
      SeeksAheadAs s3.data g.info.scale g.cuesOn clusters := by
  obtain ⟨h1, p, cs, q, h3, h4, h5, h6, h7, h8, h9, h10, h11, h12, -⟩ :=
    C22_after_moving_partial hg hu hn hacc hl hroom hcues hseek hxs hd hp hs hrun hfin hsm hw hmany hdepth htd htp hts hcopy
  obtain ⟨c1, c2⟩ := carried_watched (scale := g.info.scale) h10 fun f hf => hr f (accepted_frame hf)
  have e : (watchedClusters g.info.scale cs).flatten = (acceptedFrames xs rs).map (Frame.asWatched g.info.scale) := by
    rw [watchedClusters_flatten, c2]
  refine ⟨h1, watchedClusters g.info.scale cs, e, ?_⟩
  refine ahead_front hv h4 (by rw [h5, hdu]) h6 h7 h8 h3 hsm3 h11 h9 ?_ (accepted_fine hxs h10 c1) h12 ?_ hv.info.ticks.1
    (e ▸ watched_order horder) (e ▸ watched_times htimes)
  · intro h0
    subst h0
    refine carried_ne h10 ?_ rfl
    obtain ⟨f, hf, -⟩ := hw
    intro h; rw [h] at hf; cases hf
  · refine hnum.imp id fun h f hf => ?_
    rw [e] at hf
    obtain ⟨x, hx, rfl⟩ := List.mem_map.mp hf
    exact h x hx

/-! ### Any file -/

private theorem field_len {r : Rdr} {stop : Option Nat} {p n : Nat} (h : fieldIn r stop p = .ok n) :
    past stop (p + n) = false ∧ ∃ b, r.byte p = .ok b ∧ n = announced b := by
  unfold fieldIn at h
  obtain ⟨_, h0, h⟩ := Res.bind_eq_ok.mp h
  obtain ⟨⟨x, len⟩, h1, h⟩ := Res.bind_eq_ok.mp h
  obtain ⟨-, -, h⟩ := Res.bind_eq_ok.mp h
  obtain ⟨-, -, h⟩ := Res.bind_eq_ok.mp h
  obtain ⟨_, h2, h⟩ := Res.bind_eq_ok.mp h
  obtain ⟨-, -, h⟩ := Res.bind_eq_ok.mp h
  cases h
  rw [Res.refuse_eq_ok] at h0 h2
  exact ⟨by simpa using h2, (getUIntLength_first (by omega) h1).2⟩

/-- **`ParseCues` never fails an assertion**, for any file and any offset that can be added to the start of the
segment. -/
theorem C83_parse_cues_safe {r : Rdr} (hw : r.Whole) (g : ReadSegment) {off : Int} (hoff : (g.start : Int) + off ≤ llongMax) :
    g.parseCues r off ≠ .ub := by
  unfold ReadSegment.parseCues
  unfold Rdr.Whole at hw
  refine Safe.ite (fun _ => Safe.ok _) fun _ => Safe.bind Safe.refuse fun _ _ => Safe.bind (Safe.assert (by omega)) fun _ _ =>
    Safe.bind (Safe.assert hoff) fun _ _ => Safe.ite (fun _ => Safe.ok _) fun _ => Safe.bind (fieldIn_safe _ _ _) fun n hn =>
    Safe.bind (Safe.orErr (readID_safe _ _)) fun x hx => ?_
  obtain ⟨id, len⟩ := x
  refine Safe.bind Safe.refuse fun _ _ => ?_
  have hlen : past g.stop (g.start + off.toNat + len) = false := by
    obtain ⟨k1, b, k2, rfl⟩ := field_len hn
    have hx' : readID r ((g.start + off.toNat : Nat) : Int) = .ok (id, len) := by
      unfold Res.orErr at hx
      split at hx <;> first | (cases hx; done) | skip
      all_goals simp_all
    obtain ⟨b', k3, -, rfl⟩ := readID_first hx'
    rw [k2] at k3
    cases k3
    exact k1
  refine Safe.bind (Safe.assert hlen) fun _ _ => Safe.bind (fieldIn_safe _ _ _) fun n hn => Safe.bind (readUInt_safe _ _) fun y hy => ?_
  obtain ⟨size, len2⟩ := y
  refine Safe.ite (fun _ => Safe.ok _) fun _ => ?_
  have hlen2 : past g.stop (g.start + off.toNat + len + len2) = false := by
    obtain ⟨k1, b, k2, rfl⟩ := field_len hn
    obtain ⟨b', k3, -, rfl⟩ := readUInt_first hy
    rw [k2] at k3
    cases k3
    exact k1
  exact Safe.bind (Safe.assert hlen2) fun _ _ => Safe.bind Safe.refuse fun _ _ =>
    Safe.ite (fun _ => Safe.ok _) fun _ => Safe.bind Safe.refuse fun _ _ => Safe.ok _

/-- Opening a file whose segment is at `pos` and parsing its header. -/
def headIn (file : Bytes) (pos : Nat) : Res ReadSegment := do
  let g ← createInstance { data := file, total := file.length } pos
  match g.parseHeaders { data := file, total := file.length } with
  | (g, .ok ()) => .ok g
  | (_, .err c) => .err c
  | (_, .ub) => .ub

/-- A file with a seek head that says that the cues are 2^63 - 1 bytes behind the start of the segment. -/
def farFile : Bytes :=
  Spec.segmentId ++ (Spec.vint 8 96 ++ (element 0x114D9B74 (seekEntries [(0x1C53BB6B, 2 ^ 63 - 1)]) ++
    (infoElement 1000000 none none [0x6D] [0x77] ++ ((tracksTree [smallVideo]).bytes ++ element 0xEC (List.replicate 20 0)))))

/-- **A seek head can name a place so far away that `ParseCues` overflows**: the sum `m_start + off` is computed
before anything is compared with the size of the file. -/
theorem C83_overflow :
    (do let g ← headIn farFile 0; .ok (seekHeadPlace g 0x1C53BB6B)) = .ok (some (2 ^ 63 - 1)) ∧
    (do let g ← headIn farFile 0; followToCues { data := farFile, total := farFile.length } g) = .ub := by
  decide +kernel

/-- **In a recording of unknown size, what follows a cluster that was read ahead cannot be found**: the cues can be
parsed and the first seek finds its block, but `GetNext` asserts that the size of the segment is known. -/
theorem C83_live_next :
    (do
      let g ← headIn longFile 0
      let (g, found) ← g.parseCues { data := longFile, total := longFile.length } 141
      .ok (g.cues, found)) = .ok (some (194, 26), true) ∧
    (do
      let g ← headIn longFile 0
      let (g, _) ← g.parseCues { data := longFile, total := longFile.length } 141
      let (_, fs) ← seekAhead { data := longFile, total := longFile.length } 1000 1 ⟨g, []⟩ 0
      .ok fs) = .ub ∧
    seekIn longFile 0 1 = .ok (some [{ time := 0, track := 1, data := [1], key := true },
      { time := 33, track := 1, data := [1], key := false }, { time := 66, track := 1, data := [1], key := false }]) := by
  decide +kernel

/-- A file with one cluster, behind which there is an element that says it has more bytes than there are. -/
def damagedFile : Bytes :=
  Spec.segmentId ++ (Spec.vint 8 67 ++ (infoElement 1000000 none none [0x6D] [0x77] ++ ((tracksTree [smallVideo]).bytes ++
    (element 0x1F43B675 (element 0xE7 [0] ++ element 0xA3 [0x81, 0, 0, 0x80, 1]) ++ [0xEC, 0x89, 0, 0]))))

/-- **Damage behind a cluster fails an assertion when the cluster was read ahead**, where loading the file reports an error. -/
theorem C83_damaged :
    (do
      let g ← headIn damagedFile 0
      let (a, k) ← Ahead.findOrPreload ⟨g, []⟩ 48
      let (_, fs) ← playAhead { data := damagedFile, total := damagedFile.length } 1000 1000 a k
      .ok fs) = .ub := by
  decide +kernel

/-! ### Examples -/

/-- The recording of `Props/Timeline.lean`, made with an output that can seek. -/
def aheadSeg : Seg := { recordingSeg with seekable := true }

theorem ahead_settings : aheadSeg.Settings [0x6D] [0x77] (tracksTree [smallVideo, plainAudio]).bytes
    ((none : Option (List Chapter)).map fun c => (chaptersTree c).bytes)
    ((some [[⟨some [0x54], some [0x56]⟩]]).map fun t => (tagsTree t).bytes) :=
  { muxing := ⟨rfl, by decide⟩
    writing := ⟨rfl, by decide⟩
    scale := by decide
    docType := by decide
    version := rfl
    tracks := rec_settings.tracks
    chapters := trivial
    tags := rec_settings.tags
    cues := fun _ => .inr (by decide) }

theorem ahead_fed : aheadSeg.WellFed (recordedFrames.map .frame) where
  sound := by
    intro f hf
    have h := rec_fed.sound f hf
    exact ⟨h.1, h.2, h.3, h.4⟩
  waiting := rec_fed.waiting
  start := rec_fed.start

theorem ahead_viewable : Viewable aheadSeg.docType aheadSeg.info.scale (some 0x40000000) [0x6D] [0x77] [smallVideo, plainAudio] none
    (some [[⟨some [0x54], some [0x56]⟩]]) where
  docType := rec_viewable.docType
  info := ⟨by decide, by decide, by decide, fun d hd => by cases hd; exact ⟨by unfold Finite; decide, by decide +kernel, by decide +kernel⟩⟩
  tracks := rec_viewable.tracks
  numbers := rec_viewable.numbers
  chapters := rec_viewable.chapters
  tags := rec_viewable.tags

/-- Six frames in two tracks, in three clusters: the conditions of `C83_recording_partial` and `C83_moved_partial` hold. -/
example : ∃ clusters : List (List SeenFrame),
    clusters.flatten = recordedFrames.map (Frame.asWatched 1000000) ∧
    SeeksAheadAs (Seg.finalize (some 0x40000000) (Seg.run (recordedFrames.map .frame) aheadSeg freshSink).2.1
      (Seg.run (recordedFrames.map .frame) aheadSeg freshSink).2.2).2.2.data 1000000 1 clusters := by
  have h1 : (Seg.run (recordedFrames.map .frame) aheadSeg freshSink).1 = [.ok (), .ok (), .ok (), .ok (), .ok (), .ok ()] := by
    decide +kernel
  have h2 : (Seg.finalize (some 0x40000000) (Seg.run (recordedFrames.map .frame) aheadSeg freshSink).2.1
      (Seg.run (recordedFrames.map .frame) aheadSeg freshSink).2.2).2.2.data.length < 2 ^ 48 := by decide +kernel
  rcases hrun : Seg.run (recordedFrames.map .frame) aheadSeg freshSink with ⟨rs, g1, s1⟩
  rw [hrun] at h1 h2
  simp only at h1 h2
  subst h1
  rcases hfin : Seg.finalize (some 0x40000000) g1 s1 with ⟨r, g2, s2⟩
  simp only [hfin] at h2 ⊢
  exact (C83_recording_partial (ch := none) (tg := some _) ahead_settings ⟨rfl, rfl, rfl, rfl, rfl, rfl, rfl, rfl, rfl, rfl⟩
    (by unfold Seg.Numbered; decide) rfl rfl (by unfold Seg.Room; decide) rfl rfl ahead_fed (fun f hf => by
      simp only [recordedFrames, List.map_cons, List.map_nil, List.mem_cons, List.not_mem_nil, or_false, SegCall.frame.injEq] at hf
      rcases hf with rfl | rfl | rfl | rfl | rfl | rfl <;> exact ⟨by decide, by decide⟩) rfl rfl (fun _ => rfl) hrun hfin h2
    ⟨video 0, by decide, by decide⟩ rfl ahead_viewable (by unfold TrackInOrder; decide) (by decide) (.inl rfl)).2

end Verif.Props
