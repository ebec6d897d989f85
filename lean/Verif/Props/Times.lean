/-
C88: the clusters of a recording tell the times of their first and last frames.
-/
import Verif.Props.OneTrack
import Verif.Lemmas.ParserTimes

namespace Verif.Props
open Verif Verif.Par Verif.Mux Spec

private theorem carried_low {a b : List Frame} (h : CarriedAll a b) (ha : ∀ f ∈ a, f.timestamp < 2 ^ 63) :
    ∀ f ∈ b, f.timestamp < 2 ^ 63 := by
  intro f hf
  obtain ⟨x, hx, e⟩ := h.mem f hf
  rw [← e]; exact ha x hx

/-- **C88, recordings, partial.** A recording that finished without an error on a fresh file: with information, tracks, chapters, tags
and frames within mkvparser's limits the file loads into clusters that show the accepted frames, in order.  `GetFirstTime` and
`GetLastTime` of every cluster, asked for any number of times in any order, are the times of its first and last frames, in ticks of the
timecode scale but given in nanoseconds; asking changes nothing that the clusters show; and `GetLast` is the last of the clusters.
`C88_ends` and `C88_span` draw the conclusions.  What is missing is as for `C65_recording_partial`. -/
theorem C88_recording_partial {g : Seg} {muxing writing : Bytes} {ts : List Track} {ch : Option (List Chapter)}
    {tg : Option (List Tag)}
    (hg : g.Settings muxing writing (tracksTree ts).bytes (ch.map fun c => (chaptersTree c).bytes)
      (tg.map fun t => (tagsTree t).bytes)) (hu : g.Unused) (hn : g.Numbered)
    (hacc : g.accurate = false) (hl : g.live = false)
    (hroom : g.Room (ch.map fun c => (chaptersTree c).bytes) (tg.map fun t => (tagsTree t).bytes))
    {xs : List SegCall} (hxs : g.WellFed xs) (hr : ∀ f, .frame f ∈ xs → f.Showable g.info.scale)
    {s : Sink} (hd : s.data = []) (hp : s.pos = 0) (hs : s.Sure)
    {rs : List (Res Unit)} {g1 g2 : Seg} {s1 s2 : Sink} {r : Res Unit} {d : Option Nat} {du : Option UInt32}
    (hrun : Seg.run xs g s = (rs, g1, s1)) (hfin : Seg.finalize d g1 s1 = (r, g2, s2))
    (hsm : s2.data.length < 2 ^ 48) (hw : ∃ f ∈ acceptedFrames xs rs, g.queues f = false)
    (hdu : g.lastDuration d = du.map UInt32.toNat) (hv : Viewable g.docType g.info.scale du muxing writing ts ch tg)
    (htimes : ∀ f ∈ acceptedFrames xs rs, f.timestamp < 2 ^ 63) :
    r = .ok () ∧ ∃ clusters : List (List SeenFrame),
      clusters.flatten = (acceptedFrames xs rs).map (Frame.asWatched g.info.scale) ∧ TimesAs s2.data g.info.scale clusters := by
  obtain ⟨h1, off, at', cs, bs, q, h2, h3, h4, -, h5, h6, h7, -, h8⟩ :=
    recording_opens hg hu hn hacc hl hroom hxs hr hd hp hs hrun hfin hsm hw hdu hv
  exact ⟨h1, watchedClusters g.info.scale cs, by rw [watchedClusters_flatten, h7],
    times_file h2 h3 hv.info.ticks.1 rfl (carried_low h5 htimes)⟩

/-- **C88, after moving the cues to the front, partial.** The same for the copy that has the cues before the clusters. -/
theorem C88_moved_partial {g : Seg} {muxing writing : Bytes} {ts : List Track} {ch : Option (List Chapter)}
    {tg : Option (List Tag)}
    (hg : g.Settings muxing writing (tracksTree ts).bytes (ch.map fun c => (chaptersTree c).bytes)
      (tg.map fun t => (tagsTree t).bytes)) (hu : g.Unused) (hn : g.Numbered)
    (hacc : g.accurate = false) (hl : g.live = false)
    (hroom : g.Room (ch.map fun c => (chaptersTree c).bytes) (tg.map fun t => (tagsTree t).bytes))
    (hcues : g.outputCues = true) (hseek : g.seekable = true)
    {xs : List SegCall} (hxs : g.WellFed xs) (hr : ∀ f, .frame f ∈ xs → f.Showable g.info.scale)
    {s : Sink} (hd : s.data = []) (hp : s.pos = 0) (hs : s.Sure)
    {rs : List (Res Unit)} {g1 g2 g3 : Seg} {s1 s2 s3 t : Sink} {r r' : Res Unit} {d : Option Nat} {du : Option UInt32}
    (hrun : Seg.run xs g s = (rs, g1, s1)) (hfin : Seg.finalize d g1 s1 = (r, g2, s2))
    (hsm : s2.data.length < 2 ^ 48) (hw : ∃ f ∈ acceptedFrames xs rs, g.queues f = false)
    (hmany : g2.cues.entries.length < 2 ^ 31) {depth : Nat} (hdepth : 7 * g2.cues.entries.length < depth)
    (htd : t.data = []) (htp : t.pos = 0) (hts : t.Sure)
    (hcopy : Seg.copyAndMoveCues depth true s2.data g2 t = (r', g3, s3)) (hsm3 : s3.data.length < 2 ^ 48)
    (hdu : g.lastDuration d = du.map UInt32.toNat) (hv : Viewable g.docType g.info.scale du muxing writing ts ch tg)
    (htimes : ∀ f ∈ acceptedFrames xs rs, f.timestamp < 2 ^ 63) :
    r' = .ok () ∧ ∃ clusters : List (List SeenFrame),
      clusters.flatten = (acceptedFrames xs rs).map (Frame.asWatched g.info.scale) ∧ TimesAs s3.data g.info.scale clusters := by
  obtain ⟨h1, off, at', cs, bs, q, h2, h3, h4, -, h5, h6, h7, -, h8⟩ :=
    moved_opens hg hu hn hacc hl hroom hcues hseek hxs hr hd hp hs hrun hfin hsm hw hmany hdepth htd htp hts hcopy hsm3 hdu hv
  exact ⟨h1, watchedClusters g.info.scale cs, by rw [watchedClusters_flatten, h7],
    times_file h2 h3 hv.info.ticks.1 rfl (carried_low h5 htimes)⟩

/-! ### What this means -/

/-- **The first time of the first cluster is that of the first frame, the last time of the last cluster that of the last frame.** -/
theorem C88_ends {scale : Nat} {cs : List (List SeenFrame)} (hne : ∀ c ∈ cs, c ≠ []) (h0 : cs ≠ []) :
    rightTime scale cs (0, false) = cs.flatten.head?.map (fun f => f.time * (scale : Int)) ∧
    rightTime scale cs (cs.length - 1, true) = cs.flatten.getLast?.map (fun f => f.time * (scale : Int)) := by
  constructor
  · cases cs with
    | nil => exact absurd rfl h0
    | cons c cs =>
      cases c with
      | nil => exact absurd rfl (hne [] (List.mem_cons_self ..))
      | cons f c => rfl
  · obtain ⟨init, c, rfl⟩ : ∃ init c, cs = init ++ [c] := ⟨_, _, (List.dropLast_concat_getLast h0).symm⟩
    have hc := hne c (by simp)
    obtain ⟨i2, f, rfl⟩ : ∃ i2 f, c = i2 ++ [f] := ⟨_, _, (List.dropLast_concat_getLast hc).symm⟩
    simp only [rightTime, List.length_append, List.length_cons, List.length_nil]
    rw [List.getElem?_append_right (by omega)]
    simp [List.flatten_append, ← List.append_assoc]

/-- **In order of time, all frames are between the first time of the first cluster and the last time of the last one.** -/
theorem C88_span {scale : Nat} {cs : List (List SeenFrame)} (hne : ∀ c ∈ cs, c ≠ []) (h0 : cs ≠ [])
    (ho : cs.flatten.Pairwise fun a b => a.time ≤ b.time) :
    ∃ a b, rightTime scale cs (0, false) = some a ∧ rightTime scale cs (cs.length - 1, true) = some b ∧
      ∀ f ∈ cs.flatten, a ≤ f.time * scale ∧ f.time * scale ≤ b := by
  obtain ⟨h1, h2⟩ := C88_ends (scale := scale) hne h0
  have hfl : cs.flatten ≠ [] := by
    cases cs with
    | nil => exact absurd rfl h0
    | cons c cs =>
      have := hne c (List.mem_cons_self ..)
      simp [this]
  generalize cs.flatten = fs at *
  have up : ∀ {x y : SeenFrame}, x.time ≤ y.time → x.time * (scale : Int) ≤ y.time * scale := fun h =>
    Int.mul_le_mul_of_nonneg_right h (Int.natCast_nonneg _)
  refine ⟨(fs.head hfl).time * scale, (fs.getLast hfl).time * scale, ?_, ?_, fun f hf => ⟨up ?_, up ?_⟩⟩
  · rw [h1, List.head?_eq_some_head hfl]; rfl
  · rw [h2, List.getLast?_eq_some_getLast hfl]; rfl
  · cases fs with
    | nil => exact absurd rfl hfl
    | cons x fs =>
      rcases List.mem_cons.mp hf with rfl | h
      · exact Int.le_refl _
      · exact (List.pairwise_cons.mp ho).1 f h
  · obtain ⟨init, l, rfl⟩ : ∃ init l, fs = init ++ [l] := ⟨_, _, (List.dropLast_concat_getLast hfl).symm⟩
    rw [List.getLast_concat]
    rcases List.mem_append.mp hf with h | h
    · exact (List.pairwise_append.mp ho).2.2 f h l (by simp)
    · rw [List.mem_singleton.mp h]; exact Int.le_refl _

/-! ### What they do not tell -/

/-- Opening a file, loading it, and asking its clusters. -/
def askFile (file : Bytes) (qs : List Question) : Res (List Int) :=
  match createInstance { data := file, total := file.length } 0 with
  | .ok g => do
    let (_, ts) ← askTimes { data := file, total := file.length } 3000 (g.load { data := file, total := file.length } 3000).1 qs
    .ok ts
  | .err c => .err c
  | .ub => .ub

/-- Two clusters; in the first one the last block is earlier than the one before it. -/
def timesFile : Bytes :=
  twoTracks ++ smallCluster 0 [[0xA3, 0x85, 0x81, 0, 0, 0x80, 1], [0xA3, 0x85, 0x82, 0, 100, 0x80, 2], [0xA3, 0x85, 0x81, 0, 50, 0, 1]] ++
    smallCluster 120 [[0xA3, 0x85, 0x81, 0, 0, 0x80, 1], [0xA3, 0x85, 0x82, 0, 7, 0x80, 2]]

/-- **The last time is not the latest one.** In `timesFile`, whose first cluster is the one of `C21_times_decrease`, that cluster has a
frame at 100 ms and its last time is 50 ms. -/
theorem C88_not_the_latest : askFile timesFile [(0, true), (0, false), (1, true), (0, true), (1, false)] =
    .ok [50000000, 0, 127000000, 50000000, 120000000] := by decide +kernel

/-- **A cluster without frames is passed over by loading**: the first cluster that can be asked is the one at 120 ms. -/
theorem C88_empty_cluster :
    askFile (twoTracks ++ smallCluster 9 [] ++ smallCluster 120 [[0xA3, 0x85, 0x81, 0, 0, 0x80, 1]]) [(0, true), (0, false)] =
      .ok [120000000, 120000000] := by decide +kernel

/-! ### Non-vacuity -/

/-- `C88_recording_partial` applies to the recording of `recordedFrames`. -/
example : ∃ clusters : List (List SeenFrame),
    clusters.flatten = recordedFrames.map (Frame.asWatched 1000000) ∧
    TimesAs (Seg.finalize (some 0x40000000) (Seg.run (recordedFrames.map .frame) recordingSeg freshSink).2.1
      (Seg.run (recordedFrames.map .frame) recordingSeg freshSink).2.2).2.2.data 1000000 clusters := by
  have h1 := rec_outcome
  have h2 := rec_small
  rcases hrun : Seg.run (recordedFrames.map .frame) recordingSeg freshSink with ⟨rs, g1, s1⟩
  rw [hrun] at h1 h2
  simp only at h1 h2
  subst h1
  rcases hfin : Seg.finalize (some 0x40000000) g1 s1 with ⟨r, g2, s2⟩
  simp only [hfin] at h2 ⊢
  exact (C88_recording_partial (ch := none) (tg := some _) rec_settings ⟨rfl, rfl, rfl, rfl, rfl, rfl, rfl, rfl, rfl, rfl⟩
    (by unfold Seg.Numbered; decide) rfl rfl (by unfold Seg.Room; decide) rec_fed (fun f hf => by
      simp only [recordedFrames, List.map_cons, List.map_nil, List.mem_cons, List.not_mem_nil, or_false, SegCall.frame.injEq] at hf
      rcases hf with rfl | rfl | rfl | rfl | rfl | rfl <;> exact ⟨by decide, by decide⟩) rfl rfl (fun _ => rfl) hrun hfin h2
    ⟨video 0, by decide, by decide⟩ rfl rec_viewable (by decide)).2

example : ∃ a b, rightTime 1000000 (fewClusters.map (·.2)) (0, false) = some a ∧
    rightTime 1000000 (fewClusters.map (·.2)) ((fewClusters.map (·.2)).length - 1, true) = some b ∧
    ∀ f ∈ (fewClusters.map (·.2)).flatten, a ≤ f.time * (1000000 : Nat) ∧ f.time * (1000000 : Nat) ≤ b :=
  C88_span (by decide) (by decide) (by decide)

end Verif.Props
