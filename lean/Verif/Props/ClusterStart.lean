/-
C59: when the muxer begins a new cluster, and which frames go to it.
-/
import Verif.Lemmas.MuxerStart
import Verif.Props.MuxerSegment

namespace Verif.Props
open Verif Verif.Mux Spec

/-- The file in a state between two calls. -/
private theorem viewed_file {g : Seg} {muxing writing tr : Bytes} {ch tg : Option Bytes} {gap : Bytes} {sp : Nat}
    {t : SegSt} {s : Sink} {closed : List ClusterOf} {last : Option ClusterOf} {size : Nat}
    (h : (g.begun gap muxing writing tr ch tg sp).Viewed (fileStart g.docType sizeUnknown ++ g.headBytes gap muxing writing tr ch tg)
      t s closed last size) :
    ∃ p : Parts, ∃ cs, p.Unfinished g.docType g.info.scale g.seekable cs last s.data ∧ cs.map Prod.snd = closed ∧
      (∀ c, last = some c → ∃ front body, s.data = front ++ (clusterId ++ (sizeUnknown ++ body)) ∧
        ClusterBody c.tc g.info.scale c.frames body ∧ body.length = size) := by
  rcases h with ⟨h1, rfl, rfl⟩ | ⟨ps, ws, c, h1, hne, rfl, rfl, rfl⟩
  · refine ⟨⟨gap, g.headInfo.bytes muxing writing, tr, ch, tg, [], none⟩, [],
      ⟨?_, rfl, [], [], rfl, .nil, rfl, rfl⟩, rfl, fun c hc => (by cases hc)⟩
    rw [h1.data]
    simp [Seg.headBytes, headParts, Parts.file, Parts.payload, fileStart]
  · obtain ⟨p, cs, last, u, e1, e2, e3, e4, e5, e6, e7, e8⟩ := open_file h1 hne
    subst e8
    refine ⟨p, cs, u, e7, fun c' hc' => ?_⟩
    cases hc'
    have hh : c.headerWritten = true := by
      cases h : c.headerWritten with
      | true => rfl
      | false => exact absurd (h1.holds.noHeader h).2.2.1 hne
    obtain ⟨d1, d2, -⟩ := h1.holds.header hh
    refine ⟨(g.begun gap muxing writing tr ch tg sp).pre
        (fileStart g.docType sizeUnknown ++ g.headBytes gap muxing writing tr ch tg) ps, c.body ws, ?_, ?_, d2.symm⟩
    · rw [d1, clusterHead_eq, unknownSize_eq, List.append_assoc clusterId]
    · have := Cluster.body_spec h1.tc (fun f hf => (h1.holds.fit f hf))
      rw [h1.scale, begun_scale] at this
      exact this

/-- **C59 (one frame).** Take any history of a segment that writes frames at once, and hand over one
more frame `f`, successfully.  The file before the call is a file as in `C57_between_calls`, with
complete clusters, an open cluster whose payload is `body`, and waiting frames; so is the file after
it; and the clusters and waiting frames after the call are those that `Filed` says: the frame waits,
or begins a new cluster — exactly for the reasons in `StartsCluster` —, or goes to the open cluster.
`g1.forceNew` says whether a new cluster has been asked for; the call settles that. -/
theorem C59_frame_filed {g : Seg} {muxing writing tr : Bytes} {ch tg : Option Bytes}
    (hg : g.Settings muxing writing tr ch tg) (hu : g.Unused) (hn : g.Numbered) (hacc : g.accurate = false)
    {xs : List SegCall} {f : Frame} (hxs : g.WellFed (xs ++ [.frame f])) (hx : ∃ y, .frame y ∈ xs) (h64 : f.timestamp < 2 ^ 64)
    {s : Sink} (hd : s.data = []) (hp : s.pos = 0) (hs : s.Sure)
    {rs : List (Res Unit)} {g1 g2 : Seg} {s1 s2 : Sink} (hrun : Seg.run xs g s = (rs, g1, s1))
    (hcall : Seg.call (.frame f) g1 s1 = (.ok (), g2, s2)) (hsm : s1.data.length < 2 ^ 48) :
    ∃ p p' : Parts, ∃ cs cs' last last' waiting waiting' f' size,
      p.Unfinished g.docType g.info.scale g.seekable cs last s1.data ∧
      (∀ c, last = some c → ∃ front body, s1.data = front ++ (clusterId ++ (sizeUnknown ++ body)) ∧
        ClusterBody c.tc g.info.scale c.frames body ∧ body.length = size) ∧
      CarriedAll (acceptedFrames xs rs) (clusterFrames cs ++ last.elim [] ClusterOf.frames ++ waiting) ∧
      p'.Unfinished g.docType g.info.scale g.seekable cs' last' s2.data ∧
      Carried f f' ∧ g2.forceNew = false ∧
      Filed g g1.forceNew size f f' (cs.map Prod.snd) last waiting (cs'.map Prod.snd) last' waiting' := by
  obtain ⟨s0, gap, sp, e, a0, u0, d0, hres⟩ := run_begun hg hu hd (by unfold Sink.AtEnd; rw [hd, hp]; rfl) hs hx
  rw [hrun] at e
  have hr := begun_ready hg hu hacc gap sp
  obtain ⟨rs', t, s', e', ho, hb⟩ := run_more hr (g := g.begun gap muxing writing tr ch tg sp) hn [.frame f]
    (begun_between hu a0 u0 d0) (begun_orderly hu hxs gap muxing writing tr ch tg sp)
    (SmallRun.of_end rfl (by rw [Seg.put_st, ← e]; show s1.data.length + 1 < _; omega))
  rw [Seg.put_st, ← e] at e'
  cases e'
  have hview : ∃ closed last size, (g.begun gap muxing writing tr ch tg sp).Viewed
      (fileStart g.docType sizeUnknown ++ g.headBytes gap muxing writing tr ch tg) t s1 closed last size ∧
      CarriedAll (acceptedFrames xs rs) ((closed.map ClusterOf.frames).flatten ++ last.elim [] ClusterOf.frames ++ t.queue) := by
    rcases hb.state with ⟨h1, h2, -⟩ | ⟨ps, ws, c, h1, h2, h3, -⟩
    · exact ⟨[], none, 0, .inl ⟨h1, rfl, rfl⟩, by simpa using h2⟩
    · refine ⟨_, _, _, .inr ⟨ps, ws, c, h1, h2, rfl, rfl, rfl⟩, ?_⟩
      have : ((ps.map Piece.cl).map ClusterOf.frames).flatten = flatFrames ps := by
        unfold flatFrames; rw [List.map_map]; rfl
      rw [this]
      simpa [openOne] using h3
  obtain ⟨closed, last, size, hv, hc⟩ := hview
  obtain ⟨t', f', closed', last', size', rfl, hfn, hcar, hv', hfiled⟩ := call_filed hr hn hb ho h64 hcall hv
  obtain ⟨p, cs, w1, w2, w3⟩ := viewed_file hv
  obtain ⟨p', cs', v1, v2, -⟩ := viewed_file hv'
  refine ⟨p, p', cs, cs', last, last', t.queue, t'.queue, f', size, w1, w3, ?_, v1, hcar, hfn, ?_⟩
  · unfold clusterFrames
    rw [← w2, List.map_map] at hc
    exact hc
  · rw [w2, v2]
    have esc := begun_scale g gap muxing writing tr ch tg sp
    have hk : ∀ a l, KeptBack (g.begun gap muxing writing tr ch tg sp) a l f = KeptBack g a l f := by
      intro a l; unfold KeptBack TooFar ticks; rw [esc]; rfl
    have hst : ∀ a l n, StartsCluster (g.begun gap muxing writing tr ch tg sp) a l n f = StartsCluster g a l n f := by
      intro a l n; unfold StartsCluster TooFar ticks; rw [esc]; rfl
    have hnt : ∀ m, newTime (g.begun gap muxing writing tr ch tg sp) m f = newTime g m f := by
      intro m; unfold newTime ticks; rw [esc]
    unfold Filed at hfiled ⊢
    rw [hk, hst, hnt] at hfiled
    exact hfiled

/-- Asking for a new cluster is remembered. -/
theorem C59_asking (g : Seg) (s : Sink) : ∃ g', Seg.call .force g s = (.ok (), g', s) ∧ g'.forceNew = true :=
  ⟨_, rfl, rfl⟩

/-- **C59 (all clusters).** At every moment between two calls, every cluster in the file is as the
settings want it: only frames that waited stand before the frame it was begun for; every other key
frame of a video track begins a cluster of its own, and so does every frame that did not wait and is
as late, relative to the cluster, as the longest duration allowed. -/
theorem C59_clusters_trim {g : Seg} {muxing writing tr : Bytes} {ch tg : Option Bytes}
    (hg : g.Settings muxing writing tr ch tg) (hu : g.Unused) (hn : g.Numbered) (hacc : g.accurate = false)
    {xs : List SegCall} (hxs : g.WellFed xs) (hx : ∃ y, .frame y ∈ xs) (h64 : ∀ f, .frame f ∈ xs → f.timestamp < 2 ^ 64)
    {s : Sink} (hd : s.data = []) (hp : s.pos = 0) (hs : s.Sure)
    {rs : List (Res Unit)} {g1 : Seg} {s1 : Sink} (hrun : Seg.run xs g s = (rs, g1, s1)) (hsm : s1.data.length < 2 ^ 48) :
    ∃ p : Parts, ∃ cs last, p.Unfinished g.docType g.info.scale g.seekable cs last s1.data ∧
      (∀ c ∈ cs, Trim g c.2) ∧ ∀ c, last = some c → Trim g c := by
  obtain ⟨s0, gap, sp, e, a0, u0, d0, hres⟩ := run_begun hg hu hd (by unfold Sink.AtEnd; rw [hd, hp]; rfl) hs hx
  rw [hrun] at e
  have hr := begun_ready hg hu hacc gap sp
  have hb0 := begun_between (muxing := muxing) (writing := writing) (tr := tr) (ch := ch) (tg := tg) (sp := sp) hu a0 u0 d0
  have hv0 : (g.begun gap muxing writing tr ch tg sp).Viewed
      (fileStart g.docType sizeUnknown ++ g.headBytes gap muxing writing tr ch tg)
      (g.begun gap muxing writing tr ch tg sp).st s0 [] none 0 := by
    rcases hb0.state with ⟨h1, -, -⟩ | ⟨ps, ws, c, h1, -⟩
    · exact .inl ⟨h1, rfl, rfl⟩
    · have h2 : (g.begun gap muxing writing tr ch tg sp).st.cur = none := hu.cur
      exact absurd (h1.cur.symm.trans h2) (by simp)
  obtain ⟨rs', t, s', e', hb, closed, last, size, hv, ht1, ht2⟩ := run_trim hr (g := g.begun gap muxing writing tr ch tg sp) hn
    hb0 (begun_orderly hu hxs gap muxing writing tr ch tg sp) h64
    (SmallRun.of_end rfl (by rw [Seg.put_st, ← e]; show s1.data.length + 1 < _; omega)) hv0 ⟨by simp, by simp⟩
  rw [Seg.put_st, ← e] at e'
  cases e'
  obtain ⟨p, cs, w1, w2, -⟩ := viewed_file hv
  have htr : ∀ c, Trim (g.begun gap muxing writing tr ch tg sp) c → Trim g c := by
    intro c hc
    unfold Trim ticks at hc ⊢
    rw [begun_scale] at hc
    exact hc
  refine ⟨p, cs, last, w1, fun c hc => htr _ (ht1 _ ?_), fun c hc => htr _ (ht2 c hc)⟩
  rw [← w2]; exact List.mem_map_of_mem hc

/-! ### Examples -/

private theorem sample_settings (s : Seg) (h1 : s.info = sampleSeg.info) (h2 : s.docType = sampleSeg.docType)
    (h3 : s.docVersion = 4) (h4 : s.tracksW = sampleSeg.tracksW) (h5 : s.chaptersW = none) (h6 : s.tagsW = none)
    (h7 : s.tracks = sampleSeg.tracks) : s.Settings [0x6D] [0x77] [0x16, 0x54, 0xAE, 0x6B, 0x80] none none :=
  { muxing := by rw [h1]; exact ⟨rfl, by decide⟩
    writing := by rw [h1]; exact ⟨rfl, by decide⟩
    scale := by rw [h1]; decide
    docType := by rw [h2]; decide
    version := h3
    tracks := by rw [h4]; exact Emits.write _
    chapters := by rw [h5]; trivial
    tags := by rw [h6]; trivial
    cues := fun _ => .inr (by rw [h7]; decide) }

/-- A segment with limits: clusters of at most 100 ms and 40 bytes. -/
def limited : Seg := { sampleSeg with maxDuration := 100000000, maxSize := 40 }

/-- Frames that reach both limits. -/
def limitedCalls : List SegCall := [.frame (video 0), .frame (video 99 false), .frame (video 100 false),
  .frame (audio 105), .frame (audio 110), .frame (video 120 false), .frame (video 121 false),
  .frame (video 122 false), .frame (video 123 false)]

private theorem limited_fed : limited.WellFed limitedCalls := by
  refine ⟨?_, by decide, by unfold Span; decide⟩
  intro f hf
  simp only [limitedCalls, List.mem_cons, List.not_mem_nil, or_false, SegCall.frame.injEq] at hf
  rcases hf with rfl | rfl | rfl | rfl | rfl | rfl | rfl | rfl | rfl <;>
    exact ⟨by decide, by decide, ⟨⟨by decide, by intro a h; cases h⟩, by decide⟩, by decide⟩

/-- The conditions of the theorems hold for it, all calls succeed, ... -/
example : limited.Settings [0x6D] [0x77] [0x16, 0x54, 0xAE, 0x6B, 0x80] none none ∧ limited.Unused ∧ limited.Numbered ∧
    limited.WellFed limitedCalls ∧ (∀ f, .frame f ∈ limitedCalls → f.timestamp < 2 ^ 64) ∧
    (Seg.run limitedCalls limited freshSink).1 = List.replicate 9 (.ok ()) ∧
    (Seg.run limitedCalls limited freshSink).2.2.data.length < 2 ^ 48 := by
  refine ⟨sample_settings _ rfl rfl rfl rfl rfl rfl rfl, ⟨rfl, rfl, rfl, rfl, rfl, rfl, rfl, rfl, rfl, rfl⟩,
    by unfold Seg.Numbered; decide, limited_fed, ?_, by decide +kernel, by decide +kernel⟩
  intro f hf
  simp only [limitedCalls, List.mem_cons, List.not_mem_nil, or_false, SegCall.frame.injEq] at hf
  rcases hf with rfl | rfl | rfl | rfl | rfl | rfl | rfl | rfl | rfl <;> decide

/-- ... and the file has three clusters: the frame at 100 ms begins the second, the frame at 123 ms the
third, as the second then has 3 + 5 * 7 + 7 bytes. -/
example : ((Seg.run limitedCalls limited freshSink).2.2.data.drop 190) =
    clusterId ++ [0x01, 0, 0, 0, 0, 0, 0, 0x11] ++ [0xE7, 0x81, 0, 0xA3, 0x85, 0x81, 0, 0, 0x80, 1,
      0xA3, 0x85, 0x81, 0, 99, 0, 1] ++
    clusterId ++ [0x01, 0, 0, 0, 0, 0, 0, 0x2D] ++ [0xE7, 0x81, 100, 0xA3, 0x85, 0x81, 0, 0, 0, 1,
      0xA3, 0x85, 0x82, 0, 5, 0x80, 2, 0xA3, 0x85, 0x82, 0, 10, 0x80, 2, 0xA3, 0x85, 0x81, 0, 20, 0, 1,
      0xA3, 0x85, 0x81, 0, 21, 0, 1, 0xA3, 0x85, 0x81, 0, 22, 0, 1] ++
    clusterId ++ [0x01, 0xFF, 0xFF, 0xFF, 0xFF, 0xFF, 0xFF, 0xFF] ++ [0xE7, 0x81, 123, 0xA3, 0x85, 0x81, 0, 0, 0, 1] := by
  decide +kernel

/-- `C59_frame_filed` applies to its last call. -/
example : ∃ p p' : Parts, ∃ cs cs' last last' waiting waiting' f' size,
    p.Unfinished limited.docType limited.info.scale limited.seekable cs last
      (Seg.run (limitedCalls.take 8) limited freshSink).2.2.data ∧
    p'.Unfinished limited.docType limited.info.scale limited.seekable cs' last'
      (Seg.run limitedCalls limited freshSink).2.2.data ∧
    Filed limited false size (video 123 false) f' (cs.map Prod.snd) last waiting (cs'.map Prod.snd) last' waiting' := by
  rcases hrun : Seg.run (limitedCalls.take 8) limited freshSink with ⟨rs, g1, s1⟩
  rcases hcall : Seg.call (.frame (video 123 false)) g1 s1 with ⟨r, g2, s2⟩
  have h0 : (Seg.run (limitedCalls.take 8) limited freshSink).2.1.forceNew = false ∧
      (Seg.run (limitedCalls.take 8) limited freshSink).2.2.data.length < 2 ^ 48 ∧
      (Seg.call (.frame (video 123 false)) (Seg.run (limitedCalls.take 8) limited freshSink).2.1
        (Seg.run (limitedCalls.take 8) limited freshSink).2.2).1 = .ok () ∧
      (Seg.run limitedCalls limited freshSink).2.2.data =
        (Seg.call (.frame (video 123 false)) (Seg.run (limitedCalls.take 8) limited freshSink).2.1
        (Seg.run (limitedCalls.take 8) limited freshSink).2.2).2.2.data := by decide +kernel
  rw [hrun] at h0
  simp only [hcall] at h0
  obtain ⟨h1, h2, rfl, h4⟩ := h0
  obtain ⟨p, p', cs, cs', last, last', w, w', f', size, a1, -, -, a4, -, -, a7⟩ :=
    C59_frame_filed (sample_settings limited rfl rfl rfl rfl rfl rfl rfl) ⟨rfl, rfl, rfl, rfl, rfl, rfl, rfl, rfl, rfl, rfl⟩
      (by unfold Seg.Numbered; decide) rfl (xs := limitedCalls.take 8) (f := video 123 false) limited_fed
      ⟨video 0, by simp [limitedCalls]⟩ (by decide) rfl rfl (fun _ => rfl) hrun hcall h2
  rw [h1] at a7
  exact ⟨p, p', cs, cs', last, last', w, w', f', size, a1, by rw [h4]; exact a4, a7⟩

end Verif.Props
