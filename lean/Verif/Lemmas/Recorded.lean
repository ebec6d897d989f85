/-
The files of the muxer, read with the incremental parser: the frames and the settings its callback sees.
-/
import Verif.Lemmas.FileTree
import Verif.Lemmas.Announced
import Verif.Props.MuxerSegment
import Verif.Props.WebmDom
import Verif.Props.Headers

namespace Verif.Props
open Verif Verif.Web Verif.Mux Spec

theorem plays {docType : Bytes} {known : Bool} {t : Tree} {fs : List SeenFrame} {b : Bytes} {ts : List Track}
    {ch : Option (List Chapter)} {tg : Option (List Tag)} {scale : Nat} {duration : Option Nat} {date : Option Int} {muxing writing : Bytes}
    (hs : t.Shaped (kidsOf gSegment) known none) (hsh : Shows (kidsOf gSegment) t fs)
    (ha : t.Around (settingsTree ts ch tg scale duration date muxing writing))
    (hb : (fileTree docType known t).bytes = b) (hl : b.length < 2 ^ 48) :
    PlaysAs b fs ∧ AnnouncesAs b (settingsSeen docType scale duration date muxing writing ts ch tg) := by
  refine ⟨?_, ?_⟩
  rotate_left
  · intro cb hcb hall s hsb hpos fuel hf
    rw [C79_everything cb hcb hall (fileTree docType known t) (file_document hs (by rw [hb]; omega)) s (by rw [hsb, hb])
      (by rw [hb]; exact hpos) fuel hf, List.filter_map, ← file_announced ha]
    rfl
  intro cb hcb hall s hsb hpos fuel hf
  have h := C58_document_read cb hcb (fileTree docType known t) (file_document hs (by rw [hb]; omega)) s (by rw [hsb, hb])
    (by rw [hb]; exact hpos) fuel hf
  rcases hd : drive (Parser.feed cb) fuel ({}, []) s with ⟨st, ⟨q, L⟩, s', k⟩
  rw [hd] at h
  obtain ⟨h1, h2, h3, -⟩ := h
  have hskip : (fun L m => (cb L (.element m)).2) = takeAll := by
    funext L m; exact hall L m
  rw [hskip] at h2
  exact ⟨h1, by rw [h2]; exact file_timeline hsh _, h3⟩

theorem known_clusters {scale off : Nat} {sized known : Bool} {cs : List (Nat × ClusterOf)} {bs : Bytes}
    {fs : List SeenFrame} (h : ClustersAt scale sized off cs bs) (hr : ∀ f ∈ clusterFrames cs, f.InRange)
    (hk : sized = true ∨ known = false) (hfs : (clusterFrames cs).map (Frame.asSeen scale) = fs) :
    ∃ t, ClusterTree bs known fs t := by
  obtain ⟨t, t1, -, t3, t4, t5⟩ := clusters_tree h hr
  exact ⟨t, t1, fun a ha => t3 known a hk ha, hfs ▸ t4, t5⟩

theorem open_clusters {scale : Nat} {sized : Bool} {cs : List (Nat × ClusterOf)} {last : Option ClusterOf}
    {p : Parts} {docType data : Bytes} (h : p.Unfinished docType scale sized cs last data)
    (hr : ∀ f ∈ clusterFrames cs ++ last.elim [] ClusterOf.frames, f.InRange) :
    ∃ t, ClusterTree p.clusters false ((clusterFrames cs ++ last.elim [] ClusterOf.frames).map (Frame.asSeen scale)) t := by
  obtain ⟨-, -, a, b, h1, h2, h3⟩ := h
  obtain ⟨t, t1, t2, t3, t4, t5⟩ := clusters_tree h2 fun f hf => hr f (List.mem_append_left _ hf)
  cases last with
  | none =>
    obtain ⟨rfl, rfl⟩ := h3
    exact ⟨t, by rw [t1, h1, List.append_nil], fun a ha => t3 false a (.inr rfl) ha, by simpa using t4, t5⟩
  | some c =>
    obtain ⟨u, u1, u2, u3, u4, u5⟩ := cluster_tree h3 fun f hf => hr f (List.mem_append_right _ hf)
    refine ⟨t.append u, by rw [Tree.append_bytes, t1, u1, h1], ?_, ?_,
      fun i hi => (List.mem_append.mp (tops_append _ _ ▸ hi)).elim (t5 i) (u5 i)⟩
    · intro a ha
      refine (t3 false _ (.inr rfl) ?_).append (u3 false a (.inr rfl) ha)
      intro i hi
      rw [u2] at hi; cases hi; rfl
    · rw [List.map_append]
      exact Shows.append t4 u4 (t3 false none (.inr rfl) (by intro _ h; cases h))

theorem accepted_times {g : Seg} {xs : List SegCall} {rs : List (Res Unit)} (hxs : g.WellFed xs) {gs : List Frame}
    (hc : CarriedAll (acceptedFrames xs rs) gs) : ∀ f ∈ gs, f.timestamp / g.info.scale < 2 ^ 63 :=
  carried_times (P := fun t => t / g.info.scale < 2 ^ 63) hc fun f hf => (hxs.sound f (accepted_frame hf)).fine.2

theorem payload_le (p : Parts) (docType : Bytes) (b : Bool) : p.payload.length ≤ (p.file docType b).length := by
  simp only [Parts.file, List.length_append]; omega

theorem frontPayload_le (p : Parts) (docType : Bytes) : p.frontPayload.length ≤ (p.frontFile docType).length := by
  simp only [Parts.frontFile, List.length_append]; omega

theorem recorded_read {g : Seg} {muxing writing : Bytes} {ts : List Track} {ch : Option (List Chapter)}
    {tg : Option (List Tag)}
    (hg : g.Settings muxing writing (tracksTree ts).bytes (ch.map fun c => (chaptersTree c).bytes)
      (tg.map fun t => (tagsTree t).bytes)) (hu : g.Unused) (hn : g.Numbered)
    (hacc : g.accurate = false) (hl : g.live = false)
    (hroom : g.Room (ch.map fun c => (chaptersTree c).bytes) (tg.map fun t => (tagsTree t).bytes))
    {xs : List SegCall} (hxs : g.WellFed xs) (hr : ∀ f, .frame f ∈ xs → f.InRange)
    {s : Sink} (hd : s.data = []) (hp : s.pos = 0) (hs : s.Sure)
    {rs : List (Res Unit)} {g1 g2 : Seg} {s1 s2 : Sink} {r : Res Unit} {d : Option Nat}
    (hrun : Seg.run xs g s = (rs, g1, s1)) (hfin : Seg.finalize d g1 s1 = (r, g2, s2))
    (hsm : s2.data.length < 2 ^ 48) (hw : ∃ f ∈ acceptedFrames xs rs, g.queues f = false) :
    r = .ok () ∧ PlaysAs s2.data ((acceptedFrames xs rs).map (Frame.asSeen g.info.scale)) ∧
      AnnouncesAs s2.data (settingsSeen g.docType g.info.scale (g.lastDuration d) g.info.date muxing writing ts ch tg) := by
  obtain ⟨h1, -, p, cs, h3, h4, h5, h6, h7, h8, h9, h10, h11, -⟩ :=
    whole_file hg hu hn hacc hl hroom hxs hd hp hs hrun hfin hsm hw
  have hsize : p.payload.length < 2 ^ 48 := by
    have := payload_le p g.docType g.seekable
    rw [← h3] at this; omega
  obtain ⟨c1, c2⟩ := carried_seen (scale := g.info.scale) h10 fun f hf => hr f (accepted_frame hf)
  have hregion : Region p.region := by
    unfold Parts.HasSeekHead at h4
    split at h4
    · obtain ⟨n, e⟩ := h4
      rw [e]; exact .seek _ _ (places_bounded (by omega))
    · rw [h4]; exact .none
  have hdesc : p.Describes ts ch tg g.info.scale (g.lastDuration d) g.info.date muxing writing :=
    ⟨hregion, h5, hg.scale.2, h6, h7, h8⟩
  have hcues : p.CuesFit := by
    split at h11
    · refine .inr ⟨_, h11.1, cues_fit h11.2 h9 ?_ (accepted_times hxs h10)⟩
      simp only [Parts.clustersAt, Parts.tagsAt, Parts.chaptersAt, Parts.tracksAt]
      simp only [Parts.payload, List.length_append] at hsize
      omega
    · exact .inl h11
  obtain ⟨tc, htc⟩ := known_clusters (known := g.seekable) h9 c1 (by cases g.seekable <;> simp) c2
  obtain ⟨t, t1, t2, t3, t4⟩ := hdesc.payload hcues htc
  exact ⟨h1, plays t2 t3 t4 (by rw [fileTree_bytes, t1, h3]; rfl) hsm⟩

theorem live_read {g : Seg} {muxing writing : Bytes} {ts : List Track} {ch : Option (List Chapter)}
    {tg : Option (List Tag)}
    (hg : g.Settings muxing writing (tracksTree ts).bytes (ch.map fun c => (chaptersTree c).bytes)
      (tg.map fun t => (tagsTree t).bytes)) (hu : g.Unused) (hn : g.Numbered)
    (hacc : g.accurate = false) (hl : g.live = true)
    {xs : List SegCall} (hxs : g.WellFed xs) (hr : ∀ f, .frame f ∈ xs → f.InRange)
    {s : Sink} (hd : s.data = []) (hp : s.pos = 0) (hs : s.Sure)
    {rs : List (Res Unit)} {g1 g2 : Seg} {s1 s2 : Sink} {r : Res Unit} {d : Option Nat}
    (hrun : Seg.run xs g s = (rs, g1, s1)) (hfin : Seg.finalize d g1 s1 = (r, g2, s2))
    (hsm : s2.data.length < 2 ^ 48) (hw : ∃ f ∈ acceptedFrames xs rs, g.queues f = false) :
    r = .ok () ∧ PlaysAs s2.data ((acceptedFrames xs rs).map (Frame.asSeen g.info.scale)) ∧
      AnnouncesAs s2.data (settingsSeen g.docType g.info.scale g.info.duration g.info.date muxing writing ts ch tg) := by
  obtain ⟨h1, -, p, cs, last, h3, h4, h5, h6, h7, h8, h9⟩ :=
    C21_live_partial hg hu hn hacc hl hxs hd hp hs hrun hfin hsm hw
  obtain ⟨c1, c2⟩ := carried_seen (scale := g.info.scale) h9 fun f hf => hr f (accepted_frame hf)
  have hdesc : p.Describes ts ch tg g.info.scale g.info.duration g.info.date muxing writing :=
    ⟨by rw [h4]; exact .none, h5, hg.scale.2, h6, h7, h8⟩
  obtain ⟨tc, htc⟩ := open_clusters h3 c1
  obtain ⟨t, t1, t2, t3, t4⟩ := hdesc.payload (.inl h3.2.1) htc
  refine ⟨h1, ?_⟩
  have := plays (docType := g.docType) t2 t3 t4 (by rw [fileTree_bytes, t1]; exact h3.1.symm) hsm
  rw [← c2]
  exact this

theorem interrupted_read {g : Seg} {muxing writing : Bytes} {ts : List Track} {ch : Option (List Chapter)}
    {tg : Option (List Tag)}
    (hg : g.Settings muxing writing (tracksTree ts).bytes (ch.map fun c => (chaptersTree c).bytes)
      (tg.map fun t => (tagsTree t).bytes)) (hu : g.Unused) (hn : g.Numbered) (hacc : g.accurate = false)
    {xs : List SegCall} (hxs : g.WellFed xs) (hx : ∃ f, .frame f ∈ xs) (hr : ∀ f, .frame f ∈ xs → f.InRange)
    {s : Sink} (hd : s.data = []) (hp : s.pos = 0) (hs : s.Sure)
    {rs : List (Res Unit)} {g1 : Seg} {s1 : Sink} (hrun : Seg.run xs g s = (rs, g1, s1))
    (hsm : s1.data.length < 2 ^ 48) :
    ∃ written waiting : List SeenFrame,
      (acceptedFrames xs rs).map (Frame.asSeen g.info.scale) = written ++ waiting ∧ PlaysAs s1.data written ∧
      AnnouncesAs s1.data (settingsSeen g.docType g.info.scale (if !g.live && g.seekable then some 0x3F800000 else g.info.duration) g.info.date muxing writing ts ch tg) ∧
      ∀ f ∈ waiting, g.hasVideo = true ∧ (g.tracks.byNumber f.track).any (fun e => e.kind == .audio) = true := by
  obtain ⟨p, cs, last, waiting, h1, h2, h3, h4, h5, h6, h7, h8⟩ := C57_between_calls hg hu hn hacc hxs hx hd hp hs hrun hsm
  obtain ⟨c1, c2⟩ := carried_seen (scale := g.info.scale) h7 fun f hf => hr f (accepted_frame hf)
  have hregion : Region p.region := by
    split at h6
    · obtain ⟨n, e⟩ := h6
      rw [e]; exact .void n
    · rw [h6]; exact .none
  have hdesc : p.Describes ts ch tg g.info.scale _ g.info.date muxing writing :=
    ⟨hregion, h2, hg.scale.2, h3, h4, h5⟩
  obtain ⟨tc, htc⟩ := open_clusters h1 fun f hf => c1 f (List.mem_append_left _ hf)
  obtain ⟨t, t1, t2, t3, t4⟩ := hdesc.payload (.inl h1.2.1) htc
  have hb := plays (docType := g.docType) t2 t3 t4 (by rw [fileTree_bytes, t1]; exact h1.1.symm) hsm
  refine ⟨_, waiting.map (Frame.asSeen g.info.scale), by rw [← c2, List.map_append], hb.1, hb.2, ?_⟩
  intro f hf
  obtain ⟨w, hw, rfl⟩ := List.mem_map.mp hf
  have := h8 w hw
  unfold Seg.queues at this
  exact Bool.and_eq_true_iff.mp this

theorem moved_read {g : Seg} {muxing writing : Bytes} {ts : List Track} {ch : Option (List Chapter)}
    {tg : Option (List Tag)}
    (hg : g.Settings muxing writing (tracksTree ts).bytes (ch.map fun c => (chaptersTree c).bytes)
      (tg.map fun t => (tagsTree t).bytes)) (hu : g.Unused) (hn : g.Numbered)
    (hacc : g.accurate = false) (hl : g.live = false)
    (hroom : g.Room (ch.map fun c => (chaptersTree c).bytes) (tg.map fun t => (tagsTree t).bytes))
    (hcues : g.outputCues = true) (hseek : g.seekable = true)
    {xs : List SegCall} (hxs : g.WellFed xs) (hr : ∀ f, .frame f ∈ xs → f.InRange)
    {s : Sink} (hd : s.data = []) (hp : s.pos = 0) (hs : s.Sure)
    {rs : List (Res Unit)} {g1 g2 g3 : Seg} {s1 s2 s3 t : Sink} {r r' : Res Unit} {d : Option Nat}
    (hrun : Seg.run xs g s = (rs, g1, s1)) (hfin : Seg.finalize d g1 s1 = (r, g2, s2))
    (hsm : s2.data.length < 2 ^ 48) (hw : ∃ f ∈ acceptedFrames xs rs, g.queues f = false)
    (hmany : g2.cues.entries.length < 2 ^ 31) {depth : Nat} (hdepth : 7 * g2.cues.entries.length < depth)
    (htd : t.data = []) (htp : t.pos = 0) (hts : t.Sure)
    (hcopy : Seg.copyAndMoveCues depth true s2.data g2 t = (r', g3, s3)) (hsm3 : s3.data.length < 2 ^ 48) :
    r' = .ok () ∧ PlaysAs s3.data ((acceptedFrames xs rs).map (Frame.asSeen g.info.scale)) ∧
      AnnouncesAs s3.data (settingsSeen g.docType g.info.scale (g.lastDuration d) g.info.date muxing writing ts ch tg) := by
  obtain ⟨h1, p, cs, q, h3, h4, h5, h6, h7, h8, h9, h10, h11, h12, -⟩ :=
    C22_after_moving_partial hg hu hn hacc hl hroom hcues hseek hxs hd hp hs hrun hfin hsm hw hmany hdepth htd htp hts hcopy
  have hsize : p.frontPayload.length < 2 ^ 48 := by
    have := frontPayload_le p g.docType
    rw [← h3] at this; omega
  obtain ⟨c1, c2⟩ := carried_seen (scale := g.info.scale) h10 fun f hf => hr f (accepted_frame hf)
  have hregion : Region p.region := by
    obtain ⟨n, e⟩ := h4
    rw [e]; exact .seek _ _ (frontPlaces_bounded (by omega))
  have hdesc : p.Describes ts ch tg g.info.scale (g.lastDuration d) g.info.date muxing writing :=
    ⟨hregion, h5, hg.scale.2, h6, h7, h8⟩
  have hfit : p.CuesFit := by
    refine .inr ⟨_, h11, cues_fit h12 h9 ?_ (accepted_times hxs h10)⟩
    simp only [Parts.frontClustersAt, Parts.tagsAt, Parts.chaptersAt, Parts.tracksAt]
    simp only [Parts.frontPayload, List.length_append] at hsize
    omega
  obtain ⟨tc, htc⟩ := known_clusters (known := true) h9 c1 (.inl rfl) c2
  obtain ⟨t, t1, t2, t3, t4⟩ := hdesc.front hfit htc
  exact ⟨h1, plays t2 t3 t4 (by rw [fileTree_bytes, t1, h3]; rfl) hsm3⟩

end Verif.Props
