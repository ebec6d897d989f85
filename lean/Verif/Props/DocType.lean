/-
C86: a file is labelled "webm" exactly if it has only the codecs of WebM.
-/
import Verif.Model.MuxerDocType
import Verif.Spec.DocType
import Verif.Props.Watching
import Verif.Props.Announced

namespace Verif.Props
open Verif Verif.Par Verif.Mux Spec

private theorem idIsWebm_iff {codec : Bytes} {ids : List Bytes} : idIsWebm codec ids = true ↔ codec ∈ ids := by
  induction ids with
  | nil => simp [idIsWebm]
  | cons id ids ih =>
    rw [List.mem_cons, ← ih]
    show (if codec == id then true else idIsWebm codec ids) = true ↔ _
    by_cases h : codec = id
    · rw [if_pos (by simp [h])]; simp [h]
    · rw [if_neg (by simp [h])]; simp [h]

private theorem same_codecs {codec : Bytes} : codec ∈ kWebmCodecIds ↔ codec ∈ webmCodecs :=
  ⟨fun h => (by decide +kernel : ∀ x ∈ kWebmCodecIds, x ∈ webmCodecs) codec h,
   fun h => (by decide +kernel : ∀ x ∈ webmCodecs, x ∈ kWebmCodecIds) codec h⟩

private theorem docTypeIsWebm_iff {ts : List Track} {b : Bool} (h : docTypeIsWebm ts = .ok b) :
    if b then ∀ t ∈ ts, ∃ x ∈ webmCodecs, t.codecId = some x else ∃ t ∈ ts, ∀ x ∈ webmCodecs, t.codecId ≠ some x := by
  induction ts with
  | nil => cases h; simp
  | cons t ts ih =>
    unfold docTypeIsWebm at h
    cases hc : t.codecId with
    | none => rw [hc] at h; cases h
    | some codec =>
      rw [hc] at h
      simp only at h
      split at h
      · rename_i hw
        have hw := same_codecs.mp (idIsWebm_iff.mp hw)
        have := ih h
        cases b with
        | true =>
          simp only [if_true] at this ⊢
          intro u hu
          rcases List.mem_cons.mp hu with rfl | hu
          · exact ⟨codec, hw, hc⟩
          · exact this u hu
        | false =>
          simp only [Bool.false_eq_true, if_false] at this ⊢
          obtain ⟨u, hu, h⟩ := this
          exact ⟨u, List.mem_cons_of_mem _ hu, h⟩
      · rename_i hw
        cases h
        simp only [Bool.false_eq_true, if_false]
        refine ⟨t, List.mem_cons_self .., fun x hx e => hw ?_⟩
        rw [hc] at e
        cases e
        exact idIsWebm_iff.mpr (same_codecs.mpr hx)

/-- **C86, the choice.**  The document type chosen for a set of tracks is "webm" if every codec is one of WebM, and "matroska"
otherwise. -/
theorem C86_choice {ts : List Track} {docType : Bytes} (h : chosenDocType ts = .ok docType) :
    LabelledAs docType (ts.map (·.codecId)) := by
  unfold chosenDocType at h
  obtain ⟨b, hb, h⟩ := Res.bind_eq_ok.mp h
  have := docTypeIsWebm_iff hb
  cases b with
  | true =>
    cases h
    refine .inl ⟨by decide +kernel, fun c hc => ?_⟩
    obtain ⟨t, ht, rfl⟩ := List.mem_map.mp hc
    exact this t ht
  | false =>
    cases h
    simp only [Bool.false_eq_true, if_false] at this
    obtain ⟨t, ht, h⟩ := this
    exact .inr ⟨by decide +kernel, _, List.mem_map_of_mem ht, h⟩

/-- **C86, always chosen.**  When every track has a codec, one of the two is chosen. -/
theorem C86_chosen {ts : List Track} (h : ∀ t ∈ ts, t.codecId ≠ none) : ∃ docType, chosenDocType ts = .ok docType := by
  suffices ∃ b, docTypeIsWebm ts = .ok b by
    obtain ⟨b, hb⟩ := this
    exact ⟨_, by unfold chosenDocType; rw [hb]; rfl⟩
  induction ts with
  | nil => exact ⟨true, rfl⟩
  | cons t ts ih =>
    obtain ⟨b, hb⟩ := ih fun u hu => h u (List.mem_cons_of_mem _ hu)
    unfold docTypeIsWebm
    cases hc : t.codecId with
    | none => exact absurd hc (h t (List.mem_cons_self ..))
    | some codec =>
      simp only
      split
      · exact ⟨b, hb⟩
      · exact ⟨false, rfl⟩

/-- The label depends on the codecs alone, and no label goes with both kinds of files: whoever reads "webm" knows that there are only
codecs of WebM, and whoever reads "matroska" knows that there is another. -/
theorem C86_label {docType : Bytes} {codecs : List (Option Bytes)} (h : LabelledAs docType codecs) :
    (docType = letters "webm" ↔ ∀ c ∈ codecs, ∃ x ∈ webmCodecs, c = some x) ∧
    (docType = letters "matroska" ↔ ∃ c ∈ codecs, ∀ x ∈ webmCodecs, c ≠ some x) := by
  have hne : letters "webm" ≠ letters "matroska" := by decide +kernel
  rcases h with ⟨rfl, h⟩ | ⟨rfl, h⟩
  · refine ⟨⟨fun _ => h, fun _ => rfl⟩, ⟨fun e => absurd e hne, fun ⟨c, hc, h'⟩ => ?_⟩⟩
    obtain ⟨x, hx, e⟩ := h c hc
    exact absurd e (h' x hx)
  · refine ⟨⟨fun e => absurd e.symm hne, fun h' => ?_⟩, ⟨fun _ => h, fun _ => rfl⟩⟩
    obtain ⟨c, hc, h⟩ := h
    obtain ⟨x, hx, e⟩ := h' c hc
    exact absurd e (h x hx)

private theorem shown_label {ts : List Track} {docType : Bytes} (h : chosenDocType ts = .ok docType) {scale : Nat}
    {du : Option UInt32} {muxing writing : Bytes} {ch : Option (List Chapter)} {tg : Option (List Tag)} :
    LabelledAs (shownAs docType scale du muxing writing ts ch tg).docType
      ((shownAs docType scale du muxing writing ts ch tg).tracks.map (·.info.codecId)) := by
  have := C86_choice h
  unfold shownAs
  simp only [List.map_map]
  exact this

/-- **C86, finished files.**  A recording made with the muxer and opened with mkvparser: the header shows the document type "webm" if
every track that mkvparser shows has a codec of WebM, and "matroska" otherwise.  The conditions are those of
`C65_recording_partial`. -/
theorem C86_recording {g : Seg} {muxing writing : Bytes} {ts : List Track} {ch : Option (List Chapter)}
    {tg : Option (List Tag)} (hdoc : chosenDocType ts = .ok g.docType)
    (hg : g.Settings muxing writing (tracksTree ts).bytes (ch.map fun c => (chaptersTree c).bytes)
      (tg.map fun t => (tagsTree t).bytes)) (hu : g.Unused) (hn : g.Numbered)
    (hacc : g.accurate = false) (hl : g.live = false)
    (hroom : g.Room (ch.map fun c => (chaptersTree c).bytes) (tg.map fun t => (tagsTree t).bytes))
    {xs : List SegCall} (hxs : g.WellFed xs) (hr : ∀ f, .frame f ∈ xs → f.Showable g.info.scale)
    {s : Sink} (hd : s.data = []) (hp : s.pos = 0) (hs : s.Sure)
    {rs : List (Res Unit)} {g1 g2 : Seg} {s1 s2 : Sink} {r : Res Unit} {d : Option Nat} {du : Option UInt32}
    (hrun : Seg.run xs g s = (rs, g1, s1)) (hfin : Seg.finalize d g1 s1 = (r, g2, s2))
    (hsm : s2.data.length < 2 ^ 48) (hw : ∃ f ∈ acceptedFrames xs rs, g.queues f = false)
    (hdu : g.lastDuration d = du.map UInt32.toNat) (hv : Viewable g.docType g.info.scale du muxing writing ts ch tg) :
    ∃ h : Shown, WatchedAs s2.data h ((acceptedFrames xs rs).map (Frame.asWatched g.info.scale)) ∧
      LabelledAs h.docType (h.tracks.map (·.info.codecId)) :=
  ⟨_, (C65_recording_partial hg hu hn hacc hl hroom hxs hr hd hp hs hrun hfin hsm hw hdu hv).2, shown_label hdoc⟩

/-- **C86, live mode.**  The same in live mode. -/
theorem C86_live {g : Seg} {muxing writing : Bytes} {ts : List Track} {ch : Option (List Chapter)}
    {tg : Option (List Tag)} (hdoc : chosenDocType ts = .ok g.docType)
    (hg : g.Settings muxing writing (tracksTree ts).bytes (ch.map fun c => (chaptersTree c).bytes)
      (tg.map fun t => (tagsTree t).bytes)) (hu : g.Unused) (hn : g.Numbered)
    (hacc : g.accurate = false) (hl : g.live = true)
    {xs : List SegCall} (hxs : g.WellFed xs) (hr : ∀ f, .frame f ∈ xs → f.Showable g.info.scale)
    {s : Sink} (hd : s.data = []) (hp : s.pos = 0) (hs : s.Sure)
    {rs : List (Res Unit)} {g1 g2 : Seg} {s1 s2 : Sink} {r : Res Unit} {d : Option Nat} {du : Option UInt32}
    (hrun : Seg.run xs g s = (rs, g1, s1)) (hfin : Seg.finalize d g1 s1 = (r, g2, s2))
    (hsm : s2.data.length < 2 ^ 48) (hw : ∃ f ∈ acceptedFrames xs rs, g.queues f = false)
    (hdu : g.info.duration = du.map UInt32.toNat) (hv : Viewable g.docType g.info.scale du muxing writing ts ch tg) :
    ∃ h : Shown, WatchedAs s2.data h ((acceptedFrames xs rs).map (Frame.asWatched g.info.scale)) ∧
      LabelledAs h.docType (h.tracks.map (·.info.codecId)) :=
  ⟨_, (C65_live_partial hg hu hn hacc hl hxs hr hd hp hs hrun hfin hsm hw hdu hv).2, shown_label hdoc⟩

/-- **C86, unfinished files.**  The label is right from the start: a file left behind between two calls has it too. -/
theorem C86_interrupted {g : Seg} {muxing writing : Bytes} {ts : List Track} {ch : Option (List Chapter)}
    {tg : Option (List Tag)} (hdoc : chosenDocType ts = .ok g.docType)
    (hg : g.Settings muxing writing (tracksTree ts).bytes (ch.map fun c => (chaptersTree c).bytes)
      (tg.map fun t => (tagsTree t).bytes)) (hu : g.Unused) (hn : g.Numbered) (hacc : g.accurate = false)
    {xs : List SegCall} (hxs : g.WellFed xs) (hx : ∃ f, .frame f ∈ xs) (hr : ∀ f, .frame f ∈ xs → f.Showable g.info.scale)
    {s : Sink} (hd : s.data = []) (hp : s.pos = 0) (hs : s.Sure)
    {rs : List (Res Unit)} {g1 : Seg} {s1 : Sink} {du : Option UInt32} (hrun : Seg.run xs g s = (rs, g1, s1))
    (hsm : s1.data.length < 2 ^ 48)
    (hdu : (if !g.live && g.seekable then some 0x3F800000 else g.info.duration) = du.map UInt32.toNat)
    (hv : Viewable g.docType g.info.scale du muxing writing ts ch tg) :
    ∃ (h : Shown) (written : List SeenFrame), WatchedAs s1.data h written ∧
      LabelledAs h.docType (h.tracks.map (·.info.codecId)) := by
  obtain ⟨written, _, -, h, -⟩ := C65_interrupted_partial hg hu hn hacc hxs hx hr hd hp hs hrun hsm hdu hv
  exact ⟨_, written, h, shown_label hdoc⟩

/-- **C86, after moving the cues.**  The copy with the cues in front has the label too. -/
theorem C86_moved {g : Seg} {muxing writing : Bytes} {ts : List Track} {ch : Option (List Chapter)}
    {tg : Option (List Tag)} (hdoc : chosenDocType ts = .ok g.docType)
    (hg : g.Settings muxing writing (tracksTree ts).bytes (ch.map fun c => (chaptersTree c).bytes)
      (tg.map fun t => (tagsTree t).bytes)) (hu : g.Unused) (hn : g.Numbered)
    (hacc : g.accurate = false) (hl : g.live = false)
    (hroom : g.Room (ch.map fun c => (chaptersTree c).bytes) (tg.map fun t => (tagsTree t).bytes))
    (hcues : g.outputCues = true) (hseek : g.seekable = true)
    {xs : List SegCall} (hxs : g.WellFed xs) (hr : ∀ f, .frame f ∈ xs → f.Showable g.info.scale)
    {s : Sink} (hd : s.data = []) (hp : s.pos = 0) (hs : s.Sure)
    {rs : List (Res Unit)} {g1 g2 g3 : Seg} {s1 s2 s3 t : Sink} {r r' : Res Unit} {d : Option Nat} {du : Option UInt32}
    (hrun : Seg.run xs g s = (rs, g1, s1)) (hfin : Seg.finalize d g1 s1 = (r, g2, s2))
    (hsm : s2.data.length < 2 ^ 48) (hw : ∃ f ∈ acceptedFrames xs rs, g.queues f = false)
    (hmany : g2.cues.entries.length < 2 ^ 31) {depth : Nat} (hdepth : 7 * g2.cues.entries.length < depth)
    (htd : t.data = []) (htp : t.pos = 0) (hts : t.Sure)
    (hcopy : Seg.copyAndMoveCues depth true s2.data g2 t = (r', g3, s3)) (hsm3 : s3.data.length < 2 ^ 48)
    (hdu : g.lastDuration d = du.map UInt32.toNat) (hv : Viewable g.docType g.info.scale du muxing writing ts ch tg) :
    ∃ h : Shown, WatchedAs s3.data h ((acceptedFrames xs rs).map (Frame.asWatched g.info.scale)) ∧
      LabelledAs h.docType (h.tracks.map (·.info.codecId)) :=
  ⟨_, (C65_moved_partial hg hu hn hacc hl hroom hcues hseek hxs hr hd hp hs hrun hfin hsm hw hmany hdepth htd htp hts
    hcopy hsm3 hdu hv).2, shown_label hdoc⟩

/-! ### What goes wrong -/

/-- A track without a codec, as `Segment::AddTrack` makes it, is not refused when the header is written (`Track::Write` would refuse
it, C60): choosing the document type makes a string of a null pointer first. -/
theorem C86_no_codec (t : Track) (h : t.codecId = none) (ts : List Track) (hts : ∀ u ∈ ts, ∃ x ∈ webmCodecs, u.codecId = some x) :
    chosenDocType (ts ++ [t]) = .ub := by
  suffices docTypeIsWebm (ts ++ [t]) = .ub by unfold chosenDocType; rw [this]; rfl
  induction ts with
  | nil =>
    rw [List.nil_append]
    unfold docTypeIsWebm
    rw [h]
  | cons u ts ih =>
    obtain ⟨x, hx, e⟩ := hts u (List.mem_cons_self ..)
    rw [List.cons_append]
    unfold docTypeIsWebm
    rw [e]
    simp only
    rw [if_pos (idIsWebm_iff.mpr (same_codecs.mpr hx))]
    exact ih fun v hv => hts v (List.mem_cons_of_mem _ hv)

/-- Only the name of the codec counts: a video track said to be Opus is a WebM file too. -/
theorem C86_kind_not_checked : ∃ t : Track, t.type = 1 ∧ t.codecId = some (letters "A_OPUS") ∧ chosenDocType [t] = .ok (letters "webm") :=
  ⟨{ type := 1, codecId := some (letters "A_OPUS") }, rfl, rfl, by decide +kernel⟩

/-! ### Examples -/

/-- Codecs of WebM, and one that is not. -/
example : chosenDocType [{ codecId := some (letters "V_VP9") }, { codecId := some (letters "A_OPUS") }] = .ok (letters "webm") ∧
    chosenDocType [{ codecId := some (letters "V_VP9") }, { codecId := some (letters "A_AAC") }] = .ok (letters "matroska") ∧
    chosenDocType [{ codecId := some (letters "V_VP") }] = .ok (letters "matroska") := by
  decide +kernel

/-- The recording of `Props/Timeline.lean`, whose video has a codec that WebM does not know, with the label chosen for it. -/
def labelledSeg : Seg := { recordingSeg with docType := letters "matroska" }

example : chosenDocType [smallVideo, plainAudio] = .ok labelledSeg.docType := by decide +kernel

private theorem labelled_settings : labelledSeg.Settings [0x6D] [0x77] (tracksTree [smallVideo, plainAudio]).bytes
    ((none : Option (List Chapter)).map fun c => (chaptersTree c).bytes)
    ((some [[⟨some [0x54], some [0x56]⟩]]).map fun t => (tagsTree t).bytes) :=
  { muxing := rec_settings.muxing
    writing := rec_settings.writing
    scale := rec_settings.scale
    docType := by decide +kernel
    version := rec_settings.version
    cues := rec_settings.cues
    tracks := rec_settings.tracks
    chapters := rec_settings.chapters
    tags := rec_settings.tags }

private theorem labelled_fed : labelledSeg.WellFed (recordedFrames.map .frame) where
  sound := by
    intro f hf
    obtain ⟨h1, h2, h3, h4⟩ := rec_fed.sound f hf
    exact ⟨h1, h2, h3, h4⟩
  waiting := rec_fed.waiting
  start := rec_fed.start

private theorem labelled_outcome :
    (Seg.run (recordedFrames.map .frame) labelledSeg freshSink).1 = [.ok (), .ok (), .ok (), .ok (), .ok (), .ok ()] := by
  decide +kernel

private theorem labelled_small :
    (Seg.finalize (some 0x40000000) (Seg.run (recordedFrames.map .frame) labelledSeg freshSink).2.1
      (Seg.run (recordedFrames.map .frame) labelledSeg freshSink).2.2).2.2.data.length < 2 ^ 48 := by decide +kernel

private theorem labelled_viewable : Viewable labelledSeg.docType labelledSeg.info.scale none [0x6D] [0x77] [smallVideo, plainAudio] none
    (some [[⟨some [0x54], some [0x56]⟩]]) :=
  { rec_viewable with docType := by decide +kernel }

/-- Its file is labelled. -/
example : ∃ h : Shown, WatchedAs (Seg.finalize (some 0x40000000) (Seg.run (recordedFrames.map .frame) labelledSeg freshSink).2.1
      (Seg.run (recordedFrames.map .frame) labelledSeg freshSink).2.2).2.2.data h
      ((acceptedFrames (recordedFrames.map .frame) (Seg.run (recordedFrames.map .frame) labelledSeg freshSink).1).map
        (Frame.asWatched 1000000)) ∧ LabelledAs h.docType (h.tracks.map (·.info.codecId)) := by
  have h1 := labelled_outcome
  have h2 := labelled_small
  rcases hrun : Seg.run (recordedFrames.map .frame) labelledSeg freshSink with ⟨rs, g1, s1⟩
  rw [hrun] at h1 h2
  simp only at h1 h2
  subst h1
  rcases hfin : Seg.finalize (some 0x40000000) g1 s1 with ⟨r, g2, s2⟩
  simp only [hfin] at h2 ⊢
  exact C86_recording (ch := none) (tg := some _) (by decide +kernel) labelled_settings ⟨rfl, rfl, rfl, rfl, rfl, rfl, rfl, rfl, rfl, rfl⟩
    (by unfold Seg.Numbered; decide) rfl rfl (by unfold Seg.Room; decide) labelled_fed (fun f hf => by
      simp only [recordedFrames, List.map_cons, List.map_nil, List.mem_cons, List.not_mem_nil, or_false, SegCall.frame.injEq] at hf
      rcases hf with rfl | rfl | rfl | rfl | rfl | rfl <;> exact ⟨by decide, by decide⟩) rfl rfl (fun _ => rfl) hrun hfin h2
    ⟨video 0, by decide, by decide⟩ rfl labelled_viewable

end Verif.Props
