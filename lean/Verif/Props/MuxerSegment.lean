/-
C21, C22: the file a muxer segment leaves after a history of frames.
-/
import Verif.Lemmas.MuxerMove

namespace Verif.Props
open Verif Verif.Mux Spec

theorem accepted_frame {f : Frame} : ∀ {xs : List SegCall} {rs : List (Res Unit)},
    f ∈ acceptedFrames xs rs → .frame f ∈ xs
  | [], rs, h => by cases rs <;> simp [acceptedFrames] at h
  | x :: xs, [], h => by simp [acceptedFrames] at h
  | x :: xs, r :: rs, h => by
    have key : f ∈ x.frames ∨ f ∈ acceptedFrames xs rs := by
      cases r with
      | ok u => simpa [acceptedFrames] using h
      | err e => exact .inr (by simpa [acceptedFrames] using h)
      | ub => exact .inr (by simpa [acceptedFrames] using h)
    rcases key with h | h
    · cases x with
      | frame y => simp only [SegCall.frames, List.mem_singleton] at h; simp [h]
      | force => simp [SegCall.frames] at h
    · exact List.mem_cons_of_mem _ (accepted_frame h)

private theorem finalize_all_grows (d : Option Nat) : GrowsM (Seg.finalize d) :=
  writeFramesAll_grows.bind fun _ => endLast_grows.bind fun _ => GrowsM.get.bind fun _ =>
    .ite (.pure _) (finalizeFile_grows d)

/-- A history of calls, up to finalisation, as seen from the state once the header is written. -/
theorem muxing_history {g : Seg} {muxing writing tr : Bytes} {ch tg : Option Bytes}
    (hg : g.Settings muxing writing tr ch tg) (hu : g.Unused) (hn : g.Numbered) (hacc : g.accurate = false)
    {xs : List SegCall} (hxs : g.WellFed xs) {s : Sink} (hd : s.data = []) (hp : s.pos = 0) (hs : s.Sure)
    {rs : List (Res Unit)} {g1 : Seg} {s1 : Sink} (hrun : Seg.run xs g s = (rs, g1, s1))
    (hsm : s1.data.length < 2 ^ 48) (hx : ∃ f, .frame f ∈ xs) :
    ∃ gap sp t, g.Reserved gap sp ∧ g1 = (g.begun gap muxing writing tr ch tg sp).put t ∧
      (g.begun gap muxing writing tr ch tg sp).Ready (fileStart g.docType sizeUnknown ++ g.headBytes gap muxing writing tr ch tg) ∧
      (g.begun gap muxing writing tr ch tg sp).Between (fileStart g.docType sizeUnknown ++ g.headBytes gap muxing writing tr ch tg)
        t s1 (acceptedFrames xs rs) ∧ Outcomes (g.begun gap muxing writing tr ch tg sp) [] xs rs := by
  obtain ⟨s0, gap, sp, e, a0, u0, d0, hres⟩ := run_begun hg hu hd (by unfold Sink.AtEnd; rw [hd, hp]; rfl) hs hx
  rw [hrun] at e
  have hr := begun_ready hg hu hacc gap sp
  obtain ⟨rs', t, s', e', ho, hb⟩ := run_ready hr (g := g.begun gap muxing writing tr ch tg sp) hn
    (begun_between hu a0 u0 d0) (begun_orderly hu hxs gap muxing writing tr ch tg sp)
    (SmallRun.of_end rfl (by rw [Seg.put_st, ← e]; show s1.data.length + 1 < _; omega))
  rw [Seg.put_st, ← e] at e'
  cases e'
  exact ⟨gap, sp, t, hres, rfl, hr, by simpa using hb, ho⟩

private theorem outcomes_begun {g g' : Seg} (hk : ∀ f, g.knows f = g'.knows f) (hq : ∀ f, g.queues f = g'.queues f)
    (hs : g.info.scale = g'.info.scale) : ∀ {xs : List SegCall} {rs : List (Res Unit)} {acc : List Frame},
    Outcomes g acc xs rs → Outcomes g' acc xs rs
  | [], [], _, h => h
  | [], _ :: _, _, h => h
  | _ :: _, [], _, h => h
  | x :: xs, r :: rs, acc, h => by
    rcases h with ⟨h1, h2⟩ | ⟨h1, ⟨f, h2, h3⟩, h4⟩
    · exact .inl ⟨h1, outcomes_begun hk hq hs h2⟩
    · refine .inr ⟨h1, ⟨f, h2, ?_⟩, outcomes_begun hk hq hs h4⟩
      unfold Seg.RefusedAfter at h3 ⊢
      rw [← hk f, ← hs]
      simpa only [hq] using h3

/-- Finalisation does not shorten what the history has left. -/
theorem run_finalize_grows {g : Seg} {muxing writing tr : Bytes} {ch tg : Option Bytes}
    (hg : g.Settings muxing writing tr ch tg) (hu : g.Unused) {xs : List SegCall} {s : Sink} (hd : s.data = [])
    (hp : s.pos = 0) (hs : s.Sure) {rs : List (Res Unit)} {g1 g2 : Seg} {s1 s2 : Sink} {r : Res Unit} {d : Option Nat}
    (hrun : Seg.run xs g s = (rs, g1, s1)) (hfin : Seg.finalize d g1 s1 = (r, g2, s2)) (hx : ∃ f, .frame f ∈ xs) :
    s1.data.length ≤ s2.data.length := by
  obtain ⟨s0, gap, sp, e, -⟩ := run_begun hg hu hd (by unfold Sink.AtEnd; rw [hd, hp]; rfl) hs hx
  have h1 := (run_grows xs (g.begun gap muxing writing tr ch tg sp) s0 rfl).1
  rw [← e, hrun] at h1
  have h2 := (finalize_all_grows d g1 s1 h1).2
  rwa [hfin] at h2

theorem whole_file {g : Seg} {muxing writing tr : Bytes} {ch tg : Option Bytes}
    (hg : g.Settings muxing writing tr ch tg) (hu : g.Unused) (hn : g.Numbered)
    (hacc : g.accurate = false) (hl : g.live = false) (hroom : g.Room ch tg)
    {xs : List SegCall} (hxs : g.WellFed xs) {s : Sink} (hd : s.data = []) (hp : s.pos = 0) (hs : s.Sure)
    {rs : List (Res Unit)} {g1 g2 : Seg} {s1 s2 : Sink} {r : Res Unit} {d : Option Nat}
    (hrun : Seg.run xs g s = (rs, g1, s1)) (hfin : Seg.finalize d g1 s1 = (r, g2, s2))
    (hsm : s2.data.length < 2 ^ 48) (hw : ∃ f ∈ acceptedFrames xs rs, g.queues f = false) :
    r = .ok () ∧ Outcomes g [] xs rs ∧ ∃ p : Parts, ∃ cs,
      s2.data = p.file g.docType g.seekable ∧ p.HasSeekHead g.seekable ∧
      p.info = infoElement g.info.scale (g.lastDuration d) g.info.date muxing writing ∧
      p.tracks = tr ∧ p.chapters = ch ∧ p.tags = tg ∧
      ClustersAt g.info.scale g.seekable p.clustersAt cs p.clusters ∧
      CarriedAll (acceptedFrames xs rs) (clusterFrames cs) ∧
      (if g.outputCues then p.cues = some (cuesElement (g2.cues.entries.map CuePoint.cue)) ∧
          CuesOf g.info.scale g.cuesOn g.cues.outputBlockNumber cs (g2.cues.entries.map CuePoint.cue)
        else p.cues = none) ∧
      g2.docType = g.docType ∧ g2.seekable = g.seekable ∧ g2.outputCues = g.outputCues ∧ g2.Finished p ∧
      (cs.map (·.2.tc)).Pairwise (· ≤ ·) := by
  have hx : ∃ f, .frame f ∈ xs := by obtain ⟨f, hf, -⟩ := hw; exact ⟨f, accepted_frame hf⟩
  have hw1 : g1.headerWritten = true ∧ s1.data.length ≤ s2.data.length := by
    obtain ⟨s0, gap, sp, e, -⟩ := run_begun hg hu hd (by unfold Sink.AtEnd; rw [hd, hp]; rfl) hs hx
    have h1 := (run_grows xs (g.begun gap muxing writing tr ch tg sp) s0 rfl).1
    rw [← e, hrun] at h1
    have h2 := (finalize_all_grows d g1 s1 h1).2
    rw [hfin] at h2
    exact ⟨h1, h2⟩
  obtain ⟨gap, sp, t, hres, rfl, hr, hb, ho⟩ := muxing_history hg hu hn hacc hxs hd hp hs hrun (by omega) hx
  obtain ⟨g3, s3, p, cs, e, h⟩ := finish_file hg hl hroom hres hr hb hw d (by rw [hfin]; exact hsm)
  rw [hfin] at e
  cases e
  exact ⟨rfl, outcomes_begun (g := g.begun gap muxing writing tr ch tg sp) (g' := g) (fun _ => rfl) (fun _ => rfl)
    (begun_scale g gap muxing writing tr ch tg sp) ho, p, cs, h⟩

/-- **C21 (files), partial.** A segment in file mode that writes frames at once is used for the first
time; its output never fails.  Frames are handed over, in any mixture with requests for new clusters;
the frames are well formed and those that wait for a video frame are in order among themselves
(`WellFed`).  Then the segment is finalised, and the file stays below 2^48 bytes.  If at least one
accepted frame is of a track whose frames do not wait, then:

* every call is answered with success, or with failure for one of the reasons of `RefusedAfter`;
* finalisation succeeds;
* the file is an EBML header and a Segment of the right size, whose payload is the seek head with the
  places of all parts, Info with the final duration, Tracks, Chapters and Tags as they are written, and
  then clusters, back to back, each with its right size, and cues;
* the blocks of the clusters, in the order of the file, carry exactly the accepted frames, in the
  order of acceptance, each once;
* no cluster begins earlier than the one before it.

What is missing from C21: without these conditions it is false, see `C21_accepted_frame_lost`,
`C21_waiting_frame_dropped`, `C21_only_audio_lost`, `C21_accurate_frame_lost` below; `WellFed` and
the mode are what these need. -/
theorem C21_file_partial {g : Seg} {muxing writing tr : Bytes} {ch tg : Option Bytes}
    (hg : g.Settings muxing writing tr ch tg) (hu : g.Unused) (hn : g.Numbered)
    (hacc : g.accurate = false) (hl : g.live = false) (hroom : g.Room ch tg)
    {xs : List SegCall} (hxs : g.WellFed xs) {s : Sink} (hd : s.data = []) (hp : s.pos = 0) (hs : s.Sure)
    {rs : List (Res Unit)} {g1 g2 : Seg} {s1 s2 : Sink} {r : Res Unit} {d : Option Nat}
    (hrun : Seg.run xs g s = (rs, g1, s1)) (hfin : Seg.finalize d g1 s1 = (r, g2, s2))
    (hsm : s2.data.length < 2 ^ 48) (hw : ∃ f ∈ acceptedFrames xs rs, g.queues f = false) :
    r = .ok () ∧ Outcomes g [] xs rs ∧ ∃ p : Parts, ∃ cs,
      s2.data = p.file g.docType g.seekable ∧ p.HasSeekHead g.seekable ∧
      p.info = infoElement g.info.scale (g.lastDuration d) g.info.date muxing writing ∧
      p.tracks = tr ∧ p.chapters = ch ∧ p.tags = tg ∧
      ClustersAt g.info.scale g.seekable p.clustersAt cs p.clusters ∧
      CarriedAll (acceptedFrames xs rs) (clusterFrames cs) ∧ (cs.map (·.2.tc)).Pairwise (· ≤ ·) := by
  obtain ⟨h1, h2, p, cs, h3, h4, h5, h6, h7, h8, h9, h10, -, -, -, -, -, h11⟩ :=
    whole_file hg hu hn hacc hl hroom hxs hd hp hs hrun hfin hsm hw
  exact ⟨h1, h2, p, cs, h3, h4, h5, h6, h7, h8, h9, h10, h11⟩

/-- **C22 (files), partial.** In the same situation, if cues are asked for, the file ends with a Cues
element that has one entry for each cluster with a block of the cue track, in the order of the file:
the position is the offset of that cluster's header from the start of the segment's payload, the time
is that of the cluster's first block of the track, and the block number is its number in the cluster.
What is missing: the mode in which the last block of each track is held back, where the entries are
wrong (`C22_accurate_wrong_cluster`). -/
theorem C22_cues_address_blocks_partial {g : Seg} {muxing writing tr : Bytes} {ch tg : Option Bytes}
    (hg : g.Settings muxing writing tr ch tg) (hu : g.Unused) (hn : g.Numbered)
    (hacc : g.accurate = false) (hl : g.live = false) (hroom : g.Room ch tg) (hcues : g.outputCues = true)
    {xs : List SegCall} (hxs : g.WellFed xs) {s : Sink} (hd : s.data = []) (hp : s.pos = 0) (hs : s.Sure)
    {rs : List (Res Unit)} {g1 g2 : Seg} {s1 s2 : Sink} {r : Res Unit} {d : Option Nat}
    (hrun : Seg.run xs g s = (rs, g1, s1)) (hfin : Seg.finalize d g1 s1 = (r, g2, s2))
    (hsm : s2.data.length < 2 ^ 48) (hw : ∃ f ∈ acceptedFrames xs rs, g.queues f = false) :
    ∃ p : Parts, ∃ cs q, s2.data = p.file g.docType g.seekable ∧
      ClustersAt g.info.scale g.seekable p.clustersAt cs p.clusters ∧
      p.cues = some (cuesElement q) ∧ CuesOf g.info.scale g.cuesOn g.cues.outputBlockNumber cs q := by
  obtain ⟨-, -, p, cs, h3, -, -, -, -, -, h9, -, h11, -⟩ := whole_file hg hu hn hacc hl hroom hxs hd hp hs hrun hfin hsm hw
  rw [if_pos hcues] at h11
  exact ⟨p, cs, _, h3, h9, h11.1, h11.2⟩

/-- **C22 (cues moved to the front), partial.** In the same situation, on an output that can seek, the
finished file is copied to a second output with the cues moved before the clusters (there are fewer
than 2^31 cues, the number the table is indexed with).  Copying succeeds, and the new file is an EBML
header and a Segment of the right size, whose payload is the seek head with the places of all parts in
the new order, Info, Tracks, Chapters and Tags as before, the cues, and then the clusters, with the
same frames, none beginning earlier than the one before it.  Again there is one cue for each cluster
with a block of the cue track, with the new offset of that cluster.  What is missing is as for `C22_cues_address_blocks_partial`. -/
theorem C22_after_moving_partial {g : Seg} {muxing writing tr : Bytes} {ch tg : Option Bytes}
    (hg : g.Settings muxing writing tr ch tg) (hu : g.Unused) (hn : g.Numbered)
    (hacc : g.accurate = false) (hl : g.live = false) (hroom : g.Room ch tg) (hcues : g.outputCues = true)
    (hseek : g.seekable = true)
    {xs : List SegCall} (hxs : g.WellFed xs) {s : Sink} (hd : s.data = []) (hp : s.pos = 0) (hs : s.Sure)
    {rs : List (Res Unit)} {g1 g2 g3 : Seg} {s1 s2 s3 t : Sink} {r r' : Res Unit} {d : Option Nat}
    (hrun : Seg.run xs g s = (rs, g1, s1)) (hfin : Seg.finalize d g1 s1 = (r, g2, s2))
    (hsm : s2.data.length < 2 ^ 48) (hw : ∃ f ∈ acceptedFrames xs rs, g.queues f = false)
    (hmany : g2.cues.entries.length < 2 ^ 31) {depth : Nat} (hdepth : 7 * g2.cues.entries.length < depth)
    (htd : t.data = []) (htp : t.pos = 0) (hts : t.Sure)
    (hcopy : Seg.copyAndMoveCues depth true s2.data g2 t = (r', g3, s3)) :
    r' = .ok () ∧ ∃ p : Parts, ∃ cs q, s3.data = p.frontFile g.docType ∧ p.HasFrontSeekHead ∧
      p.info = infoElement g.info.scale (g.lastDuration d) g.info.date muxing writing ∧
      p.tracks = tr ∧ p.chapters = ch ∧ p.tags = tg ∧
      ClustersAt g.info.scale true p.frontClustersAt cs p.clusters ∧
      CarriedAll (acceptedFrames xs rs) (clusterFrames cs) ∧
      p.cues = some (cuesElement q) ∧ CuesOf g.info.scale g.cuesOn g.cues.outputBlockNumber cs q ∧
      (cs.map (·.2.tc)).Pairwise (· ≤ ·) := by
  obtain ⟨-, -, p, cs, h3, -, h5, h6, h7, h8, h9, h10, h11, h12, h13, h14, h15, h16⟩ :=
    whole_file hg hu hn hacc hl hroom hxs hd hp hs hrun hfin hsm hw
  rw [if_pos hcues] at h11
  rw [hseek, ← h12] at h3
  rw [h3] at hcopy hsm
  obtain ⟨g4, s4, p', c1, c2, c3, c4, c5, c6, c7, c8, c9, c10⟩ := copy_finished h15 (h13.trans hseek) (h14.trans hcues)
    (by rw [h7, h8]; exact fun h => hroom ⟨hcues, h⟩) h11.1 hmany hsm hdepth htd htp hts
  rw [hcopy] at c1
  cases c1
  refine ⟨rfl, p', cs.map fun c => (c.1 + (p'.cues.getD []).length, c.2), _, by rw [c2, h12], c3, c4.trans h5, c5.trans h6,
    c6.trans h7, c7.trans h8, ?_, ?_, c10, cuesOf_shift _ h11.2, by simpa only [List.map_map, Function.comp_def] using h16⟩
  · rw [c8, c9]
    rw [hseek] at h9
    exact clustersAt_shift _ h9
  · have : clusterFrames (cs.map fun c => (c.1 + (p'.cues.getD []).length, c.2)) = clusterFrames cs := by
      simp [clusterFrames, Function.comp_def]
    rw [this]
    exact h10

/-! ### Frames in order of time -/

/-- All frames handed over. -/
def allFrames (xs : List SegCall) : List Frame := (xs.map SegCall.frames).flatten

/-- Nothing waits too long: between a frame that waits and a later frame, with only waiting frames
between them, there are at most 0x7FFF ticks. -/
def WaitsShortly (g : Seg) (fs : List Frame) : Prop :=
  ∀ a w m f c, fs = a ++ (w :: m ++ f :: c) → (∀ y ∈ w :: m, g.queues y = true) →
    f.timestamp / g.info.scale ≤ w.timestamp / g.info.scale + 0x7FFF

private theorem allFrames_mem {f : Frame} : ∀ {xs : List SegCall}, f ∈ allFrames xs ↔ .frame f ∈ xs
  | [] => by simp [allFrames]
  | x :: xs => by
    have := allFrames_mem (f := f) (xs := xs)
    unfold allFrames at this ⊢
    cases x <;> simp [SegCall.frames, this]

private theorem waitTimes_ordered (g : Seg) : ∀ {xs : List SegCall}, InOrder (allFrames xs) →
    (g.waitTimes xs).Pairwise (· ≤ ·) ∧ ∀ t ∈ g.waitTimes xs, ∃ f ∈ allFrames xs, f.timestamp = t
  | [], _ => ⟨.nil, by simp [Seg.waitTimes]⟩
  | .force :: xs, h => waitTimes_ordered g (xs := xs) h
  | .frame f :: xs, h => by
    have h' : InOrder (f :: allFrames xs) := h
    obtain ⟨i1, i2⟩ := waitTimes_ordered g (xs := xs) (List.pairwise_cons.mp h').2
    have up : ∀ t ∈ g.waitTimes xs, ∃ y ∈ allFrames (.frame f :: xs), y.timestamp = t := by
      intro t ht
      obtain ⟨y, hy, e⟩ := i2 t ht
      exact ⟨y, List.mem_cons_of_mem _ hy, e⟩
    simp only [Seg.waitTimes]
    split
    · refine ⟨List.pairwise_cons.mpr ⟨?_, i1⟩, ?_⟩
      · intro t ht
        obtain ⟨y, hy, rfl⟩ := i2 t ht
        exact (List.pairwise_cons.mp h').1 y hy
      · intro t ht
        rcases List.mem_cons.mp ht with rfl | ht
        · exact ⟨f, by show f ∈ f :: allFrames xs; simp, rfl⟩
        · exact up t ht
    · exact ⟨i1, up⟩

private theorem opening_prefix (g : Seg) : ∀ {xs : List SegCall} (_ : ∀ f ∈ allFrames xs, g.knows f = true) (b : Bool),
    ∃ a o c, allFrames xs = a ++ (o ++ c) ∧ (∀ y ∈ a, g.queues y = true) ∧ o.length ≤ 1 ∧
      g.opening b xs = (a ++ o).map Frame.timestamp
  | [], _, _ => ⟨[], [], [], rfl, by simp, by simp, rfl⟩
  | .force :: xs, h, _ => opening_prefix g (xs := xs) h true
  | .frame f :: xs, h, b => by
    have hk := h f (by show f ∈ f :: allFrames xs; simp)
    simp only [Seg.opening, hk, Bool.not_true, Bool.false_eq_true, if_false]
    split
    · rename_i hq
      simp at hq
      obtain ⟨a, o, c, h1, h2, h3, h4⟩ := opening_prefix g (xs := xs) (fun y hy => h y (List.mem_cons_of_mem _ hy)) b
      refine ⟨f :: a, o, c, by show f :: allFrames xs = _; rw [h1]; rfl, ?_, h3, by rw [h4]; rfl⟩
      intro y hy
      rcases List.mem_cons.mp hy with rfl | hy
      · exact hq.1
      · exact h2 y hy
    · exact ⟨[], [f], allFrames xs, rfl, by simp, by simp, rfl⟩

private theorem opening_span {g : Seg} {xs : List SegCall} (hk : ∀ f ∈ allFrames xs, g.knows f = true)
    (ho : InOrder (allFrames xs)) (hw : WaitsShortly g (allFrames xs)) (b : Bool) :
    Span g.info.scale (g.opening b xs) := by
  obtain ⟨a, o, c, h1, h2, h3, h4⟩ := opening_prefix g hk b
  rw [h4]
  intro x hx y hy
  simp only [List.mem_map] at hx hy
  obtain ⟨f, hf, rfl⟩ := hx
  obtain ⟨w, hwm, rfl⟩ := hy
  by_cases hle : f.timestamp ≤ w.timestamp
  · have := Nat.div_le_div_right (c := g.info.scale) hle; omega
  -- `w` is strictly earlier in time, hence earlier in the list, hence waiting
  have hlt : w.timestamp < f.timestamp := by omega
  obtain ⟨p, q, e⟩ := List.append_of_mem hwm
  have ho' : InOrder (p ++ w :: q) := by
    rw [← e]
    exact List.Pairwise.sublist (by rw [h1, ← List.append_assoc]; exact List.sublist_append_left _ _) ho
  have hfq : f ∈ q := by
    rw [e] at hf
    rcases List.mem_append.mp hf with m | m
    · have := (List.pairwise_append.mp ho').2.2 f m w (by simp); omega
    · rcases List.mem_cons.mp m with rfl | m
      · omega
      · exact m
  obtain ⟨m, n, rfl⟩ := List.append_of_mem hfq
  refine hw p w m f (n ++ c) ?_ ?_
  · rw [h1, ← List.append_assoc, e]; simp
  · -- all of `p ++ w :: m` lies in `a`
    have hlen : (p ++ w :: m).length ≤ a.length := by
      have := congrArg List.length e
      simp only [List.length_append, List.length_cons] at this ⊢
      omega
    intro y hy
    refine h2 y ?_
    have hpre : p ++ w :: m <+: a := by
      refine List.prefix_of_prefix_length_le (l₃ := a ++ o) ?_ (List.prefix_append _ _) hlen
      rw [e]
      exact ⟨f :: n, by simp⟩
    exact hpre.subset (List.mem_append_right _ hy)

private theorem outcomes_ok {g : Seg} {fs : List Frame} (ho : InOrder fs) (hk : ∀ f ∈ fs, g.knows f = true)
    (hw : WaitsShortly g fs) : ∀ {xs : List SegCall} {rs : List (Res Unit)} {acc : List Frame},
    fs = acc ++ allFrames xs → Outcomes g acc xs rs → (∀ r ∈ rs, r = .ok ()) ∧ acceptedFrames xs rs = allFrames xs
  | [], [], _, _, _ => ⟨by simp, rfl⟩
  | [], _ :: _, _, _, h => h.elim
  | _ :: _, [], _, _, h => h.elim
  | x :: xs, r :: rs, acc, hfs, h => by
    rcases h with ⟨rfl, h2⟩ | ⟨-, ⟨f, rfl, h3⟩, -⟩
    · obtain ⟨i1, i2⟩ := outcomes_ok ho hk hw (xs := xs) (rs := rs) (acc := acc ++ x.frames)
        (by rw [hfs]; simp [allFrames]) h2
      refine ⟨by simpa using i1, ?_⟩
      simp only [acceptedFrames, i2]
      simp [allFrames]
    · exfalso
      have hfs' : fs = acc ++ f :: allFrames xs := hfs
      rcases h3 with h3 | ⟨a, ha, hlt⟩ | ⟨a, b, rfl, hb, w, hwb, hlt⟩
      · have := hk f (by rw [hfs']; simp)
        rw [h3] at this; cases this
      · rw [hfs'] at ho
        have := (List.pairwise_append.mp ho).2.2 a ha f (by simp)
        omega
      · obtain ⟨p, m, rfl⟩ := List.append_of_mem hwb
        have := hw (a ++ p) w m f (allFrames xs) (by rw [hfs']; simp)
          (fun y hy => hb y (List.mem_append_right _ hy))
        omega

private theorem carried_order {a b : List Frame} (h : CarriedAll a b) : InOrder a → InOrder b := by
  induction h with
  | nil => exact id
  | cons h hr ih =>
    intro ho
    obtain ⟨h1, h2⟩ := List.pairwise_cons.mp ho
    refine List.pairwise_cons.mpr ⟨?_, ih h2⟩
    intro y hy
    obtain ⟨x, hx, e⟩ := hr.mem y hy
    rw [← e, h.time]
    exact h1 x hx

/-- **C21 (frames in order).** The usual way to use the muxer: the frames are of known tracks, well
formed and in order of time, and no frame waits longer than the range of a block's relative time.
Then every call succeeds, finalisation succeeds, and the clusters of the file carry exactly all the
frames, in order, with times that never decrease. -/
theorem C21_in_order {g : Seg} {muxing writing tr : Bytes} {ch tg : Option Bytes}
    (hg : g.Settings muxing writing tr ch tg) (hu : g.Unused) (hn : g.Numbered)
    (hacc : g.accurate = false) (hl : g.live = false) (hroom : g.Room ch tg)
    {xs : List SegCall} (hsound : ∀ f ∈ allFrames xs, g.Sound f ∧ g.knows f = true) (horder : InOrder (allFrames xs))
    (hwait : WaitsShortly g (allFrames xs)) (hw : ∃ f ∈ allFrames xs, g.queues f = false)
    {s : Sink} (hd : s.data = []) (hp : s.pos = 0) (hs : s.Sure)
    {rs : List (Res Unit)} {g1 g2 : Seg} {s1 s2 : Sink} {r : Res Unit} {d : Option Nat}
    (hrun : Seg.run xs g s = (rs, g1, s1)) (hfin : Seg.finalize d g1 s1 = (r, g2, s2))
    (hsm : s2.data.length < 2 ^ 48) :
    (∀ x ∈ rs, x = .ok ()) ∧ r = .ok () ∧ ∃ p : Parts, ∃ cs,
      s2.data = p.file g.docType g.seekable ∧
      ClustersAt g.info.scale g.seekable p.clustersAt cs p.clusters ∧
      CarriedAll (allFrames xs) (clusterFrames cs) ∧ InOrder (clusterFrames cs) := by
  have hk : ∀ f ∈ allFrames xs, g.knows f = true := fun f hf => (hsound f hf).2
  have hwf : g.WellFed xs := ⟨fun f hf => (hsound f (allFrames_mem.mpr hf)).1, (waitTimes_ordered g horder).1,
    opening_span hk horder hwait g.forceNew⟩
  have hx : ∃ f, .frame f ∈ xs := by obtain ⟨f, hf, -⟩ := hw; exact ⟨f, allFrames_mem.mp hf⟩
  have hs1 : s1.data.length ≤ s2.data.length := by
    obtain ⟨s0, gap, sp, e, -⟩ := run_begun hg hu hd (by unfold Sink.AtEnd; rw [hd, hp]; rfl) hs hx
    have h1 := (run_grows xs (g.begun gap muxing writing tr ch tg sp) s0 rfl).1
    rw [← e, hrun] at h1
    have h2 := (finalize_all_grows d g1 s1 h1).2
    rwa [hfin] at h2
  obtain ⟨gap, sp, t, hres, rfl, hr, hb, ho⟩ := muxing_history hg hu hn hacc hwf hd hp hs hrun (by omega) hx
  have ho' := outcomes_begun (g := g.begun gap muxing writing tr ch tg sp) (g' := g) (fun _ => rfl) (fun _ => rfl)
    (begun_scale g gap muxing writing tr ch tg sp) ho
  obtain ⟨h1, h2⟩ := outcomes_ok horder hk hwait (xs := xs) (acc := []) rfl ho'
  obtain ⟨e1, -, p, cs, h3, -, -, -, -, -, h9, h10, -⟩ := C21_file_partial hg hu hn hacc hl hroom hwf hd hp hs hrun hfin hsm
    (by rw [h2]; exact hw)
  rw [h2] at h10
  exact ⟨h1, e1, p, cs, h3, h9, h10, carried_order h10 horder⟩

/-- **C18 (files).** In the situation of `C21_file_partial`, every block in the file has a time, in
ticks relative to its cluster, between 0 and 0x7FFF. -/
theorem C18_file_partial {g : Seg} {muxing writing tr : Bytes} {ch tg : Option Bytes}
    (hg : g.Settings muxing writing tr ch tg) (hu : g.Unused) (hn : g.Numbered)
    (hacc : g.accurate = false) (hl : g.live = false) (hroom : g.Room ch tg)
    {xs : List SegCall} (hxs : g.WellFed xs) {s : Sink} (hd : s.data = []) (hp : s.pos = 0) (hs : s.Sure)
    {rs : List (Res Unit)} {g1 g2 : Seg} {s1 s2 : Sink} {r : Res Unit} {d : Option Nat}
    (hrun : Seg.run xs g s = (rs, g1, s1)) (hfin : Seg.finalize d g1 s1 = (r, g2, s2))
    (hsm : s2.data.length < 2 ^ 48) (hw : ∃ f ∈ acceptedFrames xs rs, g.queues f = false) :
    ∃ p : Parts, ∃ cs, s2.data = p.file g.docType g.seekable ∧
      ClustersAt g.info.scale g.seekable p.clustersAt cs p.clusters ∧
      ∀ c ∈ cs, ∀ f ∈ c.2.frames, c.2.tc ≤ f.timestamp / g.info.scale ∧
        f.timestamp / g.info.scale ≤ c.2.tc + 0x7FFF := by
  obtain ⟨-, -, p, cs, h3, -, -, -, -, -, h9, -⟩ := C21_file_partial hg hu hn hacc hl hroom hxs hd hp hs hrun hfin hsm hw
  refine ⟨p, cs, h3, h9, ?_⟩
  generalize p.clustersAt = off at h9
  generalize p.clusters = bs at h9
  induction h9 with
  | nil => simp
  | cons h _ ih =>
    intro c hc
    rcases List.mem_cons.mp hc with rfl | hc
    · obtain ⟨body, ⟨w, blocks, -, -, -, hb, -⟩, -, -⟩ := h
      intro f hf
      revert hf
      generalize (_ : ClusterOf).frames = fs at hb
      induction hb with
      | nil => simp
      | cons hb _ ih =>
        intro hf
        rcases List.mem_cons.mp hf with rfl | hf
        · exact ⟨hb.1, hb.2.1⟩
        · exact ih hf
    · exact ih c hc

/-! ### The file before it is finished -/

/-- **C57 (unfinished files).** At every moment between two calls, after any history of a segment that
writes frames at once (in file mode or in live mode), the file is a file one can read up to its end:
the header elements, then complete clusters, then possibly a cluster that extends to the end of the
file.  The frames accepted so far, in order, are those of the clusters, each written once and whole,
followed by frames that still wait for a video frame; nothing else is missing. -/
theorem C57_between_calls {g : Seg} {muxing writing tr : Bytes} {ch tg : Option Bytes}
    (hg : g.Settings muxing writing tr ch tg) (hu : g.Unused) (hn : g.Numbered) (hacc : g.accurate = false)
    {xs : List SegCall} (hxs : g.WellFed xs) (hx : ∃ f, .frame f ∈ xs)
    {s : Sink} (hd : s.data = []) (hp : s.pos = 0) (hs : s.Sure)
    {rs : List (Res Unit)} {g1 : Seg} {s1 : Sink} (hrun : Seg.run xs g s = (rs, g1, s1))
    (hsm : s1.data.length < 2 ^ 48) :
    ∃ p : Parts, ∃ cs last waiting, p.Unfinished g.docType g.info.scale g.seekable cs last s1.data ∧
      p.info = infoElement g.info.scale (if !g.live && g.seekable then some 0x3F800000 else g.info.duration)
        g.info.date muxing writing ∧
      p.tracks = tr ∧ p.chapters = ch ∧ p.tags = tg ∧
      (if !g.live && g.seekable then ∃ n, p.region = element 0xEC (List.replicate n 0) else p.region = []) ∧
      CarriedAll (acceptedFrames xs rs)
        (clusterFrames cs ++ (last.elim [] ClusterOf.frames) ++ waiting) ∧
      ∀ f ∈ waiting, g.queues f = true := by
  obtain ⟨gap, sp, t, hres, rfl, hr, hb, ho⟩ := muxing_history hg hu hn hacc hxs hd hp hs hrun hsm hx
  have hgap : if !g.live && g.seekable then ∃ n, gap = element 0xEC (List.replicate n 0) else gap = [] := by
    unfold Seg.Reserved at hres
    cases h : (!g.live && g.seekable) <;> rw [h] at hres <;> simp at hres ⊢
    · exact hres
    · exact hres.2.2
  rcases hb.state with ⟨h1, h2, -⟩ | ⟨ps, ws, c, h1, h2, h3, -⟩
  · refine ⟨⟨gap, g.headInfo.bytes muxing writing, tr, ch, tg, [], none⟩, [], none, t.queue,
      ⟨?_, rfl, [], [], rfl, .nil, rfl, rfl⟩, headInfo_bytes .., rfl, rfl, rfl, hgap, ?_, hb.held⟩
    · rw [h1.data]
      simp [Seg.headBytes, headParts, Parts.file, Parts.payload, fileStart]
    · simpa [clusterFrames] using h2
  · obtain ⟨p, cs, last, u, e1, e2, e3, e4, e5, e6, -⟩ := open_file h1 h2
    refine ⟨p, cs, some last, t.queue, u, e2.trans (headInfo_bytes ..), e3, e4, e5, by rw [e1]; exact hgap, ?_, hb.held⟩
    show CarriedAll _ (clusterFrames cs ++ last.frames ++ t.queue)
    rw [e6]
    exact h3

/-- **C21 (live mode), partial.** In live mode finalisation writes the frames that still wait, and
nothing else: it succeeds, and the file is as described in `C57_between_calls`, with nothing
waiting.  What is missing is as for `C21_file_partial`. -/
theorem C21_live_partial {g : Seg} {muxing writing tr : Bytes} {ch tg : Option Bytes}
    (hg : g.Settings muxing writing tr ch tg) (hu : g.Unused) (hn : g.Numbered)
    (hacc : g.accurate = false) (hl : g.live = true)
    {xs : List SegCall} (hxs : g.WellFed xs) {s : Sink} (hd : s.data = []) (hp : s.pos = 0) (hs : s.Sure)
    {rs : List (Res Unit)} {g1 g2 : Seg} {s1 s2 : Sink} {r : Res Unit} {d : Option Nat}
    (hrun : Seg.run xs g s = (rs, g1, s1)) (hfin : Seg.finalize d g1 s1 = (r, g2, s2))
    (hsm : s2.data.length < 2 ^ 48) (hw : ∃ f ∈ acceptedFrames xs rs, g.queues f = false) :
    r = .ok () ∧ Outcomes g [] xs rs ∧ ∃ p : Parts, ∃ cs last,
      p.Unfinished g.docType g.info.scale g.seekable cs (some last) s2.data ∧
      p.region = [] ∧ p.info = infoElement g.info.scale g.info.duration g.info.date muxing writing ∧
      p.tracks = tr ∧ p.chapters = ch ∧ p.tags = tg ∧
      CarriedAll (acceptedFrames xs rs) (clusterFrames cs ++ last.frames) := by
  have hx : ∃ f, .frame f ∈ xs := by obtain ⟨f, hf, -⟩ := hw; exact ⟨f, accepted_frame hf⟩
  have hs1 : s1.data.length ≤ s2.data.length := by
    obtain ⟨s0, gap, sp, e, -⟩ := run_begun hg hu hd (by unfold Sink.AtEnd; rw [hd, hp]; rfl) hs hx
    have h1 := (run_grows xs (g.begun gap muxing writing tr ch tg sp) s0 rfl).1
    rw [← e, hrun] at h1
    have h2 := (finalize_all_grows d g1 s1 h1).2
    rwa [hfin] at h2
  obtain ⟨gap, sp, t, hres, rfl, hr, hb, ho⟩ := muxing_history hg hu hn hacc hxs hd hp hs hrun (by omega) hx
  obtain ⟨t', s', ps, ws, c, e1, o1, hne, hca, -⟩ := flush_last hr hb (by
    obtain ⟨f, hf, h⟩ := hw; exact ⟨f, hf, h⟩)
  have e2 : Seg.finalize d ((g.begun gap muxing writing tr ch tg sp).put t) s1 =
      (.ok (), (g.begun gap muxing writing tr ch tg sp).put t', s') := by
    unfold Seg.finalize
    rw [M.bind_of_ok e1]
    have e3 : Seg.endLast ((g.begun gap muxing writing tr ch tg sp).put t') s' =
        (.ok (), (g.begun gap muxing writing tr ch tg sp).put t', s') := by
      unfold Seg.endLast
      rw [M.get_bind]
      have x1 : ((g.begun gap muxing writing tr ch tg sp).put t').live = true := hl
      have x2 : ((g.begun gap muxing writing tr ch tg sp).put t').accurate = false := hacc
      rw [x1, x2]
      rfl
    rw [M.bind_of_ok e3, M.get_bind,
      if_pos (show ((g.begun gap muxing writing tr ch tg sp).put t').live = true from hl)]
    rfl
  rw [e2] at hfin
  cases hfin
  obtain ⟨p, cs, last, u, f1, f2, f3, f4, f5, f6, -⟩ := open_file o1 hne
  unfold Seg.Reserved at hres
  rw [hl] at hres
  simp at hres
  refine ⟨rfl, outcomes_begun (g := g.begun gap muxing writing tr ch tg sp) (g' := g) (fun _ => rfl) (fun _ => rfl)
    (begun_scale g gap muxing writing tr ch tg sp) ho, p, cs, last, u, f1.trans hres, ?_, f3, f4, f5, by rw [f6]; exact hca⟩
  rw [f2, headInfo_bytes, hl]
  rfl

/-! ### The theorems on examples, and what is false without their conditions -/

/-- A segment with a video track 1 and an audio track 2, one tick per millisecond. -/
def sampleSeg : Seg :=
  { info := { scale := 1000000, muxingApp := some [0x6D], writingApp := some [0x77] },
    tracks := { entries := [⟨1, .video⟩, ⟨2, .audio⟩] }, hasVideo := true,
    tracksW := Sink.write [0x16, 0x54, 0xAE, 0x6B, 0x80] }

/-- A video frame at `t` milliseconds, with the one byte 1. -/
def video (t : Nat) (key : Bool := true) : Frame :=
  { frame := [1], isKey := key, trackNumber := 1, timestamp := t * 1000000 }

/-- An audio frame at `t` milliseconds, with the one byte 2. -/
def audio (t : Nat) : Frame := { frame := [2], isKey := true, trackNumber := 2, timestamp := t * 1000000 }

/-- An empty output that never fails. -/
def freshSink : Sink := { data := [], pos := 0, calls := 0, plan := fun _ => none }

/-- Hand over the frames and finalise: the outcomes of the calls, that of the finalisation, and what is
in the file after the first 190 bytes, which hold everything before the first cluster. -/
def finished (g : Seg) (fs : List Frame) : List (Res Unit) × Res Unit × Bytes :=
  let r := Seg.run (fs.map .frame) g freshSink
  let f := Seg.finalize (some 0x40000000) r.2.1 r.2.2
  (r.1, f.1, f.2.2.data.drop 190)

/-- The frames of the example. -/
def usualFrames : List Frame := [video 0, audio 1, audio 30, video 33 false, audio 50, video 66]

private theorem sample_settings : sampleSeg.Settings [0x6D] [0x77] [0x16, 0x54, 0xAE, 0x6B, 0x80] none none :=
  { muxing := ⟨rfl, by decide⟩
    writing := ⟨rfl, by decide⟩
    scale := by decide
    docType := by decide
    version := rfl
    tracks := Emits.write _
    chapters := trivial
    tags := trivial
    cues := fun _ => .inr (by decide) }

private theorem sample_unused : sampleSeg.Unused := ⟨rfl, rfl, rfl, rfl, rfl, rfl, rfl, rfl, rfl, rfl⟩

private theorem sample_sound : ∀ f ∈ usualFrames, sampleSeg.Sound f ∧ sampleSeg.knows f = true := by
  intro f hf
  simp only [usualFrames, List.mem_cons, List.not_mem_nil, or_false] at hf
  rcases hf with rfl | rfl | rfl | rfl | rfl | rfl <;>
    exact ⟨⟨by decide, by decide, ⟨⟨by decide, by intro a h; cases h⟩, by decide⟩, by decide⟩, by decide⟩

private theorem sample_waits : WaitsShortly sampleSeg usualFrames := by
  intro a w m f c h _
  have hf : f ∈ usualFrames := by rw [h]; simp
  have : ∀ f ∈ usualFrames, f.timestamp / sampleSeg.info.scale ≤ 0x7FFF := by decide
  exact Nat.le_trans (this f hf) (Nat.le_add_left _ _)

theorem usual_small : (Seg.finalize (some 0x40000000)
    (Seg.run (usualFrames.map .frame) sampleSeg freshSink).2.1
    (Seg.run (usualFrames.map .frame) sampleSeg freshSink).2.2).2.2.data.length < 2 ^ 48 := by decide +kernel

/-- The conditions of `C21_in_order` (and of the others) hold in the example: ... -/
example : ∃ p : Parts, ∃ cs,
    (Seg.finalize (some 0x40000000) (Seg.run (usualFrames.map .frame) sampleSeg freshSink).2.1
      (Seg.run (usualFrames.map .frame) sampleSeg freshSink).2.2).2.2.data =
        p.file sampleSeg.docType sampleSeg.seekable ∧
    ClustersAt sampleSeg.info.scale sampleSeg.seekable p.clustersAt cs p.clusters ∧
    CarriedAll usualFrames (clusterFrames cs) ∧ InOrder (clusterFrames cs) := by
  have e : allFrames (usualFrames.map .frame) = usualFrames := by decide
  have hsm := usual_small
  rcases hrun : Seg.run (usualFrames.map .frame) sampleSeg freshSink with ⟨rs, g1, s1⟩
  rw [hrun] at hsm
  rcases hfin : Seg.finalize (some 0x40000000) g1 s1 with ⟨r, g2, s2⟩
  simp only [hfin] at hsm ⊢
  have h := C21_in_order sample_settings sample_unused (by unfold Seg.Numbered; decide) rfl rfl
    (by unfold Seg.Room; decide) (by rw [e]; exact sample_sound) (by rw [e]; unfold InOrder; decide)
    (by rw [e]; exact sample_waits) (by rw [e]; decide) rfl rfl (fun _ => rfl) hrun hfin hsm
  rw [e] at h
  exact h.2.2

/-- ... and this is what the file then holds: two clusters, the second one starting with the audio
frame before the key frame, and cues for blocks 1 and 2. -/
example : finished sampleSeg usualFrames = ([.ok (), .ok (), .ok (), .ok (), .ok (), .ok ()], .ok (),
    clusterId ++ [0x01, 0, 0, 0, 0, 0, 0, 0x1F] ++ [0xE7, 0x81, 0,
      0xA3, 0x85, 0x81, 0, 0, 0x80, 1, 0xA3, 0x85, 0x82, 0, 1, 0x80, 2, 0xA3, 0x85, 0x82, 0, 30, 0x80, 2,
      0xA3, 0x85, 0x81, 0, 33, 0, 1] ++
    clusterId ++ [0x01, 0, 0, 0, 0, 0, 0, 0x11] ++ [0xE7, 0x81, 50,
      0xA3, 0x85, 0x82, 0, 0, 0x80, 2, 0xA3, 0x85, 0x81, 0, 16, 0x80, 1] ++
    cuesElement [⟨0, 1, 142, none⟩, ⟨66, 1, 185, some 2⟩]) := by decide +kernel

/-- The history of a second example: frames out of order are refused, a new cluster is asked for. -/
def otherCalls : List SegCall :=
  [.frame (audio 3), .frame (video 10), .frame (video 5), .force, .frame (audio 12), .frame (audio 40),
    .frame (video 20 false), .frame (audio 41)]

/-- The conditions of `C21_file_partial`, `C22_cues_address_blocks_partial`, `C18_file_partial`,
`C57_between_calls` and `C21_live_partial` hold for it, with two of the calls refused. -/
example : sampleSeg.WellFed otherCalls ∧
    (Seg.run otherCalls sampleSeg freshSink).1 =
      [.ok (), .ok (), .err 0, .ok (), .ok (), .ok (), .ok (), .ok ()] ∧
    (∃ f ∈ acceptedFrames otherCalls (Seg.run otherCalls sampleSeg freshSink).1, sampleSeg.queues f = false) ∧
    (Seg.run otherCalls sampleSeg freshSink).2.2.data.length < 2 ^ 48 := by
  refine ⟨⟨?_, by decide, by unfold Span; decide⟩, by decide +kernel, ⟨video 10, by decide +kernel, by decide⟩, by decide +kernel⟩
  intro f hf
  simp only [otherCalls, List.mem_cons, List.not_mem_nil, or_false, SegCall.frame.injEq, reduceCtorEq, false_or] at hf
  rcases hf with rfl | rfl | rfl | rfl | rfl | rfl | rfl <;>
    exact ⟨by decide, by decide, ⟨⟨by decide, by intro a h; cases h⟩, by decide⟩, by decide⟩

/-- In live mode the frames of the first example give this file (after 73 bytes of header): the second
cluster has the size "unknown". -/
example : let r := Seg.run (usualFrames.map .frame) { sampleSeg with live := true } freshSink
    (Seg.finalize none r.2.1 r.2.2).2.2.data.drop 73 =
      clusterId ++ [0x01, 0, 0, 0, 0, 0, 0, 0x1F] ++ [0xE7, 0x81, 0,
        0xA3, 0x85, 0x81, 0, 0, 0x80, 1, 0xA3, 0x85, 0x82, 0, 1, 0x80, 2, 0xA3, 0x85, 0x82, 0, 30, 0x80, 2,
        0xA3, 0x85, 0x81, 0, 33, 0, 1] ++
      clusterId ++ sizeUnknown ++ [0xE7, 0x81, 50,
        0xA3, 0x85, 0x82, 0, 0, 0x80, 2, 0xA3, 0x85, 0x81, 0, 16, 0x80, 1] := by decide +kernel

/-- **C21 is false when an audio frame waits too long.** Two audio frames at 0 and at 33000 ms are
accepted; the video frame at 33001 ms is refused; finalisation succeeds; the file holds one cluster
with one block: the accepted audio frame at 33000 ms is not in it. -/
theorem C21_accepted_frame_lost :
    finished sampleSeg [audio 0, audio 33000, video 33001] = ([.ok (), .ok (), .err 0], .ok (),
      clusterId ++ [0x01, 0, 0, 0, 0, 0, 0, 0x0A] ++ [0xE7, 0x81, 0, 0xA3, 0x85, 0x82, 0, 0, 0x80, 2] ++
      cuesElement []) := by decide +kernel

/-- **C21 is false when waiting frames are not in order.** The audio frames come at 50, 80 and 20 ms;
all calls and the finalisation succeed; the frame at 20 ms is not in the file, and the blocks of the
second cluster are at 50, 80 and 60 ms. -/
theorem C21_waiting_frame_dropped :
    finished sampleSeg [video 0, audio 50, audio 80, audio 20, video 60] =
      ([.ok (), .ok (), .ok (), .ok (), .ok ()], .ok (),
      clusterId ++ [0x01, 0, 0, 0, 0, 0, 0, 0x0A] ++ [0xE7, 0x81, 0, 0xA3, 0x85, 0x81, 0, 0, 0x80, 1] ++
      clusterId ++ [0x01, 0, 0, 0, 0, 0, 0, 0x18] ++ [0xE7, 0x81, 50, 0xA3, 0x85, 0x82, 0, 0, 0x80, 2,
        0xA3, 0x85, 0x82, 0, 30, 0x80, 2, 0xA3, 0x85, 0x81, 0, 10, 0x80, 1] ++
      cuesElement [⟨0, 1, 142, none⟩, ⟨60, 1, 164, some 3⟩]) := by decide +kernel

/-- **C21 is false for a segment with a video track when only audio frames come.** The frame is
accepted, finalisation fails and there is no cluster in the file. -/
theorem C21_only_audio_lost : finished sampleSeg [audio 0] = ([.ok ()], .err 0, []) := by decide +kernel

/-- **Times in a cluster can decrease**: an audio frame at 100 ms, then a video frame at 50 ms that is
no key frame, are both accepted, and written in this order into the cluster with time 0. -/
theorem C21_times_decrease :
    finished sampleSeg [video 0, audio 100, video 50 false] = ([.ok (), .ok (), .ok ()], .ok (),
      clusterId ++ [0x01, 0, 0, 0, 0, 0, 0, 0x18] ++ [0xE7, 0x81, 0, 0xA3, 0x85, 0x81, 0, 0, 0x80, 1,
        0xA3, 0x85, 0x82, 0, 100, 0x80, 2, 0xA3, 0x85, 0x81, 0, 50, 0, 1] ++
      cuesElement [⟨0, 1, 142, none⟩]) := by decide +kernel

/-- **A good frame can be refused once.** After an audio frame that waits at 0 ms, a video frame at
40000 ms is refused; the same call again succeeds. -/
theorem C21_refused_then_accepted :
    (finished sampleSeg [video 0, audio 0, video 40000, video 40000]).1 =
      [.ok (), .ok (), .err 0, .ok ()] := by decide +kernel

/-- **An accepted frame without data makes the muxer use freed memory.** The audio frame with no data
is accepted (it waits); when it is written this fails, it is freed but stays in the queue. -/
theorem C21_empty_frame_undefined :
    (finished sampleSeg [video 0, { audio 1 with frame := [] }, audio 2, video 3]).1 =
      [.ok (), .ok (), .ok (), .ub] := by decide +kernel

/-- **A frame without data as the first one of a cluster blocks the muxer for good**: all later frames
are refused, and finalisation fails. -/
theorem C21_wedged : finished sampleSeg [{ video 1 with frame := [] }, video 2, video 3, video 4] =
    ([.err 0, .err 0, .err 0, .err 0], .err 0, []) := by decide +kernel

/-- **C21 is false when the last block of each track is held back.** The video frame at 40000 ms is
accepted, the next one refused, finalisation succeeds; the file has the blocks of the first two frames
only. -/
theorem C21_accurate_frame_lost :
    finished { sampleSeg with accurate := true } [video 0, audio 0, video 40000, video 40000] =
      ([.ok (), .ok (), .ok (), .err 0], .ok (),
      clusterId ++ [0x01, 0, 0, 0, 0, 0, 0, 0x10] ++ [0xE7, 0x81, 0,
        0xA0, 0x8B, 0xA1, 0x85, 0x81, 0, 0, 0, 1, 0x9B, 0x82, 0x9C, 0x40] ++
      clusterId ++ [0x01, 0, 0, 0, 0, 0, 0, 0x10] ++ [0xE7, 0x81, 0,
        0xA0, 0x8B, 0xA1, 0x85, 0x82, 0, 0, 0, 2, 0x9B, 0x82, 0x9C, 0x40] ++
      cuesElement [⟨0, 1, 142, none⟩, ⟨40000, 1, 170, none⟩]) := by decide +kernel

/-- **C22 is false when the last block of each track is held back**: in the same history, the second
cue names track 1, time 40000 ms and the cluster at 170 of the payload (the file's byte 218); that
cluster has a single block, of track 2 at time 0. -/
theorem C22_accurate_wrong_cluster :
    (finished { sampleSeg with accurate := true } [video 0, audio 0, video 40000, video 40000]).2.2.drop (170 - 142) =
      clusterId ++ [0x01, 0, 0, 0, 0, 0, 0, 0x10] ++ [0xE7, 0x81, 0,
        0xA0, 0x8B, 0xA1, 0x85, 0x82, 0, 0, 0, 2, 0x9B, 0x82, 0x9C, 0x40] ++
      cuesElement [⟨0, 1, 142, none⟩, ⟨40000, 1, 170, none⟩] := by decide +kernel

/-- The conditions of `C22_after_moving_partial` hold in the first example, ... -/
example : ∃ p : Parts, ∃ cs q,
    (let r := Seg.run (usualFrames.map .frame) sampleSeg freshSink
     let f := Seg.finalize (some 0x40000000) r.2.1 r.2.2
     (Seg.copyAndMoveCues 15 true f.2.2.data f.2.1 freshSink).2.2.data) = p.frontFile sampleSeg.docType ∧
    ClustersAt sampleSeg.info.scale true p.frontClustersAt cs p.clusters ∧
    CarriedAll (acceptedFrames (usualFrames.map .frame) (Seg.run (usualFrames.map .frame) sampleSeg freshSink).1)
      (clusterFrames cs) ∧
    p.cues = some (cuesElement q) ∧ CuesOf sampleSeg.info.scale 1 true cs q := by
  have hsm := usual_small
  have hce : (Seg.finalize (some 0x40000000) (Seg.run (usualFrames.map .frame) sampleSeg freshSink).2.1
    (Seg.run (usualFrames.map .frame) sampleSeg freshSink).2.2).2.1.cues.entries.length = 2 := by decide +kernel
  have hw : ∃ f ∈ acceptedFrames (usualFrames.map .frame) (Seg.run (usualFrames.map .frame) sampleSeg freshSink).1,
    sampleSeg.queues f = false := ⟨video 0, by decide +kernel, by decide⟩
  rcases hrun : Seg.run (usualFrames.map .frame) sampleSeg freshSink with ⟨rs, g1, s1⟩
  rw [hrun] at hsm hce hw
  rcases hfin : Seg.finalize (some 0x40000000) g1 s1 with ⟨r, g2, s2⟩
  simp only [hfin] at hsm hce ⊢
  rcases hcopy : Seg.copyAndMoveCues 15 true s2.data g2 freshSink with ⟨r', g3, s3⟩
  have hwf : sampleSeg.WellFed (usualFrames.map .frame) := by
    refine ⟨?_, by decide, by unfold Span; decide⟩
    intro f hf
    obtain ⟨x, hx, he⟩ := List.mem_map.mp hf
    cases he
    exact (sample_sound f hx).1
  obtain ⟨-, p, cs, q, h1, -, -, -, -, -, h2, h3, h4, h5, -⟩ := C22_after_moving_partial sample_settings sample_unused
    (by unfold Seg.Numbered; decide) rfl rfl (by unfold Seg.Room; decide) rfl rfl hwf rfl rfl (fun _ => rfl) hrun hfin hsm hw
    (by omega) (by omega) rfl rfl (fun _ => rfl) hcopy
  exact ⟨p, cs, q, h1, h2, h3, h4, h5⟩

/-- ... where the file has, after the first 190 bytes, this. -/
example : (let r := Seg.run (usualFrames.map .frame) sampleSeg freshSink
    let f := Seg.finalize (some 0x40000000) r.2.1 r.2.2
    (Seg.copyAndMoveCues 15 true f.2.2.data f.2.1 freshSink).2.2.data.drop 190) =
    cuesElement [⟨0, 1, 142 + 35, none⟩, ⟨66, 1, 185 + 35, some 2⟩] ++
    clusterId ++ [0x01, 0, 0, 0, 0, 0, 0, 0x1F] ++ [0xE7, 0x81, 0,
      0xA3, 0x85, 0x81, 0, 0, 0x80, 1, 0xA3, 0x85, 0x82, 0, 1, 0x80, 2, 0xA3, 0x85, 0x82, 0, 30, 0x80, 2,
      0xA3, 0x85, 0x81, 0, 33, 0, 1] ++
    clusterId ++ [0x01, 0, 0, 0, 0, 0, 0, 0x11] ++ [0xE7, 0x81, 50,
      0xA3, 0x85, 0x82, 0, 0, 0x80, 2, 0xA3, 0x85, 0x81, 0, 16, 0x80, 1] := by decide +kernel

/-- **Moving the cues of a segment without a frame uses a cluster that is not there.** -/
theorem C22_moving_without_cluster : (Seg.copyAndMoveCues 1 true [] sampleSeg freshSink).1 = .ub := by decide +kernel

/-- **Moving the cues of a file written in live mode uses an offset that was never set.** -/
theorem C22_moving_live_undefined :
    (let r := Seg.run [.frame (video 0)] { sampleSeg with live := true } freshSink
     let f := Seg.finalize none r.2.1 r.2.2
     (Seg.copyAndMoveCues 8 true f.2.2.data f.2.1 freshSink).1) = .ub := by decide +kernel

/-- **Output failures while the clusters are copied are not noticed.** The write of the
cluster data (call number 148 of the second output) fails after ten bytes; the call succeeds, and the
new file has 235 bytes instead of 297. -/
theorem C22_moving_failure_unnoticed :
    (let r := Seg.run (usualFrames.map .frame) sampleSeg freshSink
     let f := Seg.finalize (some 0x40000000) r.2.1 r.2.2
     let t : Sink := { freshSink with plan := fun i => if i = 148 then some 10 else none }
     let c := Seg.copyAndMoveCues 15 true f.2.2.data f.2.1 t
     (c.1, f.2.2.data.length, c.2.2.data.length)) = (.ok (), 297, 235) := by decide +kernel

end Verif.Props
