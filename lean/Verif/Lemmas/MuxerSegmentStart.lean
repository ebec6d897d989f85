/-
The first frame of a segment: writing the header.
-/
import Verif.Lemmas.MuxerSegmentHead
import Verif.Lemmas.MuxerGrow

namespace Verif.Mux
open Verif Spec

/-- The bytes of the header elements, at the start of the payload of the segment. -/
def Seg.headBytes (g : Seg) (gap muxing writing tr : Bytes) (ch tg : Option Bytes) : Bytes :=
  headParts gap (g.headInfo.bytes muxing writing) tr ch tg

/-- The segment once its header is written. -/
def Seg.begun (g : Seg) (gap muxing writing tr : Bytes) (ch tg : Option Bytes) (sp : Nat) : Seg :=
  { g.headed (g.headInfo.placed ((fileStart g.docType sizeUnknown).length + gap.length))
      (headSeeks gap (g.headInfo.bytes muxing writing) tr ch tg) sp with
    headerWritten := true, cuesTrack := g.cuesOn }

/-- What is known about the space reserved for the seek head. -/
def Seg.Reserved (g : Seg) (gap : Bytes) (sp : Nat) : Prop :=
  if !g.live && g.seekable then gap.length = 110 ∧ sp = (fileStart g.docType sizeUnknown).length ∧
      ∃ e, gap = element 0xEC (List.replicate e 0)
    else gap = []

theorem pickCues_some {t : Tracks} (h : t.entries ≠ []) : ∃ n, Seg.pickCuesTrack t = some n := by
  unfold Seg.pickCuesTrack
  split
  · exact ⟨_, rfl⟩
  · cases he : t.entries with
    | nil => exact absurd he h
    | cons e es => exact ⟨_, rfl⟩

theorem chooseCuesTrack_run {g : Seg} (hg : g.outputCues = true → g.cuesTrack ≠ 0 ∨ g.tracks.entries ≠ [])
    (s : Sink) : Seg.chooseCuesTrack g s = (.ok (), { g with cuesTrack := g.cuesOn }, s) := by
  unfold Seg.chooseCuesTrack Seg.cuesOn
  rw [M.get_bind]
  by_cases hc : (g.outputCues && g.cuesTrack == 0) = true
  · have hne : g.tracks.entries ≠ [] := by
      rcases hg (by simp at hc; exact hc.1) with h | h
      · simp at hc; exact absurd hc.2 h
      · exact h
    obtain ⟨n, hn⟩ := pickCues_some hne
    rw [if_pos hc, if_pos hc, hn]
    rfl
  · rw [if_neg hc, if_neg hc]
    rfl

theorem checkHeaderInfo_run {g : Seg} {muxing writing tr : Bytes} {ch tg : Option Bytes}
    (hg : g.Settings muxing writing tr ch tg) (hu : g.Unused) {s : Sink} (hd : s.data = []) (he : s.AtEnd)
    (hp : s.Sure) :
    ∃ s' gap sp, Seg.checkHeaderInfo g s = (.ok (), g.begun gap muxing writing tr ch tg sp, s') ∧
      s'.AtEnd ∧ s'.Sure ∧
      s'.data = fileStart g.docType sizeUnknown ++ g.headBytes gap muxing writing tr ch tg ∧
      g.Reserved gap sp := by
  obtain ⟨s1, gap, es, sp, e1, a1, p1, d1, hes, hgap⟩ := writeSegmentHeader_run hg hu hd he hp
  refine ⟨s1, gap, sp, ?_, a1, p1, d1, hgap⟩
  unfold Seg.checkHeaderInfo
  rw [M.get_bind, if_neg (by rw [hu.header]; simp), M.bind_of_ok e1]
  have hlen : es.length + 1 ≤ 5 ∧ ∀ e ∈ es, e.1 ≠ 0 := by
    have hl := congrArg List.length hes
    have hm : ∀ e ∈ es, e ∈ headSeeks gap (g.headInfo.bytes muxing writing) tr ch tg := by
      intro e he; rw [← hes]; simp [he]
    unfold headSeeks at hl hm
    have o1 := optSeek_length kMkvChapters (gap ++ (g.headInfo.bytes muxing writing ++ tr)).length ch
    have o2 := optSeek_length kMkvTags (gap ++ (g.headInfo.bytes muxing writing ++ (tr ++ ch.getD []))).length tg
    refine ⟨by simp only [List.length_append, List.length_cons, List.length_nil] at hl o1 o2; omega, ?_⟩
    intro e he
    have := hm e he
    simp only [List.mem_append, List.mem_cons, List.not_mem_nil, or_false] at this
    rcases this with (((rfl | rfl) | h) | h) | rfl
    · exact (by decide : kMkvInfo ≠ 0)
    · exact (by decide : kMkvTracks ≠ 0)
    · exact optSeek_nz (by decide) _ _ e h
    · exact optSeek_nz (by decide) _ _ e h
    · exact (by decide : kMkvCluster ≠ 0)
  have hpos : s1.pos = (ebmlHeader g.docType 4).length + 12 +
      (headParts gap (g.headInfo.bytes muxing writing) tr ch tg).length := by
    rw [show s1.pos = s1.data.length from a1, d1]
    simp [fileStart, segmentId, sizeUnknown]; omega
  have h2 := addSeekEntry_run (g := { g.headed (g.headInfo.placed ((fileStart g.docType sizeUnknown).length + gap.length)) es sp with headerWritten := true })
    (es := es) rfl (by omega) hlen.2 (id := kMkvCluster) (by decide) (s := s1)
    (show (ebmlHeader g.docType 4).length + 12 ≤ s1.pos by omega)
  rw [M.bind_of_ok h2]
  have h3 : s1.pos - ({ g.headed (g.headInfo.placed ((fileStart g.docType sizeUnknown).length + gap.length)) es sp with headerWritten := true } : Seg).payloadPos =
      (headParts gap (g.headInfo.bytes muxing writing) tr ch tg).length := by
    show s1.pos - ((ebmlHeader g.docType 4).length + 12) = _; omega
  rw [h3, hes]
  refine (chooseCuesTrack_run ?_ s1).trans ?_
  · exact hg.cues
  · rfl

theorem Seg.Unused.forced {g : Seg} (h : g.Unused) : g.forceNewCluster.Unused := ⟨h.1, h.2, h.3, h.4, h.5, h.6, h.7, h.8, h.9, h.10⟩
theorem Seg.Settings.forced {g : Seg} {muxing writing tr : Bytes} {ch tg : Option Bytes}
    (h : g.Settings muxing writing tr ch tg) : g.forceNewCluster.Settings muxing writing tr ch tg :=
  ⟨h.1, h.2, h.3, h.4, h.5, h.6, h.7, h.8, h.9⟩

/-- A history with at least one frame is as if the header had been written before it. -/
theorem run_begun {muxing writing tr : Bytes} {ch tg : Option Bytes} : ∀ {xs : List SegCall} {g : Seg}
    (_ : g.Settings muxing writing tr ch tg) (_ : g.Unused) {s : Sink} (_ : s.data = []) (_ : s.AtEnd)
    (_ : s.Sure) (_ : ∃ f, .frame f ∈ xs),
    ∃ s' gap sp, Seg.run xs g s = Seg.run xs (g.begun gap muxing writing tr ch tg sp) s' ∧
      s'.AtEnd ∧ s'.Sure ∧
      s'.data = fileStart g.docType sizeUnknown ++ g.headBytes gap muxing writing tr ch tg ∧
      g.Reserved gap sp := by
  intro xs
  induction xs with
  | nil => intro g _ _ s _ _ _ h; obtain ⟨f, h⟩ := h; simp at h
  | cons x xs ih =>
    intro g hg hu s hd he hp hx
    cases x with
    | force =>
      obtain ⟨s', gap, sp, e, r⟩ := ih hg.forced hu.forced hd he hp (by
        obtain ⟨f, hf⟩ := hx
        exact ⟨f, by simpa using hf⟩)
      refine ⟨s', gap, sp, ?_, r⟩
      rw [run_cons (show Seg.call .force g s = (.ok (), g.forceNewCluster, s) from rfl), e,
        run_cons (show Seg.call .force (g.begun gap muxing writing tr ch tg sp) s' =
          (.ok (), (g.begun gap muxing writing tr ch tg sp).forceNewCluster, s') from rfl)]
      rfl
    | frame f =>
      obtain ⟨s', gap, sp, e, r⟩ := checkHeaderInfo_run hg hu hd he hp
      refine ⟨s', gap, sp, ?_, r⟩
      have : Seg.call (.frame f) g s = Seg.call (.frame f) (g.begun gap muxing writing tr ch tg sp) s' := by
        show Seg.addGenericFrame f g s = Seg.addGenericFrame f _ s'
        unfold Seg.addGenericFrame
        rw [M.bind_of_ok e]
        have e2 : Seg.checkHeaderInfo (g.begun gap muxing writing tr ch tg sp) s' =
            (.ok (), g.begun gap muxing writing tr ch tg sp, s') := by
          unfold Seg.checkHeaderInfo
          rw [M.get_bind, if_pos (show (g.begun gap muxing writing tr ch tg sp).headerWritten = true from rfl)]; rfl
        rw [M.bind_of_ok e2]
      rcases hc : Seg.call (.frame f) g s with ⟨r1, g1, s1⟩
      rw [run_cons hc, run_cons (this ▸ hc)]

/-- The members that change, at the beginning. -/
def Seg.st (g : Seg) : SegSt :=
  ⟨g.cues, g.newCuepoint, g.forceNew, g.closed, g.cur, g.queue, g.queueUsed, g.lastTs, g.lastTrackTs⟩

theorem Seg.put_st (g : Seg) : g.put g.st = g := rfl

theorem begun_ready {g : Seg} {muxing writing tr : Bytes} {ch tg : Option Bytes}
    (hg : g.Settings muxing writing tr ch tg) (hu : g.Unused) (hacc : g.accurate = false) (gap : Bytes) (sp : Nat) :
    (g.begun gap muxing writing tr ch tg sp).Ready (fileStart g.docType sizeUnknown ++ g.headBytes gap muxing writing tr ch tg) := by
  refine ⟨rfl, hg.version, hacc, ?_, hu.dangling, ?_⟩
  · show 0 < ((g.headInfo.placed _).scale)
    unfold SegInfo.placed Seg.headInfo
    split <;> exact hg.scale.1
  · show (ebmlHeader g.docType 4).length + 12 ≤ _
    simp [fileStart, segmentId, sizeUnknown]

theorem begun_between {g : Seg} {muxing writing tr : Bytes} {ch tg : Option Bytes}
    (hu : g.Unused) {gap : Bytes} {sp : Nat} {s : Sink} (he : s.AtEnd)
    (hp : s.Sure) (hd : s.data = fileStart g.docType sizeUnknown ++ g.headBytes gap muxing writing tr ch tg) :
    (g.begun gap muxing writing tr ch tg sp).Between (fileStart g.docType sizeUnknown ++ g.headBytes gap muxing writing tr ch tg)
      (g.begun gap muxing writing tr ch tg sp).st s [] := by
  have hq : (g.begun gap muxing writing tr ch tg sp).st.queue = [] := hu.queue
  refine ⟨fun h => absurd hq h, by rw [hq]; exact .nil, by rw [hq]; simp, by rw [hq]; simp, ?_, fun _ h => by simp at h, .inl ⟨?_, ?_, hu.lastTs⟩⟩
  · intro b _
    rw [show (g.begun gap muxing writing tr ch tg sp).st.lastTs = 0 from hu.lastTs]; omega
  · exact ⟨hu.cur, he, hp, hd, hu.cues, rfl, hu.newCuepoint, hu.closed⟩
  · rw [hq]; exact .nil

end Verif.Mux
