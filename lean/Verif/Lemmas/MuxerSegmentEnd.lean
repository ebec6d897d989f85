/-
Finalising a segment.
-/
import Verif.Lemmas.MuxerSegmentStart

namespace Verif.Mux
open Verif Spec

/-- Going back, storing something over the same number of bytes, and returning. -/
theorem patch_sure {w : W Unit} {new : Bytes} (hw : Emits w () new) {s : Sink} (hs : s.Sure)
    {pre old post : Bytes} (hd : s.data = pre ++ (old ++ post)) (hl : old.length = new.length) {p : Nat}
    (hp : p = pre.length) :
    ∃ s', ((Sink.seek p : W Unit) >>= fun _ => w >>= fun _ => Sink.seek s.pos) s = (.ok (), s') ∧ s'.Sure ∧
      s'.pos = s.pos ∧ s'.data = pre ++ (new ++ post) := by
  subst hp
  rcases seek_cases s pre.length with ⟨h1, c1⟩ | ⟨-, f1⟩
  rotate_left
  · exact absurd hs f1.not_sure
  rw [W.bind_of_ok h1]
  have hwi : Sink.Within { s with pos := pre.length, calls := s.calls + 1 } := by
    unfold Sink.Within; simp only; rw [hd]; simp
  rcases hw.casesAt hwi with ⟨k, h2, -⟩ | ⟨e, s2, h2, t2⟩
  rotate_left
  · obtain ⟨i, -, -, hi⟩ := t2.cause
    exact absurd (hs i) hi
  rw [W.bind_of_ok h2]
  rcases seek_cases (Sink.put { s with pos := pre.length, calls := s.calls + 1 } new k) s.pos with ⟨h3, -⟩ | ⟨-, f3⟩
  · refine ⟨_, h3, hs, rfl, ?_⟩
    simp only [Sink.put]
    rw [hd, overwrite_mid pre old new post hl]
  · exact absurd (show (Sink.put { s with pos := pre.length, calls := s.calls + 1 } new k).Sure from hs) f3.not_sure

/-- Writing the seek head on an output that never fails. -/
theorem seekHead_sure {es : List (Nat × Nat)} (hes : ∀ e ∈ es, Props.Recordable e) (hne : es ≠ []) (hl : es.length ≤ 5)
    {s : Sink} (hs : s.Sure) {pre gap post : Bytes} (hd : s.data = pre ++ (gap ++ post)) (hg : gap.length = 110)
    {h : SeekHead} (hh : h = ⟨slots es, pre.length⟩) :
    ∃ s' e, h.finalize true s = (.ok (), s') ∧ s'.Sure ∧ s'.pos = s.pos ∧
      (element 0x114D9B74 (seekEntries es) ++ element 0xEC (List.replicate e 0)).length = 110 ∧
      s'.data = pre ++ ((element 0x114D9B74 (seekEntries es) ++ element 0xEC (List.replicate e 0)) ++ post) := by
  subst hh
  have hnz : ∀ e ∈ es, e.1 ≠ 0 := fun e he => (Props.recordable_range (hes e he)).1
  have hu : SeekHead.used (slots es) = es := Props.used_of hnz (5 - es.length)
  have hr : SeekHead.InRange (slots es) := by
    intro e he
    rcases List.mem_append.mp he with he | he
    · exact ⟨(Props.recordable_range (hes e he)).2, by have := (hes e he).2; omega⟩
    · have := (List.mem_replicate.mp he).2; subst this; simp
  have hshort := Props.entries_short hes
  have hpay : SeekHead.payloadSize (slots es) ≠ 0 := by
    rw [← (seekEntries_len hr).1, hu]
    cases es with
    | nil => exact absurd rfl hne
    | cons e es =>
      rw [seekEntries, List.length_append]
      have := Props.recordable_range (hes e (by simp))
      obtain ⟨l1, -, -⟩ := seekEntry_len (e := e) this.2 (by have := (hes e (by simp)).2; omega)
      omega
  unfold SeekHead.finalize
  rw [if_neg (by simp), if_neg hpay]
  rcases rewrite_spec (h := ⟨slots es, pre.length⟩) hr (by show (SeekHead.used (slots es)).length ≤ 5; rw [hu]; exact hl) hd hg rfl
    (by show (seekEntries (SeekHead.used (slots es))).length ≤ 103; rw [hu]; omega) with
    ⟨s', e, r1, r2, r3, r4, r5⟩ | ⟨c, s', gap', r1, r2, r3, r4⟩
  · have hu' : SeekHead.used ({ entries := slots es, startPos := pre.length } : SeekHead).entries = es := hu
    rw [hu'] at r4 r5
    exact ⟨s', e, r1, r2.sure hs, r3, r4, r5⟩
  · exact absurd hs r2.not_sure

/-- `SegmentInfo::Finalize` where the Info element with a placeholder for the duration is in the
file. -/
theorem info_finalize {i : SegInfo} {muxing writing : Bytes} (h1 : i.muxingApp = some muxing)
    (h2 : i.writingApp = some writing) (hsc : i.scale < 2 ^ 64) {s : Sink} (hs : s.Sure) {pre post : Bytes} {old : Nat}
    (hold : i.duration = some old)
    (hd : s.data = pre ++ (i.bytes muxing writing ++ post)) {bits : Nat} (j : SegInfo) 
    (hj : j.duration = some bits) (hp : j.durationPos = some (durationAt i pre.length)) :
    ∃ s', SegInfo.finalize true j s = (.ok (), s') ∧ s'.Sure ∧ s'.pos = s.pos ∧
      s'.data = pre ++ (({ i with duration := some bits } : SegInfo).bytes muxing writing ++ post) := by
  obtain ⟨i0, -, i2, -⟩ := info_isId
  have hlen := info_len h1 h2 hsc
  have hsz : ({ i with duration := some bits } : SegInfo).payloadSize = i.payloadSize := by
    unfold SegInfo.payloadSize; simp [hold]
  have hlen' := info_len (i := { i with duration := some bits }) h1 h2 hsc
  rw [hsz] at hlen'
  have split : ∀ k : SegInfo, k.bytes muxing writing = (beBytes (byteWidth kMkvInfo) kMkvInfo ++
      vint (sizeWidth (elements (infoFields k.scale k.duration k.date muxing writing)).length)
        (elements (infoFields k.scale k.duration k.date muxing writing)).length ++ infoFirst k) ++
      (infoDuration k ++ (infoDate k ++ infoApps muxing writing)) := by
    intro k
    unfold SegInfo.bytes infoElement element
    conv => lhs; rw [info_split k muxing writing]
    rw [info_split k muxing writing]
    simp [kMkvInfo]
  have e1 : (elements (infoFields i.scale i.duration i.date muxing writing)).length = i.payloadSize := by
    exact hlen
  have e2 : (elements (infoFields i.scale (some bits) i.date muxing writing)).length = i.payloadSize := by
    exact hlen'
  have s1 := split i
  have s2 := split { i with duration := some bits }
  simp only at s2
  rw [e1] at s1
  rw [e2] at s2
  have f1 : infoFirst { i with duration := some bits } = infoFirst i := rfl
  have f2 : infoDate { i with duration := some bits } = infoDate i := rfl
  have f3 : infoDuration i = element kMkvDuration (beBytes 4 old) := by unfold infoDuration; rw [hold]
  have f4 : infoDuration { i with duration := some bits } = element kMkvDuration (beBytes 4 bits) := rfl
  rw [f1, f2, f4] at s2
  rw [f3] at s1
  unfold SegInfo.finalize
  rw [hj, hp]
  simp only
  rw [if_neg (by simp), W.bind_of_ok (show Sink.position s = (.ok s.pos, s) from rfl)]
  have hA : (pre ++ (beBytes (byteWidth kMkvInfo) kMkvInfo ++ vint (sizeWidth i.payloadSize) i.payloadSize ++
      infoFirst i)).length = durationAt i pre.length := by
    unfold durationAt
    rw [getCodedUIntSize_eq, List.length_append, List.length_append, List.length_append, beBytes_length,
      show byteWidth kMkvInfo = 4 by decide +kernel]
    simp [vint]; omega
  rw [s1] at hd
  obtain ⟨s', r1, r2, r3, r4⟩ := patch_sure (writeEbmlElementFloat_emits (id := kMkvDuration) (bits := bits) (isId_width i2).2)
    hs (pre := pre ++ (beBytes (byteWidth kMkvInfo) kMkvInfo ++ vint (sizeWidth i.payloadSize) i.payloadSize ++ infoFirst i))
    (old := element kMkvDuration (beBytes 4 old)) (post := infoDate i ++ infoApps muxing writing ++ post)
    (by rw [hd]; simp) (by rw [element_length _ (isId_width i2).2, element_length _ (isId_width i2).2]; simp) hA.symm
  refine ⟨s', r1, r2, r3, ?_⟩
  rw [r4, s2]; simp

/-- Patching the segment size. -/
theorem patchSegmentSize_sure {g : Seg} (hv : g.docVersion = g.docVersionWritten) {s : Sink} (hs : s.Sure) (he : s.AtEnd)
    {payload : Bytes} (hd : s.data = fileStart g.docType sizeUnknown ++ payload)
    (h1 : g.sizePosition = (ebmlHeader g.docType 4).length + 4)
    (h2 : g.payloadPos = (ebmlHeader g.docType 4).length + 12) (hne : payload ≠ [])
    (hsm : payload.length + 1 < 2 ^ 56) :
    ∃ s', g.patchSegmentSize s = (.ok (), s') ∧ s'.Sure ∧ s'.pos = s.pos ∧
      s'.data = fileStart g.docType (vint 8 payload.length) ++ payload := by
  have hpl : 0 < payload.length := List.length_pos_iff.mpr hne
  have hpos : s.pos = (ebmlHeader g.docType 4).length + 12 + payload.length := by
    rw [show s.pos = s.data.length from he, hd]
    simp [fileStart, segmentId, sizeUnknown]; omega
  unfold Seg.patchSegmentSize
  rw [W.bind_of_ok (show Sink.position s = (.ok s.pos, s) from rfl), h2, hpos]
  have hlt : ¬ ((((ebmlHeader g.docType 4).length + 12 + payload.length : Nat) : Int) - (((ebmlHeader g.docType 4).length + 12 : Nat) : Int) < 1) := by omega
  rw [if_neg hlt]
  have hw : W.when (g.docVersion != g.docVersionWritten) g.rewriteEbmlHeader s = (.ok (), s) := by
    rw [hv]; unfold W.when; simp
  rw [W.bind_of_ok hw, h1]
  have ht : toU64 ((((ebmlHeader g.docType 4).length + 12 + payload.length : Nat) : Int) - (((ebmlHeader g.docType 4).length + 12 : Nat) : Int)) = payload.length := by
    unfold toU64; omega
  rw [ht]
  obtain ⟨s', r1, r2, r3, r4⟩ := patch_sure (writeUIntSize_emits (v := payload.length) (n := 8) (by omega) (by omega) hsm)
    hs (pre := ebmlHeader g.docType 4 ++ segmentId) (old := sizeUnknown) (post := payload)
    (by rw [hd]; simp [fileStart]) (by simp [sizeUnknown, vint]) (p := (ebmlHeader g.docType 4).length + 4)
    (by simp [segmentId])
  rw [hpos] at r1
  exact ⟨s', r1, r2, by rw [r3, hpos], by rw [r4]; simp [fileStart]⟩

/-- The Info element in the finished file. -/
def lastInfo (seekable : Bool) (i : SegInfo) (d : Option Nat) : SegInfo :=
  if seekable then { i with duration := some (d.getD (i.duration.getD 0)) } else i

/-- The seek entries of the finished file; `off` is where the cues are. -/
def lastSeeks (es : List (Nat × Nat)) (cues : Bool) (off : Nat) : List (Nat × Nat) :=
  es ++ if cues then [(kMkvCues, off % 2 ^ 64)] else []

/-- The part of `Segment::Finalize` for files. -/
theorem finalizeFile_run {g : Seg} {muxing writing : Bytes} (hv : g.docVersion = g.docVersionWritten)
    (h1 : g.sizePosition = (ebmlHeader g.docType 4).length + 4)
    (h2 : g.payloadPos = (ebmlHeader g.docType 4).length + 12)
    (hm : g.info.muxingApp = some muxing) (hw : g.info.writingApp = some writing) (hsc : g.info.scale < 2 ^ 64)
    {es : List (Nat × Nat)} (hes : ∀ e ∈ es, Props.Recordable e) (hne : es ≠ [])
    (hl : es.length + (if g.outputCues then 1 else 0) ≤ 5) (hk : g.seekHead.entries = slots es)
    {s : Sink} (hs : s.Sure) (he : s.AtEnd) {gap rest cb : Bytes}
    (hd : s.data = fileStart g.docType sizeUnknown ++ (gap ++ (g.info.bytes muxing writing ++ rest)))
    (hres : g.seekable = true → gap.length = 110 ∧ g.seekHead.startPos = (fileStart g.docType sizeUnknown).length ∧
      g.info.duration.isSome = true ∧
      g.info.durationPos = some (durationAt g.info ((fileStart g.docType sizeUnknown).length + gap.length)))
    (hc : Emits (W.when g.outputCues g.cues.write) () cb)
    (hsm : s.data.length + cb.length + 1 < 2 ^ 56) (d : Option Nat) :
    ∃ g' s' region payload, Seg.finalizeFile d g s = (.ok (), g', s') ∧ s'.Sure ∧ s'.AtEnd ∧
      payload = region ++ ((lastInfo g.seekable g.info d).bytes muxing writing ++ (rest ++ cb)) ∧
      s'.data = fileStart g.docType (if g.seekable then vint 8 payload.length else sizeUnknown) ++ payload ∧
      region.length = gap.length ∧ ((lastInfo g.seekable g.info d).bytes muxing writing).length = (g.info.bytes muxing writing).length ∧
      (if g.seekable then ∃ e, region = element 0x114D9B74 (seekEntries (lastSeeks es g.outputCues
          (gap ++ (g.info.bytes muxing writing ++ rest)).length)) ++ element 0xEC (List.replicate e 0)
        else region = gap) ∧
      g'.seekHead = ⟨slots (lastSeeks es g.outputCues (gap ++ (g.info.bytes muxing writing ++ rest)).length), g.seekHead.startPos⟩ ∧
      g'.clusterEnd = some s.pos ∧ g'.cues = g.cues ∧ g'.closed = g.closed ∧ g'.cur = g.cur ∧
      g'.sizePosition = g.sizePosition ∧ g'.payloadPos = g.payloadPos ∧
      g'.docType = g.docType ∧ g'.seekable = g.seekable ∧ g'.outputCues = g.outputCues := by
  obtain ⟨hlast, hinfo⟩ : ((lastInfo g.seekable g.info d).bytes muxing writing).length = (g.info.bytes muxing writing).length ∧
      ∃ s1, SegInfo.finalize g.seekable { g.info with duration := d } s = (.ok (), s1) ∧ s1.Sure ∧ s1.pos = s.pos ∧
        s1.data = fileStart g.docType sizeUnknown ++ (gap ++ ((lastInfo g.seekable g.info d).bytes muxing writing ++ rest)) := by
    unfold lastInfo
    cases hsk : g.seekable
    · refine ⟨rfl, s, ?_, hs, rfl, hd⟩
      unfold SegInfo.finalize
      cases d <;> rfl
    · obtain ⟨-, -, r3, r4⟩ := hres hsk
      obtain ⟨old, hold⟩ := Option.isSome_iff_exists.mp r3
      have hold' : ({ g.info with duration := some old } : SegInfo) = g.info := by
        have : ∀ x : SegInfo, x.duration = some old → { x with duration := some old } = x := by
          intro x h; cases x; cases h; rfl
        exact this _ hold
      simp only [if_true, hold, Option.getD_some]
      cases d with
      | none =>
        simp only [Option.getD_none]
        rw [hold']
        exact ⟨rfl, s, rfl, hs, rfl, hd⟩
      | some bits =>
        simp only [Option.getD_some]
        obtain ⟨s1, e1, u1, p1, d1⟩ := info_finalize hm hw hsc hs (pre := fileStart g.docType sizeUnknown ++ gap) (post := rest)
          hold (by rw [hd]; simp) (bits := bits) { g.info with duration := some bits } rfl
          (by rw [List.length_append]; exact r4)
        refine ⟨?_, s1, e1, u1, p1, by rw [d1]; simp⟩
        have l1 := info_len hm hw hsc
        have l2 := info_len (i := { g.info with duration := some bits }) hm hw hsc
        have l3 : ({ g.info with duration := some bits } : SegInfo).payloadSize = g.info.payloadSize := by
          unfold SegInfo.payloadSize; simp [hold]
        unfold SegInfo.bytes infoElement
        rw [element_length _ (by decide), element_length _ (by decide), l1, l2, l3]
  obtain ⟨s1, e1, u1, p1, d1⟩ := hinfo
  generalize hib : (lastInfo g.seekable g.info d).bytes muxing writing = ib at *
  have hpos1 : s1.pos = (ebmlHeader g.docType 4).length + 12 + (gap ++ (g.info.bytes muxing writing ++ rest)).length := by
    rw [p1, show s.pos = s.data.length from he, hd]
    simp [fileStart, segmentId, sizeUnknown]; omega
  have ae1 : s1.AtEnd := by
    unfold Sink.AtEnd
    rw [p1, show s.pos = s.data.length from he, d1, hd]
    simp only [List.length_append]; omega
  unfold Seg.finalizeFile
  rw [M.modify_bind, M.get_bind, M.bind_of_ok (M.lift_of e1)]
  have hentry : M.when g.outputCues (Seg.addSeekEntry kMkvCues) { g with info := { g.info with duration := d } } s1 =
      (.ok (), { g with info := { g.info with duration := d }, seekHead := ⟨slots (lastSeeks es g.outputCues
        (gap ++ (g.info.bytes muxing writing ++ rest)).length), g.seekHead.startPos⟩ }, s1) := by
    unfold M.when lastSeeks
    by_cases hoc : g.outputCues = true
    · rw [if_pos hoc, if_pos hoc]
      rw [if_pos hoc] at hl
      have hnz : ∀ e ∈ es, e.1 ≠ 0 := fun e he => (Props.recordable_range (hes e he)).1
      refine (addSeekEntry_run (g := { g with info := { g.info with duration := d } }) (es := es) hk (by omega) hnz
        (id := kMkvCues) (by decide) (s := s1) (by show g.payloadPos ≤ _; omega)).trans ?_
      have : s1.pos - ({ g with info := { g.info with duration := d } } : Seg).payloadPos =
          (gap ++ (g.info.bytes muxing writing ++ rest)).length := by
        show s1.pos - g.payloadPos = _; omega
      rw [this]
    · rw [if_neg hoc, if_neg hoc]
      have : (⟨slots (es ++ []), g.seekHead.startPos⟩ : SeekHead) = g.seekHead := by
        rw [List.append_nil, ← hk]
      rw [this]; rfl
  rw [M.bind_of_ok hentry, M.bind_of_ok (M.lift_of (show Sink.position s1 = (.ok s1.pos, s1) from rfl)), M.modify_bind]
  obtain ⟨s2, e2, g2⟩ := grew_emits hc ae1 u1
  rw [M.bind_of_ok (M.lift_of e2), M.get_bind]
  have d2 : s2.data = fileStart g.docType sizeUnknown ++ (gap ++ (ib ++ (rest ++ cb))) := by
    rw [g2.data, d1]; simp
  have hfs : 12 ≤ (fileStart g.docType sizeUnknown).length := by simp [fileStart, segmentId, sizeUnknown]
  have htot : (fileStart g.docType sizeUnknown).length + gap.length + ib.length + rest.length + cb.length + 1 < 2 ^ 56 := by
    rw [hd] at hsm
    simp only [List.length_append] at hsm
    omega
  by_cases hsk : g.seekable = true
  · obtain ⟨r1, r2, -, -⟩ := hres hsk
    have hrec : ∀ e ∈ lastSeeks es g.outputCues (gap ++ (g.info.bytes muxing writing ++ rest)).length, Props.Recordable e := by
      intro e hm
      unfold lastSeeks at hm
      rcases List.mem_append.mp hm with hm | hm
      · exact hes e hm
      · split at hm
        · simp only [List.mem_singleton] at hm
          subst hm
          refine ⟨⟨4, (by unfold IsId; decide : IsId 4 kMkvCues)⟩, ?_⟩
          simp only [List.length_append]
          omega
        · simp at hm
    obtain ⟨s3, e, e3, u3, p3, l3, d3⟩ := seekHead_sure hrec (by
        unfold lastSeeks; intro h; exact hne (List.append_eq_nil_iff.mp h).1) (by
        unfold lastSeeks; cases hoc : g.outputCues <;> rw [hoc] at hl <;> simp at hl ⊢ <;> omega) g2.sure d2 r1 rfl
    rw [← r2] at e3
    simp only [hsk]
    rw [M.bind_of_ok (M.lift_of e3)]
    obtain ⟨s4, e4, u4, p4, d4⟩ := patchSegmentSize_sure (g := { g with info := { g.info with duration := d }, seekHead := ⟨slots (lastSeeks es g.outputCues (gap ++ (g.info.bytes muxing writing ++ rest)).length), g.seekHead.startPos⟩, clusterEnd := some s1.pos })
      hv u3 (by
        unfold Sink.AtEnd
        rw [p3, show s2.pos = s2.data.length from g2.atEnd, d2, d3]
        simp only [List.length_append] at l3 ⊢
        omega) d3 h1 h2 (by
        intro h
        have := congrArg List.length h
        simp only [List.length_append, List.length_nil] at this l3
        omega) (by simp only [List.length_append] at l3 ⊢; omega)
    refine ⟨_, s4, _, _, M.lift_of e4, u4, ?_, rfl, d4, ?_, hlast, by simp only [if_true]; exact ⟨e, rfl⟩, rfl, congrArg some p1, rfl, rfl, rfl, rfl, rfl, rfl, hsk.symm ▸ rfl, rfl⟩
    · unfold Sink.AtEnd
      rw [p4, p3, show s2.pos = s2.data.length from g2.atEnd, d2, d4]
      simp only [fileStart, List.length_append] at l3 ⊢
      simp only [vint, sizeUnknown, beBytes_length, List.length_cons, List.length_nil]
      omega
    · omega
  · have hsk' : g.seekable = false := by simpa using hsk
    simp only [hsk']
    exact ⟨_, s2, gap, _, rfl, g2.sure, g2.atEnd, rfl, d2, rfl, hlast, rfl, rfl, congrArg some p1, rfl, rfl, rfl, rfl, rfl, rfl, hsk'.symm ▸ rfl, rfl⟩

end Verif.Mux
