/-
The header of a muxer segment.
-/
import Verif.Lemmas.MuxerSegment
import Verif.Lemmas.EbmlHeader
import Verif.Props.SeekHead
import Verif.Spec.Segment

namespace Verif.Mux
open Verif Spec

/-- The output grew by these bytes and is still sure. -/
structure Grew (s : Sink) (bs : Bytes) (s' : Sink) : Prop where
  atEnd : s'.AtEnd
  sure : s'.Sure
  data : s'.data = s.data ++ bs

theorem Grew.trans {s s' s'' : Sink} {a b : Bytes} (h : Grew s a s') (h' : Grew s' b s'') :
    Grew s (a ++ b) s'' := ⟨h'.1, h'.2, by rw [h'.3, h.3, List.append_assoc]⟩

theorem Grew.refl {s : Sink} (h1 : s.AtEnd) (h2 : s.Sure) : Grew s [] s := ⟨h1, h2, by simp⟩

theorem Grew.pos {s s' : Sink} {bs : Bytes} (h : Grew s bs s') : s'.pos = s.data.length + bs.length := by
  rw [show s'.pos = s'.data.length from h.atEnd, h.data, List.length_append]

theorem grew_emits {α : Type} {w : W α} {a : α} {bs : Bytes} (h : Emits w a bs) {s : Sink} (h1 : s.AtEnd) (h2 : s.Sure) :
    ∃ s', w s = (.ok a, s') ∧ Grew s bs s' := by
  obtain ⟨k, hk⟩ := h.run h1 h2
  exact ⟨_, hk, Sink.app_atEnd h1 bs k, h2, rfl⟩

/-- The Info element of these settings. -/
def SegInfo.bytes (i : SegInfo) (muxing writing : Bytes) : Bytes :=
  infoElement i.scale i.duration i.date muxing writing

theorem info_isId : IsId 4 kMkvInfo ∧ IsId 3 kMkvTimecodeScale ∧ IsId 2 kMkvDuration ∧ IsId 2 kMkvDateUTC ∧
    IsId 2 kMkvMuxingApp ∧ IsId 2 kMkvWritingApp ∧ IsId 4 kMkvTracks ∧ IsId 4 kMkvChapters ∧
    IsId 4 kMkvTags ∧ IsId 4 kMkvCluster ∧ IsId 4 kMkvSegment := by
  unfold IsId; decide

/-- The part of the Info payload before the duration. -/
def infoFirst (i : SegInfo) : Bytes := elements [uintField kMkvTimecodeScale i.scale]

def infoDuration (i : SegInfo) : Bytes :=
  match i.duration with
  | none => []
  | some d => element kMkvDuration (beBytes 4 d)

def infoDate (i : SegInfo) : Bytes :=
  match i.date with
  | none => []
  | some d => element kMkvDateUTC (twosBytes 8 d)

def infoApps (muxing writing : Bytes) : Bytes :=
  element kMkvMuxingApp muxing ++ element kMkvWritingApp writing

theorem info_split (i : SegInfo) (muxing writing : Bytes) :
    elements (infoFields i.scale i.duration i.date muxing writing) =
      infoFirst i ++ (infoDuration i ++ (infoDate i ++ infoApps muxing writing)) := by
  unfold infoFields infoFirst infoDuration infoDate infoApps
  cases i.duration <;> cases i.date <;>
    simp [elements, kMkvTimecodeScale, kMkvDuration, kMkvDateUTC, kMkvMuxingApp, kMkvWritingApp]

theorem info_len {i : SegInfo} {muxing writing : Bytes} (h1 : i.muxingApp = some muxing)
    (h2 : i.writingApp = some writing) (hs : i.scale < 2 ^ 64) :
    (elements (infoFields i.scale i.duration i.date muxing writing)).length = i.payloadSize := by
  obtain ⟨-, i1, i2, i3, i4, i5, -⟩ := info_isId
  rw [info_split]
  unfold SegInfo.payloadSize
  have e1 := uintField_len i1 hs
  have e4 := textField_len i4 muxing
  have e5 := textField_len i5 writing
  rw [elements_one] at e4 e5
  have e2 : (infoDuration i).length = if i.duration.isSome then ebmlElementSizeFloat kMkvDuration else 0 := by
    unfold infoDuration
    cases i.duration with
    | none => rfl
    | some d =>
      simp only [Option.isSome_some, if_true]
      rw [element_length _ (isId_width i2).2, beBytes_length]
      unfold ebmlElementSizeFloat
      rw [show getCodedUIntSize 4 = 1 by decide +kernel]
  have e3 : (infoDate i).length = if i.date.isSome then ebmlDateElementSize kMkvDateUTC else 0 := by
    unfold infoDate
    cases i.date with
    | none => rfl
    | some d =>
      simp only [Option.isSome_some, if_true]
      rw [element_length _ (isId_width i3).2, twosBytes_length]
      unfold ebmlDateElementSize kDateElementSize
      rw [show getCodedUIntSize 8 = 1 by decide +kernel]
  simp only [List.length_append, infoFirst, infoApps]
  rw [e1, e2, e3, e4, e5, h1, h2]
  omega

theorem info_small {i : SegInfo} {muxing writing : Bytes} (h1 : i.muxingApp = some muxing)
    (h2 : i.writingApp = some writing) (hm : muxing.length < 2 ^ 32) (hw : writing.length < 2 ^ 32) :
    i.payloadSize + 1 < 2 ^ 56 := by
  unfold SegInfo.payloadSize ebmlElementSizeUInt ebmlElementSizeUIntFixed ebmlElementSizeString ebmlElementSizeFloat ebmlDateElementSize kDateElementSize
  rw [h1, h2]
  simp only
  have := (getUIntSize_bounds kMkvTimecodeScale).2
  have := (getUIntSize_bounds i.scale).2
  have := (getUIntSize_bounds kMkvDuration).2
  have := (getUIntSize_bounds kMkvDateUTC).2
  have := (getUIntSize_bounds kMkvMuxingApp).2
  have := (getUIntSize_bounds kMkvWritingApp).2
  have c1 : getCodedUIntSize muxing.length ≤ 8 := (getCodedUIntSize_bounds _).2
  have c2 : getCodedUIntSize writing.length ≤ 8 := (getCodedUIntSize_bounds _).2
  rw [if_neg (Nat.lt_irrefl 0)]
  split <;> split <;> omega

/-- Where the duration is in the file if the Info element starts at `p`. -/
def durationAt (i : SegInfo) (p : Nat) : Nat :=
  p + 4 + getCodedUIntSize i.payloadSize + (infoFirst i).length

theorem writeDuration_run (i : SegInfo) {s2 : Sink} (he : s2.AtEnd) (hp : s2.Sure) :
    ∃ s3, SegInfo.writeDuration i s2 = (.ok (), { i with durationPos := if i.duration.isSome then some s2.pos else i.durationPos }, s3) ∧
      Grew s2 (infoDuration i) s3 := by
  obtain ⟨-, -, i2, -⟩ := info_isId
  rcases i with ⟨a, d, b, c, e, f⟩
  unfold SegInfo.writeDuration infoDuration
  rw [M.get_bind]
  cases d with
  | none => exact ⟨s2, rfl, .refl he hp⟩
  | some d =>
    obtain ⟨s3, e3, g3⟩ := grew_emits (writeEbmlElementFloat_emits (id := kMkvDuration) (bits := d) (isId_width i2).2) he hp
    refine ⟨s3, ?_, g3⟩
    simp only
    rw [M.bind_of_ok (M.lift_of (show Sink.position s2 = (.ok s2.pos, s2) from rfl)), M.modify_bind, M.lift_of e3]
    rfl

/-- `SegmentInfo::Write`. -/
theorem info_write {i : SegInfo} {muxing writing : Bytes} (h1 : i.muxingApp = some muxing)
    (h2 : i.writingApp = some writing) (hs : i.scale < 2 ^ 64) (hm : muxing.length < 2 ^ 32)
    (hw : writing.length < 2 ^ 32) {s : Sink} (he : s.AtEnd) (hp : s.Sure) :
    ∃ s', SegInfo.write i s = (.ok (), { i with durationPos := if i.duration.isSome then some (durationAt i s.data.length) else i.durationPos }, s') ∧
      Grew s (i.bytes muxing writing) s' := by
  obtain ⟨i0, i1, i2, i3, i4, i5, -⟩ := info_isId
  have hlen := info_len h1 h2 hs
  have hsmall := info_small h1 h2 hm hw
  unfold SegInfo.write
  rw [M.get_bind, if_neg (by simp [h1, h2])]
  obtain ⟨s1, e1, g1⟩ := grew_emits (writeEbmlMasterElement_emits (isId_width i0).2 hsmall) he hp
  rw [M.bind_of_ok (M.lift_of e1), M.bind_of_ok (M.lift_of (show Sink.position s1 = (.ok s1.pos, s1) from rfl))]
  obtain ⟨s2, e2, g2⟩ := grew_emits (uintField_emits (id := kMkvTimecodeScale) (isId_width i1).2 hs) g1.atEnd g1.sure
  rw [M.bind_of_ok (M.lift_of e2)]
  obtain ⟨s3, e3, g3⟩ := writeDuration_run i g2.atEnd g2.sure
  rw [M.bind_of_ok e3]
  have hdate : ∀ j : SegInfo, j.date = i.date → ∃ s4, SegInfo.writeDate j s3 = (.ok (), j, s4) ∧ Grew s3 (infoDate i) s4 := by
    intro j hj
    unfold SegInfo.writeDate infoDate
    rw [hj]
    cases i.date with
    | none => exact ⟨s3, rfl, .refl g3.atEnd g3.sure⟩
    | some d =>
      obtain ⟨s4, e4, g4⟩ := grew_emits (writeEbmlDateElement_emits (id := kMkvDateUTC) (v := d) (isId_width i3).2) g3.atEnd g3.sure
      exact ⟨s4, by simp only [e4], g4⟩
  obtain ⟨s4, e4, g4⟩ := hdate { i with durationPos := if i.duration.isSome then some s2.pos else i.durationPos } rfl
  rw [M.bind_of_ok e4, h1, h2]
  obtain ⟨s5, e5, g5⟩ := grew_emits (writeEbmlElementString_emits (id := kMkvMuxingApp) (isId_width i4).2 hm) g4.atEnd g4.sure
  rw [M.bind_of_ok (M.lift_of e5)]
  obtain ⟨s6, e6, g6⟩ := grew_emits (writeEbmlElementString_emits (id := kMkvWritingApp) (isId_width i5).2 hw) g5.atEnd g5.sure
  rw [M.bind_of_ok (M.lift_of e6), M.bind_of_ok (M.lift_of (show Sink.position s6 = (.ok s6.pos, s6) from rfl))]
  have gp := g2.trans (g3.trans (g4.trans (g5.trans g6)))
  have ga := g1.trans gp
  have hpl : elements [uintField kMkvTimecodeScale i.scale] ++ (infoDuration i ++ (infoDate i ++
      (element kMkvMuxingApp muxing ++ element kMkvWritingApp writing))) =
      elements (infoFields i.scale i.duration i.date muxing writing) := (info_split i muxing writing).symm
  rw [hpl] at gp ga
  have hpos := gp.pos
  rw [if_neg]
  rotate_left
  · rw [toI64_small (by omega), hpos, show s1.pos = s1.data.length from g1.atEnd]
    omega
  refine ⟨s6, ?_, ?_⟩
  · have hq : s2.pos = durationAt i s.data.length := by
      rw [g2.pos, g1.data]
      unfold durationAt infoFirst
      simp only [List.length_append, beBytes_length]
      have w0 : byteWidth kMkvInfo = 4 := by decide +kernel
      simp only [w0, vint, beBytes_length]
      rw [getCodedUIntSize_eq]
      omega
    rw [hq]; rfl
  · refine ⟨ga.atEnd, ga.sure, ?_⟩
    rw [ga.data]
    unfold SegInfo.bytes infoElement
    rw [show (0x1549A966 : Nat) = kMkvInfo from rfl]
    unfold element
    rw [hlen]

/-- The slots of a seek head with these entries. -/
def slots (es : List (Nat × Nat)) : List (Nat × Nat) := es ++ List.replicate (5 - es.length) (0, 0)

/-- The first bytes of a file, up to the size of the segment. -/
def fileStart (docType : Bytes) (size : Bytes) : Bytes := ebmlHeader docType 4 ++ (segmentId ++ size)

/-- The segment while its header is written. -/
def Seg.headed (g : Seg) (i : SegInfo) (es : List (Nat × Nat)) (sp : Nat) : Seg :=
  { g with docVersionWritten := 4, ebmlHeaderSize := (ebmlHeader g.docType 4).length
           sizePosition := (ebmlHeader g.docType 4).length + 4
           payloadPos := (ebmlHeader g.docType 4).length + 12
           info := i, seekHead := ⟨slots es, sp⟩ }

theorem addSeekEntry_run {g : Seg} {es : List (Nat × Nat)} (hs : g.seekHead.entries = slots es)
    (hl : es.length < 5) (hnz : ∀ e ∈ es, e.1 ≠ 0) {id : Nat} (hid : id ≠ 0) {s : Sink}
    (hp : g.payloadPos ≤ s.pos) :
    Seg.addSeekEntry id g s = (.ok (), { g with seekHead :=
      { g.seekHead with entries := slots (es ++ [(id, (s.pos - g.payloadPos) % 2 ^ 64)]) } }, s) := by
  have hoff : toU64 ((s.pos : Int) - g.payloadPos) = (s.pos - g.payloadPos) % 2 ^ 64 := by
    unfold toU64; omega
  unfold Seg.addSeekEntry
  rw [M.bind_of_ok (show Seg.maxOffset g s = (.ok ((s.pos : Int) - g.payloadPos), g, s) from rfl), M.get_bind, hoff]
  unfold SeekHead.addSeekEntry
  rw [hs]
  unfold slots
  rw [Props.place_used hid es (5 - es.length) hnz, if_neg (by omega)]
  simp only [Option.map_some, List.length_append, List.length_singleton]
  unfold M.modify
  rw [show 5 - (es.length + 1) = 5 - es.length - 1 by omega]
  simp

theorem headed_seek {g : Seg} {i : SegInfo} {es : List (Nat × Nat)} {sp : Nat} {id : Nat} {s : Sink}
    (hl : es.length < 5) (hnz : ∀ e ∈ es, e.1 ≠ 0) (hid : id ≠ 0) {bs : Bytes}
    (hd : s.data = fileStart g.docType sizeUnknown ++ bs) (he : s.AtEnd) :
    Seg.addSeekEntry id (g.headed i es sp) s =
      (.ok (), g.headed i (es ++ [(id, bs.length % 2 ^ 64)]) sp, s) := by
  have hpos : s.pos = (ebmlHeader g.docType 4).length + 12 + bs.length := by
    rw [show s.pos = s.data.length from he, hd]
    simp [fileStart, segmentId, sizeUnknown]; omega
  have := addSeekEntry_run (g := g.headed i es sp) (es := es) rfl hl hnz hid (s := s)
    (show (ebmlHeader g.docType 4).length + 12 ≤ s.pos by omega)
  rw [this]
  have h2 : s.pos - (g.headed i es sp).payloadPos = bs.length := by
    show s.pos - ((ebmlHeader g.docType 4).length + 12) = _; omega
  rw [h2]; rfl

theorem headed_info {g : Seg} {i i' : SegInfo} {es : List (Nat × Nat)} {sp : Nat} {s s' : Sink} {r : Res Unit}
    {m : M SegInfo Unit} (h : m i s = (r, i', s')) :
    Seg.onInfo m (g.headed i es sp) s = (r, g.headed i' es sp, s') := by
  unfold Seg.onInfo
  rw [show (g.headed i es sp).info = i from rfl, h]
  rfl

/-- The offsets and IDs of the header elements. -/
def optSeek (id : Nat) (off : Nat) : Option Bytes → List (Nat × Nat)
  | none => []
  | some _ => [(id, off % 2 ^ 64)]

theorem headed_optional {g : Seg} {i : SegInfo} {es : List (Nat × Nat)} {sp : Nat} {id : Nat} {s : Sink}
    (hl : es.length < 5) (hnz : ∀ e ∈ es, e.1 ≠ 0) (hid : id ≠ 0) {bs : Bytes}
    (hd : s.data = fileStart g.docType sizeUnknown ++ bs) (he : s.AtEnd) (hp : s.Sure)
    {w : Option (W Unit)} {ob : Option Bytes} (hw : OptEmits w ob) :
    ∃ s', Seg.writeOptional id w (g.headed i es sp) s =
      (.ok (), g.headed i (es ++ optSeek id bs.length ob) sp, s') ∧ Grew s (ob.getD []) s' := by
  cases w with
  | none =>
    cases ob with
    | none => exact ⟨s, by simp [optSeek]; rfl, .refl he hp⟩
    | some b => exact absurd hw (by simp [OptEmits])
  | some w =>
    cases ob with
    | none => exact absurd hw (by simp [OptEmits])
    | some b =>
      obtain ⟨s', e, g'⟩ := grew_emits (show Emits w () b from hw) he hp
      refine ⟨s', ?_, g'⟩
      show (Seg.addSeekEntry id >>= fun _ => M.lift w) _ _ = _
      rw [M.bind_of_ok (headed_seek hl hnz hid hd he), M.lift_of e]
      rfl

/-- The Info settings when the header is written. -/
def Seg.headInfo (g : Seg) : SegInfo :=
  if !g.live && g.seekable then { g.info with duration := some 0x3F800000 } else g.info

/-- The header elements of a segment, at the start of its payload. -/
def headParts (gap info tr : Bytes) (ch tg : Option Bytes) : Bytes :=
  gap ++ (info ++ (tr ++ (ch.getD [] ++ tg.getD [])))

/-- The entries of the seek head once the header is written. -/
def headSeeks (gap info tr : Bytes) (ch tg : Option Bytes) : List (Nat × Nat) :=
  [(kMkvInfo, gap.length % 2 ^ 64), (kMkvTracks, (gap ++ info).length % 2 ^ 64)] ++
    optSeek kMkvChapters (gap ++ (info ++ tr)).length ch ++
    optSeek kMkvTags (gap ++ (info ++ (tr ++ ch.getD []))).length tg ++
    [(kMkvCluster, (headParts gap info tr ch tg).length % 2 ^ 64)]

/-- The Info settings after the header is written: the position of the duration is known. -/
def SegInfo.placed (i : SegInfo) (p : Nat) : SegInfo :=
  { i with durationPos := if i.duration.isSome then some (durationAt i p) else i.durationPos }

theorem optSeek_length (id off : Nat) (o : Option Bytes) : (optSeek id off o).length ≤ 1 := by
  cases o <;> simp [optSeek]

theorem optSeek_nz {id : Nat} (h : id ≠ 0) (off : Nat) (o : Option Bytes) : ∀ e ∈ optSeek id off o, e.1 ≠ 0 := by
  cases o <;> simp [optSeek, h]

/-- Writing the header of the segment. -/
theorem writeSegmentHeader_run {g : Seg} {muxing writing tr : Bytes} {ch tg : Option Bytes}
    (hg : g.Settings muxing writing tr ch tg) (hu : g.Unused) {s : Sink} (hd : s.data = []) (he : s.AtEnd)
    (hp : s.Sure) :
    ∃ s' gap es sp, Seg.writeSegmentHeader g s =
        (.ok (), { g.headed (g.headInfo.placed ((fileStart g.docType sizeUnknown).length + gap.length)) es sp with headerWritten := true }, s') ∧
      s'.AtEnd ∧ s'.Sure ∧
      s'.data = fileStart g.docType sizeUnknown ++
        headParts gap (g.headInfo.bytes muxing writing) tr ch tg ∧
      es ++ [(kMkvCluster, (headParts gap (g.headInfo.bytes muxing writing) tr ch tg).length % 2 ^ 64)] =
        headSeeks gap (g.headInfo.bytes muxing writing) tr ch tg ∧
      (if !g.live && g.seekable then gap.length = 110 ∧ sp = (fileStart g.docType sizeUnknown).length ∧
          ∃ e, gap = element 0xEC (List.replicate e 0)
        else gap = []) := by
  obtain ⟨i0, -, -, -, -, -, i6, i7, i8, i9, i10⟩ := info_isId
  unfold Seg.writeSegmentHeader
  rw [M.get_bind, hg.version]
  obtain ⟨s1, e1, g1⟩ := grew_emits (writeEbmlHeader_emits (d := g.docType) (v := 4) (by decide) hg.docType) he hp
  rw [M.bind_of_ok (M.lift_of e1), M.bind_of_ok (M.lift_of (show Sink.position s1 = (.ok s1.pos, s1) from rfl)), M.modify_bind]
  obtain ⟨s2, e2, g2⟩ := grew_emits (writeID_emits (id := kMkvSegment) (isId_width i10).2) g1.atEnd g1.sure
  rw [M.bind_of_ok (M.lift_of e2), M.bind_of_ok (M.lift_of (show Sink.position s2 = (.ok s2.pos, s2) from rfl)), M.modify_bind]
  obtain ⟨s3, e3, g3⟩ := grew_emits (show Emits (serializeInt kEbmlUnknownValue 8) () (beBytes 8 kEbmlUnknownValue) from
    serializeInt_nat_emits kEbmlUnknownValue (n := 8) (by decide) (by decide)) g2.atEnd g2.sure
  rw [M.bind_of_ok (M.lift_of e3), M.bind_of_ok (M.lift_of (show Sink.position s3 = (.ok s3.pos, s3) from rfl)), M.modify_bind]
  have hs3 : s3.data = fileStart g.docType sizeUnknown := by
    rw [g3.data, g2.data, g1.data, hd]
    unfold fileStart
    rw [show beBytes (byteWidth kMkvSegment) kMkvSegment = segmentId by decide +kernel,
      show beBytes 8 kEbmlUnknownValue = sizeUnknown by decide]
    simp
  have hp1 : s1.pos = (ebmlHeader g.docType 4).length := by rw [g1.pos, hd]; simp
  have hp2 : s2.pos = (ebmlHeader g.docType 4).length + 4 := by
    rw [g2.pos, g1.data, hd, show beBytes (byteWidth kMkvSegment) kMkvSegment = segmentId by decide +kernel]
    simp [segmentId]
  have hp3 : s3.pos = (ebmlHeader g.docType 4).length + 12 := by
    rw [show s3.pos = s3.data.length from g3.atEnd, hs3]
    simp [fileStart, segmentId, sizeUnknown]
  rw [hp1, hp2, hp3]
  have hstart : ∀ x : Seg, x = g → ({ x with docVersionWritten := x.docVersion, ebmlHeaderSize := (ebmlHeader g.docType 4).length, sizePosition := (ebmlHeader g.docType 4).length + 4, payloadPos := (ebmlHeader g.docType 4).length + 12 } : Seg) = g.headed g.info [] 0 := by
    rintro x rfl
    have h1 := hu.seekHead
    have h2 := hg.version
    unfold Seg.headed
    rw [h2]
    rcases x with ⟨_⟩
    cases h1
    rfl
  rw [hstart g rfl]
  have hres : ∃ s4 gap sp, Seg.reserve (g.headed g.info [] 0) s3 = (.ok (), g.headed g.headInfo [] sp, s4) ∧
      Grew s3 gap s4 ∧
      (if !g.live && g.seekable then gap.length = 110 ∧ sp = (fileStart g.docType sizeUnknown).length ∧
          ∃ e, gap = element 0xEC (List.replicate e 0)
        else gap = []) := by
    unfold Seg.reserve Seg.headInfo
    rw [M.get_bind]
    have el : (g.headed g.info [] 0).live = g.live := rfl
    have es : (g.headed g.info [] 0).seekable = g.seekable := rfl
    rw [el, es]
    by_cases hc : (!g.live && g.seekable) = true
    · simp only [hc, if_true]
      rw [M.modify_bind]
      obtain ⟨e, hlen, hem⟩ := writeVoid_small (n := 110) (by omega) (by omega)
      obtain ⟨s4, e4, g4⟩ := grew_emits hem g3.atEnd g3.sure
      refine ⟨s4, _, s3.pos, ?_, g4, hlen, by rw [hp3]; simp [fileStart, segmentId, sizeUnknown], e, rfl⟩
      unfold Seg.onSeekHead SeekHead.write
      rw [M.bind_of_ok (M.lift_of (show Sink.position s3 = (.ok s3.pos, s3) from rfl)), M.modify_bind, totalSize_eq,
        M.bind_of_ok (M.lift_of e4), if_neg (by omega)]
      rfl
    · simp only [hc, if_false, Bool.false_eq_true]
      exact ⟨s3, [], 0, rfl, .refl g3.atEnd g3.sure, rfl⟩
  obtain ⟨s4, gap, sp, e4, g4, hgap⟩ := hres
  rw [M.bind_of_ok e4]
  have d4 : s4.data = fileStart g.docType sizeUnknown ++ gap := by rw [g4.data, hs3]
  rw [M.bind_of_ok (headed_seek (by simp) (by simp) (by decide) d4 g4.atEnd)]
  have hi : g.headInfo.muxingApp = g.info.muxingApp ∧ g.headInfo.writingApp = g.info.writingApp ∧
      g.headInfo.scale = g.info.scale := by unfold Seg.headInfo; split <;> exact ⟨rfl, rfl, rfl⟩
  obtain ⟨s5, e5, g5⟩ := info_write (i := g.headInfo) (hi.1.trans hg.muxing.1) (hi.2.1.trans hg.writing.1)
    (by rw [hi.2.2]; exact hg.scale.2) hg.muxing.2 hg.writing.2 g4.atEnd g4.sure
  rw [M.bind_of_ok (headed_info e5)]
  generalize hib : g.headInfo.bytes muxing writing = ib at *
  have d5 : s5.data = fileStart g.docType sizeUnknown ++ (gap ++ ib) := by
    rw [g5.data, d4, List.append_assoc]
  have hl4 : s4.data.length = (fileStart g.docType sizeUnknown).length + gap.length := by rw [d4]; simp
  rw [hl4]
  have hpl : ∀ p, ({ g.headInfo with durationPos := if g.headInfo.duration.isSome then some (durationAt g.headInfo p) else g.headInfo.durationPos } : SegInfo) = g.headInfo.placed p := fun _ => rfl
  rw [hpl]
  rw [M.bind_of_ok (headed_seek (by simp) (by simp [kMkvInfo]) (by decide) d5 g5.atEnd)]
  obtain ⟨s6, e6, g6⟩ := grew_emits hg.tracks g5.atEnd g5.sure
  rw [M.bind_of_ok (M.lift_of e6)]
  have d6 : s6.data = fileStart g.docType sizeUnknown ++ (gap ++ (ib ++ tr)) := by
    rw [g6.data, d5]; simp
  obtain ⟨s7, e7, g7⟩ := headed_optional (g := g) (i := g.headInfo.placed ((fileStart g.docType sizeUnknown).length + gap.length))
    (es := ([] ++ [(kMkvInfo, gap.length % 2 ^ 64)]) ++ [(kMkvTracks, (gap ++ ib).length % 2 ^ 64)]) (sp := sp)
    (id := kMkvChapters) (by simp) (by simp [kMkvInfo, kMkvTracks]) (by decide) d6 g6.atEnd g6.sure hg.chapters
  rw [M.bind_of_ok e7]
  have d7 : s7.data = fileStart g.docType sizeUnknown ++ (gap ++ (ib ++ (tr ++ ch.getD []))) := by
    rw [g7.data, d6]; simp
  obtain ⟨s8, e8, g8⟩ := headed_optional (g := g) (i := g.headInfo.placed ((fileStart g.docType sizeUnknown).length + gap.length))
    (es := (([] ++ [(kMkvInfo, gap.length % 2 ^ 64)]) ++ [(kMkvTracks, (gap ++ ib).length % 2 ^ 64)]) ++
      optSeek kMkvChapters (gap ++ (ib ++ tr)).length ch) (sp := sp)
    (id := kMkvTags) (by have := optSeek_length kMkvChapters (gap ++ (ib ++ tr)).length ch; simp at this ⊢; omega)
    (by
      intro e hm
      rcases List.mem_append.mp hm with hm | hm
      · simp at hm
        rcases hm with rfl | rfl <;> simp [kMkvInfo, kMkvTracks]
      · exact optSeek_nz (by decide) _ _ e hm) (by decide) d7 g7.atEnd g7.sure hg.tags
  rw [M.bind_of_ok e8]
  refine ⟨s8, gap, _, sp, rfl, g8.atEnd, g8.sure, ?_, ?_, hgap⟩
  · rw [g8.data, d7]; simp [headParts]
  · simp [headSeeks]

end Verif.Mux
