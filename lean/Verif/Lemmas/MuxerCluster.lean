/-
What the muxer's cluster routines write and keep.
-/
import Verif.Model.MuxerCluster
import Verif.Spec.MuxerUse
import Verif.Lemmas.MuxerBlock

namespace Verif

/-- `s'` is `s` after successful calls that stored `bs` at the end of the file. -/
def Sink.Next (s : Sink) (bs : Bytes) (s' : Sink) : Prop := ∃ k, s.okFor k ∧ s' = s.app bs k

theorem Sink.Next.atEnd {s s' : Sink} {bs : Bytes} (h : s.Next bs s') (hs : s.AtEnd) : s'.AtEnd := by
  obtain ⟨k, -, rfl⟩ := h; exact Sink.app_atEnd hs _ _

theorem Sink.Next.data {s s' : Sink} {bs : Bytes} (h : s.Next bs s') : s'.data = s.data ++ bs := by
  obtain ⟨k, -, rfl⟩ := h; rfl

theorem Sink.Next.refl (s : Sink) : s.Next [] s :=
  ⟨0, fun i hi => absurd hi (Nat.not_lt_zero _), by simp [Sink.app]⟩

theorem Sink.okFor_add {s : Sink} {k l : Nat} (bs : Bytes) (h1 : s.okFor k) (h2 : (s.app bs k).okFor l) :
    s.okFor (k + l) := by
  intro i hi
  by_cases hik : i < k
  · exact h1 i hik
  · have := h2 (i - k) (by omega)
    simp only [Sink.app] at this
    rwa [show s.calls + k + (i - k) = s.calls + i by omega] at this

theorem Sink.Next.trans {s s' s'' : Sink} {a b : Bytes} (h1 : s.Next a s') (h2 : s'.Next b s'') :
    s.Next (a ++ b) s'' := by
  obtain ⟨k, hk, rfl⟩ := h1
  obtain ⟨l, hl, rfl⟩ := h2
  exact ⟨k + l, Sink.okFor_add a hk hl, Sink.app_app _ _ _ _ _⟩

theorem Sink.Next.broken {s s' s'' : Sink} {a b : Bytes} (h1 : s.Next a s') (h2 : s'.Broken s'' b) :
    s.Broken s'' (a ++ b) := by
  obtain ⟨k, hk, rfl⟩ := h1
  obtain ⟨⟨p, hp, hd⟩, h2, h3, ⟨i, hi1, hi2, hi3⟩⟩ := h2
  refine ⟨⟨a ++ p, ?_, ?_⟩, h2, h3, ⟨i, ?_, hi2, hi3⟩⟩
  · obtain ⟨t, rfl⟩ := hp; exact ⟨t, by simp⟩
  · rw [hd]; simp [Sink.app]
  · simp only [Sink.app] at hi1; omega

theorem Sink.Broken.mono {s s' : Sink} {a : Bytes} (b : Bytes) (h : s.Broken s' a) :
    s.Broken s' (a ++ b) := by
  obtain ⟨⟨p, hp, hd⟩, h2, h3, h4⟩ := h
  exact ⟨⟨p, hp.trans (List.prefix_append _ _), hd⟩, h2, h3, h4⟩

theorem Emits.cases {α} {w : W α} {a : α} {bs : Bytes} (h : Emits w a bs) {s : Sink} (hs : s.AtEnd) :
    (∃ s', w s = (.ok a, s') ∧ s.Next bs s') ∨ (∃ e s', w s = (.err e, s') ∧ s.Broken s' bs) := by
  obtain ⟨k, hk⟩ := h
  by_cases h1 : s.okFor k
  · exact .inl ⟨_, (hk s hs.within).1 h1, k, h1, Sink.put_eq_app hs bs k⟩
  · obtain ⟨c, s', h2, h3⟩ := (hk s hs.within).2 h1
    exact .inr ⟨c, s', h2, h3.broken hs⟩

/-- The same with the cursor anywhere in the file. -/
theorem Emits.casesAt {α} {w : W α} {a : α} {bs : Bytes} (h : Emits w a bs) {s : Sink} (hs : s.Within) :
    (∃ k, w s = (.ok a, s.put bs k) ∧ s.okFor k) ∨ (∃ e s', w s = (.err e, s') ∧ s.Torn s' bs) := by
  obtain ⟨k, hk⟩ := h
  by_cases h1 : s.okFor k
  · exact .inl ⟨k, (hk s hs).1 h1, h1⟩
  · exact .inr ((hk s hs).2 h1)

end Verif

namespace Verif.Mux
open Verif Spec

/-- The Timecode element of a cluster. -/
def Cluster.tcBytes (c : Cluster) : Bytes :=
  element kMkvTimecode (beBytes (if c.fixedTimecode then 8 else getUIntSize c.timecode) c.timecode)

/-- ID and size field. -/
def clusterHead (size : Bytes) : Bytes := beBytes 4 kMkvCluster ++ size

/-- The eight-byte size field meaning "unknown". -/
def unknownSize : Bytes := beBytes 8 kEbmlUnknownValue

theorem writeTimecode_emits (c : Cluster) :
    Emits (writeEbmlElementUIntFixed kMkvTimecode c.timecode c.tcSize) () c.tcBytes := by
  unfold Cluster.tcBytes Cluster.tcSize
  cases c.fixedTimecode
  · exact writeEbmlElementUInt_emits (by decide)
  · exact writeEbmlElementUIntFixed_emits (n := 8) (by decide) (by omega) (by omega)
      (getUIntSize_bounds _).2

theorem tcBytes_length (c : Cluster) :
    c.tcBytes.length = ebmlElementSizeUIntFixed kMkvTimecode c.timecode c.tcSize := by
  unfold Cluster.tcBytes Cluster.tcSize
  cases c.fixedTimecode
  · exact uintElement_length _ _ (by decide)
  · rw [element_length _ (by decide)]
    simp only [if_true, beBytes_length]
    unfold ebmlElementSizeUIntFixed
    rw [if_pos (by omega)]
    have : getCodedUIntSize 8 = 1 := by decide
    omega

theorem byteWidth_cluster : byteWidth kMkvCluster = 4 := by
  rw [byteWidth_eq (by decide)]; decide

/-- The members after the header was written at a given position. -/
def Cluster.afterHeader (c : Cluster) (pos : Nat) : Cluster :=
  { c with sizePosition := some (pos + 4), payloadSize := c.payloadSize + c.tcBytes.length,
           headerWritten := true }

/-- What a failed header leaves in the members. -/
def Cluster.SameButSizePos (c c' : Cluster) : Prop := ∃ p, c' = { c with sizePosition := p }

theorem writeClusterHeader_spec {c : Cluster} {s : Sink} (hs : s.AtEnd) (hf : c.finalized = false) :
    (∃ s', Cluster.writeClusterHeader c s = (.ok (), c.afterHeader s.data.length, s') ∧
      s.Next (clusterHead unknownSize ++ c.tcBytes) s') ∨
    (∃ e c' s', Cluster.writeClusterHeader c s = (.err e, c', s') ∧ c.SameButSizePos c' ∧
      s.Broken s' (clusterHead unknownSize ++ c.tcBytes)) := by
  unfold Cluster.writeClusterHeader
  rw [M.get_bind, hf]
  simp only [Bool.false_eq_true, if_false]
  have e1 : Emits (writeID kMkvCluster) () (beBytes 4 kMkvCluster) := by
    have := writeID_emits (id := kMkvCluster) (by decide)
    rwa [byteWidth_cluster] at this
  have e2 : Emits (serializeInt kEbmlUnknownValue 8) () unknownSize :=
    serializeInt_nat_emits (n := 8) _ (by omega) (by omega)
  have e3 := writeTimecode_emits c
  have assoc : clusterHead unknownSize ++ c.tcBytes =
      beBytes 4 kMkvCluster ++ (unknownSize ++ c.tcBytes) := by simp [clusterHead]
  rw [assoc]
  rcases e1.cases hs with ⟨s1, h1, n1⟩ | ⟨e, s1, h1, b1⟩
  rotate_left
  · rw [M.bind_of_err (M.lift_of h1)]
    exact .inr ⟨e, c, s1, rfl, ⟨c.sizePosition, rfl⟩, b1.mono _⟩
  rw [M.bind_of_ok (M.lift_of h1)]
  have hpos : (M.lift Sink.position : M Cluster Nat) c s1 = (.ok s1.pos, c, s1) := rfl
  rw [M.bind_of_ok hpos, M.modify_bind]
  rcases e2.cases (n1.atEnd hs) with ⟨s2, h2, n2⟩ | ⟨e, s2, h2, b2⟩
  rotate_left
  · rw [M.bind_of_err (M.lift_of h2)]
    exact .inr ⟨e, _, s2, rfl, ⟨_, rfl⟩, n1.broken (b2.mono _)⟩
  rw [M.bind_of_ok (M.lift_of h2)]
  rcases e3.cases ((n1.trans n2).atEnd hs) with ⟨s3, h3, n3⟩ | ⟨e, s3, h3, b3⟩
  rotate_left
  · rw [M.bind_of_err (M.lift_of h3)]
    exact .inr ⟨e, _, s3, rfl, ⟨_, rfl⟩, n1.broken (n2.broken b3)⟩
  rw [M.bind_of_ok (M.lift_of h3)]
  refine .inl ⟨s3, ?_, n1.trans (n2.trans n3)⟩
  have hp : s1.pos = s.data.length + 4 := by
    have := n1.atEnd hs
    unfold Sink.AtEnd at this
    rw [this, n1.data]; simp
  unfold M.modify Cluster.afterHeader
  rw [hp, tcBytes_length]
  rfl

/-- The bytes of a frame in a cluster. -/
def frameBytes (tc scale : Nat) (f : Frame) : Bytes :=
  if f.canBeSimpleBlock then
    element 0xA3 (blockPayload f ((f.timestamp / scale : Nat) - (tc : Int)) (if f.isKey then 0x80 else 0))
  else element 0xA0 (groupBytes f ((f.timestamp / scale : Nat) - (tc : Int)) scale)

/-- The frame's time can be expressed relative to the cluster. -/
def FitsTime (tc scale : Nat) (f : Frame) : Prop :=
  0 < scale ∧ tc ≤ f.timestamp / scale ∧ f.timestamp / scale ≤ tc + 0x7FFF

instance (tc scale : Nat) (f : Frame) : Decidable (FitsTime tc scale f) := by
  unfold FitsTime; infer_instance

theorem relTimecode {tc abs : Nat} (hc : tc < 2 ^ 63) (ha : abs < 2 ^ 63) :
    (tc ≤ abs ∧ abs ≤ tc + 0x7FFF → getRelativeTimecode tc (toI64 abs) = (abs : Int) - tc) ∧
    (¬ (tc ≤ abs ∧ abs ≤ tc + 0x7FFF) → getRelativeTimecode tc (toI64 abs) = -1) := by
  have e1 : toI64 abs = abs := by unfold toI64; omega
  have e2 : toI64 tc = tc := by unfold toI64; omega
  unfold getRelativeTimecode kMaxBlockTimecode
  rw [e1, e2]
  simp only
  constructor
  · intro h; rw [if_neg (by omega)]
  · intro h; rw [if_pos (by omega)]

theorem isValid_bounds {f : Frame} (h : f.isValid = true) :
    f.frame ≠ [] ∧ 1 ≤ f.trackNumber ∧ f.trackNumber ≤ 126 ∧ f.additional ≠ some [] := by
  unfold Frame.isValid kMaxTrackNumber at h
  split at h
  · cases h
  split at h
  · cases h
  split at h
  · cases h
  rename_i h1 h2 h3
  exact ⟨fun e => h1 (by rw [e]; rfl), by omega, by omega, h2⟩

theorem writeFrame_emits {f : Frame} {tc scale : Nat} (hv : f.isValid = true) (hsm : SmallFrame f)
    (hc : tc < 2 ^ 63) (ht : f.timestamp / scale < 2 ^ 63) (hfit : FitsTime tc scale f) :
    Emits (writeFrame f tc scale) (frameBytes tc scale f).length (frameBytes tc scale f) := by
  obtain ⟨v1, v2, v3, v4⟩ := isValid_bounds hv
  unfold writeFrame
  rw [if_neg (by simp [hv]; exact Nat.ne_of_gt hfit.1)]
  simp only [(relTimecode hc ht).1 hfit.2]
  rw [if_neg (by obtain ⟨_, _, _⟩ := hfit; unfold kMaxBlockTimecode; omega)]
  unfold frameBytes
  split
  · exact writeSimpleBlock_emits v3 hsm.1
  · exact writeBlock_emits v3 (by have := hsm.1; omega)
      (fun a h => ⟨fun e => v4 (by rw [h, e]), hsm.2 a h⟩)
      (groupBytes_lt _ scale (by have := hsm.1; omega) hsm.2)

theorem writeFrame_refuses {f : Frame} {tc scale : Nat} (hv : f.isValid = true)
    (hc : tc < 2 ^ 63) (ht : f.timestamp / scale < 2 ^ 63) (hfit : ¬ FitsTime tc scale f) :
    writeFrame f tc scale = W.fail 0 := by
  unfold writeFrame
  by_cases h0 : scale = 0
  · rw [if_pos (.inr h0)]
  rw [if_neg (by simp [hv]; exact h0)]
  have : ¬ (tc ≤ f.timestamp / scale ∧ f.timestamp / scale ≤ tc + 0x7FFF) :=
    fun h => hfit ⟨by omega, h⟩
  simp only [(relTimecode hc ht).2 this]
  rw [if_pos (.inl (by omega))]

/-- The members after a block was written. -/
def Cluster.afterBlock (c : Cluster) (f : Frame) : Cluster :=
  { c with payloadSize := c.payloadSize + (frameBytes c.timecode c.scale f).length,
           blocksAdded := c.blocksAdded + 1, lastTs := upd c.lastTs f.trackNumber f.timestamp }

/-- Header bytes still to be written. -/
def Cluster.pendingHead (c : Cluster) : Bytes :=
  if c.headerWritten then [] else clusterHead unknownSize ++ c.tcBytes

/-- The members once the header is there. -/
def Cluster.withHeader (c : Cluster) (pos : Nat) : Cluster :=
  if c.headerWritten then c else c.afterHeader pos

theorem preWriteBlock_spec {c : Cluster} {s : Sink} (hs : s.AtEnd) (hf : c.finalized = false) :
    (∃ s', Cluster.preWriteBlock c s = (.ok (), c.withHeader s.data.length, s') ∧
      s.Next c.pendingHead s') ∨
    (∃ e c' s', Cluster.preWriteBlock c s = (.err e, c', s') ∧ c.headerWritten = false ∧
      c.SameButSizePos c' ∧ s.Broken s' c.pendingHead) := by
  unfold Cluster.preWriteBlock Cluster.withHeader Cluster.pendingHead
  rw [M.get_bind, hf]
  cases hh : c.headerWritten
  · simp only [Bool.false_eq_true, if_false, Bool.not_false, if_true]
    rcases writeClusterHeader_spec hs hf with h | ⟨e, c', s', h1, h2, h3⟩
    · exact .inl h
    · exact .inr ⟨e, c', s', h1, trivial, h2, h3⟩
  · simp only [Bool.false_eq_true, if_false, Bool.not_true, if_true]
    exact .inl ⟨s, rfl, Sink.Next.refl s⟩

@[simp] theorem withHeader_timecode (c : Cluster) (p : Nat) : (c.withHeader p).timecode = c.timecode := by
  unfold Cluster.withHeader; split <;> rfl
@[simp] theorem withHeader_scale (c : Cluster) (p : Nat) : (c.withHeader p).scale = c.scale := by
  unfold Cluster.withHeader; split <;> rfl
@[simp] theorem withHeader_finalized (c : Cluster) (p : Nat) : (c.withHeader p).finalized = c.finalized := by
  unfold Cluster.withHeader; split <;> rfl
@[simp] theorem withHeader_stored (c : Cluster) (p : Nat) : (c.withHeader p).stored = c.stored := by
  unfold Cluster.withHeader; split <;> rfl
@[simp] theorem withHeader_writeLast (c : Cluster) (p : Nat) : (c.withHeader p).writeLast = c.writeLast := by
  unfold Cluster.withHeader; split <;> rfl
@[simp] theorem withHeader_dangling (c : Cluster) (p : Nat) : (c.withHeader p).dangling = c.dangling := by
  unfold Cluster.withHeader; split <;> rfl
@[simp] theorem withHeader_headerWritten (c : Cluster) (p : Nat) : (c.withHeader p).headerWritten = true := by
  unfold Cluster.withHeader; split <;> simp_all [Cluster.afterHeader]

theorem doWriteFrame_invalid {c : Cluster} {s : Sink} {f : Frame} (hv : f.isValid = false) :
    Cluster.doWriteFrame f c s = (.err 0, c, s) := by
  unfold Cluster.doWriteFrame; rw [if_pos (by simp [hv])]; rfl

theorem doWriteFrame_finalized {c : Cluster} {s : Sink} {f : Frame} (hf : c.finalized = true) :
    Cluster.doWriteFrame f c s = (.err 0, c, s) := by
  unfold Cluster.doWriteFrame
  split
  · rfl
  · have : Cluster.preWriteBlock c s = (.err 0, c, s) := by
      unfold Cluster.preWriteBlock; rw [M.get_bind, hf]; rfl
    rw [M.bind_of_err this]

/-- All outcomes of writing a frame: written; refused because its time does not fit (the header
may have been written); or a failed output call. -/
theorem doWriteFrame_spec {c : Cluster} {s : Sink} {f : Frame} (hs : s.AtEnd)
    (hf : c.finalized = false) (hv : f.isValid = true) (hsm : SmallFrame f)
    (hc : c.timecode < 2 ^ 63) (ht : f.timestamp / c.scale < 2 ^ 63) :
    (FitsTime c.timecode c.scale f ∧
      ∃ s', Cluster.doWriteFrame f c s = (.ok (), (c.withHeader s.data.length).afterBlock f, s') ∧
        s.Next (c.pendingHead ++ frameBytes c.timecode c.scale f) s') ∨
    (¬ FitsTime c.timecode c.scale f ∧
      ∃ s', Cluster.doWriteFrame f c s = (.err 0, c.withHeader s.data.length, s') ∧
        s.Next c.pendingHead s') ∨
    (∃ e c' s', Cluster.doWriteFrame f c s = (.err e, c', s') ∧
      (c.SameButSizePos c' ∨ (c' = c.withHeader s.data.length ∧
        s.data.length + c.pendingHead.length ≤ s'.data.length)) ∧
      s.Broken s' (c.pendingHead ++ frameBytes c.timecode c.scale f)) := by
  unfold Cluster.doWriteFrame
  rw [if_neg (by simp [hv])]
  rcases preWriteBlock_spec hs hf with ⟨s1, h1, n1⟩ | ⟨e, c', s', h1, -, h2, h3⟩
  rotate_left
  · rw [M.bind_of_err h1]
    exact .inr (.inr ⟨e, c', s', rfl, .inl h2, h3.mono _⟩)
  rw [M.bind_of_ok h1, M.get_bind, withHeader_timecode, withHeader_scale]
  by_cases hfit : FitsTime c.timecode c.scale f
  · rcases (writeFrame_emits hv hsm hc ht hfit).cases (n1.atEnd hs) with ⟨s2, h2, n2⟩ | ⟨e, s2, h2, b2⟩
    · rw [M.bind_of_ok (M.lift_of h2)]
      refine .inl ⟨hfit, s2, ?_, n1.trans n2⟩
      simp only [M.modify, Cluster.afterBlock, withHeader_timecode, withHeader_scale]
    · rw [M.bind_of_err (M.lift_of h2)]
      obtain ⟨p, -, hp⟩ := b2.pre
      exact .inr (.inr ⟨e, _, s2, rfl, .inr ⟨rfl, by rw [hp, n1.data]; simp⟩, n1.broken b2⟩)
  · have : writeFrame f c.timecode c.scale s1 = (.err 0, s1) := by
      rw [writeFrame_refuses hv hc ht hfit]; rfl
    rw [M.bind_of_err (M.lift_of this)]
    exact .inr (.inl ⟨hfit, s1, rfl, n1⟩)


/-- The members that writing a block does not touch. -/
structure Cluster.Keeps (c c' : Cluster) : Prop where
  timecode : c'.timecode = c.timecode
  positionForCues : c'.positionForCues = c.positionForCues
  scale : c'.scale = c.scale
  writeLast : c'.writeLast = c.writeLast
  fixedTimecode : c'.fixedTimecode = c.fixedTimecode
  finalized : c'.finalized = c.finalized
  stored : c'.stored = c.stored
  dangling : c'.dangling = c.dangling

theorem Cluster.Keeps.refl (c : Cluster) : c.Keeps c := ⟨rfl, rfl, rfl, rfl, rfl, rfl, rfl, rfl⟩

theorem Cluster.Keeps.sizePos {c c' : Cluster} (h : c.SameButSizePos c') : c.Keeps c' := by
  obtain ⟨p, rfl⟩ := h; exact ⟨rfl, rfl, rfl, rfl, rfl, rfl, rfl, rfl⟩

theorem Cluster.Keeps.withHeader (c : Cluster) (p : Nat) : c.Keeps (c.withHeader p) := by
  unfold Cluster.withHeader; split <;> exact ⟨rfl, rfl, rfl, rfl, rfl, rfl, rfl, rfl⟩

theorem Cluster.Keeps.afterBlock {c c' : Cluster} (h : c.Keeps c') (f : Frame) :
    c.Keeps (c'.afterBlock f) := ⟨h.1, h.2, h.3, h.4, h.5, h.6, h.7, h.8⟩

/-- Payload of a cluster holding the given frames. -/
def Cluster.body (c : Cluster) (ws : List Frame) : Bytes :=
  c.tcBytes ++ (ws.map (frameBytes c.timecode c.scale)).flatten

theorem Cluster.Keeps.body {c c' : Cluster} (h : c.Keeps c') (ws : List Frame) :
    c'.body ws = c.body ws := by
  unfold Cluster.body Cluster.tcBytes
  rw [h.timecode, h.scale, h.fixedTimecode]

/-- `c` is an open cluster, `ws` are the frames written to it so far, and the file holds `pre`
followed by the cluster. -/
structure Cluster.Holds (c : Cluster) (s : Sink) (pre : Bytes) (ws : List Frame) : Prop where
  atEnd : s.AtEnd
  open_ : c.finalized = false
  blocks : c.blocksAdded = ws.length
  noHeader : c.headerWritten = false → s.data = pre ∧ c.payloadSize = 0 ∧ ws = [] ∧
    c.sizePosition = none
  header : c.headerWritten = true →
    s.data = pre ++ (clusterHead unknownSize ++ c.body ws) ∧ c.payloadSize = (c.body ws).length ∧
    c.sizePosition = some (pre.length + 4)
  fit : ∀ f ∈ ws, f.isValid = true ∧ FitsTime c.timecode c.scale f

/-- No output call failed from `s` to `s'`. -/
def Sink.CleanTo (s s' : Sink) : Prop :=
  s'.plan = s.plan ∧ s.calls ≤ s'.calls ∧ ∀ i, s.calls ≤ i → i < s'.calls → s.plan i = none

/-- Some output call failed from `s` to `s'`. -/
def Sink.FailedTo (s s' : Sink) : Prop :=
  s'.plan = s.plan ∧ ∃ i, s.calls ≤ i ∧ i < s'.calls ∧ s.plan i ≠ none

theorem Next.clean {s s' : Sink} {bs : Bytes} (h : s.Next bs s') : Sink.CleanTo s s' := by
  obtain ⟨k, hk, rfl⟩ := h
  refine ⟨rfl, by simp [Sink.app], fun i h1 h2 => ?_⟩
  have := hk (i - s.calls) (by simp only [Sink.app] at h2; omega)
  rwa [show s.calls + (i - s.calls) = i by omega] at this

theorem Broken.failed {s s' : Sink} {bs : Bytes} (h : s.Broken s' bs) : Sink.FailedTo s s' :=
  ⟨h.plan, h.cause⟩

theorem Sink.CleanTo.refl (s : Sink) : Sink.CleanTo s s :=
  ⟨rfl, Nat.le_refl _, fun i h1 h2 => by omega⟩

theorem Sink.CleanTo.trans {s s' s'' : Sink} (h1 : CleanTo s s') (h2 : CleanTo s' s'') :
    CleanTo s s'' := by
  refine ⟨h2.1.trans h1.1, Nat.le_trans h1.2.1 h2.2.1, fun i a b => ?_⟩
  by_cases h : i < s'.calls
  · exact h1.2.2 i a h
  · rw [← h1.1]; exact h2.2.2 i (by omega) b

theorem Sink.CleanTo.failed {s s' s'' : Sink} (h1 : CleanTo s s') (h2 : FailedTo s' s'') :
    FailedTo s s'' := by
  obtain ⟨h, i, a, b, c⟩ := h2
  exact ⟨h.trans h1.1, i, Nat.le_trans h1.2.1 a, b, h1.1 ▸ c⟩

theorem Sink.FailedTo.not_clean {s s' : Sink} (h : FailedTo s s') : ¬ CleanTo s s' := by
  obtain ⟨-, i, a, b, c⟩ := h
  exact fun h' => c (h'.2.2 i a b)

theorem Sink.FailedTo.mono {s s' s'' : Sink} (h1 : FailedTo s s') (hp : s''.plan = s'.plan)
    (hc : s'.calls ≤ s''.calls) : FailedTo s s'' := by
  obtain ⟨h, i, a, b, c⟩ := h1
  exact ⟨hp.trans h, i, a, by omega, c⟩

theorem Cluster.Holds.withHeader {c : Cluster} {s s' : Sink} {pre : Bytes} {ws : List Frame}
    (h : c.Holds s pre ws) (n : s.Next c.pendingHead s') :
    (c.withHeader s.data.length).Holds s' pre ws := by
  have k := Cluster.Keeps.withHeader c s.data.length
  have hb := k.body ws
  refine ⟨n.atEnd h.atEnd, by rw [k.finalized]; exact h.open_, ?_, ?_, fun _ => ?_, ?_⟩
  · unfold Cluster.withHeader; split <;> exact h.blocks
  · intro hc; rw [withHeader_headerWritten] at hc; cases hc
  · rw [hb, n.data]
    unfold Cluster.pendingHead Cluster.withHeader
    cases hh : c.headerWritten
    · obtain ⟨h1, h2, h3, -⟩ := h.noHeader hh
      simp only [Bool.false_eq_true, if_false, Cluster.afterHeader]
      subst h3
      refine ⟨?_, ?_, ?_⟩
      · rw [h1]; simp [Cluster.body]
      · rw [h2]; simp [Cluster.body]
      · rw [h1]
    · obtain ⟨h1, h2, h3⟩ := h.header hh
      simp only [if_true, List.append_nil]
      exact ⟨h1, h2, h3⟩
  · intro f hf
    rw [k.timecode, k.scale]
    exact h.fit f hf

theorem Cluster.body_append (c : Cluster) (ws : List Frame) (f : Frame) :
    c.body (ws ++ [f]) = c.body ws ++ frameBytes c.timecode c.scale f := by
  simp [Cluster.body]

theorem Cluster.Holds.afterBlock {c : Cluster} {s s' : Sink} {pre : Bytes} {ws : List Frame} {f : Frame}
    (h : c.Holds s pre ws) (hh : c.headerWritten = true) (hv : f.isValid = true)
    (hfit : FitsTime c.timecode c.scale f)
    (n : s.Next (frameBytes c.timecode c.scale f) s') :
    (c.afterBlock f).Holds s' pre (ws ++ [f]) := by
  have k := (Cluster.Keeps.refl c).afterBlock f
  obtain ⟨h1, h2, h3⟩ := h.header hh
  refine ⟨n.atEnd h.atEnd, h.open_, ?_, ?_, fun _ => ⟨?_, ?_, h3⟩, ?_⟩
  · simp [Cluster.afterBlock, h.blocks]
  · intro hc
    have : (c.afterBlock f).headerWritten = c.headerWritten := rfl
    rw [this, hh] at hc; cases hc
  · rw [n.data, h1, k.body, Cluster.body_append]; simp
  · rw [k.body, Cluster.body_append]; simp [Cluster.afterBlock, h2]
  · intro g hg
    rw [k.timecode, k.scale]
    rcases List.mem_append.mp hg with hg | hg
    · exact h.fit g hg
    · rw [List.mem_singleton.mp hg]; exact ⟨hv, hfit⟩

theorem Cluster.Holds.congr {c : Cluster} {s s' : Sink} {pre : Bytes} {ws : List Frame}
    (h : c.Holds s pre ws) (e : s = s') : c.Holds s' pre ws := e ▸ h

/-- Writing a frame to an open cluster: written, refused without harm, or a failed output call
(reported as failure). -/
theorem doWriteFrame_holds {c : Cluster} {s : Sink} {f : Frame} {pre : Bytes} {ws : List Frame}
    (h : c.Holds s pre ws) (hsm : SmallFrame f) (hc : c.timecode < 2 ^ 63)
    (ht : f.timestamp / c.scale < 2 ^ 63) :
    ∃ r c' s', Cluster.doWriteFrame f c s = (r, c', s') ∧ c.Keeps c' ∧
      ((r = .ok () ∧ f.isValid = true ∧ FitsTime c.timecode c.scale f ∧ Sink.CleanTo s s' ∧
          c'.Holds s' pre (ws ++ [f]) ∧ c'.lastTs = upd c.lastTs f.trackNumber f.timestamp) ∨
       ((∃ e, r = .err e) ∧ (f.isValid = false ∨ ¬ FitsTime c.timecode c.scale f) ∧
          Sink.CleanTo s s' ∧ c'.Holds s' pre ws ∧ c'.lastTs = c.lastTs) ∨
       ((∃ e, r = .err e) ∧ Sink.FailedTo s s')) := by
  cases hv : f.isValid
  · exact ⟨_, c, s, doWriteFrame_invalid hv, .refl c,
      .inr (.inl ⟨⟨0, rfl⟩, .inl rfl, .refl s, h, rfl⟩)⟩
  rcases doWriteFrame_spec (f := f) h.atEnd h.open_ hv hsm hc ht with
    ⟨hfit, s', h1, n⟩ | ⟨hfit, s', h1, n⟩ | ⟨e, c', s', h1, h2, b⟩
  · refine ⟨_, _, s', h1, (Cluster.Keeps.withHeader c _).afterBlock f,
      .inl ⟨rfl, rfl, hfit, Next.clean n, ?_, ?_⟩⟩
    · obtain ⟨k, hk, rfl⟩ := n
      -- split the appended bytes into the header and the block
      have k' := Cluster.Keeps.withHeader c s.data.length
      have hsplit : s.Next c.pendingHead (s.app c.pendingHead k) := ⟨k, hk, rfl⟩
      have h2 := h.withHeader hsplit
      refine ((h2.afterBlock (f := f) (by simp) hv (by simpa using hfit)
        ⟨0, fun i hi => absurd hi (Nat.not_lt_zero _), rfl⟩)).congr ?_
      rw [withHeader_timecode, withHeader_scale, Sink.app_app, Nat.add_zero]
    · unfold Cluster.afterBlock Cluster.withHeader; split <;> rfl
  · refine ⟨_, _, s', h1, Cluster.Keeps.withHeader c _,
      .inr (.inl ⟨⟨0, rfl⟩, .inr hfit, Next.clean n, h.withHeader n, ?_⟩)⟩
    unfold Cluster.withHeader; split <;> rfl
  · refine ⟨_, c', s', h1, ?_, .inr (.inr ⟨⟨e, rfl⟩, Broken.failed b⟩)⟩
    rcases h2 with h2 | ⟨rfl, -⟩
    · exact .sizePos h2
    · exact .withHeader c _

end Verif.Mux
