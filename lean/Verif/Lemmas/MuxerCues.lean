/-
What writing the cues stores.
-/
import Verif.Lemmas.MuxerCuesMove
import Verif.Spec.Cues

namespace Verif.Mux
open Verif Spec

/-- The check around a payload passes when the size was computed correctly. -/
theorem counted_emits {w : W Unit} {bs : Bytes} {size : Nat} (h : Emits w () bs)
    (hl : bs.length = size) (h63 : size < 2 ^ 63) : Emits (counted size w) () bs := by
  obtain ⟨k, hk⟩ := h
  refine ⟨k, fun s hs => ⟨fun ho => ?_, fun ho => ?_⟩⟩
  · have h1 := (hk s hs).1 ho
    unfold counted
    rw [W.bind_of_ok (show Sink.position s = (.ok s.pos, s) from rfl), W.bind_of_ok h1,
      W.bind_of_ok (show Sink.position (s.put bs k) = (.ok (s.put bs k).pos, s.put bs k) from rfl),
      if_neg]
    · rfl
    · rw [toI64_small h63]; simp only [Sink.put]; omega
  · obtain ⟨c, s', h1, h2⟩ := (hk s hs).2 ho
    refine ⟨c, s', ?_, h2⟩
    unfold counted
    rw [W.bind_of_ok (show Sink.position s = (.ok s.pos, s) from rfl), W.bind_of_err h1]

theorem element_eq {id : Nat} (h : id < 2 ^ 64) (p : Bytes) :
    element id p = (beBytes (getUIntSize id) id ++ vint (getCodedUIntSize p.length) p.length) ++ p := by
  unfold element
  rw [byteWidth_eq h, getCodedUIntSize_eq]

theorem elements_append (a b : List (Nat × Bytes)) : elements (a ++ b) = elements a ++ elements b := by
  induction a with
  | nil => rfl
  | cons x xs ih => obtain ⟨i, p⟩ := x; simp [elements, ih]

theorem elements_one (id : Nat) (p : Bytes) : elements [(id, p)] = element id p := by simp [elements]

/-- A master element: header, then counted payload. -/
theorem master_emits {id size : Nat} {w : W Unit} {bs : Bytes} (hid : id < 2 ^ 64)
    (hw : Emits w () bs) (hl : bs.length = size) (hs : size + 1 < 2 ^ 56) :
    Emits (writeEbmlMasterElement id size >>= fun _ => w) () (element id bs) := by
  subst hl
  have h1 := writeEbmlMasterElement_emits hid hs
  exact Emits.congr (h1.bind (f := fun _ => w) hw) rfl

theorem uintField_emits {id v : Nat} (h : id < 2 ^ 64) (hv : v < 2 ^ 64) :
    Emits (writeEbmlElementUInt id v) () (elements [uintField id v]) := by
  refine Emits.congr (writeEbmlElementUInt_emits h) ?_
  simp only [elements, uintField, List.append_nil]
  rw [byteWidth_eq hv]

theorem uintField_len {n id v : Nat} (hid : IsId n id) (hv : v < 2 ^ 64) :
    (elements [uintField id v]).length = ebmlElementSizeUInt id v := by
  simp only [elements, uintField, List.append_nil]
  exact uintElement_len hid hv

theorem cue_isId : IsId 4 kMkvCues ∧ IsId 1 kMkvCuePoint ∧ IsId 1 kMkvCueTime ∧
    IsId 1 kMkvCueTrackPositions ∧ IsId 1 kMkvCueTrack ∧ IsId 1 kMkvCueClusterPosition ∧
    IsId 2 kMkvCueBlockNumber := by
  unfold IsId kMkvCues kMkvCuePoint kMkvCueTime kMkvCueTrackPositions kMkvCueTrack
    kMkvCueClusterPosition kMkvCueBlockNumber
  decide

/-- The block number that is written. -/
def CuePoint.block (c : CuePoint) : Option Nat := if c.numbered then some c.blockNumber else none

/-- The cue point as the user sees it. -/
def CuePoint.cue (c : CuePoint) : Cue := ⟨c.time, c.track, c.clusterPos, c.block⟩

/-- Members are `uint64_t`. -/
structure CuePoint.InRange (c : CuePoint) : Prop where
  time : c.time < 2 ^ 64
  track : c.track < 2 ^ 64
  pos : c.clusterPos < 2 ^ 64
  number : c.blockNumber < 2 ^ 64

theorem positions_len {c : CuePoint} (h : c.InRange) :
    (cuePositions c.track c.clusterPos c.block).length = c.positionsSize := by
  obtain ⟨-, -, -, -, i1, i2, i3⟩ := cue_isId
  have l1 := uintField_len i1 h.track
  have l2 := uintField_len i2 h.pos
  have l3 := uintField_len i3 h.number
  unfold cuePositions CuePoint.positionsSize CuePoint.block
  cases hn : c.numbered
  · simp only [Bool.false_eq_true, if_false]
    have := elements_append [uintField kMkvCueTrack c.track] [uintField kMkvCueClusterPosition c.clusterPos]
    simp only [List.singleton_append] at this
    rw [List.append_nil]
    show (elements [uintField kMkvCueTrack c.track, uintField kMkvCueClusterPosition c.clusterPos]).length = _
    rw [this, List.length_append, l1, l2]
    omega
  · simp only [if_true]
    show (elements ([uintField kMkvCueTrack c.track] ++ ([uintField kMkvCueClusterPosition c.clusterPos] ++
      [uintField kMkvCueBlockNumber c.blockNumber]))).length = _
    rw [elements_append, elements_append, List.length_append, List.length_append, l1, l2, l3]
    omega

theorem cuePoint_len {c : CuePoint} (h : c.InRange) :
    (cuePoint c.time c.track c.clusterPos c.block).length = c.payloadSize ∧
    (element kMkvCuePoint (cuePoint c.time c.track c.clusterPos c.block)).length = c.size := by
  obtain ⟨-, i0, i1, i2, -⟩ := cue_isId
  have l1 := uintField_len i1 h.time
  have l2 := positions_len h
  have l3 : (element kMkvCueTrackPositions (cuePositions c.track c.clusterPos c.block)).length =
      ebmlMasterElementSize kMkvCueTrackPositions c.positionsSize + c.positionsSize := by
    rw [element_length _ (isId_width i2).2, l2]; rfl
  have e1 : (cuePoint c.time c.track c.clusterPos c.block).length = c.payloadSize := by
    show (elements ([uintField kMkvCueTime c.time] ++
      [(kMkvCueTrackPositions, cuePositions c.track c.clusterPos c.block)])).length = _
    rw [elements_append, List.length_append, l1]
    simp only [elements, List.append_nil]
    rw [l3]; rfl
  refine ⟨e1, ?_⟩
  rw [element_length _ (isId_width i0).2, e1]; rfl

theorem writePayload_emits {c : CuePoint} (h : c.InRange) :
    Emits c.writePayload () (cuePoint c.time c.track c.clusterPos c.block) := by
  obtain ⟨-, i0, i1, i2, i3, i4, i5⟩ := cue_isId
  obtain ⟨sz, sz2, sz3⟩ := c.size_eq
  have szl := c.size_le
  have w1 := uintField_emits (isId_width i1).2 h.time
  have w3 := uintField_emits (isId_width i3).2 h.track
  have w4 := uintField_emits (isId_width i4).2 h.pos
  have w5 : Emits c.writeNumber () (elements (match c.block with
      | none => [] | some b => [uintField kMkvCueBlockNumber b])) := by
    unfold CuePoint.writeNumber CuePoint.block
    by_cases hn : c.numbered = true
    · rw [if_pos hn, if_pos hn]
      exact uintField_emits (isId_width i5).2 h.number
    · rw [if_neg hn, if_neg hn]
      exact Emits.pure _
  have w2 := master_emits (id := kMkvCueTrackPositions) (size := c.positionsSize) (isId_width i2).2
    (w3.bind (f := fun _ => writeEbmlElementUInt kMkvCueClusterPosition c.clusterPos >>= fun _ => c.writeNumber)
      (w4.bind (f := fun _ => c.writeNumber) w5))
    (bs := _) (by
      rw [← elements_append, ← elements_append]
      exact positions_len h) (by omega)
  refine Emits.congr (w1.bind (f := fun _ => _) w2) ?_
  rw [← elements_append, ← elements_append]
  have e := elements_append [uintField kMkvCueTime c.time]
    [(kMkvCueTrackPositions, cuePositions c.track c.clusterPos c.block)]
  refine Eq.trans ?_ e.symm
  rw [elements_one kMkvCueTrackPositions]
  rfl

theorem CuePoint.write_emits {c : CuePoint} (h : c.InRange) (h1 : 1 ≤ c.track) (h2 : 1 ≤ c.clusterPos) :
    Emits c.write () (element kMkvCuePoint (cuePoint c.time c.track c.clusterPos c.block)) := by
  obtain ⟨-, i0, -⟩ := cue_isId
  obtain ⟨sz, sz2, sz3⟩ := c.size_eq
  have szl := c.size_le
  obtain ⟨l1, -⟩ := cuePoint_len h
  unfold CuePoint.write
  rw [if_neg (by omega)]
  exact master_emits (isId_width i0).2 (counted_emits (writePayload_emits h) l1 (by omega)) l1 (by omega)

theorem cuesPayload_len {cs : List CuePoint} (h : ∀ c ∈ cs, c.InRange) :
    (Spec.cuesPayload (cs.map CuePoint.cue)).length = cuesPayload cs := by
  induction cs with
  | nil => rfl
  | cons c cs ih =>
    have i := ih fun x hx => h x (by simp [hx])
    have l := (cuePoint_len (h c (by simp))).2
    unfold Spec.cuesPayload at *
    simp only [List.map_cons, elements, List.length_append, cuesPayload]
    rw [i, ← l]; rfl

theorem Cues.size_bytes {q : Cues} (h : ∀ c ∈ q.entries, c.InRange) :
    q.size = (cuesElement (q.entries.map CuePoint.cue)).length := by
  obtain ⟨i0, -⟩ := cue_isId
  show _ = (element kMkvCues _).length
  rw [element_length _ (isId_width i0).2, cuesPayload_len h]
  unfold Cues.size ebmlMasterElementSize; omega

theorem writeCuePoints_emits {cs : List CuePoint}
    (h : ∀ c ∈ cs, c.InRange ∧ 1 ≤ c.track ∧ 1 ≤ c.clusterPos) :
    Emits (writeCuePoints cs) () (Spec.cuesPayload (cs.map CuePoint.cue)) := by
  induction cs with
  | nil => exact Emits.pure _
  | cons c cs ih =>
    obtain ⟨a, b, d⟩ := h c (by simp)
    exact (CuePoint.write_emits a b d).bind (f := fun _ => writeCuePoints cs) (ih fun x hx => h x (by simp [hx]))

theorem Cues.write_emits {q : Cues} (h : ∀ c ∈ q.entries, c.InRange ∧ 1 ≤ c.track ∧ 1 ≤ c.clusterPos)
    (hn : q.entries.length < 2 ^ 48) :
    Emits q.write () (cuesElement (q.entries.map CuePoint.cue)) := by
  obtain ⟨i0, -⟩ := cue_isId
  have l := cuesPayload_len (cs := q.entries) fun c hc => (h c hc).1
  have hle := cuesPayload_le q.entries
  unfold Cues.write
  exact master_emits (isId_width i0).2 (counted_emits (writeCuePoints_emits h) l (by omega)) l (by omega)

end Verif.Mux
