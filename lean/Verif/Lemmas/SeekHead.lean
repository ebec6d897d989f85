/-
The seek head: what is written and how it is read.
-/
import Verif.Lemmas.Walk
import Verif.Lemmas.MuxerClusterRun
import Verif.Model.SeekHead
import Verif.Spec.SeekHead

namespace Verif.Mux
open Verif Spec Par

/-- The slots in use. -/
def SeekHead.used (es : List (Nat × Nat)) : List (Nat × Nat) := es.filter fun e => e.1 ≠ 0

/-- IDs are `uint32`, positions `uint64`. -/
def SeekHead.InRange (es : List (Nat × Nat)) : Prop := ∀ e ∈ es, e.1 < 2 ^ 32 ∧ e.2 < 2 ^ 64

theorem seek_ids : IsId 4 kMkvSeekHead ∧ IsId 2 kMkvSeek ∧ IsId 2 kMkvSeekID ∧
    IsId 2 kMkvSeekPosition ∧ IsId 1 kMkvVoid := by
  unfold IsId kMkvSeekHead kMkvSeek kMkvSeekID kMkvSeekPosition kMkvVoid; decide

theorem uintElement_len {n id v : Nat} (hid : IsId n id) (hv : v < 2 ^ 64) :
    (element id (beBytes (byteWidth v) v)).length = ebmlElementSizeUInt id v := by
  obtain ⟨hw, h64⟩ := isId_width hid
  have hb := getUIntSize_bounds v
  rw [byteWidth_eq hv, element_length id h64, beBytes_length]
  unfold ebmlElementSizeUInt ebmlElementSizeUIntFixed
  have : getCodedUIntSize (getUIntSize v) = 1 := by
    unfold getCodedUIntSize; rw [if_pos (by omega)]
  rw [this]; simp; omega

theorem small_coded {v : Nat} (h : v < 127) : getCodedUIntSize v = 1 := by
  unfold getCodedUIntSize; rw [if_pos (by omega)]

/-- Length of one entry. -/
theorem seekEntry_len {e : Nat × Nat} (h1 : e.1 < 2 ^ 32) (h2 : e.2 < 2 ^ 64) :
    (seekEntry e).length = 9 + getUIntSize e.1 + getUIntSize e.2 ∧
    (element kMkvSeekID (beBytes (byteWidth e.1) e.1) ++
      element kMkvSeekPosition (beBytes (byteWidth e.2) e.2)).length = SeekHead.entrySize e ∧
    (seekEntry e).length =
      ebmlMasterElementSize kMkvSeek (SeekHead.entrySize e) + SeekHead.entrySize e := by
  obtain ⟨-, hs, hsi, hsp, -⟩ := seek_ids
  have l1 := uintElement_len (v := e.1) hsi (by omega)
  have l2 := uintElement_len (v := e.2) hsp h2
  have e1 : (element kMkvSeekID (beBytes (byteWidth e.1) e.1) ++
      element kMkvSeekPosition (beBytes (byteWidth e.2) e.2)).length = SeekHead.entrySize e := by
    rw [List.length_append, l1, l2]; rfl
  have hb1 := getUIntSize_bounds e.1
  have hb2 := getUIntSize_bounds e.2
  have hz : SeekHead.entrySize e = 6 + getUIntSize e.1 + getUIntSize e.2 := by
    have a : getUIntSize kMkvSeekID = 2 := (isId_width hsi).1
    have b : getUIntSize kMkvSeekPosition = 2 := (isId_width hsp).1
    unfold SeekHead.entrySize ebmlElementSizeUInt ebmlElementSizeUIntFixed
    rw [a, b]; simp; omega
  have e2 : (seekEntry e).length =
      ebmlMasterElementSize kMkvSeek (SeekHead.entrySize e) + SeekHead.entrySize e := by
    show (element kMkvSeek (element kMkvSeekID (beBytes (byteWidth e.1) e.1) ++
      element kMkvSeekPosition (beBytes (byteWidth e.2) e.2))).length = _
    rw [element_length _ (isId_width hs).2, e1]; rfl
  refine ⟨?_, e1, e2⟩
  rw [e2]
  unfold ebmlMasterElementSize
  rw [(isId_width hs).1, small_coded (by omega), hz]; omega

theorem getUIntSize_le4 {v : Nat} (h : v < 2 ^ 32) : getUIntSize v ≤ 4 := by
  unfold getUIntSize; repeat' split
  all_goals omega

theorem getUIntSize_le7 {v : Nat} (h : v < 2 ^ 56) : getUIntSize v ≤ 7 := by
  unfold getUIntSize; repeat' split
  all_goals omega

theorem seekEntries_len {es : List (Nat × Nat)} (h : SeekHead.InRange es) :
    (seekEntries (SeekHead.used es)).length = SeekHead.payloadSize es ∧
    (seekEntries (SeekHead.used es)).length ≤ 21 * (SeekHead.used es).length := by
  induction es with
  | nil => exact ⟨rfl, Nat.le_refl _⟩
  | cons e es ih =>
    obtain ⟨i1, i2⟩ := ih (fun x hx => h x (by simp [hx]))
    obtain ⟨a, b⟩ := h e (by simp)
    obtain ⟨l1, l2, l3⟩ := seekEntry_len a b
    have hb2 := getUIntSize_bounds e.2
    have hb1 := getUIntSize_le4 a
    unfold SeekHead.used at *
    by_cases h0 : e.1 = 0
    · rw [List.filter_cons_of_neg (by simp [h0])]
      unfold SeekHead.payloadSize
      rw [if_neg (by simp [h0])]
      exact ⟨i1, i2⟩
    · rw [List.filter_cons_of_pos (by simp [h0])]
      unfold SeekHead.payloadSize seekEntries
      rw [if_pos (by simp [h0]), List.length_append, i1, List.length_cons]
      rw [i1] at i2
      exact ⟨by omega, by omega⟩

theorem writeEntry_emits {e : Nat × Nat} (h1 : e.1 < 2 ^ 32) (h2 : e.2 < 2 ^ 64) :
    Emits (SeekHead.writeEntry e) () (seekEntry e) := by
  obtain ⟨-, hs, hsi, hsp, -⟩ := seek_ids
  obtain ⟨l1, l2, -⟩ := seekEntry_len h1 h2
  have hb1 := getUIntSize_le4 h1
  have hb2 := getUIntSize_bounds e.2
  have hsz : SeekHead.entrySize e + 1 < 2 ^ 56 := by
    rw [← l2]
    have : (element kMkvSeekID (beBytes (byteWidth e.1) e.1) ++
      element kMkvSeekPosition (beBytes (byteWidth e.2) e.2)).length ≤ (seekEntry e).length := by
      show _ ≤ (element kMkvSeek (element kMkvSeekID (beBytes (byteWidth e.1) e.1) ++
        element kMkvSeekPosition (beBytes (byteWidth e.2) e.2))).length
      rw [element_length _ (isId_width hs).2]; omega
    omega
  have w1 := writeEbmlMasterElement_emits (id := kMkvSeek) (isId_width hs).2 hsz
  have w2 := writeEbmlElementUInt_emits (id := kMkvSeekID) (v := e.1) (isId_width hsi).2
  have w3 := writeEbmlElementUInt_emits (id := kMkvSeekPosition) (v := e.2) (isId_width hsp).2
  have := w1.bind (f := fun _ => writeEbmlElementUInt kMkvSeekID e.1 >>= fun _ =>
    writeEbmlElementUInt kMkvSeekPosition e.2) (w2.bind (f := fun _ => _) w3)
  refine Emits.congr this ?_
  show _ = element kMkvSeek _
  rw [← byteWidth_eq h2, ← byteWidth_eq (show e.1 < 2 ^ 64 by omega)]
  unfold element
  rw [← l2]
  simp only [element, List.append_assoc]
  rfl

theorem writeEntries_emits {es : List (Nat × Nat)} (h : SeekHead.InRange es) :
    Emits (SeekHead.writeEntries es) () (seekEntries (SeekHead.used es)) := by
  induction es with
  | nil => exact Emits.pure _
  | cons e es ih =>
    have i1 := ih (fun x hx => h x (by simp [hx]))
    obtain ⟨a, b⟩ := h e (by simp)
    unfold SeekHead.writeEntries
    unfold SeekHead.used at *
    by_cases h0 : e.1 = 0
    · rw [List.filter_cons_of_neg (by simp [h0]), if_neg (by simp [h0])]
      exact i1
    · rw [List.filter_cons_of_pos (by simp [h0]), if_pos (by simp [h0])]
      exact (writeEntry_emits a b).bind i1

theorem contents_emits {h : SeekHead} (hr : SeekHead.InRange h.entries)
    (hl : (SeekHead.used h.entries).length ≤ 5) :
    Emits h.contents () (element kMkvSeekHead (seekEntries (SeekHead.used h.entries))) := by
  obtain ⟨l1, l2⟩ := seekEntries_len hr
  have w1 := writeEbmlMasterElement_emits (id := kMkvSeekHead)
    (size := SeekHead.payloadSize h.entries) (by decide) (by omega)
  have := w1.bind (f := fun _ => SeekHead.writeEntries h.entries) (writeEntries_emits hr)
  refine Emits.congr this ?_
  unfold element
  rw [l1]

theorem totalSize_eq : SeekHead.totalSize = 110 := by decide

theorem head_len {es : List (Nat × Nat)} (hl : (seekEntries es).length ≤ 105) :
    (element kMkvSeekHead (seekEntries es)).length = 5 + (seekEntries es).length := by
  rw [element_length _ (by decide), small_coded (by omega)]
  have : getUIntSize kMkvSeekHead = 4 := by decide
  omega

theorem writeVoid_small {n : Nat} (h2 : 2 ≤ n) (hn : n ≤ 127) :
    ∃ e, (element kMkvVoid (List.replicate e 0)).length = n ∧
      Emits (writeVoidElement n) n (element kMkvVoid (List.replicate e 0)) :=
  writeVoidElement_emits h2 (by omega) (fun w h1 h4 => by
    have : w = 1 ∨ w = 2 ∨ w = 3 ∨ w = 4 := by omega
    rcases this with rfl | rfl | rfl | rfl <;> simp <;> omega)

/-- Padding from a position inside the reserved space. -/
theorem pad_emits {start used : Nat} (h : used + 2 ≤ 110) :
    ∃ e, (element kMkvVoid (List.replicate e 0)).length = 110 - used ∧
      ∃ k, ∀ s : Sink, s.Within → s.pos = start + used →
        (s.okFor k → SeekHead.pad start s = (.ok (), s.put (element kMkvVoid (List.replicate e 0)) k)) ∧
        (¬ s.okFor k → ∃ c s', SeekHead.pad start s = (.err c, s') ∧
          s.Torn s' (element kMkvVoid (List.replicate e 0))) := by
  obtain ⟨e, hlen, k, hk⟩ := writeVoid_small (n := 110 - used) (by omega) (by omega)
  refine ⟨e, hlen, k, fun s hs hp => ?_⟩
  obtain ⟨g1, g2⟩ := hk s hs
  have hpos : Sink.position s = (.ok s.pos, s) := rfl
  have hz : toU64 ((SeekHead.totalSize : Int) - ((s.pos : Int) - start)) = 110 - used := by
    rw [totalSize_eq, hp]; unfold toU64; omega
  unfold SeekHead.pad
  rw [W.bind_of_ok hpos, hz]
  refine ⟨fun hok => ?_, fun hok => ?_⟩
  · rw [W.bind_of_ok (g1 hok), if_neg (by omega)]; rfl
  · obtain ⟨c, s', h1, h2⟩ := g2 hok
    exact ⟨c, s', W.bind_of_err h1, h2⟩

/-- Storing something that fits into a part of the file. -/
theorem overwrite_in {pre gap post p : Bytes} (h : p.length ≤ gap.length) :
    overwrite (pre ++ (gap ++ post)) pre.length p = pre ++ (p ++ gap.drop p.length ++ post) := by
  have := overwrite_mid pre (gap.take p.length) p (gap.drop p.length ++ post) (by simp; omega)
  rw [← List.append_assoc (gap.take _), List.take_append_drop] at this
  rw [this, List.append_assoc]

/-- Exact effect of `SeekHead::Finalize` on the reserved space. -/
theorem rewrite_spec {h : SeekHead} (hr : SeekHead.InRange h.entries)
    (hl : (SeekHead.used h.entries).length ≤ 5) {s : Sink} {pre gap post : Bytes}
    (hd : s.data = pre ++ (gap ++ post)) (hg : gap.length = 110) (hst : h.startPos = pre.length)
    (hfit : (seekEntries (SeekHead.used h.entries)).length ≤ 103) :
    (∃ s' e, h.rewrite s = (.ok (), s') ∧ Sink.CleanTo s s' ∧ s'.pos = s.pos ∧
      (element kMkvSeekHead (seekEntries (SeekHead.used h.entries)) ++
        element kMkvVoid (List.replicate e 0)).length = 110 ∧
      s'.data = pre ++ ((element kMkvSeekHead (seekEntries (SeekHead.used h.entries)) ++
        element kMkvVoid (List.replicate e 0)) ++ post)) ∨
    (∃ c s' gap', h.rewrite s = (.err c, s') ∧ Sink.FailedTo s s' ∧ gap'.length = 110 ∧
      s'.data = pre ++ (gap' ++ post)) := by
  have hH := head_len (es := SeekHead.used h.entries) (by omega)
  have em := contents_emits hr hl
  generalize hHH : element kMkvSeekHead (seekEntries (SeekHead.used h.entries)) = H at *
  unfold SeekHead.rewrite
  have hp : Sink.position s = (.ok s.pos, s) := rfl
  rw [W.bind_of_ok hp, hst]
  rcases seek_cases s pre.length with ⟨h1, c1⟩ | ⟨h1, f1⟩
  rotate_left
  · rw [W.bind_of_err h1]; exact .inr ⟨_, _, gap, rfl, f1, hg, hd⟩
  rw [W.bind_of_ok h1]
  have hw : Sink.Within { s with pos := pre.length, calls := s.calls + 1 } := by
    unfold Sink.Within; simp only; rw [hd]; simp
  rcases em.casesAt hw with ⟨k, h2, ok2⟩ | ⟨e, s2, h2, t2⟩
  rotate_left
  · rw [W.bind_of_err h2]
    obtain ⟨p, p1, p2, -⟩ := t2.pre
    have hpl := p1.length_le
    refine .inr ⟨_, _, p ++ gap.drop p.length, rfl, c1.failed t2.failed, by simp; omega, ?_⟩
    rw [p2]; simp only; rw [hd, overwrite_in (by omega)]
  rw [W.bind_of_ok h2]
  have c2 := c1.trans (Sink.okFor_clean (bs := H) ok2)
  generalize hs2 : Sink.put { s with pos := pre.length, calls := s.calls + 1 } H k = s2 at *
  have d2 : s2.data = (pre ++ H) ++ (gap.drop H.length ++ post) := by
    rw [← hs2]; simp only [Sink.put]; rw [hd, overwrite_in (by omega)]; simp
  have p2 : s2.pos = pre.length + H.length := by rw [← hs2]; rfl
  have w2 : s2.Within := by unfold Sink.Within; rw [d2, p2]; simp
  obtain ⟨e, hlen, k', hk⟩ := pad_emits (start := pre.length) (used := H.length) (by omega)
  obtain ⟨g1, g2⟩ := hk s2 w2 p2
  generalize hVV : element kMkvVoid (List.replicate e 0) = V at *
  by_cases ok3 : s2.okFor k'
  rotate_left
  · obtain ⟨c, s3, h3, t3⟩ := g2 ok3
    rw [W.bind_of_err h3]
    obtain ⟨p, q1, q2, -⟩ := t3.pre
    have hpl := q1.length_le
    refine .inr ⟨_, _, H ++ (p ++ (gap.drop H.length).drop p.length), rfl, c2.failed t3.failed, ?_, ?_⟩
    · simp; omega
    · rw [q2, p2, d2, ← List.length_append, overwrite_in (by simp; omega)]; simp
  have h3 := g1 ok3
  rw [W.bind_of_ok h3]
  have c3 := c2.trans (Sink.okFor_clean (bs := V) ok3)
  have d3 : (s2.put V k').data = pre ++ ((H ++ V) ++ post) := by
    simp only [Sink.put]
    rw [d2, p2, ← List.length_append, overwrite_in (by simp; omega)]
    have : (gap.drop H.length).drop V.length = [] := by
      rw [List.drop_drop]; exact List.drop_eq_nil_of_le (by omega)
    rw [this]; simp
  rcases seek_cases (s2.put V k') s.pos with ⟨h4, c4⟩ | ⟨h4, f4⟩
  · refine .inl ⟨_, e, h4, c3.trans c4, rfl, ?_, ?_⟩
    · rw [hVV, List.length_append]; omega
    · rw [hVV]; exact d3
  · rw [h4]
    exact .inr ⟨_, _, H ++ V, rfl, c3.failed f4, by rw [List.length_append]; omega, d3⟩

/-- Reading one entry back. -/
theorem seekParseEntry_at {r : Rdr} {p n : Nat} {e : Nat × Nat} (hid : IsId n e.1) (h2 : e.2 < 2 ^ 63)
    (ha : At r.data p (element kMkvSeekID (beBytes (byteWidth e.1) e.1) ++
      element kMkvSeekPosition (beBytes (byteWidth e.2) e.2))) :
    seekParseEntry r p (SeekHead.entrySize e) = .ok (some (e.1, (e.2 : Int))) := by
  obtain ⟨-, hs, hsi, hsp, -⟩ := seek_ids
  obtain ⟨hw, h64⟩ := isId_width hid
  have h4 := hid.2.1
  have hn1 := hid.1
  have hbw : byteWidth e.1 = n := by rw [byteWidth_eq h64, hw]
  have hb2 := getUIntSize_bounds e.2
  have hf2 := getUIntSize_fits (v := e.2) (by omega)
  rw [← byteWidth_eq (show e.2 < 2 ^ 64 by omega)] at hb2 hf2
  obtain ⟨a1, a2⟩ := at_append.mp ha
  have hl1 := element_length_id hsi (beBytes (byteWidth e.1) e.1)
  have hl2 := element_length_id hsp (beBytes (byteWidth e.2) e.2)
  rw [beBytes_length, sizeWidth_small (by omega)] at hl1 hl2
  rw [hl1] at a2
  have hsize : SeekHead.entrySize e = (2 + 1 + byteWidth e.1) + (2 + 1 + byteWidth e.2) := by
    rw [← hl1, ← hl2, uintElement_len hsi h64, uintElement_len hsp (by omega)]; rfl
  have r1 := readID_at hsi a1
  have r2 := readSize_at hsi a1 (by rw [beBytes_length]; omega)
  have r3 := at_payload hsi a1
  have r4 := readID_at hsp a2
  have r5 := readSize_at hsp a2 (by rw [beBytes_length]; omega)
  have r6 := at_payload hsp a2
  rw [beBytes_length, sizeWidth_small (by omega)] at r2 r3 r5 r6
  have r3' : readID r ((p + 2 + 1 : Nat) : Int) = .ok (e.1, n) := by
    refine readID_of_slice hid ?_
    rw [hbw] at r3
    exact r3.slice_eq (beBytes_length _ _)
  have r6' := unserializeUInt_at r6 hb2.1 hb2.2 hf2 h2
  have hpos1 : 0 < e.1 := by
    have := hid.2.2.1
    have : 0 < 2 ^ (7 * n) := Nat.pow_pos (by omega)
    omega
  unfold seekParseEntry
  rw [hsize, if_neg (by omega), r1]
  simp only [orFalse]
  rw [if_neg (by simp), if_neg (by omega), r2]
  simp only
  rw [if_neg (by omega), if_neg (by omega), if_neg (by omega), r3']
  simp only
  rw [if_neg (by omega), if_neg (by omega),
    show p + 2 + 1 + byteWidth e.1 = p + (2 + 1 + byteWidth e.1) by omega, r4]
  simp only
  rw [if_neg (by simp), if_neg (by omega), r5]
  simp only
  rw [if_neg (by omega), if_neg (by omega), if_neg (by omega), r6']
  simp only
  rw [if_neg (by omega), if_neg (by omega)]

/-- The children of a seek head. -/
def seekChildren (es : List (Nat × Nat)) : List (Nat × Bytes) :=
  es.map fun e => (kMkvSeek, element kMkvSeekID (beBytes (byteWidth e.1) e.1) ++
    element kMkvSeekPosition (beBytes (byteWidth e.2) e.2))

theorem seekChildren_elements (es : List (Nat × Nat)) : elements (seekChildren es) = seekEntries es := by
  induction es with
  | nil => rfl
  | cons e es ih =>
    show element _ _ ++ elements (seekChildren es) = _
    rw [ih]; rfl

theorem seekCount_fold {es : List (Nat × Nat)} : ∀ {pos a b : Nat} (_ : a + es.length < 2 ^ 31),
    foldSteps (fun _ h n => seekCount h n) pos (seekChildren es) (a, b) = .ok (a + es.length, b) := by
  induction es with
  | nil => intros; rfl
  | cons e es ih =>
    intro pos a b h
    rw [List.length_cons] at h
    show foldSteps (fun _ h n => seekCount h n) pos ((kMkvSeek, _) :: seekChildren es) (a, b) = _
    unfold foldSteps
    have : ∀ x : Hdr, x.id = kMkvSeek → seekCount x (a, b) = .ok (a + 1, b) := by
      intro x hx
      unfold seekCount
      rw [if_pos hx, if_neg (by simp only; omega)]
    rw [this _ rfl]
    simp only
    rw [ih (by omega), List.length_cons]
    congr 2; omega

/-- What the parser reports for the entries found from position `pos` on. -/
def seekReport : Nat → List (Nat × Nat) → List SeekEntry
  | _, [] => []
  | pos, e :: es => ⟨e.1, e.2, pos, (seekEntry e).length⟩ :: seekReport (pos + (seekEntry e).length) es

theorem seekStep_fold {r : Rdr} {es : List (Nat × Nat)} : ∀ {pos : Nat} {acc : List SeekEntry}
    {v : List (Nat × Nat)} (_ : ∀ e ∈ es, (∃ n, IsId n e.1) ∧ e.2 < 2 ^ 63)
    (_ : At r.data pos (seekEntries es)),
    foldSteps (seekStep r) pos (seekChildren es) (acc, v) = .ok (acc ++ seekReport pos es, v) := by
  obtain ⟨-, hs, hsi, hsp, -⟩ := seek_ids
  induction es with
  | nil => intros; simp [foldSteps, seekChildren, seekReport]
  | cons e es ih =>
    intro pos acc v h ha
    obtain ⟨⟨n, hid⟩, h63⟩ := h e (by simp)
    unfold seekEntries at ha
    obtain ⟨a1, a2⟩ := at_append.mp ha
    have h32 : e.1 < 2 ^ 32 := by
      have h4 := hid.2.1
      have h5 := hid.2.2.2
      have : 2 ^ (7 * n + 1) ≤ 2 ^ 29 := Nat.pow_le_pow_right (by decide) (by omega)
      omega
    obtain ⟨l1, l2, l3⟩ := seekEntry_len h32 (by omega)
    have hb1 := getUIntSize_bounds e.1
    have hb2 := getUIntSize_bounds e.2
    have l4 : (seekEntry e).length = 2 + sizeWidth (SeekHead.entrySize e) + SeekHead.entrySize e := by
      rw [l3, ← getCodedUIntSize_eq]; rfl
    have ap : At r.data (pos + 2 + sizeWidth (SeekHead.entrySize e))
        (element kMkvSeekID (beBytes (byteWidth e.1) e.1) ++
          element kMkvSeekPosition (beBytes (byteWidth e.2) e.2)) := by
      have := at_payload hs (show At r.data pos (element kMkvSeek
        (element kMkvSeekID (beBytes (byteWidth e.1) e.1) ++
          element kMkvSeekPosition (beBytes (byteWidth e.2) e.2))) from a1)
      rwa [l2] at this
    have hp := seekParseEntry_at hid h63 ap
    show foldSteps (seekStep r) pos ((kMkvSeek, _) :: seekChildren es) (acc, v) = _
    unfold foldSteps
    rw [l2, show getUIntSize kMkvSeek = 2 from (isId_width hs).1]
    have hstep : seekStep r pos ⟨pos + 2 + sizeWidth (SeekHead.entrySize e), kMkvSeek,
        SeekHead.entrySize e⟩ (acc, v) =
        .ok (acc ++ [⟨e.1, e.2, pos, (seekEntry e).length⟩], v) := by
      unfold seekStep
      simp only
      rw [if_pos trivial, hp]
      simp only
      rw [show pos + 2 + sizeWidth (SeekHead.entrySize e) + SeekHead.entrySize e - pos =
        (seekEntry e).length by omega]
    rw [hstep]
    simp only
    rw [show (element kMkvSeek (element kMkvSeekID (beBytes (byteWidth e.1) e.1) ++
          element kMkvSeekPosition (beBytes (byteWidth e.2) e.2))).length = (seekEntry e).length from rfl,
      ih (fun x hx => h x (by simp [hx])) a2]
    simp [seekReport]

/-- A seek head in a file is read back completely. -/
theorem seekHeadParse_at {r : Rdr} {es : List (Nat × Nat)} {p : Nat}
    (h : ∀ e ∈ es, (∃ n, IsId n e.1) ∧ e.2 < 2 ^ 63) (hl : es.length < 2 ^ 31)
    (ha : At r.data p (seekEntries es)) (hmax : p + (seekEntries es).length ≤ llongMax) :
    seekHeadParse r p (seekEntries es).length = .ok (seekReport p es, []) := by
  obtain ⟨-, hs, hsi, hsp, -⟩ := seek_ids
  have hg : GoodElements (seekChildren es) := by
    intro x hx
    obtain ⟨e, he, rfl⟩ := List.mem_map.mp hx
    obtain ⟨⟨n, hid⟩, h63⟩ := h e he
    have h32 : e.1 < 2 ^ 32 := by
      have h4 := hid.2.1
      have h5 := hid.2.2.2
      have : 2 ^ (7 * n + 1) ≤ 2 ^ 29 := Nat.pow_le_pow_right (by decide) (by omega)
      omega
    obtain ⟨l1, l2, l3⟩ := seekEntry_len h32 (by omega)
    have hb1 := getUIntSize_bounds e.1
    have hb2 := getUIntSize_bounds e.2
    refine ⟨⟨2, hs⟩, ?_⟩
    simp only
    rw [l2]
    omega
  unfold seekHeadParse
  have w1 := walk_elements (step := fun _ h n => seekCount h n) (st := (0, 0)) hmax hg
    (by rw [seekChildren_elements]; exact ha) (by rw [seekChildren_elements])
  have w2 := walk_elements (step := seekStep r) (st := ([], [])) hmax hg
    (by rw [seekChildren_elements]; exact ha) (by rw [seekChildren_elements])
  rw [w1, seekCount_fold (by omega)]
  show walk _ _ _ _ _ = _
  rw [w2, seekStep_fold h ha]
  simp

end Verif.Mux
