/-
Parsing back what the muxer writes for a frame.
-/
import Verif.Lemmas.MuxerBlock
import Verif.Lemmas.ParserBlock
import Verif.Lemmas.Element

namespace Verif.Par
open Verif Spec Mux

/-- The reader's lengths are consistent: what is available does not exceed the total. -/
def Rdr.Sane (r : Rdr) : Prop := r.total < 0 ∨ (r.data.length : Int) ≤ r.total

theorem fieldLength_vint {r : Rdr} {p n v limit : Nat} (hr : r.Sane) (h1 : 1 ≤ n) (h8 : n ≤ 8)
    (hv : v < 2 ^ (7 * n)) (hat : At r.data p (vint n v)) (hl : p + n ≤ limit) :
    fieldLength r p limit = .ok n := by
  have hle := hat.le (vint_ne_nil h1)
  rw [vint_length] at hle
  obtain ⟨b, hb⟩ := getElem?_of_lt (d := r.data) (p := p) (by omega)
  have hfirst : b ≠ 0 ∧ (markerLoop b 0x80 1 8).2 = n := by
    cases hc : vint n v with
    | nil => exact absurd hc (vint_ne_nil h1)
    | cons c t =>
      rw [hc] at hat
      have := (at_cons.mp hat).1
      rw [hb] at this
      cases this
      exact vint_first h1 h8 hv hc
  have hg : getUIntLength r (p : Int) = .ok (0, n) := by
    unfold getUIntLength
    rw [if_neg (by omega), if_neg (by unfold Rdr.Sane at hr; omega), if_neg (by omega)]
    rw [show ((p : Int)).toNat = p from rfl, byte_ok hb]
    simp only
    rw [if_neg hfirst.1, hfirst.2]
  unfold fieldLength
  rw [Res.refuse_neg (by omega), Res.bind_ok, hg]
  simp only [Res.bind_ok]
  rw [Res.refuse_neg (by omega), Res.bind_ok, Res.refuse_neg (by omega), Res.bind_ok,
    Res.refuse_neg (by omega), Res.bind_ok, Res.refuse_neg (by omega), Res.bind_ok]

theorem isId_vint {n id : Nat} (h : IsId n id) :
    beBytes n id = vint n (id - 2 ^ (7 * n)) ∧ id - 2 ^ (7 * n) < 2 ^ (7 * n) ∧ 0 < id := by
  obtain ⟨h1, h4, hlo, hhi⟩ := h
  rw [Nat.pow_succ] at hhi
  refine ⟨?_, by omega, by omega⟩
  unfold vint
  congr 1
  omega

/-- Everything the parser learns from an element in the file. -/
structure ElemAt (r : Rdr) (pos n id m : Nat) (payload : Bytes) : Prop where
  isId : IsId n id
  m1 : 1 ≤ m
  m8 : m ≤ 8
  fits : payload.length + 1 < 2 ^ (7 * m)
  len : (element id payload).length = n + m + payload.length
  readId : readID r (pos : Int) = .ok (id, n)
  idAt : At r.data pos (beBytes n id)
  readSize : readUInt r ((pos + n : Nat) : Int) = .ok (payload.length, m)
  sizeAt : At r.data (pos + n) (vint m payload.length)
  payloadAt : At r.data (pos + n + m) payload
  le : pos + n + m + payload.length ≤ r.data.length

theorem elemAt {r : Rdr} {pos n id : Nat} {payload : Bytes} (hid : IsId n id)
    (hsz : payload.length + 1 < 2 ^ 56) (hat : At r.data pos (element id payload)) :
    ElemAt r pos n id (sizeWidth payload.length) payload := by
  obtain ⟨hw, h64⟩ := isId_width hid
  have hbw : byteWidth id = n := by rw [byteWidth_eq h64, hw]
  have hb := getCodedUIntSize_bounds payload.length
  have hf := getCodedUIntSize_fits hsz
  rw [getCodedUIntSize_eq] at hb hf
  have hle := hat.le (by
    have := hid.1
    intro e
    have := congrArg List.length e
    rw [element_length _ h64] at this
    simp at this; omega)
  have hlen : (element id payload).length = n + sizeWidth payload.length + payload.length := by
    unfold element; rw [hbw]; simp [vint_length]; omega
  unfold element at hat
  rw [hbw, at_append, at_append, List.length_append, beBytes_length, vint_length] at hat
  obtain ⟨⟨a1, a2⟩, a3⟩ := hat
  rw [← Nat.add_assoc] at a3
  exact ⟨hid, hb.1, hb.2, hf, hlen, readID_of_slice hid (a1.slice_eq (beBytes_length _ _)), a1,
    readUInt_of_slice hb.1 hb.2 (by omega) (a2.slice_eq (vint_length _ _)), a2, a3, by omega⟩

theorem ElemAt.field1 {r : Rdr} {pos n id m limit : Nat} {payload : Bytes}
    (h : ElemAt r pos n id m payload) (hr : r.Sane) (hl : pos + n ≤ limit) :
    fieldLength r pos limit = .ok n := by
  obtain ⟨e1, e2, -⟩ := isId_vint h.isId
  have := h.isId.1
  have := h.isId.2.1
  exact fieldLength_vint hr (by omega) (by omega) e2 (by rw [← e1]; exact h.idAt) hl

theorem ElemAt.field2 {r : Rdr} {pos n id m limit : Nat} {payload : Bytes}
    (h : ElemAt r pos n id m payload) (hr : r.Sane) (hl : pos + n + m ≤ limit) :
    fieldLength r (pos + n) limit = .ok m :=
  fieldLength_vint hr h.m1 h.m8 (by have := h.fits; omega) h.sizeAt hl

/-- What `ParseBlockGroup` does with a child once its header is read. -/
def groupChild (r : Rdr) (stop f id size pos : Nat) (dp : Int) : Res (Nat × Int) :=
  do
        let dp ← (if id = 0x75A2 then unserializeInt r pos size else .ok dp : Res Int)
        if id ≠ 0xA1 then do
          let pos := pos + size
          Res.refuse (pos > stop) E_FILE_FORMAT_INVALID
          blockGroupLoop r stop f pos dp
        else do
          Res.refuse (pos + size > stop) E_FILE_FORMAT_INVALID
          checkBlockHead r pos (pos + size)
          blockGroupLoop r stop f (pos + size) dp

theorem blockGroupLoop_step {r : Rdr} {pos n id m stop f : Nat} {payload : Bytes} {dp : Int}
    (h : ElemAt r pos n id m payload) (hr : r.Sane)
    (hstop : pos + n + m + payload.length ≤ stop) (h0 : payload ≠ []) :
    blockGroupLoop r stop (f + 1) pos dp =
      groupChild r stop f id payload.length (pos + n + m) dp := by
  have hn := h.isId.1
  have hm := h.m1
  have hf := h.fits
  have hl : 0 < payload.length := List.length_pos_iff.mpr h0
  have hid0 := (isId_vint h.isId).2.2
  rw [blockGroupLoop, if_pos (by omega), h.field1 hr (by omega)]
  simp only [Res.bind_ok]
  rw [h.readId]
  simp only [Res.bind_ok]
  rw [Res.refuse_neg (by omega), Res.bind_ok, h.field2 hr (by omega)]
  simp only [Res.bind_ok]
  rw [h.readSize]
  simp only [Res.bind_ok]
  rw [Res.refuse_neg (by omega), Res.bind_ok, if_neg (by omega), Res.refuse_neg (by omega),
    Res.bind_ok]
  rfl

theorem blockGroupLoop_other {r : Rdr} {pos n id m stop f : Nat} {payload : Bytes} {dp : Int}
    (h : ElemAt r pos n id m payload) (hr : r.Sane)
    (hstop : pos + n + m + payload.length ≤ stop) (h0 : payload ≠ []) (h1 : id ≠ 0xA1)
    (h2 : id ≠ 0x75A2) :
    blockGroupLoop r stop (f + 1) pos dp =
      blockGroupLoop r stop f (pos + (element id payload).length) dp := by
  rw [blockGroupLoop_step h hr hstop h0, groupChild, if_neg h2]
  simp only [Res.bind_ok]
  rw [if_pos h1, Res.refuse_neg (by omega), Res.bind_ok, h.len]
  congr 1
  omega

theorem blockGroupLoop_discard {r : Rdr} {pos n m stop f : Nat} {payload : Bytes} {dp dp' : Int}
    (h : ElemAt r pos n 0x75A2 m payload) (hr : r.Sane)
    (hstop : pos + n + m + payload.length ≤ stop) (h0 : payload ≠ [])
    (hdp : unserializeInt r ((pos + n + m : Nat) : Int) (payload.length : Nat) = .ok dp') :
    blockGroupLoop r stop (f + 1) pos dp =
      blockGroupLoop r stop f (pos + (element 0x75A2 payload).length) dp' := by
  rw [blockGroupLoop_step h hr hstop h0, groupChild, if_pos rfl, hdp]
  simp only [Res.bind_ok]
  rw [if_pos (by decide), Res.refuse_neg (by omega), Res.bind_ok, h.len]
  congr 1
  omega

theorem blockGroupLoop_block {r : Rdr} {pos n m stop f : Nat} {payload : Bytes} {dp : Int}
    (h : ElemAt r pos n 0xA1 m payload) (hr : r.Sane)
    (hstop : pos + n + m + payload.length ≤ stop) (h0 : payload ≠ [])
    (hc : checkBlockHead r (pos + n + m) (pos + n + m + payload.length) = .ok ()) :
    blockGroupLoop r stop (f + 1) pos dp =
      blockGroupLoop r stop f (pos + (element 0xA1 payload).length) dp := by
  rw [blockGroupLoop_step h hr hstop h0, groupChild, if_neg (by decide)]
  simp only [Res.bind_ok]
  rw [if_neg (by decide), Res.refuse_neg (by omega), Res.bind_ok, hc, Res.bind_ok, h.len]
  congr 1
  omega

theorem blockGroupLoop_end {r : Rdr} {f stop : Nat} {dp : Int} :
    blockGroupLoop r stop f stop dp = .ok (stop, dp) := by
  cases f with
  | zero => rfl
  | succ f => rw [blockGroupLoop, if_neg (by omega)]

theorem groupLoop_step {r : Rdr} {pos n id m stop f : Nat} {payload : Bytes} {a a' : GroupAcc}
    (h : ElemAt r pos n id m payload) (hstop : pos + n + m + payload.length ≤ stop)
    (ha : groupField r id (pos + n + m) payload.length a = .ok a') :
    groupLoop r stop (f + 1) pos a = groupLoop r stop f (pos + (element id payload).length) a' := by
  have hn := h.isId.1
  have hm := h.m1
  rw [groupLoop, if_pos (by omega), h.readId]
  simp only [Res.orErr_ok, Res.bind_ok]
  rw [Res.refuse_neg (by omega), Res.bind_ok, h.readSize]
  simp only [Res.bind_ok]
  rw [Res.assert_pos (by omega), Res.bind_ok]
  rw [ha, Res.bind_ok, Res.refuse_neg (by omega), Res.bind_ok, h.len]
  congr 1
  omega

theorem groupLoop_end {r : Rdr} {f stop : Nat} {a : GroupAcc} :
    groupLoop r stop f stop a = .ok (stop, a) := by
  cases f with
  | zero => rfl
  | succ f => rw [groupLoop, if_neg (by omega)]

theorem checkBlockHead_ok {r : Rdr} {pos track stop : Nat} {tc : Int} {flags : UInt8} (hr : r.Sane)
    (ht0 : 1 ≤ track) (ht : track < 128) (hat : At r.data pos (blockHead 1 track tc flags))
    (hstop : pos + 5 ≤ stop) (hlace : (flags &&& 6) >>> 1 = 0) :
    checkBlockHead r pos stop = .ok () := by
  have hl2 : (twosBytes 2 tc).length = 2 := by simp [twosBytes]
  have hle := hat.le (by simp [blockHead])
  have hlen : (blockHead 1 track tc flags).length = 4 := by
    unfold blockHead; rw [List.length_append, List.length_append, vint_length, hl2]; rfl
  rw [hlen] at hle
  unfold blockHead at hat
  rw [at_append, at_append, List.length_append, vint_length', hl2] at hat
  obtain ⟨⟨ha, hb⟩, hc⟩ := hat
  have hfl := (at_cons.mp hc).1
  unfold checkBlockHead
  rw [fieldLength_vint (v := track) hr (by decide) (by decide) (by omega) ha (by omega)]
  simp only [Res.bind_ok]
  rw [readUInt_of_slice (n := 1) (by decide) (by decide) (by omega) (ha.slice_eq (vint_length _ _))]
  simp only [Res.bind_ok]
  rw [Res.refuse_neg (by omega), Res.bind_ok, Res.refuse_neg (by omega), Res.bind_ok,
    Res.refuse_neg (by omega), Res.bind_ok, Res.refuse_neg (by omega), Res.bind_ok,
    Res.refuse_neg (by omega), Res.bind_ok, byte_ok hfl]
  simp only [Res.bind_ok]
  rw [Res.refuse_neg (by omega), Res.bind_ok, hlace]
  rfl

/-- The payload of a written block parses to one frame with the original bytes. -/
theorem blockParse_payload {r : Rdr} {pos : Nat} {f : Frame} {rel : Int} {flags : UInt8} {dp : Int}
    (ht0 : 1 ≤ f.trackNumber) (ht : f.trackNumber ≤ 126) (hrel0 : 0 ≤ rel) (hrel : rel ≤ 0x7FFF)
    (hf : f.frame ≠ []) (hlace : (flags &&& 6) >>> 1 = 0)
    (hat : At r.data pos (blockPayload f rel flags)) (hlm : f.frame.length ≤ longMax) :
    blockParse r pos (blockPayload f rel flags).length dp =
      .ok ⟨pos, (blockPayload f rel flags).length, f.trackNumber, rel, flags,
        [⟨pos + 4, f.frame.length⟩], dp⟩ ∧
    slice r.data (pos + 4) f.frame.length = f.frame ∧ pos + 4 + f.frame.length ≤ r.data.length := by
  have hlen := blockPayload_length f rel flags
  have hfl : 0 < f.frame.length := List.length_pos_iff.mpr hf
  have hle := hat.le (by intro e; rw [e] at hlen; simp at hlen)
  have hhead : (blockHead 1 f.trackNumber rel flags).length = 4 := by
    simp [blockHead, vint, twosBytes]
  rw [hlen] at hle
  unfold blockPayload at hat
  rw [at_append, hhead] at hat
  refine ⟨?_, hat.2.slice_eq rfl, by omega⟩
  rw [blockParse_head (by decide) (by decide) ht0 (by omega)
    (by unfold FitsSigned; omega) hat.1 (by omega), hlen]
  have : pos + (f.frame.length + 4) - (pos + 1 + 3) = f.frame.length := by omega
  unfold parseFrames
  simp only [hlace, if_true]
  rw [Res.refuse_neg (by omega), Res.bind_ok, this, Res.refuse_neg (by omega)]
  simp only [Res.bind_ok]

theorem element_pos_length {n id : Nat} (hid : IsId n id) (p : Bytes) :
    p.length + 2 ≤ (element id p).length := by
  obtain ⟨hw, h64⟩ := isId_width hid
  have := hid.1
  have hb := getCodedUIntSize_bounds p.length
  rw [element_length _ h64]
  omega

section Group
variable {r : Rdr} {stop : Nat} {f : Frame} (hr : r.Sane)
include hr

theorem bgl_additions {pos F : Nat} {dp : Int} (hsz : (additionsBytes f).length + 1 < 2 ^ 56)
    (hat : At r.data pos (additionsBytes f)) (hstop : pos + (additionsBytes f).length ≤ stop) :
    ∃ F', F ≤ F' ∧ blockGroupLoop r stop (F + 1) pos dp =
      blockGroupLoop r stop F' (pos + (additionsBytes f).length) dp := by
  unfold additionsBytes at *
  cases h : f.additional with
  | none => exact ⟨F + 1, by omega, rfl⟩
  | some a =>
    rw [h] at hsz hat hstop
    simp only at hsz hat hstop ⊢
    generalize hp : element 0xA6 (element 0xEE (beBytes (getUIntSize f.addId) f.addId) ++
      element 0xA5 a) = p at *
    have hid : IsId 2 0x75A1 := by unfold IsId; decide
    have hpl := element_pos_length hid p
    have e := elemAt hid (by omega) hat
    have hl := e.len
    have hne : p ≠ [] := by
      rw [← hp]; intro e'
      have := element_pos_length (n := 1) (id := 0xA6) (by unfold IsId; decide)
        (element 0xEE (beBytes (getUIntSize f.addId) f.addId) ++ element 0xA5 a)
      rw [e'] at this; simp at this
    exact ⟨F, Nat.le_refl _, blockGroupLoop_other e hr (by omega) hne (by decide) (by decide)⟩

theorem bgl_discard {pos F : Nat} (hlo : -2 ^ 63 ≤ f.discardPadding) (hhi : f.discardPadding < 2 ^ 63)
    (hat : At r.data pos (discardBytes f)) (hstop : pos + (discardBytes f).length ≤ stop) :
    ∃ F', F ≤ F' ∧ blockGroupLoop r stop (F + 1) pos 0 =
      blockGroupLoop r stop F' (pos + (discardBytes f).length) f.discardPadding := by
  unfold discardBytes at *
  by_cases h : f.discardPadding = 0
  · rw [if_neg (by simp [h])]
    exact ⟨F + 1, by omega, by rw [h]; rfl⟩
  · rw [if_pos h] at *
    have hb := getIntSize_bounds f.discardPadding
    have hlen : (twosBytes (getIntSize f.discardPadding) f.discardPadding).length =
        getIntSize f.discardPadding := Web.twosBytes_length _ _
    have hid : IsId 2 0x75A2 := by unfold IsId; decide
    have e := elemAt hid (by omega) hat
    have hl := e.len
    refine ⟨F, Nat.le_refl _, blockGroupLoop_discard e hr (by omega) ?_ ?_⟩
    · intro e'; rw [e'] at hlen; simp at hlen; omega
    · rw [unserializeInt_ok (by omega) (by omega) e.le, e.payloadAt.slice_eq rfl,
        Web.twosVal_twosBytes hb.1 (getIntSize_spec hlo hhi).1]

theorem bgl_uint {pos F id v : Nat} {dp : Int} (hid : IsId 1 id) (h1 : id ≠ 0xA1) (h2 : id ≠ 0x75A2)
    (hat : At r.data pos (element id (beBytes (getUIntSize v) v)))
    (hstop : pos + (element id (beBytes (getUIntSize v) v)).length ≤ stop) :
    blockGroupLoop r stop (F + 1) pos dp =
      blockGroupLoop r stop F (pos + (element id (beBytes (getUIntSize v) v)).length) dp := by
  have hb := getUIntSize_bounds v
  have hlen : (beBytes (getUIntSize v) v).length = getUIntSize v := beBytes_length _ _
  have e := elemAt hid (by omega) hat
  have hl := e.len
  refine blockGroupLoop_other e hr (by omega) ?_ h1 h2
  intro e'; rw [e'] at hlen; simp at hlen; omega

theorem bgl_ref {pos F scale : Nat} {dp : Int} (hat : At r.data pos (refBytes f scale))
    (hstop : pos + (refBytes f scale).length ≤ stop) :
    ∃ F', F ≤ F' ∧ blockGroupLoop r stop (F + 1) pos dp =
      blockGroupLoop r stop F' (pos + (refBytes f scale).length) dp := by
  unfold refBytes at *
  cases h : f.isKey with
  | true => exact ⟨F + 1, by omega, rfl⟩
  | false =>
    rw [h] at hat hstop
    exact ⟨F, Nat.le_refl _, bgl_uint hr (by unfold IsId; decide) (by decide) (by decide) hat hstop⟩

theorem bgl_dur {pos F scale : Nat} {dp : Int} (hat : At r.data pos (durBytes f scale))
    (hstop : pos + (durBytes f scale).length ≤ stop) :
    ∃ F', F ≤ F' ∧ blockGroupLoop r stop (F + 1) pos dp =
      blockGroupLoop r stop F' (pos + (durBytes f scale).length) dp := by
  unfold durBytes at *
  by_cases h : f.duration / scale > 0
  · rw [if_pos h] at *
    exact ⟨F, Nat.le_refl _, bgl_uint hr (by unfold IsId; decide) (by decide) (by decide) hat hstop⟩
  · rw [if_neg h] at *
    exact ⟨F + 1, by omega, rfl⟩

end Group

section Create
variable {r : Rdr} {stop : Nat} {f : Frame}

theorem gl_additions {pos F : Nat} {a : GroupAcc} (hsz : (additionsBytes f).length + 1 < 2 ^ 56)
    (hat : At r.data pos (additionsBytes f)) (hstop : pos + (additionsBytes f).length ≤ stop) :
    ∃ F', F ≤ F' ∧ groupLoop r stop (F + 1) pos a =
      groupLoop r stop F' (pos + (additionsBytes f).length) a := by
  unfold additionsBytes at *
  cases h : f.additional with
  | none => exact ⟨F + 1, by omega, rfl⟩
  | some ad =>
    rw [h] at hsz hat hstop
    simp only at hsz hat hstop ⊢
    generalize hp : element 0xA6 (element 0xEE (beBytes (getUIntSize f.addId) f.addId) ++
      element 0xA5 ad) = p at *
    have hid : IsId 2 0x75A1 := by unfold IsId; decide
    have hpl := element_pos_length hid p
    have e := elemAt hid (by omega) hat
    have hl := e.len
    exact ⟨F, Nat.le_refl _, groupLoop_step e (by omega) rfl⟩

theorem gl_discard {pos F : Nat} {a : GroupAcc}
    (hat : At r.data pos (discardBytes f)) (hstop : pos + (discardBytes f).length ≤ stop) :
    ∃ F', F ≤ F' ∧ groupLoop r stop (F + 1) pos a =
      groupLoop r stop F' (pos + (discardBytes f).length) a := by
  unfold discardBytes at *
  by_cases h : f.discardPadding = 0
  · rw [if_neg (by simp [h])]
    exact ⟨F + 1, by omega, rfl⟩
  · rw [if_pos h] at *
    have hb := getIntSize_bounds f.discardPadding
    have hlen : (twosBytes (getIntSize f.discardPadding) f.discardPadding).length =
        getIntSize f.discardPadding := Web.twosBytes_length _ _
    have hid : IsId 2 0x75A2 := by unfold IsId; decide
    have e := elemAt hid (by omega) hat
    have hl := e.len
    exact ⟨F, Nat.le_refl _, groupLoop_step e (by omega) rfl⟩

/-- The reference makes the parsed times say "not a key frame". -/
theorem gl_ref {pos F scale : Nat} {a : GroupAcc} (hat : At r.data pos (refBytes f scale))
    (hstop : pos + (refBytes f scale).length ≤ stop) (ha : a.prev = 1 ∧ a.next = 0) :
    ∃ F' a', F ≤ F' ∧ groupLoop r stop (F + 1) pos a =
      groupLoop r stop F' (pos + (refBytes f scale).length) a' ∧ a'.blk = a.blk ∧
      a'.duration = a.duration ∧ (decide (a'.prev > 0) && decide (a'.next ≤ 0)) = f.isKey := by
  unfold refBytes at *
  cases h : f.isKey with
  | true => exact ⟨F + 1, a, by omega, rfl, rfl, rfl, by simp [ha]⟩
  | false =>
    rw [h] at hat hstop
    simp only [Bool.not_false, if_true] at hat hstop ⊢
    have hb := getUIntSize_bounds (f.refTime scale)
    have hlen : (beBytes (getUIntSize (f.refTime scale)) (f.refTime scale)).length =
        getUIntSize (f.refTime scale) := beBytes_length _ _
    have hid : IsId 1 0xFB := by unfold IsId; decide
    have e := elemAt hid (by omega) hat
    have hl := e.len
    have hun := unserializeInt_ok (r := r) (by omega) (by omega) e.le
    generalize twosVal (slice r.data _ _) = t at hun
    refine ⟨F, if t ≤ 0 then { a with prev := t } else { a with next := t }, Nat.le_refl _,
      groupLoop_step e (by omega) ?_, ?_, ?_, ?_⟩
    · unfold groupField
      rw [if_neg (by decide), if_neg (by decide), if_pos rfl, Res.refuse_neg (by omega), Res.bind_ok,
        hun]
      rfl
    · split <;> rfl
    · split <;> rfl
    · split
      · simp; omega
      · simp; omega

theorem gl_dur {pos F scale : Nat} {a : GroupAcc} (hd : f.duration / scale < 2 ^ 63)
    (hat : At r.data pos (durBytes f scale)) (hstop : pos + (durBytes f scale).length ≤ stop)
    (ha : a.duration = -1) :
    ∃ F' a', F ≤ F' ∧ groupLoop r stop (F + 1) pos a =
      groupLoop r stop F' (pos + (durBytes f scale).length) a' ∧ a'.blk = a.blk ∧
      a'.prev = a.prev ∧ a'.next = a.next ∧
      a'.duration = if f.duration / scale > 0 then ((f.duration / scale : Nat) : Int) else -1 := by
  unfold durBytes at *
  by_cases h : f.duration / scale > 0
  · rw [if_pos h] at *
    generalize f.duration / scale = v at *
    have hb := getUIntSize_bounds v
    have hlen : (beBytes (getUIntSize v) v).length = getUIntSize v := beBytes_length _ _
    have hid : IsId 1 0x9B := by unfold IsId; decide
    have e := elemAt hid (by omega) hat
    have hl := e.len
    have hun := unserializeUInt_ok (r := r) (by omega) (by omega) e.le
    rw [e.payloadAt.slice_eq rfl, beVal_uint (by omega)] at hun
    have hi : toI64 v = v := by unfold toI64; omega
    rw [hi] at hun
    refine ⟨F, { a with duration := v }, Nat.le_refl _, groupLoop_step e (by omega) ?_, rfl, rfl, rfl,
      by rw [if_pos h]⟩
    unfold groupField unserializeNonneg
    rw [if_neg (by decide), if_pos rfl, Res.refuse_neg (by omega), Res.bind_ok, hun]
    simp only
    rw [if_neg (by omega)]
    rfl
  · rw [if_neg h] at *
    exact ⟨F + 1, a, by omega, rfl, rfl, rfl, rfl, by rw [if_neg h]; exact ha⟩

end Create

theorem parseBlockGroup_ok {r : Rdr} {pos scale : Nat} {f : Frame} {rel : Int} (hr : r.Sane)
    (ht0 : 1 ≤ f.trackNumber) (ht : f.trackNumber ≤ 126) (hrel0 : 0 ≤ rel) (hrel : rel ≤ 0x7FFF)
    (hf : f.frame ≠ []) (hlm : f.frame.length ≤ longMax)
    (hlo : -2 ^ 63 ≤ f.discardPadding) (hhi : f.discardPadding < 2 ^ 63)
    (hd : f.duration / scale < 2 ^ 63)
    (hsz : (groupBytes f rel scale).length + 1 < 2 ^ 56)
    (hat : At r.data pos (groupBytes f rel scale)) :
    ∃ b prev next, parseBlockGroup r (groupBytes f rel scale).length pos =
        .ok (.group b prev next
          (if f.duration / scale > 0 then ((f.duration / scale : Nat) : Int) else -1),
          pos + (groupBytes f rel scale).length) ∧
      b.track = f.trackNumber ∧ b.timecode = rel ∧ b.isKey = f.isKey ∧
      b.discardPadding = f.discardPadding ∧ b.lacing = 0 ∧
      ∃ p, b.frames = [⟨p, f.frame.length⟩] ∧ slice r.data p f.frame.length = f.frame ∧
        p + f.frame.length ≤ r.data.length := by
  have hidA1 : IsId 1 0xA1 := by unfold IsId; decide
  have hpl := blockPayload_length f rel 0
  have hA := element_pos_length hidA1 (blockPayload f rel 0)
  have hne : blockPayload f rel 0 ≠ [] := by intro e; rw [e] at hpl; simp at hpl
  have hfl : 0 < f.frame.length := List.length_pos_iff.mpr hf
  have hle := hat.le (by
    intro e; have := congrArg List.length e; unfold groupBytes at this
    rw [List.length_append, List.length_nil] at this; omega)
  have hgl : (groupBytes f rel scale).length = (element 0xA1 (blockPayload f rel 0)).length +
      (additionsBytes f).length + (discardBytes f).length + (refBytes f scale).length +
      (durBytes f scale).length := by
    unfold groupBytes; simp only [List.length_append]; omega
  generalize hG : (groupBytes f rel scale).length = G at *
  unfold groupBytes at hat
  rw [at_append, at_append, at_append, at_append] at hat
  obtain ⟨a1, a2, a3, a4, a5⟩ := hat
  have e1 := elemAt hidA1 (by omega) a1
  have hl1 := e1.len
  obtain ⟨hb1, hb2, hb3⟩ := blockParse_payload (dp := f.discardPadding) ht0 ht hrel0 hrel hf
    (show ((0 : UInt8) &&& 6) >>> 1 = 0 by decide) e1.payloadAt hlm
  have hhd : At r.data (pos + 1 + sizeWidth (blockPayload f rel 0).length)
      (blockHead 1 f.trackNumber rel 0) := (at_append.mp e1.payloadAt).1
  have hck := checkBlockHead_ok (stop := pos + 1 + sizeWidth (blockPayload f rel 0).length +
    (blockPayload f rel 0).length) hr ht0 (by omega) hhd (by omega) (by decide)
  obtain ⟨F, rfl⟩ : ∃ F, G = F + 5 := ⟨G - 5, by omega⟩
  -- first pass
  have s1 := blockGroupLoop_block (stop := pos + (F + 5)) (f := F + 4) (dp := 0) e1 hr (by omega) hne hck
  obtain ⟨F2, l2, s2⟩ := bgl_additions (stop := pos + (F + 5)) (F := F + 3) (dp := 0) hr (by omega) a2 (by omega)
  obtain ⟨F2', rfl⟩ : ∃ F2', F2 = F2' + 1 := ⟨F2 - 1, by omega⟩
  obtain ⟨F3, l3, s3⟩ := bgl_discard (stop := pos + (F + 5)) (F := F2') hr hlo hhi a3 (by omega)
  obtain ⟨F3', rfl⟩ : ∃ F3', F3 = F3' + 1 := ⟨F3 - 1, by omega⟩
  obtain ⟨F4, l4, s4⟩ := bgl_ref (stop := pos + (F + 5)) (F := F3') (dp := f.discardPadding) hr a4 (by omega)
  obtain ⟨F4', rfl⟩ : ∃ F4', F4 = F4' + 1 := ⟨F4 - 1, by omega⟩
  obtain ⟨F5, l5, s5⟩ := bgl_dur (stop := pos + (F + 5)) (F := F4') (dp := f.discardPadding) hr a5 (by omega)
  have hend : pos + (element 0xA1 (blockPayload f rel 0)).length + (additionsBytes f).length +
      (discardBytes f).length + (refBytes f scale).length + (durBytes f scale).length =
      pos + (F + 5) := by omega
  rw [hend, blockGroupLoop_end] at s5
  -- second pass
  have t1 := groupLoop_step (stop := pos + (F + 5)) (f := F + 4) (a := {}) e1 (by omega) rfl
  obtain ⟨H2, m2, t2⟩ := gl_additions (stop := pos + (F + 5)) (F := F + 3)
    (a := { ({} : GroupAcc) with blk := some (_, (blockPayload f rel 0).length) }) (by omega) a2 (by omega)
  obtain ⟨H2', rfl⟩ : ∃ H2', H2 = H2' + 1 := ⟨H2 - 1, by omega⟩
  obtain ⟨H3, m3, t3⟩ := gl_discard (stop := pos + (F + 5)) (F := H2')
    (a := { ({} : GroupAcc) with blk := some (pos + 1 + sizeWidth (blockPayload f rel 0).length, (blockPayload f rel 0).length) }) a3 (by omega)
  obtain ⟨H3', rfl⟩ : ∃ H3', H3 = H3' + 1 := ⟨H3 - 1, by omega⟩
  obtain ⟨H4, ac4, m4, t4, u1, u2, u3⟩ := gl_ref (stop := pos + (F + 5)) (F := H3')
    (a := { ({} : GroupAcc) with blk := some (pos + 1 + sizeWidth (blockPayload f rel 0).length, (blockPayload f rel 0).length) }) a4 (by omega) ⟨rfl, rfl⟩
  obtain ⟨H4', rfl⟩ : ∃ H4', H4 = H4' + 1 := ⟨H4 - 1, by omega⟩
  obtain ⟨H5, ac5, m5, t5, v1, v2, v3, v4⟩ := gl_dur (stop := pos + (F + 5)) (F := H4') hd a5 (by omega) u2
  rw [hend, groupLoop_end] at t5
  have hgroup : groupLoop r (pos + (F + 5)) (F + 5) pos {} = .ok (pos + (F + 5), ac5) := by
    rw [t1]; exact t2.trans (t3.trans (t4.trans t5))
  have hbg : blockGroupLoop r (pos + (F + 5)) (F + 5) pos 0 = .ok (pos + (F + 5), f.discardPadding) := by
    rw [s1, s2, s3, s4, s5]
  have hblk : ac5.blk = some (pos + 1 + sizeWidth (blockPayload f rel 0).length,
      (blockPayload f rel 0).length) := v1.trans u1
  refine ⟨Block.setKey ⟨pos + 1 + sizeWidth (blockPayload f rel 0).length,
    (blockPayload f rel 0).length, f.trackNumber, rel, 0,
    [⟨pos + 1 + sizeWidth (blockPayload f rel 0).length + 4, f.frame.length⟩], f.discardPadding⟩
    f.isKey, ac5.prev, ac5.next, ?_, ?_⟩
  · unfold parseBlockGroup createBlockGroup
    unfold Rdr.Sane at hr
    rw [Res.assert_pos hr, Res.bind_ok]
    simp only
    rw [Res.refuse_neg (by omega), Res.bind_ok, Res.refuse_neg (by omega), Res.bind_ok, hbg]
    simp only [Res.bind_ok]
    rw [Res.refuse_neg (by omega), Res.bind_ok, hgroup]
    simp only [Res.bind_ok]
    rw [hblk]
    simp only
    rw [Res.refuse_neg (by omega), Res.bind_ok, hb1]
    simp only [Res.bind_ok]
    rw [v4, v2, v3, u3]
  · refine ⟨rfl, rfl, ?_, rfl, ?_, _, rfl, hb2, hb3⟩ <;> cases f.isKey <;>
      simp only [Block.setKey, Block.isKey, Block.lacing] <;> decide

end Verif.Par
