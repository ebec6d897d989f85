/-
mkvparser reads any block that the format allows for a frame (Spec/Muxer.lean, `IsBlock`).
-/
import Verif.Lemmas.ParserHead
import Verif.Spec.Watching

namespace Verif.Par
open Verif Spec Mux

/-- The first loop over a BlockGroup passes `bs`, which stands at `pos`. -/
def Pass1 (r : Rdr) (stop pos : Nat) (bs : Bytes) (dp dp' : Int) : Prop :=
  ∀ F, ∃ F', F ≤ F' ∧ blockGroupLoop r stop (F + 1) pos dp = blockGroupLoop r stop F' (pos + bs.length) dp'

/-- The second loop passes it. -/
def Pass2 (r : Rdr) (stop pos : Nat) (bs : Bytes) (a a' : GroupAcc) : Prop :=
  ∀ F, ∃ F', F ≤ F' ∧ groupLoop r stop (F + 1) pos a = groupLoop r stop F' (pos + bs.length) a'

theorem Pass1.nil {r : Rdr} {stop pos : Nat} {dp : Int} : Pass1 r stop pos [] dp dp :=
  fun F => ⟨F + 1, by omega, rfl⟩

theorem Pass2.nil {r : Rdr} {stop pos : Nat} {a : GroupAcc} : Pass2 r stop pos [] a a :=
  fun F => ⟨F + 1, by omega, rfl⟩

section
variable {r : Rdr} {stop pos : Nat}

theorem Pass1.other {n id : Nat} {payload : Bytes} {dp : Int} (hid : IsId n id) (hr : r.Sane)
    (hsz : payload.length + 1 < 2 ^ 56) (hat : At r.data pos (element id payload))
    (hstop : pos + (element id payload).length ≤ stop) (h0 : payload ≠ []) (h1 : id ≠ 0xA1) (h2 : id ≠ 0x75A2) :
    Pass1 r stop pos (element id payload) dp dp := by
  have e := elemAt hid hsz hat
  have hl := e.len
  exact fun F => ⟨F, Nat.le_refl _, blockGroupLoop_other e hr (by omega) h0 h1 h2⟩

theorem Pass2.other {n id : Nat} {payload : Bytes} {a a' : GroupAcc} (hid : IsId n id)
    (hsz : payload.length + 1 < 2 ^ 56) (hat : At r.data pos (element id payload))
    (hstop : pos + (element id payload).length ≤ stop)
    (ha : groupField r id (pos + n + sizeWidth payload.length) payload.length a = .ok a') :
    Pass2 r stop pos (element id payload) a a' := by
  have e := elemAt hid hsz hat
  have hl := e.len
  exact fun F => ⟨F, Nat.le_refl _, groupLoop_step e (by omega) ha⟩

/-- What the parts after the block in a BlockGroup lead to. -/
theorem additions_pass {f : Frame} {bs : Bytes} {dp : Int} {a : GroupAcc} (hr : r.Sane)
    (h : IsAdditions f.additional f.addId bs) (hsz : bs.length + 1 < 2 ^ 56) (hat : At r.data pos bs)
    (hstop : pos + bs.length ≤ stop) : Pass1 r stop pos bs dp dp ∧ Pass2 r stop pos bs a a := by
  unfold IsAdditions at h
  cases hf : f.additional with
  | none =>
    rw [hf] at h
    simp only at h
    subst h
    exact ⟨.nil, .nil⟩
  | some ad =>
    rw [hf] at h
    simp only at h
    obtain ⟨i, -, rfl⟩ := h
    generalize hp : element 0xA6 (i ++ element 0xA5 ad) = p at *
    have hid : IsId 2 0x75A1 := by unfold IsId; decide
    have hpl := element_pos_length hid p
    have hne : p ≠ [] := by
      rw [← hp]; intro e'
      have := element_pos_length (n := 1) (id := 0xA6) (by unfold IsId; decide) (i ++ element 0xA5 ad)
      rw [e'] at this; simp at this
    exact ⟨.other hid hr (by omega) hat hstop hne (by decide) (by decide),
      .other hid (by omega) hat hstop rfl⟩

theorem padding_pass {f : Frame} {bs : Bytes} {a : GroupAcc} (hr : r.Sane)
    (hlo : -2 ^ 63 ≤ f.discardPadding) (hhi : f.discardPadding < 2 ^ 63)
    (h : if f.discardPadding = 0 then bs = [] else IsIntElement 0x75A2 f.discardPadding bs)
    (hat : At r.data pos bs) (hstop : pos + bs.length ≤ stop) :
    Pass1 r stop pos bs 0 f.discardPadding ∧ Pass2 r stop pos bs a a := by
  by_cases h0 : f.discardPadding = 0
  · rw [if_pos h0] at h
    subst h
    rw [h0]
    exact ⟨.nil, .nil⟩
  · rw [if_neg h0] at h
    obtain ⟨w, w1, w8, hv, rfl⟩ := h
    have hlen : (twosBytes w f.discardPadding).length = w := Web.twosBytes_length _ _
    have hid : IsId 2 0x75A2 := by unfold IsId; decide
    have e := elemAt hid (by omega) hat
    have hl := e.len
    refine ⟨fun F => ⟨F, Nat.le_refl _, blockGroupLoop_discard e hr (by omega) ?_ ?_⟩,
      .other hid (by omega) hat hstop rfl⟩
    · intro e'; rw [e'] at hlen; simp at hlen; omega
    · rw [unserializeInt_ok (by omega) (by omega) e.le, e.payloadAt.slice_eq rfl,
        Web.twosVal_twosBytes w1 (hv hlo hhi)]

/-- The reference makes the parsed times say "not a key frame". -/
theorem reference_pass {f : Frame} {bs : Bytes} {dp : Int} {v : Nat} {a : GroupAcc} (hr : r.Sane)
    (h : if f.isKey then bs = [] else IsUIntElement 0xFB v bs)
    (hat : At r.data pos bs) (hstop : pos + bs.length ≤ stop) (ha : a.prev = 1 ∧ a.next = 0) :
    Pass1 r stop pos bs dp dp ∧ ∃ a', Pass2 r stop pos bs a a' ∧ a'.blk = a.blk ∧
      a'.duration = a.duration ∧ (decide (a'.prev > 0) && decide (a'.next ≤ 0)) = f.isKey := by
  cases hk : f.isKey with
  | true =>
    rw [hk, if_pos rfl] at h
    subst h
    exact ⟨.nil, a, .nil, rfl, rfl, by simp [ha]⟩
  | false =>
    rw [hk, if_neg (by decide)] at h
    obtain ⟨w, w1, w8, -, rfl⟩ := h
    have hlen : (beBytes w v).length = w := beBytes_length _ _
    have hid : IsId 1 0xFB := by unfold IsId; decide
    have e := elemAt hid (by omega) hat
    have hl := e.len
    have hun := unserializeInt_ok (r := r) (by omega) (by omega) e.le
    generalize twosVal (slice r.data _ _) = t at hun
    refine ⟨.other hid hr (by omega) hat hstop ?_ (by decide) (by decide),
      if t ≤ 0 then { a with prev := t } else { a with next := t }, .other hid (by omega) hat hstop ?_, ?_, ?_, ?_⟩
    · intro e'; rw [e'] at hlen; simp at hlen; omega
    · unfold groupField
      rw [if_neg (by decide), if_neg (by decide), if_pos rfl, Res.refuse_neg (by omega), Res.bind_ok, hun]
      rfl
    · split <;> rfl
    · split <;> rfl
    · split
      · simp; omega
      · simp; omega

theorem duration_pass {bs : Bytes} {dp : Int} {v : Nat} {a : GroupAcc} (hr : r.Sane) (hv : v < 2 ^ 63)
    (h : if v = 0 then bs = [] else IsUIntElement 0x9B v bs)
    (hat : At r.data pos bs) (hstop : pos + bs.length ≤ stop) (ha : a.duration = -1) :
    Pass1 r stop pos bs dp dp ∧ ∃ a', Pass2 r stop pos bs a a' ∧ a'.blk = a.blk ∧
      a'.prev = a.prev ∧ a'.next = a.next ∧ a'.duration.toNat = v := by
  by_cases h0 : v = 0
  · rw [if_pos h0] at h
    subst h
    exact ⟨.nil, a, .nil, rfl, rfl, rfl, by rw [ha, h0]; rfl⟩
  · rw [if_neg h0] at h
    obtain ⟨w, w1, w8, hw, rfl⟩ := h
    have hlen : (beBytes w v).length = w := beBytes_length _ _
    have hid : IsId 1 0x9B := by unfold IsId; decide
    have e := elemAt hid (by omega) hat
    have hl := e.len
    have hun := unserializeUInt_ok (r := r) (by omega) (by omega) e.le
    rw [e.payloadAt.slice_eq rfl, beVal_beBytes, Nat.mod_eq_of_lt (hw (by omega))] at hun
    have hi : toI64 v = v := by unfold toI64; omega
    rw [hi] at hun
    refine ⟨.other hid hr (by omega) hat hstop ?_ (by decide) (by decide),
      { a with duration := v }, .other hid (by omega) hat hstop ?_, rfl, rfl, rfl, rfl⟩
    · intro e'; rw [e'] at hlen; simp at hlen; omega
    · unfold groupField unserializeNonneg
      rw [if_neg (by decide), if_pos rfl, Res.refuse_neg (by omega), Res.bind_ok, hun]
      simp only
      rw [if_neg (by omega)]
      rfl

end

/-- A block in the file shows the frame. -/
theorem watchEntry_ok {r : Rdr} {tc scale p : Nat} {f : Frame} {e : Entry}
    (h1 : tc ≤ f.timestamp / scale) (h63 : f.timestamp / scale < 2 ^ 63)
    (ht : e.block.track = f.trackNumber) (hrel : e.block.timecode = (f.timestamp / scale : Nat) - (tc : Int))
    (hk : e.block.isKey = f.isKey) (hp : e.block.discardPadding = f.discardPadding)
    (hd : shownDuration e = f.duration / scale)
    (hfr : e.block.frames = [⟨p, f.frame.length⟩]) (hs : slice r.data p f.frame.length = f.frame)
    (hle : p + f.frame.length ≤ r.data.length) :
    watchEntry r tc e = .ok [f.asWatched scale] := by
  unfold watchEntry
  rw [hfr]
  unfold watchFrames blockGetTimeCode
  rw [if_neg (by omega), if_neg (by rw [hrel]; unfold llongMax; omega), hrel]
  simp only [Res.bind_ok]
  have hread : (BFrame.read ⟨p, f.frame.length⟩ r) = .ok f.frame := by
    unfold BFrame.read Rdr.read
    rw [if_pos (.inr hle), hs]
  rw [hread]
  simp only [Res.bind_ok, watchFrames]
  have : (tc : Int) + ((f.timestamp / scale : Nat) - (tc : Int)) = (f.timestamp / scale : Nat) := by omega
  rw [this]
  refine congrArg (fun x => Res.ok [x]) ?_
  unfold Frame.asWatched Frame.asSeen
  simp only [SeenFrame.mk.injEq]
  exact ⟨trivial, ht, trivial, hk, hd, hp, trivial⟩

/-- What one block of the format gives. -/
structure BlockAt (r : Rdr) (tc scale pos : Nat) (f : Frame) (len id m : Nat) (payload : Bytes) (e : Entry) : Prop where
  isBlock : id = 0xA0 ∨ id = 0xA3
  elem : ElemAt r pos 1 id m payload
  ne : payload ≠ []
  length : len = 1 + m + payload.length
  parse : (if id = 0xA0 then parseBlockGroup r payload.length (pos + 1 + m)
    else parseSimpleBlock r payload.length (pos + 1 + m)) = .ok (e, pos + len)
  watch : watchEntry r tc e = .ok [f.asWatched scale]
  inside : e.block.start + e.block.size ≤ pos + len

theorem blockAt {r : Rdr} {tc scale pos : Nat} {f : Frame} {b : Bytes} (hr : r.Sane)
    (h : IsBlock tc scale f b) (hat : At r.data pos b) (hsz : b.length + 1 < 2 ^ 56)
    (h63 : f.timestamp / scale < 2 ^ 63) (hpad : -2 ^ 63 ≤ f.discardPadding ∧ f.discardPadding < 2 ^ 63)
    (hdur : f.duration / scale < 2 ^ 63) :
    ∃ id m payload e, BlockAt r tc scale pos f b.length id m payload e := by
  obtain ⟨hlo, hhi, hfr, ht0, ht, hadd, h⟩ := h
  have hfl : 0 < f.frame.length := List.length_pos_iff.mpr hfr
  generalize hrel : ((f.timestamp / scale : Nat) : Int) - (tc : Int) = rel at h
  have hrel0 : 0 ≤ rel := by omega
  have hrel1 : rel ≤ 0x7FFF := by omega
  split at h
  · rename_i hc
    obtain ⟨hc1, hc2, hc3⟩ := hc
    generalize hflags : (if f.isKey then (0x80 : UInt8) else 0) = flags at h
    have hfl2 : ∀ k : Bool, ((if k then (0x80 : UInt8) else 0) &&& 6) >>> 1 = 0 ∧
        ((if k then (0x80 : UInt8) else 0) &&& 0x80 != 0) = k := by decide
    have hlace : (flags &&& 6) >>> 1 = 0 := by rw [← hflags]; exact (hfl2 f.isKey).1
    have hkey : (flags &&& 0x80 != 0) = f.isKey := by rw [← hflags]; exact (hfl2 f.isKey).2
    change b = element 0xA3 (blockPayload f rel flags) at h
    subst h
    have hid : IsId 1 0xA3 := by unfold IsId; decide
    have hpl := blockPayload_length f rel flags
    have hA := element_pos_length hid (blockPayload f rel flags)
    have e1 := elemAt hid (by omega) hat
    have hl1 := e1.len
    have hle := e1.le
    obtain ⟨hb1, hb2, hb3⟩ := blockParse_payload (dp := 0) ht0 ht hrel0 hrel1 hfr hlace e1.payloadAt
      (by unfold longMax; omega)
    have hhd := (at_append.mp e1.payloadAt).1
    have hck := checkBlockHead_ok (stop := pos + 1 + sizeWidth (blockPayload f rel flags).length +
      (blockPayload f rel flags).length) hr ht0 (by omega) hhd (by omega) hlace
    refine ⟨0xA3, _, _, .simple ⟨pos + 1 + sizeWidth (blockPayload f rel flags).length, (blockPayload f rel flags).length,
        f.trackNumber, rel, flags, [⟨pos + 1 + sizeWidth (blockPayload f rel flags).length + 4, f.frame.length⟩], 0⟩,
      .inr rfl, e1, ?_, hl1, ?_, ?_, ?_⟩
    · intro e; rw [e] at hpl; simp at hpl
    · rw [if_neg (by decide)]
      unfold parseSimpleBlock createSimpleBlock
      unfold Rdr.Sane at hr
      rw [Res.assert_pos hr, Res.bind_ok, hck, Res.bind_ok, hb1]
      simp only [Res.bind_ok]
      rw [hl1]
      simp only [Nat.add_assoc]
    · refine watchEntry_ok hlo h63 rfl hrel.symm hkey ?_ ?_ rfl hb2 hb3
      · exact hc2.symm
      · show 0 = _
        rw [hc3, Nat.zero_div]
    · show pos + 1 + sizeWidth (blockPayload f rel flags).length + (blockPayload f rel flags).length ≤ _
      omega
  · obtain ⟨additions, padding, reference, duration, d1, d2, d3, d4, rfl⟩ := h
    change At r.data pos (element 0xA0 (element 0xA1 (blockPayload f rel 0) ++ _)) at hat
    change (element 0xA0 (element 0xA1 (blockPayload f rel 0) ++ _)).length + 1 < _ at hsz
    show ∃ id m payload e, BlockAt r tc scale pos f (element 0xA0 (element 0xA1 (blockPayload f rel 0) ++
      (additions ++ (padding ++ (reference ++ duration))))).length id m payload e
    have hid : IsId 1 0xA0 := by unfold IsId; decide
    have hidA1 : IsId 1 0xA1 := by unfold IsId; decide
    generalize hP : element 0xA1 (blockPayload f rel 0) ++ (additions ++ (padding ++ (reference ++ duration))) = P at *
    have hpl := blockPayload_length f rel 0
    have hA := element_pos_length hidA1 (blockPayload f rel 0)
    have hB := element_pos_length hid P
    have hPl : P.length = (element 0xA1 (blockPayload f rel 0)).length + additions.length + padding.length +
        reference.length + duration.length := by rw [← hP]; simp only [List.length_append]; omega
    have hne : blockPayload f rel 0 ≠ [] := by intro e; rw [e] at hpl; simp at hpl
    have e0 := elemAt hid (by omega) hat
    have hl0 := e0.len
    have hle := e0.le
    have hat' := e0.payloadAt
    generalize hq : pos + 1 + sizeWidth P.length = q at *
    rw [← hP, at_append, at_append, at_append, at_append] at hat'
    obtain ⟨a1, a2, a3, a4, a5⟩ := hat'
    have e1 := elemAt hidA1 (by omega) a1
    have hl1 := e1.len
    obtain ⟨hb1, hb2, hb3⟩ := blockParse_payload (dp := f.discardPadding) ht0 ht hrel0 hrel1 hfr
      (show ((0 : UInt8) &&& 6) >>> 1 = 0 by decide) e1.payloadAt (by unfold longMax; omega)
    have hhd : At r.data (q + 1 + sizeWidth (blockPayload f rel 0).length)
        (blockHead 1 f.trackNumber rel 0) := (at_append.mp e1.payloadAt).1
    have hck := checkBlockHead_ok (stop := q + 1 + sizeWidth (blockPayload f rel 0).length +
      (blockPayload f rel 0).length) hr ht0 (by omega) hhd (by omega) (by decide)
    obtain ⟨F, hF⟩ : ∃ F, P.length = F + 5 := ⟨P.length - 5, by omega⟩
    let acc : GroupAcc := { blk := some (q + 1 + sizeWidth (blockPayload f rel 0).length, (blockPayload f rel 0).length) }
    have p2 := additions_pass (stop := q + P.length) (dp := 0) (a := acc) hr d1 (by omega) a2 (by omega)
    have p3 := padding_pass (stop := q + P.length) (a := acc) hr hpad.1 hpad.2 d2 a3 (by omega)
    obtain ⟨p4, ac4, t4', u1, u2, u3⟩ := reference_pass (stop := q + P.length) (dp := f.discardPadding) (a := acc) hr d3 a4
      (by omega) ⟨rfl, rfl⟩
    obtain ⟨p5, ac5, t5', v1, v2, v3, v4⟩ := duration_pass (stop := q + P.length) (dp := f.discardPadding) (a := ac4) hr
      hdur d4 a5 (by omega) u2
    -- first pass
    have s1 := blockGroupLoop_block (stop := q + P.length) (f := F + 4) (dp := 0) e1 hr (by omega) hne hck
    obtain ⟨F2, l2, s2⟩ := p2.1 (F + 3)
    obtain ⟨F2', rfl⟩ : ∃ F2', F2 = F2' + 1 := ⟨F2 - 1, by omega⟩
    obtain ⟨F3, l3, s3⟩ := p3.1 F2'
    obtain ⟨F3', rfl⟩ : ∃ F3', F3 = F3' + 1 := ⟨F3 - 1, by omega⟩
    obtain ⟨F4, l4, s4⟩ := p4 F3'
    obtain ⟨F4', rfl⟩ : ∃ F4', F4 = F4' + 1 := ⟨F4 - 1, by omega⟩
    obtain ⟨F5, l5, s5⟩ := p5 F4'
    have hend : q + (element 0xA1 (blockPayload f rel 0)).length + additions.length + padding.length +
        reference.length + duration.length = q + P.length := by omega
    rw [hend, blockGroupLoop_end] at s5
    -- second pass
    have t1 := groupLoop_step (stop := q + P.length) (f := F + 4) (a := {}) (a' := acc) e1 (by omega) rfl
    obtain ⟨H2, m2, t2⟩ := p2.2 (F + 3)
    obtain ⟨H2', rfl⟩ : ∃ H2', H2 = H2' + 1 := ⟨H2 - 1, by omega⟩
    obtain ⟨H3, m3, t3⟩ := p3.2 H2'
    obtain ⟨H3', rfl⟩ : ∃ H3', H3 = H3' + 1 := ⟨H3 - 1, by omega⟩
    obtain ⟨H4, m4, t4⟩ := t4' H3'
    obtain ⟨H4', rfl⟩ : ∃ H4', H4 = H4' + 1 := ⟨H4 - 1, by omega⟩
    obtain ⟨H5, m5, t5⟩ := t5' H4'
    rw [hend, groupLoop_end] at t5
    have hgroup : groupLoop r (q + P.length) P.length q {} = .ok (q + P.length, ac5) := by
      rw [show groupLoop r (q + P.length) P.length q {} = groupLoop r (q + P.length) (F + 5) q {} by rw [hF], t1]
      exact t2.trans (t3.trans (t4.trans t5))
    have hbg : blockGroupLoop r (q + P.length) P.length q 0 = .ok (q + P.length, f.discardPadding) := by
      rw [show blockGroupLoop r (q + P.length) P.length q 0 = blockGroupLoop r (q + P.length) (F + 5) q 0 by rw [hF],
        s1, s2, s3, s4, s5]
    have hblk : ac5.blk = some (q + 1 + sizeWidth (blockPayload f rel 0).length,
        (blockPayload f rel 0).length) := v1.trans u1
    refine ⟨0xA0, _, _, .group (Block.setKey ⟨q + 1 + sizeWidth (blockPayload f rel 0).length,
      (blockPayload f rel 0).length, f.trackNumber, rel, 0,
      [⟨q + 1 + sizeWidth (blockPayload f rel 0).length + 4, f.frame.length⟩], f.discardPadding⟩
      f.isKey) ac5.prev ac5.next ac5.duration, .inl rfl, e0, ?_, hl0, ?_, ?_, ?_⟩
    · intro e; rw [e] at hPl; simp at hPl; omega
    · rw [if_pos rfl, hq]
      unfold parseBlockGroup createBlockGroup
      unfold Rdr.Sane at hr
      rw [Res.assert_pos hr, Res.bind_ok]
      simp only
      rw [Res.refuse_neg (by omega), Res.bind_ok, Res.refuse_neg (by omega), Res.bind_ok, hbg]
      simp only [Res.bind_ok]
      rw [Res.refuse_neg (by omega), Res.bind_ok, hgroup]
      simp only [Res.bind_ok]
      rw [hblk]
      simp only
      rw [Res.refuse_neg (by omega), Res.bind_ok, hb1]
      simp only [Res.bind_ok]
      rw [v2, v3, u3, hl0, ← hq]
      simp only [Nat.add_assoc]
    · refine watchEntry_ok hlo h63 rfl hrel.symm ?_ rfl v4 rfl hb2 hb3
      cases f.isKey <;> simp only [Entry.block, Block.setKey, Block.isKey] <;> decide
    · show q + 1 + sizeWidth (blockPayload f rel 0).length + (blockPayload f rel 0).length ≤ _
      omega

end Verif.Par
