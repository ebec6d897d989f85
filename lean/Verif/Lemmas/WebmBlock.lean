/-
Helper lemmas about the incremental block parser.
-/
import Verif.Model.WebmBlock
import Verif.Lemmas.WebmLoop

namespace Verif.Web
open Verif Verif.Spec

theorem onFrame_eq (size : Nat) (buf : Bytes) (s : Src) (x : Bytes) :
    onFrame size buf s = ((ByteP.feed false ⟨size, buf, x⟩ s).1,
      (ByteP.feed false ⟨size, buf, x⟩ s).2.1.got,
      (ByteP.feed false ⟨size, buf, x⟩ s).2.2.1, (ByteP.feed false ⟨size, buf, x⟩ s).2.2.2) := by
  unfold onFrame ByteP.feed
  simp only
  split
  · rfl
  · rcases byteLoop size (size - buf.length + 1) buf s with ⟨st, g, s', k⟩
    simp only
    split <;> rfl

theorem onFrame_step (size : Nat) (buf : Bytes) (s : Src) (h : buf.length ≤ size) :
    StepOk (onFrame size) (fun b => b.length ≤ size) buf s := by
  have hs := ByteP.feed_step false ⟨size, buf, []⟩ s h
  have key : (ByteP.feed false ⟨size, buf, []⟩ s).2.1.size = size := by
    unfold ByteP.feed
    simp only
    split
    · rfl
    · rcases byteLoop size (size - buf.length + 1) buf s with ⟨st, g, s', k⟩
      simp only
      split <;> rfl
  intro st p' s' k he
  rw [onFrame_eq _ _ _ []] at he ⊢
  rcases hr : ByteP.feed false ⟨size, buf, []⟩ s with ⟨st1, p1, s1, k1⟩
  rw [hr] at he key
  simp only [Prod.mk.injEq] at he key
  obtain ⟨rfl, rfl, rfl, rfl⟩ := he
  obtain ⟨h0, h1, h2⟩ := hs _ _ _ _ hr
  obtain ⟨z, g, x⟩ := p1
  simp only at key
  subst key
  refine ⟨h0, fun hst => ?_, fun hst => ?_⟩
  · rw [h1 hst]
  · obtain ⟨g1, g2, g3⟩ := h2 hst
    refine ⟨g1, g2, ?_⟩
    rw [onFrame_eq _ _ _ x, g3]
    rfl

theorem byteLoop_adv (size f : Nat) (got : Bytes) (s : Src) (h : got.length < size)
    (hf : size - got.length < f) {st : Status} {got' : Bytes} {s' : Src} {k : Nat}
    (he : byteLoop size f got s = (st, got', s', k)) : Adv st s s' k := by
  obtain ⟨ds, i1, i2, i3, i4, i5, i6⟩ := byteLoop_facts size f got s h hf he
  refine ⟨⟨ds, i1, i3.symm, i4⟩, ?_⟩
  rcases i6 with ⟨rfl, -⟩ | ⟨rfl, -⟩ | ⟨rfl, -⟩ <;> simp

theorem onFrame_adv (size : Nat) (buf : Bytes) (s : Src) (h : buf.length ≤ size)
    {st : Status} {buf' : Bytes} {s' : Src} {k : Nat}
    (he : onFrame size buf s = (st, buf', s', k)) : Adv st s s' k := by
  unfold onFrame at he
  split at he
  · simp only [Prod.mk.injEq] at he
    obtain ⟨rfl, rfl, rfl, rfl⟩ := he
    exact ⟨Advance.refl _, .inl rfl⟩
  · exact byteLoop_adv _ _ _ _ (by omega) (by omega) he

/-- A completed `OnFrame`: it delivered the next bytes of the input. -/
theorem onFrame_done {size : Nat} {buf : Bytes} {s : Src} (h : buf.length ≤ size)
    {buf' : Bytes} {s' : Src} {k : Nat}
    (he : onFrame size buf s = (.okCompleted, buf', s', k)) :
    ∃ ds, s.bytes = ds ++ s'.bytes ∧ buf' = buf ++ ds ∧ buf'.length = size ∧ ds.length = k ∧
      s'.pos = s.pos + k := by
  unfold onFrame at he
  split at he
  · next hb =>
    simp only [Prod.mk.injEq, true_and] at he
    obtain ⟨rfl, rfl, rfl⟩ := he
    exact ⟨[], rfl, by simp, hb, rfl, rfl⟩
  · obtain ⟨ds, i1, i2, i3, i4, i5, i6⟩ := byteLoop_facts _ _ _ _ (by omega) (by omega) he
    rcases i6 with ⟨-, c⟩ | ⟨hx, -⟩ | ⟨hx, -⟩
    · exact ⟨ds, i1, i2, by rw [i2, List.length_append, c]; omega, i3.symm, i4⟩
    · cases hx
    · cases hx

/-- `byteLoop` with everything in view only depends on how much is missing. -/
theorem byteLoop_shift (size f : Nat) (pre got : Bytes) (s : Src) :
    byteLoop (pre.length + size) f (pre ++ got) s =
      match byteLoop size f got s with
      | (st, g, s', k) => (st, pre ++ g, s', k) := by
  induction f generalizing got s with
  | zero => rfl
  | succ f ih =>
    rw [byteLoop, byteLoop]
    rw [List.length_append, show pre.length + size - (pre.length + got.length) = size - got.length
      by omega]
    rcases s.read (size - got.length) with ⟨st, bs, s'⟩
    simp only [List.append_assoc]
    split
    · rw [ih]
    · rfl

theorem skipFeed_step (rem : Nat) (s : Src) : StepOk skipFeed (fun _ => True) rem s := by
  intro st p' s' k he
  by_cases h0 : rem = 0
  · subst h0
    simp only [skipFeed, if_true, Prod.mk.injEq] at he ⊢
    obtain ⟨rfl, rfl, rfl, rfl⟩ := he
    exact ⟨Nat.le_refl _, fun _ => ⟨rfl, rfl, rfl, rfl⟩, fun h => by cases h⟩
  · have hs : ∀ s, onFrame rem [] s = byteLoop rem (rem + 1) [] s := by
      intro s
      unfold onFrame
      rw [if_neg (by simp; omega)]
      rfl
    have hp := onFrame_step rem [] s (by simp)
    unfold skipFeed at he
    rw [if_neg h0, ← hs] at he
    rcases hr : onFrame rem [] s with ⟨st1, b, s1, k1⟩
    rw [hr] at he
    simp only [Prod.mk.injEq] at he
    obtain ⟨rfl, rfl, rfl, rfl⟩ := he
    obtain ⟨i0, i1, i2⟩ := hp _ _ _ _ hr
    refine ⟨i0, fun hst => ?_, fun hst => ?_⟩
    · unfold skipFeed
      rw [if_neg h0, ← hs, i1 hst]
    · obtain ⟨j1, j2, j3⟩ := i2 hst
      refine ⟨j1, trivial, ?_⟩
      have hb : b.length = k1 ∧ k1 < rem := by
        rw [hs] at hr
        obtain ⟨ds, e1, e2, e3, -, -, e6⟩ := byteLoop_facts _ _ _ _ (by simp; omega) (by simp) hr
        rw [e2]
        simp only [List.nil_append, List.length_nil, Nat.sub_zero] at e6 ⊢
        refine ⟨e3.symm, ?_⟩
        rcases e6 with ⟨rfl, -⟩ | ⟨rfl, -⟩ | ⟨rfl, -, c⟩
        · cases hst
        · cases hst
        · omega
      have hfu : ∀ n f f' (s : Src), n ≠ 0 → n < f → n < f' →
          byteLoop n f [] s.flat = byteLoop n f' [] s.flat := by
        intro n f f' s hn hf hf'
        rw [flat_eq, byteLoop_all _ _ _ _ _ (by simp; omega) (by simp; omega),
          byteLoop_all _ _ _ _ _ (by simp; omega) (by simp; omega)]
      have hsh := byteLoop_shift (rem - k1) (rem - k1 + 1) b [] s1.flat
      rw [hb.1, show k1 + (rem - k1) = rem by omega, List.append_nil] at hsh
      unfold skipFeed
      rw [if_neg h0, if_neg (by omega), ← hs, j3]
      unfold onFrame
      rw [if_neg (by omega), hb.1, hsh]
      rcases byteLoop (rem - k1) (rem - k1 + 1) [] s1.flat with ⟨st2, b2, s2, k2⟩
      simp [Nat.sub_sub]

theorem skipFeed_stall {rem : Nat} {s : Src} {st : Status} {r' : Nat} {s' : Src} {k : Nat}
    (he : skipFeed rem s = (st, r', s', k)) (hst : st.isStall = true) : r' = rem - k ∧ k < rem := by
  unfold skipFeed at he
  split at he
  · simp only [Prod.mk.injEq] at he
    rw [← he.1] at hst; cases hst
  · next h0 =>
    generalize hr : byteLoop rem (rem + 1) [] s = r at he
    obtain ⟨st1, b, s1, k1⟩ := r
    simp only [Prod.mk.injEq] at he
    obtain ⟨rfl, rfl, rfl, rfl⟩ := he
    obtain ⟨ds, e1, e2, e3, -, -, e6⟩ := byteLoop_facts _ _ _ _ (by simp; omega) (by simp) hr
    refine ⟨rfl, ?_⟩
    simp only [List.length_nil, Nat.sub_zero] at e6
    rcases e6 with ⟨rfl, -⟩ | ⟨rfl, -⟩ | ⟨rfl, -, c⟩
    · cases hst
    · cases hst
    · omega

theorem skipFeed_adv (rem : Nat) (s : Src) {st : Status} {r' : Nat} {s' : Src} {k : Nat}
    (he : skipFeed rem s = (st, r', s', k)) : Adv st s s' k := by
  unfold skipFeed at he
  split at he
  · simp only [Prod.mk.injEq] at he
    obtain ⟨rfl, rfl, rfl, rfl⟩ := he
    exact ⟨Advance.refl _, .inl rfl⟩
  · next h0 =>
    generalize hr : byteLoop rem (rem + 1) [] s = r at he
    obtain ⟨st1, b, s1, k1⟩ := r
    simp only [Prod.mk.injEq] at he
    obtain ⟨rfl, rfl, rfl, rfl⟩ := he
    exact byteLoop_adv _ _ _ _ (by simp; omega) (by simp) hr

theorem BlockHdr.feedFlags_done {p : BlockHdr} {s : Src} {p' s' k}
    (h : p.feedFlags s = (.okCompleted, p', s', k)) : p'.state = .done := by
  unfold BlockHdr.feedFlags at h
  have hb := readByte_advance s
  rcases hr : s.readByte with ⟨st1, b, s1⟩
  rw [hr] at hb h
  cases b with
  | none =>
    simp only [Prod.mk.injEq] at hb h
    rcases hb.1 with rfl | rfl <;> cases h.1
  | some b =>
    simp only [Prod.mk.injEq, true_and] at h
    rw [← h.1]

theorem BlockHdr.feedTimecode_done {p : BlockHdr} {s : Src} {p' s' k}
    (h : p.feedTimecode s = (.okCompleted, p', s', k)) : p'.state = .done := by
  unfold BlockHdr.feedTimecode at h
  rcases hr : accumulate 16 p.tcRemaining p.timecode s with ⟨st1, v, s1, k1⟩
  rw [hr] at h
  simp only at h
  split at h
  · generalize hq : BlockHdr.feedFlags _ s1 = r at h
    obtain ⟨st2, p2, s2, k2⟩ := r
    simp only [Prod.mk.injEq] at h
    obtain ⟨rfl, rfl, rfl, rfl⟩ := h
    exact BlockHdr.feedFlags_done hq
  · next hc => simp only [Prod.mk.injEq] at h; rw [h.1] at hc; exact absurd rfl hc

theorem BlockHdr.feed_done {p : BlockHdr} {s : Src} {p' s' k}
    (h : p.feed s = (.okCompleted, p', s', k)) : p'.state = .done := by
  unfold BlockHdr.feed at h
  split at h
  · unfold BlockHdr.feedTrack at h
    rcases hr : p.uint.feed s with ⟨st1, u, s1, k1⟩
    rw [hr] at h
    simp only at h
    split at h
    · generalize hq : BlockHdr.feedTimecode _ s1 = r at h
      obtain ⟨st2, p2, s2, k2⟩ := r
      simp only [Prod.mk.injEq] at h
      obtain ⟨rfl, rfl, rfl, rfl⟩ := h
      exact BlockHdr.feedTimecode_done hq
    · next hc => simp only [Prod.mk.injEq] at h; rw [h.1] at hc; exact absurd rfl hc
  · exact BlockHdr.feedTimecode_done h
  · exact BlockHdr.feedFlags_done h
  · next hd =>
    simp only [Prod.mk.injEq] at h
    rw [← h.2.1]; exact hd

/-- States in which no lace size has been read yet. -/
def BPState.early : BPState → Bool
  | .readingHeader | .readingLaceCount | .gettingAction | .readingFirstEbml | .calculatingFixed => true
  | _ => false

/-- What holds of the block parser between passes. -/
structure BlockP.Inv (p : BlockP) : Prop where
  hdr : p.hdr.Inv
  uint : p.uint.Inv
  count : p.value.numFrames ≤ 256
  laces : p.laces.length ≤ 256
  laces' : p.state ≠ .readingFrames → p.state ≠ .done → p.laces.length ≤ 255
  buf : p.buf.length ≤ p.frameSize
  early : p.state.early = true → p.laces = []
  nobuf : p.state ≠ .readingFrames ∨ p.laces.length ≤ p.cur → p.buf = []

theorem fresh_uint : VarInt.Inv {} := fun _ h => (nomatch h)

theorem BlockP.init_inv {m : Meta} {p : BlockP} (h : BlockP.init m = .ok p) : p.Inv := by
  unfold BlockP.init at h
  split at h
  · cases h
  · cases h
    exact ⟨⟨fun h => (nomatch h), fun _ => ⟨Nat.le_refl _, fresh_uint⟩⟩,
      fresh_uint, by simp, by simp, by simp, by simp, by simp, by simp⟩

theorem BlockP.body_ok (simple skip : Bool) (p : BlockP) (s : Src) (hi : p.Inv) :
    PassOk (BlockP.body simple skip) BlockP.Inv p s := by
  obtain ⟨elem, state, hdrRead, value, hdr, uint, xiph, laces, cur, framePos, frameSize, buf, log⟩ := p
  obtain ⟨i1, i2, i3, i4, i5, i6, i7, i8⟩ := hi
  simp only at i1 i2 i3 i4 i5 i6 i7 i8
  cases state with
  | readingHeader =>
    refine sub_pass (feedA := BlockHdr.feed) (invA := BlockHdr.Inv)
      (fun a n => ⟨elem, .readingHeader, n, value, a, uint, xiph, laces, cur, framePos, frameSize, buf, log⟩)
      (fun a n _ => BlockP.afterHeader simple
        ⟨elem, .readingHeader, n, value, a, uint, xiph, laces, cur, framePos, frameSize, buf, log⟩ a 0)
      ?_ BlockHdr.feed_step ?_ hdr hdrRead s i1 ?_
    · intro a n s _
      simp only [BlockP.body]
      rcases a.feed s with ⟨st, h, s', k⟩
      simp only [BlockP.afterHeader, Nat.add_zero]
    · intro a n ha
      exact ⟨ha, i2, i3, i4, i5, i6, i7, i8⟩
    · intro a' s' k ha
      have hl := i7 rfl
      refine ⟨?_, i2, ?_, i4, fun _ _ => by simp [BlockP.afterHeader, hl], i6, fun _ => hl,
        fun _ => i8 (.inl (by simp))⟩
      · -- the header parser is done
        simp only [BlockP.afterHeader]
        have : a'.state = .done := BlockHdr.feed_done ha
        exact ⟨fun h => (by rw [this] at h; cases h), fun h => (by rw [this] at h; cases h)⟩
      · simp only [BlockP.afterHeader]
        split <;> omega
  | readingLaceCount =>
    refine byte_pass (p := ⟨elem, .readingLaceCount, hdrRead, value, hdr, uint, xiph, laces, cur, framePos, frameSize, buf, log⟩)
      (f := BlockP.afterLaceCount ⟨elem, .readingLaceCount, hdrRead, value, hdr, uint, xiph, laces, cur, framePos, frameSize, buf, log⟩) (inv := BlockP.Inv) (fun s => ?_)
      ⟨i1, i2, i3, i4, i5, i6, i7, i8⟩ ?_ s
    · rfl
    intro b
    have := b.toNat_lt
    exact ⟨i1, i2, by simp only [BlockP.afterLaceCount]; omega, i4,
      fun _ _ => i5 (by simp) (by simp), i6, fun _ => i7 rfl, fun _ => i8 (.inl (by simp))⟩
  | gettingAction =>
    refine tau_pass (r := none) (p' := BlockP.afterAction skip ⟨elem, .gettingAction, hdrRead, value, hdr, uint, xiph, laces, cur, framePos, frameSize, buf, log⟩)
      (fun s => rfl) (fun st h => (nomatch h)) (fun _ => ?_) s
    exact ⟨i1, i2, i3, i4, fun _ _ => i5 (by simp) (by simp), i6, fun _ => i7 rfl, fun _ => i8 (.inl (by simp))⟩
  | readingXiph =>
    by_cases hl : laces.length < value.numFrames - 1
    · refine byte_pass (p := ⟨elem, .readingXiph, hdrRead, value, hdr, uint, xiph, laces, cur, framePos, frameSize, buf, log⟩)
        (f := BlockP.xiphByte ⟨elem, .readingXiph, hdrRead, value, hdr, uint, xiph, laces, cur, framePos, frameSize, buf, log⟩)
        (inv := BlockP.Inv) (fun s => by simp only [BlockP.body, if_pos hl]; rfl) ⟨i1, i2, i3, i4, i5, i6, i7, i8⟩ ?_ s
      intro b
      unfold BlockP.xiphByte
      simp only
      split
      · exact ⟨i1, i2, i3, i4, i5, i6, i7, i8⟩
      · exact ⟨i1, i2, i3, by simp; omega, fun _ _ => by simp; omega, i6, fun h => (nomatch h), fun _ => i8 (.inl (by simp))⟩
    · refine tau_pass (r := none)
        (p' := ⟨elem, .validatingSize, hdrRead, value, hdr, uint, xiph, laces, cur, framePos, frameSize, buf, log⟩)
        (fun s => by simp only [BlockP.body, if_neg hl]) (fun st h => (nomatch h)) (fun _ => ?_) s
      exact ⟨i1, i2, i3, i4, fun _ _ => i5 (by simp) (by simp), i6, fun h => (nomatch h), fun _ => i8 (.inl (by simp))⟩
  | readingFirstEbml =>
    refine sub_pass (feedA := VarInt.feed) (invA := VarInt.Inv)
      (fun a n => ⟨elem, .readingFirstEbml, n, value, hdr, a, xiph, laces, cur, framePos, frameSize, buf, log⟩)
      (fun a n _ => BlockP.firstEbml
        ⟨elem, .readingFirstEbml, n, value, hdr, a, xiph, laces, cur, framePos, frameSize, buf, log⟩ a 0)
      ?_ VarInt.feed_step ?_ uint hdrRead s i2 ?_
    · intro a n s _
      simp only [BlockP.body]
      rcases a.feed s with ⟨st, h, s', k⟩
      simp only [BlockP.firstEbml, Nat.add_zero]
    · intro a n ha
      exact ⟨i1, ha, i3, i4, i5, i6, i7, i8⟩
    · intro a' s' k ha
      have hl := i7 rfl
      exact ⟨i1, fresh_uint, i3, by simp [BlockP.firstEbml, hl],
          fun _ _ => by simp [BlockP.firstEbml, hl], i6, fun h => (nomatch h), fun _ => i8 (.inl (by simp))⟩
  | readingEbml =>
    by_cases hl : laces.length < value.numFrames - 1
    · refine sub_pass (feedA := VarInt.feed) (invA := VarInt.Inv)
        (fun a n => ⟨elem, .readingEbml, n, value, hdr, a, xiph, laces, cur, framePos, frameSize, buf, log⟩)
        (fun a n _ => BlockP.nextEbml
          ⟨elem, .readingEbml, n, value, hdr, a, xiph, laces, cur, framePos, frameSize, buf, log⟩ a 0)
        ?_ VarInt.feed_step ?_ uint hdrRead s i2 ?_
      · intro a n s _
        simp only [BlockP.body, if_pos hl]
        rcases a.feed s with ⟨st, h, s', k⟩
        simp only [BlockP.nextEbml, Nat.add_zero]
      · intro a n ha
        exact ⟨i1, ha, i3, i4, i5, i6, i7, i8⟩
      · intro a' s' k ha
        exact ⟨i1, fresh_uint, i3, by simp [BlockP.nextEbml]; omega,
          fun _ _ => by simp [BlockP.nextEbml]; omega, i6, fun h => (nomatch h), fun _ => i8 (.inl (by simp))⟩
    · refine tau_pass (r := none)
        (p' := ⟨elem, .validatingSize, hdrRead, value, hdr, uint, xiph, laces, cur, framePos, frameSize, buf, log⟩)
        (fun s => by simp only [BlockP.body, if_neg hl]) (fun st h => (nomatch h)) (fun _ => ?_) s
      exact ⟨i1, i2, i3, i4, fun _ _ => i5 (by simp) (by simp), i6, fun h => (nomatch h), fun _ => i8 (.inl (by simp))⟩
  | calculatingFixed =>
    cases hf : BlockP.fixedLaces ⟨elem, .calculatingFixed, hdrRead, value, hdr, uint, xiph, laces, cur, framePos, frameSize, buf, log⟩ with
    | none =>
      exact tau_pass (r := some .invalidElementValue)
        (p' := ⟨elem, .calculatingFixed, hdrRead, value, hdr, uint, xiph, laces, cur, framePos, frameSize, buf, log⟩)
        (fun s => by simp only [BlockP.body, hf])
        (fun st h => by cases h; rfl) (fun h => (nomatch h)) s
    | some p' =>
      refine tau_pass (r := none) (p' := p') (fun s => by simp only [BlockP.body, hf])
        (fun st h => (nomatch h)) (fun _ => ?_) s
      unfold BlockP.fixedLaces at hf
      simp only at hf
      split at hf
      · cases hf
      · split at hf
        · cases hf
        · cases hf
          have hb := i8 (.inl (by simp))
          exact ⟨i1, i2, i3, by simp; omega, fun h => absurd rfl h, by simp [hb],
            fun h => (nomatch h), fun _ => hb⟩
  | validatingSize =>
    cases hf : BlockP.validate ⟨elem, .validatingSize, hdrRead, value, hdr, uint, xiph, laces, cur, framePos, frameSize, buf, log⟩ with
    | none =>
      exact tau_pass (r := some .invalidElementValue)
        (p' := ⟨elem, .validatingSize, hdrRead, value, hdr, uint, xiph, laces, cur, framePos, frameSize, buf, log⟩)
        (fun s => by simp only [BlockP.body, hf])
        (fun st h => by cases h; rfl) (fun h => (nomatch h)) s
    | some p' =>
      refine tau_pass (r := none) (p' := p') (fun s => by simp only [BlockP.body, hf])
        (fun st h => (nomatch h)) (fun _ => ?_) s
      unfold BlockP.validate at hf
      simp only at hf
      split at hf
      · cases hf
      · cases hf
        have hb := i8 (.inl (by simp))
        have := i5 (by simp) (by simp)
        exact ⟨i1, i2, i3, by simp; omega, fun h => absurd rfl h, by simp [hb],
          fun h => (nomatch h), fun _ => hb⟩
  | skipping =>
    intro r p' s' k h
    simp only [BlockP.body] at h ⊢
    rcases hr : skipFeed ((elem.size + (two64 - hdrRead % two64)) % two64) s with ⟨st1, a1, s1, k1⟩
    rw [hr] at h
    simp only [Prod.mk.injEq] at h
    obtain ⟨rfl, rfl, rfl, rfl⟩ := h
    obtain ⟨h0, h1, h2⟩ := skipFeed_step _ s _ _ _ _ hr
    refine ⟨h0, fun hst => ⟨?_, fun h => (nomatch h)⟩, fun st hst hs => ?_⟩
    · rw [h1 (hst _ rfl)]
    · cases hst
      obtain ⟨g1, -, g3⟩ := h2 hs
      refine ⟨g1, ⟨i1, i2, i3, i4, i5, i6, i7, i8⟩, ?_⟩
      have hk := skipFeed_stall hr hs
      rw [g3, show (elem.size + (two64 - (hdrRead + k1) % two64)) % two64 = a1 by
        rw [hk.1]; have := hk.2; unfold two64 at this ⊢; omega]
      rcases skipFeed a1 s1.flat with ⟨st2, a2, s2, k2⟩
      simp [Nat.add_assoc]
  | readingFrames =>
    by_cases hl : cur < laces.length
    · refine sub_pass (feedA := onFrame frameSize) (invA := fun b => b.length ≤ frameSize)
        (fun a n => ⟨elem, .readingFrames, hdrRead, value, hdr, uint, xiph, laces, cur, framePos, frameSize, a, log⟩)
        (fun a n q => BlockP.frameDone
          ⟨elem, .readingFrames, hdrRead, value, hdr, uint, xiph, laces, cur, framePos, frameSize, buf, log⟩ a q)
        ?_ (onFrame_step frameSize) ?_ buf 0 s i6 ?_
      · intro a n s _
        simp only [BlockP.body, if_pos hl]
        rcases onFrame frameSize a s with ⟨st, h, s', k⟩
        simp only [BlockP.frameDone]
      · intro a n ha
        exact ⟨i1, i2, i3, i4, i5, ha, i7, fun h => (by rcases h with h | h; exact absurd rfl h; simp only at h; omega)⟩
      · intro a' s' k ha
        unfold BlockP.frameDone
        simp only
        split
        · exact ⟨i1, i2, i3, i4, i5, by simp, i7, fun _ => rfl⟩
        · exact ⟨i1, i2, i3, i4, i5, by simp, i7, fun _ => rfl⟩
    · have hb : buf = [] := i8 (.inr (by omega))
      refine tau_pass (r := none)
        (p' := ⟨elem, .done, hdrRead, value, hdr, uint, xiph, laces, cur, framePos, frameSize, buf, log⟩)
        (fun s => by simp only [BlockP.body, if_neg hl]) (fun st h => (nomatch h)) (fun _ => ?_) s
      exact ⟨i1, i2, i3, i4, fun _ h => absurd rfl h, i6, fun h => (nomatch h), fun _ => hb⟩
  | done =>
    exact tau_pass (fun s => rfl) (fun st h => by cases h; rfl) (fun h => (nomatch h)) s

/-- One pass, inverted: what each state does. -/
theorem BlockP.body_cases (simple : Bool) {p : BlockP} {s : Src} (hi : p.Inv) {p' : BlockP}
    {s' : Src} {k : Nat} {skip : Bool} (h : BlockP.body simple skip p s = (none, p', s', k)) :
    Advance s s' k ∧ p'.measure s'.bytes.length < p.measure s.bytes.length := by
  obtain ⟨elem, state, hdrRead, value, hdr, uint, xiph, laces, cur, framePos, frameSize, buf, log⟩ := p
  obtain ⟨i1, i2, i3, i4, i5, i6, i7, i8⟩ := hi
  simp only at i1 i2 i3 i4 i5 i6 i7 i8
  cases state with
  | readingHeader =>
    simp only [BlockP.body] at h
    rcases hr : hdr.feed s with ⟨st, a, s1, k1⟩
    have ha := BlockHdr.feed_adv _ _ hr
    rw [hr] at h
    simp only at h
    split at h
    · simp only [Prod.mk.injEq, true_and] at h
      obtain ⟨rfl, rfl, rfl⟩ := h
      have := ha.adv.length
      refine ⟨ha.adv, ?_⟩
      simp only [BlockP.measure, BlockP.afterHeader]
      split <;> simp [BPState.rank] <;> omega
    · cases h
  | readingLaceCount =>
    simp only [BlockP.body] at h
    have hb := readByte_advance s
    rcases hr : s.readByte with ⟨st1, b, s1⟩
    rw [hr] at hb h
    cases b with
    | none => cases h
    | some b =>
      simp only [Prod.mk.injEq, true_and] at h hb
      obtain ⟨rfl, rfl, rfl⟩ := h
      have := hb.2.1.length
      refine ⟨hb.2.1, ?_⟩
      simp only [BlockP.measure, BlockP.afterLaceCount]
      simp [BPState.rank]; omega
  | gettingAction =>
    simp only [BlockP.body, Prod.mk.injEq, true_and] at h
    obtain ⟨rfl, rfl, rfl⟩ := h
    refine ⟨Advance.refl _, ?_⟩
    have := i7 rfl
    subst this
    simp only [BlockP.measure, BlockP.afterAction]
    (repeat' split) <;> simp_all [BPState.rank] <;> omega
  | readingXiph =>
    simp only [BlockP.body] at h
    split at h
    · have hb := readByte_advance s
      rcases hr : s.readByte with ⟨st1, b, s1⟩
      rw [hr] at hb h
      cases b with
      | none => cases h
      | some b =>
        simp only [Prod.mk.injEq, true_and] at h hb
        obtain ⟨rfl, rfl, rfl⟩ := h
        have := hb.2.1.length
        refine ⟨hb.2.1, ?_⟩
        simp only [BlockP.measure, BlockP.xiphByte]
        split <;> simp [BPState.rank] <;> omega
    · simp only [Prod.mk.injEq, true_and] at h
      obtain ⟨rfl, rfl, rfl⟩ := h
      refine ⟨Advance.refl _, ?_⟩
      simp [BlockP.measure, BPState.rank]
  | readingFirstEbml =>
    simp only [BlockP.body] at h
    rcases hr : uint.feed s with ⟨st, a, s1, k1⟩
    have ha := VarInt.feed_adv _ _ hr
    rw [hr] at h
    simp only at h
    split at h
    · simp only [Prod.mk.injEq, true_and] at h
      obtain ⟨rfl, rfl, rfl⟩ := h
      have := ha.adv.length
      refine ⟨ha.adv, ?_⟩
      simp only [BlockP.measure, BlockP.firstEbml]
      simp [BPState.rank]; omega
    · cases h
  | readingEbml =>
    simp only [BlockP.body] at h
    split at h
    · rcases hr : uint.feed s with ⟨st, a, s1, k1⟩
      have ha := VarInt.feed_adv _ _ hr
      rw [hr] at h
      simp only at h
      split at h
      · simp only [Prod.mk.injEq, true_and] at h
        obtain ⟨rfl, rfl, rfl⟩ := h
        have := ha.adv.length
        refine ⟨ha.adv, ?_⟩
        simp only [BlockP.measure, BlockP.nextEbml]
        simp [BPState.rank]; omega
      · cases h
    · simp only [Prod.mk.injEq, true_and] at h
      obtain ⟨rfl, rfl, rfl⟩ := h
      refine ⟨Advance.refl _, ?_⟩
      simp [BlockP.measure, BPState.rank]; omega
  | calculatingFixed =>
    simp only [BlockP.body] at h
    split at h
    · next p1 hf =>
      simp only [Prod.mk.injEq, true_and] at h
      obtain ⟨rfl, rfl, rfl⟩ := h
      refine ⟨Advance.refl _, ?_⟩
      unfold BlockP.fixedLaces at hf
      simp only at hf
      split at hf
      · cases hf
      · split at hf
        · cases hf
        · cases hf
          simp [BlockP.measure, BPState.rank]; omega
    · cases h
  | validatingSize =>
    simp only [BlockP.body] at h
    split at h
    · next p1 hf =>
      simp only [Prod.mk.injEq, true_and] at h
      obtain ⟨rfl, rfl, rfl⟩ := h
      refine ⟨Advance.refl _, ?_⟩
      unfold BlockP.validate at hf
      simp only at hf
      split at hf
      · cases hf
      · cases hf
        simp [BlockP.measure, BPState.rank]
        have := i5 (by simp) (by simp)
        omega
    · cases h
  | skipping =>
    simp only [BlockP.body] at h
    rcases hr : skipFeed ((elem.size + (two64 - hdrRead % two64)) % two64) s with ⟨st1, a1, s1, k1⟩
    rw [hr] at h
    cases h
  | readingFrames =>
    simp only [BlockP.body] at h
    split at h
    · rcases hr : onFrame frameSize buf s with ⟨st, a, s1, k1⟩
      have ha := onFrame_adv _ _ _ i6 hr
      rw [hr] at h
      simp only at h
      split at h
      · simp only [Prod.mk.injEq, true_and] at h
        obtain ⟨rfl, rfl, rfl⟩ := h
        have := ha.adv.length
        refine ⟨ha.adv, ?_⟩
        simp only [BlockP.measure, BlockP.frameDone]
        split <;> simp [BPState.rank] <;> omega
      · cases h
    · simp only [Prod.mk.injEq, true_and] at h
      obtain ⟨rfl, rfl, rfl⟩ := h
      refine ⟨Advance.refl _, ?_⟩
      simp [BlockP.measure, BPState.rank]; omega
  | done => cases h

theorem BlockP.decreasing (simple skip : Bool) :
    Decreasing (BlockP.body simple skip) BlockP.measure BlockP.Inv :=
  fun _ _ _ _ _ hi h => (BlockP.body_cases simple hi h).2

theorem BlockP.inv_next (simple skip : Bool) (p : BlockP) (s : Src) (p' : BlockP) (s' : Src) (k : Nat)
    (hi : p.Inv) (h : BlockP.body simple skip p s = (none, p', s', k)) : p'.Inv :=
  ((BlockP.body_ok simple skip p s hi _ _ _ _ h).2.1 (fun _ h => (nomatch h))).2 rfl

theorem BlockP.feed_step (simple skip : Bool) (p : BlockP) (s : Src) (hi : p.Inv) :
    StepOk (BlockP.feed simple skip) BlockP.Inv p s :=
  loopFeed_step (BlockP.decreasing simple skip) (BlockP.body_ok simple skip) p s hi

end Verif.Web
