/-
The element parsers of blocks: `EP.Good` and `EP.Exact`.
-/
import Verif.Lemmas.WebmTreeLeaf

namespace Verif.Web
open Verif Verif.Spec

theorem foldl_mod_total (l : List Nat) (a m : Nat) :
    (l.foldl (fun a x => (a + x) % m) a) % m = (a + l.sum) % m := by
  induction l generalizing a with
  | nil => simp
  | cons x l ih =>
    rw [List.foldl_cons, ih, List.sum_cons, Nat.mod_add_mod, Nat.add_assoc]

theorem sum_take_succ (l : List Nat) (i : Nat) (h : i < l.length) :
    (l.take (i + 1)).sum = (l.take i).sum + (l[i]?).getD 0 := by
  induction l generalizing i with
  | nil => simp at h
  | cons x l ih =>
    cases i with
    | zero => simp
    | succ i =>
      simp only [List.take_succ_cons, List.sum_cons, List.getElem?_cons_succ]
      rw [ih i (by simpa using h)]
      omega

/-- The bytes a block parser has read. -/
structure Acct (p : BlockP) (n : Nat) : Prop where
  pre : p.state ≠ .readingFrames → p.state ≠ .done → n = p.hdrRead
  post : p.state = .readingFrames ∨ p.state = .done →
    n = p.hdrRead + (p.laces.take p.cur).sum + p.buf.length ∧
      (p.hdrRead + p.laces.sum) % 2 ^ 64 = p.elem.size % 2 ^ 64
  size : p.state = .readingFrames → p.cur < p.laces.length → p.frameSize = (p.laces[p.cur]?).getD 0
  fin : p.state = .done → p.laces.length ≤ p.cur
  start : p.state ≠ .readingFrames → p.state ≠ .done → p.cur = 0

theorem Acct.of_pre {p : BlockP} {n : Nat} (h1 : p.state ≠ .readingFrames) (h2 : p.state ≠ .done)
    (hn : n = p.hdrRead) (hc : p.cur = 0) : Acct p n :=
  ⟨fun _ _ => hn, fun h => by rcases h with h | h <;> contradiction, fun h => absurd h h1,
    fun h => absurd h h2, fun _ _ => hc⟩

theorem BlockP.init_acct {m : Meta} {p : BlockP} (h : BlockP.init m = .ok p) : Acct p 0 := by
  unfold BlockP.init at h
  split at h
  · cases h
  · cases h
    exact .of_pre (by simp) (by simp) rfl rfl

/-- What one pass of the block parser reads. -/
theorem BlockP.body_acct (simple : Bool) {p : BlockP} {s : Src} (hi : p.Inv) {n : Nat}
    (ha : Acct p n) (hs : p.state ≠ .gettingAction) (hs2 : p.state ≠ .done)
    {r : Option Status} {p' : BlockP} {s' : Src} {k : Nat}
    (h : BlockP.body simple false p s = (r, p', s', k)) :
    Advance s s' k ∧ p'.elem = p.elem ∧ r ≠ some .diverged ∧ Acct p' (n + k) ∧
      (r = some .okCompleted → (n + k) % 2 ^ 64 = p.elem.size % 2 ^ 64) := by
  obtain ⟨elem, state, hdrRead, value, hdr, uint, xiph, laces, cur, framePos, frameSize, buf, log⟩ := p
  obtain ⟨i1, i2, i3, i4, i5, i6, i7, i8⟩ := hi
  obtain ⟨a1, a2, a3, a4, a5⟩ := ha
  simp only at i1 i2 i3 i4 i5 i6 i7 i8 a1 a2 a3 a4 a5 hs hs2
  have hreadByte : ∀ {st : Status} {s' : Src}, s.readByte = (st, none, s') →
      Advance s s' 0 ∧ (some st : Option Status) ≠ some .diverged ∧ st ≠ .okCompleted := by
    intro st s' hr
    have hb := readByte_advance s
    rw [hr] at hb
    simp only at hb
    refine ⟨hb.2, ?_, ?_⟩
    · rcases hb.1 with rfl | rfl <;> simp
    · rcases hb.1 with rfl | rfl <;> simp
  cases state with
  | readingHeader =>
    have hn := a1 (by simp) (by simp)
    have hc := a5 (by simp) (by simp)
    subst hn hc
    simp only [BlockP.body] at h
    rcases hr : hdr.feed s with ⟨st, b, s1, k1⟩
    have hadv := BlockHdr.feed_adv _ _ hr
    rw [hr] at h
    simp only at h
    split at h <;> simp only [Prod.mk.injEq] at h <;> obtain ⟨rfl, rfl, rfl, rfl⟩ := h
    · refine ⟨hadv.adv, rfl, by simp, .of_pre ?_ ?_ rfl rfl, fun h => (nomatch h)⟩
      · simp only [BlockP.afterHeader]; split <;> simp
      · simp only [BlockP.afterHeader]; split <;> simp
    · next hc =>
      refine ⟨hadv.adv, rfl, by simpa using hadv.not_diverged, .of_pre (by simp) (by simp) rfl rfl, fun h => ?_⟩
      simp only [Option.some.injEq] at h; rw [h] at hc; exact absurd rfl hc
  | readingLaceCount =>
    have hn := a1 (by simp) (by simp)
    have hc := a5 (by simp) (by simp)
    subst hn hc
    simp only [BlockP.body] at h
    have hb := readByte_advance s
    rcases hr : s.readByte with ⟨st, b, s1⟩
    rw [hr] at h hb
    cases b with
    | some b =>
      simp only [Prod.mk.injEq] at h hb
      obtain ⟨rfl, rfl, rfl, rfl⟩ := h
      exact ⟨hb.2.1, rfl, by simp, .of_pre (by simp [BlockP.afterLaceCount]) (by simp [BlockP.afterLaceCount]) rfl rfl,
        fun h => (nomatch h)⟩
    | none =>
      simp only [Prod.mk.injEq] at h
      obtain ⟨rfl, rfl, rfl, rfl⟩ := h
      obtain ⟨e1, e2, e3⟩ := hreadByte hr
      exact ⟨e1, rfl, e2, .of_pre (by simp) (by simp) rfl rfl, fun h => absurd (Option.some.inj h) e3⟩
  | gettingAction => exact absurd rfl hs
  | readingXiph =>
    have hn := a1 (by simp) (by simp)
    have hc := a5 (by simp) (by simp)
    subst hn hc
    simp only [BlockP.body] at h
    split at h
    · have hb := readByte_advance s
      rcases hr : s.readByte with ⟨st, b, s1⟩
      rw [hr] at h hb
      cases b with
      | some b =>
        simp only [Prod.mk.injEq] at h hb
        obtain ⟨rfl, rfl, rfl, rfl⟩ := h
        refine ⟨hb.2.1, ?_, by simp, .of_pre ?_ ?_ ?_ ?_, fun h => (nomatch h)⟩ <;>
          (simp only [BlockP.xiphByte]; split <;> simp)
      | none =>
        simp only [Prod.mk.injEq] at h
        obtain ⟨rfl, rfl, rfl, rfl⟩ := h
        obtain ⟨e1, e2, e3⟩ := hreadByte hr
        exact ⟨e1, rfl, e2, .of_pre (by simp) (by simp) rfl rfl, fun h => absurd (Option.some.inj h) e3⟩
    · simp only [Prod.mk.injEq] at h
      obtain ⟨rfl, rfl, rfl, rfl⟩ := h
      exact ⟨Advance.refl _, rfl, by simp, .of_pre (by simp) (by simp) rfl rfl, fun h => (nomatch h)⟩
  | readingFirstEbml =>
    have hn := a1 (by simp) (by simp)
    have hc := a5 (by simp) (by simp)
    subst hn hc
    simp only [BlockP.body] at h
    rcases hr : uint.feed s with ⟨st, b, s1, k1⟩
    have hadv := VarInt.feed_adv _ _ hr
    rw [hr] at h
    simp only at h
    split at h <;> simp only [Prod.mk.injEq] at h <;> obtain ⟨rfl, rfl, rfl, rfl⟩ := h
    · exact ⟨hadv.adv, rfl, by simp, .of_pre (by simp [BlockP.firstEbml]) (by simp [BlockP.firstEbml]) rfl rfl,
        fun h => (nomatch h)⟩
    · next hc =>
      refine ⟨hadv.adv, rfl, by simpa using hadv.not_diverged, .of_pre (by simp) (by simp) rfl rfl, fun h => ?_⟩
      simp only [Option.some.injEq] at h; rw [h] at hc; exact absurd rfl hc
  | readingEbml =>
    have hn := a1 (by simp) (by simp)
    have hc := a5 (by simp) (by simp)
    subst hn hc
    simp only [BlockP.body] at h
    split at h
    · rcases hr : uint.feed s with ⟨st, b, s1, k1⟩
      have hadv := VarInt.feed_adv _ _ hr
      rw [hr] at h
      simp only at h
      split at h <;> simp only [Prod.mk.injEq] at h <;> obtain ⟨rfl, rfl, rfl, rfl⟩ := h
      · exact ⟨hadv.adv, rfl, by simp, .of_pre (by simp [BlockP.nextEbml]) (by simp [BlockP.nextEbml]) rfl rfl,
          fun h => (nomatch h)⟩
      · next hc =>
        refine ⟨hadv.adv, rfl, by simpa using hadv.not_diverged, .of_pre (by simp) (by simp) rfl rfl, fun h => ?_⟩
        simp only [Option.some.injEq] at h; rw [h] at hc; exact absurd rfl hc
    · simp only [Prod.mk.injEq] at h
      obtain ⟨rfl, rfl, rfl, rfl⟩ := h
      exact ⟨Advance.refl _, rfl, by simp, .of_pre (by simp) (by simp) rfl rfl, fun h => (nomatch h)⟩
  | calculatingFixed =>
    have hn := a1 (by simp) (by simp)
    have hc := a5 (by simp) (by simp)
    subst hn hc
    have hb := i8 (.inl (by simp))
    have hl := i7 rfl
    subst hb hl
    simp only [BlockP.body] at h
    split at h
    · next q hq =>
      simp only [Prod.mk.injEq] at h
      obtain ⟨rfl, rfl, rfl, rfl⟩ := h
      simp only [BlockP.fixedLaces] at hq
      split at hq
      · cases hq
      · next hlt =>
        split at hq
        · cases hq
        · next hm =>
          cases hq
          have hdvd : value.numFrames * ((elem.size - n) / value.numFrames) = elem.size - n := by
            have := Nat.div_add_mod (elem.size - n) value.numFrames
            omega
          refine ⟨Advance.refl _, rfl, by simp, ⟨fun h => absurd rfl h, fun _ => ⟨by simp, ?_⟩,
            fun _ hx => ?_, fun h => (nomatch h), fun h => absurd rfl h⟩, fun h => (nomatch h)⟩
          · simp only [List.sum_replicate_nat]
            rw [hdvd]
            congr 1
            omega
          · simp only [List.length_replicate] at hx ⊢
            simp [hx]
    · simp only [Prod.mk.injEq] at h
      obtain ⟨rfl, rfl, rfl, rfl⟩ := h
      exact ⟨Advance.refl _, rfl, by simp, .of_pre (by simp) (by simp) rfl rfl, by simp⟩
  | validatingSize =>
    have hn := a1 (by simp) (by simp)
    have hc := a5 (by simp) (by simp)
    subst hn hc
    have hb := i8 (.inl (by simp))
    subst hb
    simp only [BlockP.body] at h
    split at h
    · next q hq =>
      simp only [Prod.mk.injEq] at h
      obtain ⟨rfl, rfl, rfl, rfl⟩ := h
      simp only [BlockP.validate] at hq
      split at hq
      · cases hq
      · next hlt =>
        cases hq
        refine ⟨Advance.refl _, rfl, by simp, ⟨fun h => absurd rfl h, fun _ => ⟨by simp, ?_⟩,
            fun _ hx => ?_, fun h => (nomatch h), fun h => absurd rfl h⟩, fun h => (nomatch h)⟩
        · simp only
          have hf := foldl_mod_total laces n two64
          generalize hF : laces.foldl (fun a x => (a + x) % two64) n = F at *
          rw [List.sum_append, ← Nat.add_assoc, ← Nat.mod_add_mod]
          have h64 : two64 = 2 ^ 64 := rfl
          rw [h64] at hf
          rw [← hf, Nat.mod_add_mod]
          simp only [List.sum_cons, List.sum_nil, Nat.add_zero]
          congr 1
          omega
        · simp only
          rw [List.head?_eq_getElem?]
    · simp only [Prod.mk.injEq] at h
      obtain ⟨rfl, rfl, rfl, rfl⟩ := h
      exact ⟨Advance.refl _, rfl, by simp, .of_pre (by simp) (by simp) rfl rfl, by simp⟩
  | skipping =>
    have hn := a1 (by simp) (by simp)
    have hc := a5 (by simp) (by simp)
    subst hn hc
    simp only [BlockP.body] at h
    generalize hR : (elem.size + (two64 - n % two64)) % two64 = R at h
    rcases hr : skipFeed R s with ⟨st, b, s1, k1⟩
    rw [hr] at h
    simp only [Prod.mk.injEq] at h
    obtain ⟨rfl, rfl, rfl, rfl⟩ := h
    obtain ⟨e1, e2, e3, e4⟩ := skip_fed hr
    refine ⟨e1.adv, rfl, by simpa using e1.not_diverged, .of_pre (by simp) (by simp) rfl rfl, fun h => ?_⟩
    have := e4 (Option.some.inj h)
    subst this
    have h64 : two64 = 2 ^ 64 := rfl
    rw [h64] at hR
    simp only
    omega
  | readingFrames =>
    obtain ⟨hn, hsum⟩ := a2 (.inl rfl)
    simp only [BlockP.body] at h
    split at h
    · next hlt =>
      have hfs := a3 rfl hlt
      rcases hr : onFrame frameSize buf s with ⟨st, b, s1, k1⟩
      have hadv := onFrame_adv _ _ _ i6 hr
      obtain ⟨hl1, hl2⟩ := onFrame_len i6 hr
      rw [hr] at h
      simp only at h
      split at h
      · next hc =>
        simp only [Prod.mk.injEq] at h
        obtain ⟨rfl, rfl, rfl, rfl⟩ := h
        have hbl := hl2 (completedOk_iff.mp hc)
        have hst := sum_take_succ laces cur hlt
        refine ⟨hadv.adv, ?_, by simp, ?_, fun h => (nomatch h)⟩
        · simp only [BlockP.frameDone]; split <;> rfl
        · simp only [BlockP.frameDone]
          split
          · refine ⟨fun h => absurd rfl h, fun _ => ⟨?_, hsum⟩, fun _ _ => rfl, fun h => (nomatch h),
              fun h => absurd rfl h⟩
            simp only [List.length_nil]
            omega
          · next hge =>
            refine ⟨fun h => absurd rfl h, fun _ => ⟨?_, hsum⟩, fun _ hx => ?_, fun h => (nomatch h),
              fun h => absurd rfl h⟩
            · simp only [List.length_nil]
              omega
            · simp only at hx; omega
      · next hc =>
        simp only [Prod.mk.injEq] at h
        obtain ⟨rfl, rfl, rfl, rfl⟩ := h
        refine ⟨hadv.adv, rfl, by simpa using hadv.not_diverged, ⟨fun h => absurd rfl h,
          fun _ => ⟨?_, hsum⟩, fun _ hx => hfs, fun h => (nomatch h), fun h => absurd rfl h⟩,
          fun h => ?_⟩
        · simp only; omega
        · simp only [Option.some.injEq] at h; rw [h] at hc; exact absurd rfl hc
    · next hge =>
      simp only [Prod.mk.injEq] at h
      obtain ⟨rfl, rfl, rfl, rfl⟩ := h
      exact ⟨Advance.refl _, rfl, by simp, ⟨fun _ h => absurd rfl h, fun _ => ⟨hn, hsum⟩,
        fun h => (nomatch h), fun _ => by simp only; omega, fun _ h => absurd rfl h⟩, fun h => (nomatch h)⟩
  | done => exact absurd rfl hs2

/-- A pass that stalls stays in its state; while reading frames only the buffer changes. -/
theorem BlockP.body_stall (simple : Bool) {p : BlockP} {s : Src}
    {st : Status} {p' : BlockP} {s' : Src} {k : Nat}
    (h : BlockP.body simple false p s = (some st, p', s', k)) :
    p'.state = p.state ∧ (p.state = .readingFrames → p' = { p with buf := p'.buf }) := by
  obtain ⟨elem, state, hdrRead, value, hdr, uint, xiph, laces, cur, framePos, frameSize, buf, log⟩ := p
  cases state with
  | readingHeader =>
    simp only [BlockP.body] at h
    rcases hr : hdr.feed s with ⟨st, b, s1, k1⟩
    rw [hr] at h
    simp only at h
    split at h <;> simp only [Prod.mk.injEq] at h
    · cases h.1
    · obtain ⟨-, rfl, -, -⟩ := h; exact ⟨rfl, fun h => (nomatch h)⟩
  | readingLaceCount =>
    simp only [BlockP.body] at h
    split at h <;> simp only [Prod.mk.injEq] at h
    · cases h.1
    · obtain ⟨-, rfl, -, -⟩ := h; exact ⟨rfl, fun h => (nomatch h)⟩
  | gettingAction => simp only [BlockP.body, Prod.mk.injEq] at h; cases h.1
  | readingXiph =>
    simp only [BlockP.body] at h
    split at h
    · split at h <;> simp only [Prod.mk.injEq] at h
      · cases h.1
      · obtain ⟨-, rfl, -, -⟩ := h; exact ⟨rfl, fun h => (nomatch h)⟩
    · simp only [Prod.mk.injEq] at h; cases h.1
  | readingFirstEbml =>
    simp only [BlockP.body] at h
    rcases hr : uint.feed s with ⟨st, b, s1, k1⟩
    rw [hr] at h
    simp only at h
    split at h <;> simp only [Prod.mk.injEq] at h
    · cases h.1
    · obtain ⟨-, rfl, -, -⟩ := h; exact ⟨rfl, fun h => (nomatch h)⟩
  | readingEbml =>
    simp only [BlockP.body] at h
    split at h
    · rcases hr : uint.feed s with ⟨st, b, s1, k1⟩
      rw [hr] at h
      simp only at h
      split at h <;> simp only [Prod.mk.injEq] at h
      · cases h.1
      · obtain ⟨-, rfl, -, -⟩ := h; exact ⟨rfl, fun h => (nomatch h)⟩
    · simp only [Prod.mk.injEq] at h; cases h.1
  | calculatingFixed =>
    simp only [BlockP.body] at h
    split at h <;> simp only [Prod.mk.injEq] at h
    · cases h.1
    · obtain ⟨-, rfl, -, -⟩ := h; exact ⟨rfl, fun h => (nomatch h)⟩
  | validatingSize =>
    simp only [BlockP.body] at h
    split at h <;> simp only [Prod.mk.injEq] at h
    · cases h.1
    · obtain ⟨-, rfl, -, -⟩ := h; exact ⟨rfl, fun h => (nomatch h)⟩
  | skipping =>
    simp only [BlockP.body] at h
    generalize (elem.size + (two64 - hdrRead % two64)) % two64 = R at h
    rcases hr : skipFeed R s with ⟨st, b, s1, k1⟩
    rw [hr] at h
    simp only [Prod.mk.injEq] at h
    obtain ⟨-, rfl, -, -⟩ := h; exact ⟨rfl, fun h => (nomatch h)⟩
  | readingFrames =>
    simp only [BlockP.body] at h
    split at h
    · rcases hr : onFrame frameSize buf s with ⟨st, b, s1, k1⟩
      rw [hr] at h
      simp only at h
      split at h <;> simp only [Prod.mk.injEq] at h
      · cases h.1
      · obtain ⟨-, rfl, -, -⟩ := h; exact ⟨rfl, fun _ => rfl⟩
    · simp only [Prod.mk.injEq] at h; cases h.1
  | done => simp only [BlockP.body, Prod.mk.injEq] at h; obtain ⟨-, rfl, -, -⟩ := h; exact ⟨rfl, fun h => (nomatch h)⟩

/-- The invariant of a block parser. -/
def BlkInv (x : BlkSt) : Prop := x.p.Inv ∧ Acct x.p x.n

/-- `afterAction` keeps the invariant. -/
theorem BlockP.afterAction_inv {p : BlockP} {n : Nat} (hs : p.state = .gettingAction) (hi : p.Inv)
    (ha : Acct p n) (sk : Bool) : (p.afterAction sk).Inv ∧ Acct (p.afterAction sk) n ∧
      ∀ b, (p.afterAction sk).measure b < p.measure b := by
  have hb : BlockP.body false sk p ⟨[], 0⟩ = (none, p.afterAction sk, ⟨[], 0⟩, 0) := by
    unfold BlockP.body; rw [hs]
  have hne : (p.afterAction sk).state ≠ .readingFrames ∧ (p.afterAction sk).state ≠ .done ∧
      (p.afterAction sk).state ≠ .readingEbml ∧ (p.afterAction sk).state.rank < 8 := by
    unfold BlockP.afterAction
    simp only
    split
    · simp [BPState.rank]
    · split
      · simp [BPState.rank]
      · split
        · simp [BPState.rank]
        · split <;> simp [BPState.rank]
  refine ⟨BlockP.inv_next _ _ _ _ _ _ _ hi hb, ?_, ?_⟩
  · exact .of_pre hne.1 hne.2.1 (ha.pre (by rw [hs]; simp) (by rw [hs]; simp))
      (ha.start (by rw [hs]; simp) (by rw [hs]; simp))
  · intro b
    unfold BlockP.measure
    rw [if_neg hne.1, if_neg hne.2.2.1, hs]
    simp only [reduceCtorEq, if_false]
    have h8 : BPState.gettingAction.rank = 8 := rfl
    rw [h8]
    have := hne.2.2.2
    omega

/-- The pass of the model with calls, when no call is due before reading. -/
theorem BlkSt.body_else (cb : Cb) (simple q : Bool) (p : BlockP) (n : Nat) (L : Log) (s : Src)
    (h1 : p.state ≠ .gettingAction) (h2 : p.state ≠ .done) :
    BlkSt.body cb simple q (⟨p, n⟩, L) s = match BlockP.body simple false p s with
      | (r, p', s', k) =>
        if p.state = .readingFrames ∧ p.cur < p.laces.length ∧ r = none then
          if (cb.call q L (frameEv p')).1.completedOk then
            (none, (⟨p', n + k⟩, (cb.call q L (frameEv p')).2.2), s', k)
          else (some (cb.call q L (frameEv p')).1, (⟨{ p with buf := frameData p' }, n + k⟩,
            (cb.call q L (frameEv p')).2.2), s', k)
        else (r, (⟨p', n + k⟩, L), s', k) := by
  unfold BlkSt.body
  rw [if_neg h1]
  rcases BlockP.body simple false p s with ⟨r, p', s', k⟩
  simp only [if_neg h2]

theorem BlkSt.body_pass {cb : Cb} (hcb : cb.Proper) (simple q : Bool) (x : BlkSt × Log) (s : Src)
    (hi : BlkInv x.1) : TPass (BlkSt.body cb simple q) BlkInv x s := by
  obtain ⟨⟨p, n⟩, L⟩ := x
  obtain ⟨hi, ha⟩ := hi
  simp only at hi ha
  by_cases h1 : p.state = .gettingAction
  · have hb : ∀ s, BlkSt.body cb simple q (⟨p, n⟩, L) s =
        if (cb.call q L (.blockStart p.elem p.value)).1.completedOk then
          (none, (⟨p.afterAction (cb.call q L (.blockStart p.elem p.value)).2.1, n⟩,
            (cb.call q L (.blockStart p.elem p.value)).2.2), s, 0)
        else (some (cb.call q L (.blockStart p.elem p.value)).1, (⟨p, n⟩,
            (cb.call q L (.blockStart p.elem p.value)).2.2), s, 0) := by
      intro s
      unfold BlkSt.body
      rw [if_pos h1]
    have hns := (hcb.call q L (.blockStart p.elem p.value)).1
    by_cases hc : (cb.call q L (.blockStart p.elem p.value)).1.completedOk
    · refine ttau_pass (r := none) (fun s => by rw [hb, if_pos hc]) (fun st h => (nomatch h)) (fun _ => ?_) s
      obtain ⟨e1, e2, -⟩ := BlockP.afterAction_inv h1 hi ha (cb.call q L (.blockStart p.elem p.value)).2.1
      exact ⟨e1, e2⟩
    · exact ttau_pass (r := some _) (fun s => by rw [hb, if_neg hc]) (fun st h => by cases h; exact hns)
        (fun h => (nomatch h)) s
  · by_cases h2 : p.state = .done
    · have hb : ∀ s, BlkSt.body cb simple q (⟨p, n⟩, L) s =
          (some (cb.call q L (.blockEnd p.elem p.value)).1, (⟨p, n⟩,
            (cb.call q L (.blockEnd p.elem p.value)).2.2), s, 0) := by
        intro s
        unfold BlkSt.body
        rw [if_neg h1]
        rcases BlockP.body simple false p s with ⟨r, p', s', k⟩
        simp only
        rw [if_neg (by rw [h2]; simp), if_pos h2]
      exact ttau_pass hb (fun st h => by cases h; exact (hcb.call _ _ _).1) (fun h => (nomatch h)) s
    · apply TPass.of_passOk
      intro r x' s' k h
      rw [BlkSt.body_else _ _ _ _ _ _ _ h1 h2] at h
      rcases hr : BlockP.body simple false p s with ⟨r1, p1, s1, k1⟩
      obtain ⟨g0, g1, g2⟩ := BlockP.body_ok simple false p s hi _ _ _ _ hr
      obtain ⟨-, -, -, hacct, -⟩ := BlockP.body_acct simple hi ha h1 h2 hr
      rw [hr] at h
      simp only at h
      cases r1 with
      | none =>
        obtain ⟨g1, gi⟩ := g1 (fun st h => (nomatch h))
        have gi := gi rfl
        by_cases hf : p.state = .readingFrames ∧ p.cur < p.laces.length
        · rw [if_pos ⟨hf.1, hf.2, by first | rfl | trivial⟩] at h
          have hflat : BlkSt.body cb simple q (⟨p, n⟩, L) s.flat =
              if (cb.call q L (frameEv p1)).1.completedOk then
                (none, (⟨p1, n + k1⟩, (cb.call q L (frameEv p1)).2.2), s1.flat, k1)
              else (some (cb.call q L (frameEv p1)).1, (⟨{ p with buf := frameData p1 }, n + k1⟩,
                (cb.call q L (frameEv p1)).2.2), s1.flat, k1) := by
            rw [BlkSt.body_else _ _ _ _ _ _ _ h1 h2, g1]
            simp only
            rw [if_pos ⟨hf.1, hf.2, by first | rfl | trivial⟩]
          have hns := (hcb.call q L (frameEv p1)).1
          rw [hflat]
          by_cases hc : (cb.call q L (frameEv p1)).1.completedOk
          · rw [if_pos hc] at h ⊢
            simp only [Prod.mk.injEq] at h
            obtain ⟨rfl, rfl, rfl, rfl⟩ := h
            exact ⟨g0, fun _ => ⟨rfl, fun _ => ⟨gi, hacct⟩⟩, fun st h => (nomatch h)⟩
          · rw [if_neg hc] at h ⊢
            simp only [Prod.mk.injEq] at h
            obtain ⟨rfl, rfl, rfl, rfl⟩ := h
            refine ⟨g0, fun _ => ⟨rfl, fun h => (nomatch h)⟩, fun st h hst => ?_⟩
            cases h
            rw [hns] at hst; cases hst
        · rw [if_neg (fun hx => hf ⟨hx.1, hx.2.1⟩)] at h
          simp only [Prod.mk.injEq] at h
          obtain ⟨rfl, rfl, rfl, rfl⟩ := h
          refine ⟨g0, fun _ => ⟨?_, fun _ => ⟨gi, hacct⟩⟩, fun st h => (nomatch h)⟩
          rw [BlkSt.body_else _ _ _ _ _ _ _ h1 h2, g1]
          simp only
          rw [if_neg (fun hx => hf ⟨hx.1, hx.2.1⟩)]
      | some st1 =>
        rw [if_neg (fun hx => by cases hx.2.2)] at h
        simp only [Prod.mk.injEq] at h
        obtain ⟨rfl, rfl, rfl, rfl⟩ := h
        refine ⟨g0, fun hst => ⟨?_, fun h => (nomatch h)⟩, fun st h hst => ?_⟩
        · rw [BlkSt.body_else _ _ _ _ _ _ _ h1 h2, (g1 hst).1]
          simp only
          rw [if_neg (fun hx => by cases hx.2.2)]
        · cases h
          obtain ⟨e1, e2, e3⟩ := g2 _ rfl hst
          obtain ⟨f1, f2⟩ := BlockP.body_stall simple hr
          refine ⟨e1, ⟨e2, hacct⟩, ?_⟩
          rw [BlkSt.body_else _ _ _ _ _ _ _ h1 h2,
            BlkSt.body_else _ _ _ _ _ _ _ (by rw [f1]; exact h1) (by rw [f1]; exact h2), e3]
          rcases BlockP.body simple false p1 s1.flat with ⟨r2, p2, s2, k2⟩
          simp only [addP_mk, Nat.add_assoc]
          by_cases hfr : p.state = .readingFrames
          · obtain ⟨b, f2⟩ : ∃ b, p1 = { p with buf := b } := ⟨_, f2 hfr⟩
            subst f2
            dsimp only
            by_cases hcond : p.state = .readingFrames ∧ p.cur < p.laces.length ∧ r2 = none
            · by_cases hc : (cb.call q L (frameEv p2)).1.completedOk
              · simp [hcond, hc]
              · simp [hcond, hc]
            · simp [hcond]
          · simp [hfr, f1]

/-- One pass: bytes, size, status. -/
theorem BlkSt.body_facts {cb : Cb} (hcb : cb.Proper) (simple q : Bool) {x : BlkSt × Log} {s : Src}
    (hi : BlkInv x.1) {r x' s' k} (h : BlkSt.body cb simple q x s = (r, x', s', k)) :
    Advance s s' k ∧ x'.1.n = x.1.n + k ∧ x'.1.p.elem = x.1.p.elem ∧ r ≠ some .diverged ∧
      (r = some .okCompleted → x'.1.n % 2 ^ 64 = x.1.p.elem.size % 2 ^ 64) ∧
      (r = none → BlkInv x'.1 ∧ x'.1.p.measure s'.bytes.length < x.1.p.measure s.bytes.length) := by
  have hinv : r = none → BlkInv x'.1 := fun hr =>
    ((BlkSt.body_pass hcb simple q x s hi _ _ _ _ h).2.1 (fun st h => by rw [hr] at h; cases h)).2 hr
  obtain ⟨⟨p, n⟩, L⟩ := x
  obtain ⟨hi, ha⟩ := hi
  simp only at hi ha
  by_cases h1 : p.state = .gettingAction
  · unfold BlkSt.body at h
    rw [if_pos h1] at h
    simp only at h
    split at h
    · next hc =>
      simp only [Prod.mk.injEq] at h
      obtain ⟨rfl, rfl, rfl, rfl⟩ := h
      exact ⟨Advance.refl _, rfl, rfl, by simp, fun h => (nomatch h), fun hr => ⟨hinv hr,
        (BlockP.afterAction_inv h1 hi ha _).2.2 _⟩⟩
    · next hc =>
      simp only [Prod.mk.injEq] at h
      obtain ⟨rfl, rfl, rfl, rfl⟩ := h
      refine ⟨Advance.refl _, rfl, rfl, ?_, fun h => ?_, fun hr => (nomatch hr)⟩
      · intro hx; exact (hcb.call _ _ _).2 (Option.some.inj hx)
      · rw [Option.some.inj h] at hc; exact absurd rfl hc
  · by_cases h2 : p.state = .done
    · unfold BlkSt.body at h
      rw [if_neg h1] at h
      rcases hr : BlockP.body simple false p s with ⟨r1, p1, s1, k1⟩
      simp only [hr] at h
      rw [if_neg (by rw [h2]; simp), if_pos h2] at h
      simp only [Prod.mk.injEq] at h
      obtain ⟨rfl, rfl, rfl, rfl⟩ := h
      refine ⟨Advance.refl _, rfl, rfl, ?_, fun h => ?_, fun hr => (nomatch hr)⟩
      · intro hx; exact (hcb.call _ _ _).2 (Option.some.inj hx)
      · obtain ⟨e1, e2⟩ := ha.post (.inr h2)
        have hcur := ha.fin h2
        have hbuf := hi.nobuf (.inr hcur)
        rw [← e2]
        rw [List.take_of_length_le hcur, hbuf] at e1
        simp only
        rw [e1]
        rfl
    · rw [BlkSt.body_else _ _ _ _ _ _ _ h1 h2] at h
      rcases hr : BlockP.body simple false p s with ⟨r1, p1, s1, k1⟩
      obtain ⟨b1, b2, b3, b4, b5⟩ := BlockP.body_acct simple hi ha h1 h2 hr
      rw [hr] at h
      simp only at h
      split at h
      · next hcond =>
        have hm := (BlockP.body_cases simple hi (by rw [hr, hcond.2.2])).2
        split at h
        · simp only [Prod.mk.injEq] at h
          obtain ⟨rfl, rfl, rfl, rfl⟩ := h
          exact ⟨b1, rfl, b2, by simp, fun h => (nomatch h), fun hr => ⟨hinv hr, hm⟩⟩
        · next hc =>
          simp only [Prod.mk.injEq] at h
          obtain ⟨rfl, rfl, rfl, rfl⟩ := h
          refine ⟨b1, rfl, rfl, ?_, fun h => ?_, fun hr => (nomatch hr)⟩
          · intro hx; exact (hcb.call _ _ _).2 (Option.some.inj hx)
          · rw [Option.some.inj h] at hc; exact absurd rfl hc
      · simp only [Prod.mk.injEq] at h
        obtain ⟨rfl, rfl, rfl, rfl⟩ := h
        refine ⟨b1, rfl, b2, b3, b5, fun hr1 => ⟨hinv hr1, ?_⟩⟩
        subst hr1
        exact (BlockP.body_cases simple hi hr).2

/-- `Feed` of a block parser. -/
def BlkSt.feed (cb : Cb) (simple q : Bool) : BlkSt × Log → Src → Fed (BlkSt × Log) :=
  loopFeed (BlkSt.body cb simple q) (fun x n => x.1.p.measure n)

theorem BlkSt.decreasing {cb : Cb} (hcb : cb.Proper) (simple q : Bool) :
    Decreasing (BlkSt.body cb simple q) (fun x n => x.1.p.measure n) (fun x => BlkInv x.1) :=
  fun _ _ _ _ _ hi h => ((BlkSt.body_facts hcb simple q hi h).2.2.2.2.2 rfl).2

theorem BlkSt.feed_facts {cb : Cb} (hcb : cb.Proper) {simple q : Bool} {x : BlkSt × Log} {s : Src}
    (hi : BlkInv x.1) {st x' s' k} (h : BlkSt.feed cb simple q x s = (st, x', s', k)) :
    Advance s s' k ∧ x'.1.n = x.1.n + k ∧ x'.1.p.elem = x.1.p.elem ∧ st ≠ .diverged ∧
      (st = .okCompleted → x'.1.n % 2 ^ 64 = x.1.p.elem.size % 2 ^ 64) := by
  have key := loopFeed_induct (body := BlkSt.body cb simple q) (μ := fun x n => x.1.p.measure n)
    (inv := fun x => BlkInv x.1) (BlkSt.decreasing hcb simple q)
    (P := fun x s r => Advance s r.2.2.1 r.2.2.2 ∧ r.2.1.1.n = x.1.n + r.2.2.2 ∧
      r.2.1.1.p.elem = x.1.p.elem ∧ r.1 ≠ .diverged ∧
      (r.1 = .okCompleted → r.2.1.1.n % 2 ^ 64 = x.1.p.elem.size % 2 ^ 64)) ?_ ?_ ?_ x s hi
  · change loopFeed _ _ _ _ = _ at h
    rw [h] at key
    exact key
  · intro p s st p' s' k hi h
    obtain ⟨b1, b2, b3, b4, b5, -⟩ := BlkSt.body_facts hcb simple q hi h
    exact ⟨b1, b2, b3, fun h => b4 (by simp only at h; rw [h]), fun h => b5 (by simp only at h; rw [h])⟩
  · intro p s p' s' k hi h
    exact ((BlkSt.body_facts hcb simple q hi h).2.2.2.2.2 rfl).1
  · intro p s p' s' k r hi h ih
    obtain ⟨b1, b2, b3, -⟩ := BlkSt.body_facts hcb simple q hi h
    obtain ⟨c1, c2, c3, c4, c5⟩ := ih
    refine ⟨b1.trans c1, ?_, c3.trans b3, c4, fun h => ?_⟩
    · simp only [addN]; rw [c2, b2, Nat.add_assoc]
    · simp only [addN] at h ⊢; rw [c5 h, b3]

theorem blockEP_good {cb : Cb} (hcb : cb.Proper) (simple : Bool) : (blockEP cb simple).Good BlkInv where
  init m mx p he := by
    simp only [blockEP] at he
    split at he
    · next p' hp =>
      cases he
      refine ⟨⟨BlockP.init_inv hp, BlockP.init_acct hp⟩, rfl, ?_⟩
      unfold BlockP.init at hp
      split at hp <;> cases hp
      rfl
    · cases he
  initErr m mx e he := by
    simp only [blockEP] at he
    split at he
    · cases he
    · next e' hp =>
      cases he
      unfold BlockP.init at hp
      split at hp <;> cases hp
      exact size_err
  seek a m p he := nomatch he
  step q p L s hi := loopFeed_tstep (BlkSt.decreasing hcb simple q)
    (fun x s hx => BlkSt.body_pass hcb simple q x s hx) (p, L) s hi
  adv q p L s st p' L' s' k hi he := by
    obtain ⟨h1, h2, h3, h4, -⟩ := BlkSt.feed_facts hcb (x := (p, L)) hi he
    exact ⟨h1, h2, congrArg Meta.size h3, h4⟩
  cached q p L s p' L' s' k hi he hc := absurd rfl hc

theorem blockEP_exact {cb : Cb} (hcb : cb.Proper) (simple : Bool) :
    (blockEP cb simple).Exact BlkInv := by
  intro q p L s p' L' s' k hi he hb hk hz
  obtain ⟨h1, h2, h3, h4, h5⟩ := BlkSt.feed_facts hcb (x := (p, L)) hi he
  have h5 := h5 rfl
  have hl := h1.length
  change p'.n = p.p.elem.size
  change p.n + _ < _ at hb
  change p.p.elem.size < _ at hz
  change p'.n = p.n + k at h2
  change p'.n % _ = p.p.elem.size % _ at h5
  rw [Nat.mod_eq_of_lt hz, Nat.mod_eq_of_lt (by omega)] at h5
  exact h5

end Verif.Web
