/-
The element parsers without children, one by one: `EP.Good` and, except for virtual blocks,
`EP.Exact`.
-/
import Verif.Lemmas.WebmTree

namespace Verif.Web
open Verif Verif.Spec

theorem size_err : Status.invalidElementSize.isStall = false ∧
    Status.invalidElementSize ≠ .diverged ∧ Status.invalidElementSize ≠ .okCompleted :=
  ⟨rfl, by simp, by simp⟩

/-- Byte counts of an accumulation. -/
theorem accum_count {bits n i : Nat} {s : Src} {st : Status} {i' : Nat} {s' : Src} {k : Nat}
    (h : accumLoop bits n i s = (st, i', s', k)) :
    k ≤ n ∧ (st = .okCompleted → k = n) ∧ s'.stalls ≤ s.stalls := by
  obtain ⟨h0, h1⟩ := accumLoop_step _ _ _ _ h
  rcases h1 with ⟨rfl, h, -⟩ | ⟨rfl, h, -⟩ | ⟨rfl, h, -⟩
  · exact ⟨by omega, fun _ => h, h0⟩
  · exact ⟨by omega, fun h => (nomatch h), h0⟩
  · exact ⟨by omega, fun h => (nomatch h), h0⟩

/-- The invariant of a parser that counts the bytes it still needs. -/
def RemI {τ} (rem : τ → Nat) (mx : Nat) (z n : Nat) (t : τ) : Prop := rem t ≤ mx ∧ rem t + n = z

/-! ### Integers -/

theorem int_fed {signed : Bool} {t : IntP} {s : Src} {st t' s' k} (h8 : t.remaining ≤ 8)
    (h : IntP.feed signed t s = (st, t', s', k)) :
    Adv st s s' k ∧ k ≤ t.remaining ∧ t'.remaining = t.remaining - k ∧
      (st = .okCompleted → k = t.remaining) := by
  unfold IntP.feed at h
  rcases hr : accumulate 64 t.remaining t.value s with ⟨st1, v, s1, k1⟩
  have ha := accumulate_adv _ _ _ _ hr
  rw [accumulate64_eq h8] at hr
  obtain ⟨c1, c2, -⟩ := accum_count hr
  rw [accumulate64_eq h8, hr] at h
  simp only [Prod.mk.injEq] at h
  obtain ⟨rfl, rfl, rfl, rfl⟩ := h
  exact ⟨ha, c1, rfl, c2⟩

theorem int_leaf (signed : Bool) : LeafOk (IntP.init 0) (IntP.feed signed) (RemI IntP.remaining 8) :=
  LeafOk.of_step (J := fun t => t.remaining ≤ 8)
    (fun z t h => by
      unfold IntP.init at h; split at h
      · cases h
      · cases h; exact ⟨by simp only; omega, rfl⟩)
    (fun z e h => by
      unfold IntP.init at h; split at h
      · cases h; exact size_err
      · cases h)
    (fun _ _ _ h => h.1) (fun t s h => IntP.feed_step signed t s h)
    (fun z n t s st t' s' k hi h hst _ => by
      obtain ⟨h1, h2, h3, h4⟩ := int_fed hi.1 h
      have := hi.1; have := hi.2
      exact ⟨by omega, by omega⟩)
    (fun z n t s st t' s' k hi h => (int_fed hi.1 h).1)

theorem int_exact (signed : Bool) (z n : Nat) (t : IntP) (s : Src) (t' : IntP) (s' : Src) (k : Nat)
    (hi : RemI IntP.remaining 8 z n t) (h : IntP.feed signed t s = (.okCompleted, t', s', k)) :
    n + k = z := by
  have := (int_fed hi.1 h).2.2.2 rfl
  have := hi.2
  omega

/-! ### Flags -/

theorem bool_fed {t : BoolP} {s : Src} {st t' s' k} (h8 : t.remaining ≤ 8)
    (h : BoolP.feed t s = (st, t', s', k)) :
    Adv st s s' k ∧ k ≤ t.remaining ∧ t'.remaining = t.remaining - k ∧ t'.size = t.size ∧
      (st = .okCompleted → k = t.remaining) ∧ s'.stalls ≤ s.stalls := by
  unfold BoolP.feed at h
  rcases hr : accumulate 64 t.remaining 0 s with ⟨st1, v, s1, k1⟩
  have ha := accumulate_adv _ _ _ _ hr
  rw [accumulate64_eq h8] at hr
  obtain ⟨c1, c2, c3⟩ := accum_count hr
  rw [accumulate64_eq h8, hr] at h
  simp only at h
  split at h
  · simp only [Prod.mk.injEq] at h
    obtain ⟨rfl, rfl, rfl, rfl⟩ := h
    exact ⟨⟨ha.adv, .inr (.inr (.inr (by decide)))⟩, c1, rfl, rfl, fun h => (nomatch h), c3⟩
  · simp only [Prod.mk.injEq] at h
    obtain ⟨rfl, rfl, rfl, rfl⟩ := h
    exact ⟨ha, c1, rfl, rfl, c2, c3⟩

/-- The invariant of the flag parser. -/
def BoolI (z n : Nat) (t : BoolP) : Prop :=
  t.remaining ≤ 8 ∧ t.remaining ≤ t.size ∧ t.remaining + n = z

theorem bool_leaf : LeafOk (BoolP.init false) BoolP.feed BoolI where
  init z t h := by
    unfold BoolP.init at h; split at h
    · cases h
    · cases h; exact ⟨by simp only; omega, Nat.le_refl _, rfl⟩
  initErr z e h := by
    unfold BoolP.init at h; split at h
    · cases h; exact size_err
    · cases h
  step z n t s st t' s' k hi h := by
    obtain ⟨h1, h2⟩ := BoolP.feed_step t s hi.1 hi.2.1 h
    obtain ⟨-, c1, c2, c3, -, c4⟩ := bool_fed hi.1 h
    have conv : ∀ {r r' : Fed BoolP}, BoolAgree r r' → LAgree r r' := by
      intro r r' h
      rcases h with h | ⟨e1, e2⟩
      · exact .inl h
      · exact .inr ⟨e1.trans e2.symm, by rw [e1]; rfl⟩
    refine ⟨c4, fun hst => conv (h1 hst), fun hst => ?_⟩
    obtain ⟨g1, g2, g3, g4⟩ := h2 hst
    refine ⟨g1, ⟨g2, g3, ?_⟩, conv g4⟩
    have := hi.2.2
    omega
  adv z n t s st t' s' k hi h := (bool_fed hi.1 h).1

theorem bool_exact (z n : Nat) (t : BoolP) (s : Src) (t' : BoolP) (s' : Src) (k : Nat)
    (hi : BoolI z n t) (h : BoolP.feed t s = (.okCompleted, t', s', k)) : n + k = z := by
  have := (bool_fed hi.1 h).2.2.2.2.1 rfl
  have := hi.2.2
  omega

/-! ### Floats, dates, IDs -/

theorem float_fed {t : FloatP} {s : Src} {st t' s' k} (h8 : t.remaining ≤ 8)
    (h : FloatP.feed t s = (st, t', s', k)) :
    Adv st s s' k ∧ k ≤ t.remaining ∧ t'.remaining = t.remaining - k ∧
      (st = .okCompleted → k = t.remaining) := by
  unfold FloatP.feed at h
  split at h
  · next h0 =>
    simp only [Prod.mk.injEq] at h
    obtain ⟨rfl, rfl, rfl, rfl⟩ := h
    exact ⟨⟨Advance.refl _, .inl rfl⟩, by omega, by omega, fun _ => by omega⟩
  · rcases hr : accumulate 64 t.remaining t.acc s with ⟨st1, v, s1, k1⟩
    have ha := accumulate_adv _ _ _ _ hr
    rw [accumulate64_eq h8] at hr
    obtain ⟨c1, c2, -⟩ := accum_count hr
    rw [accumulate64_eq h8, hr] at h
    simp only at h
    split at h <;>
    · simp only [Prod.mk.injEq] at h
      obtain ⟨rfl, rfl, rfl, rfl⟩ := h
      exact ⟨ha, c1, rfl, c2⟩

theorem float_leaf : LeafOk FloatP.init FloatP.feed (RemI FloatP.remaining 8) :=
  LeafOk.of_step (J := fun t => t.remaining ≤ 8)
    (fun z t h => by
      unfold FloatP.init at h; split at h
      · cases h; exact ⟨by simp only; omega, rfl⟩
      · cases h)
    (fun z e h => by
      unfold FloatP.init at h; split at h
      · cases h
      · cases h; exact size_err)
    (fun _ _ _ h => h.1) (fun t s h => FloatP.feed_step t s h)
    (fun z n t s st t' s' k hi h hst _ => by
      obtain ⟨h1, h2, h3, h4⟩ := float_fed hi.1 h
      have := hi.1; have := hi.2
      exact ⟨by omega, by omega⟩)
    (fun z n t s st t' s' k hi h => (float_fed hi.1 h).1)

theorem float_exact (z n : Nat) (t : FloatP) (s : Src) (t' : FloatP) (s' : Src) (k : Nat)
    (hi : RemI FloatP.remaining 8 z n t) (h : FloatP.feed t s = (.okCompleted, t', s', k)) :
    n + k = z := by
  have := (float_fed hi.1 h).2.2.2 rfl
  have := hi.2
  omega

theorem date_fed {t : DateP} {s : Src} {st t' s' k} (h8 : t.remaining ≤ 8)
    (h : DateP.feed t s = (st, t', s', k)) :
    Adv st s s' k ∧ k ≤ t.remaining ∧ t'.remaining = t.remaining - k ∧
      (st = .okCompleted → k = t.remaining) := by
  unfold DateP.feed at h
  rcases hr : accumulate 64 t.remaining t.value s with ⟨st1, v, s1, k1⟩
  have ha := accumulate_adv _ _ _ _ hr
  rw [accumulate64_eq h8] at hr
  obtain ⟨c1, c2, -⟩ := accum_count hr
  rw [accumulate64_eq h8, hr] at h
  simp only [Prod.mk.injEq] at h
  obtain ⟨rfl, rfl, rfl, rfl⟩ := h
  exact ⟨ha, c1, rfl, c2⟩

theorem date_leaf : LeafOk (DateP.init 0) DateP.feed (RemI DateP.remaining 8) :=
  LeafOk.of_step (J := fun t => t.remaining ≤ 8)
    (fun z t h => by
      unfold DateP.init at h; split at h
      · cases h
      · cases h; exact ⟨by simp only; omega, rfl⟩)
    (fun z e h => by
      unfold DateP.init at h; split at h
      · cases h; exact size_err
      · cases h)
    (fun _ _ _ h => h.1) (fun t s h => DateP.feed_step t s h)
    (fun z n t s st t' s' k hi h hst _ => by
      obtain ⟨h1, h2, h3, h4⟩ := date_fed hi.1 h
      have := hi.1; have := hi.2
      exact ⟨by omega, by omega⟩)
    (fun z n t s st t' s' k hi h => (date_fed hi.1 h).1)

theorem date_exact (z n : Nat) (t : DateP) (s : Src) (t' : DateP) (s' : Src) (k : Nat)
    (hi : RemI DateP.remaining 8 z n t) (h : DateP.feed t s = (.okCompleted, t', s', k)) :
    n + k = z := by
  have := (date_fed hi.1 h).2.2.2 rfl
  have := hi.2
  omega

theorem idElem_fed {t : IdElemP} {s : Src} {st t' s' k} (h8 : t.remaining ≤ 4)
    (h : IdElemP.feed t s = (st, t', s', k)) :
    Adv st s s' k ∧ k ≤ t.remaining ∧ t'.remaining = t.remaining - k ∧
      (st = .okCompleted → k = t.remaining) := by
  unfold IdElemP.feed at h
  rcases hr : accumulate 32 t.remaining t.value s with ⟨st1, v, s1, k1⟩
  have ha := accumulate_adv _ _ _ _ hr
  rw [accumulate32_eq h8] at hr
  obtain ⟨c1, c2, -⟩ := accum_count hr
  rw [accumulate32_eq h8, hr] at h
  simp only [Prod.mk.injEq] at h
  obtain ⟨rfl, rfl, rfl, rfl⟩ := h
  exact ⟨ha, c1, rfl, c2⟩

theorem idElem_leaf : LeafOk IdElemP.init IdElemP.feed (RemI DateP.remaining 4) :=
  LeafOk.of_step (J := fun t => t.remaining ≤ 4)
    (fun z t h => by
      unfold IdElemP.init at h; split at h
      · cases h
      · cases h; exact ⟨by simp only; omega, rfl⟩)
    (fun z e h => by
      unfold IdElemP.init at h; split at h
      · cases h; exact size_err
      · cases h)
    (fun _ _ _ h => h.1) (fun t s h => IdElemP.feed_step t s h)
    (fun z n t s st t' s' k hi h hst _ => by
      obtain ⟨h1, h2, h3, h4⟩ := idElem_fed hi.1 h
      have := hi.1; have := hi.2
      exact ⟨by omega, by omega⟩)
    (fun z n t s st t' s' k hi h => (idElem_fed hi.1 h).1)

theorem idElem_exact (z n : Nat) (t : IdElemP) (s : Src) (t' : IdElemP) (s' : Src) (k : Nat)
    (hi : RemI DateP.remaining 4 z n t) (h : IdElemP.feed t s = (.okCompleted, t', s', k)) :
    n + k = z := by
  have := (idElem_fed hi.1 h).2.2.2 rfl
  have := hi.2
  omega

/-! ### Byte strings -/

/-- The invariant of the byte string parser. -/
def ByteI (z n : Nat) (t : ByteP) : Prop := t.got.length ≤ t.size ∧ t.got.length = n ∧ t.size = z

theorem byte_fed {str : Bool} {t : ByteP} {s : Src} {st t' s' k} (hl : t.got.length ≤ t.size)
    (h : ByteP.feed str t s = (st, t', s', k)) :
    Adv st s s' k ∧ t'.got.length = t.got.length + k ∧ t'.size = t.size ∧
      (st = .okCompleted → t.got.length + k = t.size) := by
  unfold ByteP.feed at h
  split at h
  · next h0 =>
    simp only [Prod.mk.injEq] at h
    obtain ⟨rfl, rfl, rfl, rfl⟩ := h
    exact ⟨⟨Advance.refl _, .inl rfl⟩, rfl, rfl, fun _ => h0⟩
  · rcases hr : byteLoop t.size (t.size - t.got.length + 1) t.got s with ⟨st1, g, s1, k1⟩
    have ha := byteLoop_adv _ _ _ _ (by omega) (by omega) hr
    obtain ⟨ds, i1, i2, i3, i4, i5, i6⟩ := byteLoop_facts _ _ _ _ (by omega) (by omega) hr
    rw [hr] at h
    simp only at h
    have hc : st1 = .okCompleted → t.got.length + k1 = t.size := by
      rintro rfl
      rcases i6 with ⟨-, c⟩ | ⟨hx, -⟩ | ⟨hx, -⟩
      · omega
      · cases hx
      · cases hx
    have hg : g.length = t.got.length + k1 := by rw [i2, List.length_append, i3]
    split at h <;>
    · simp only [Prod.mk.injEq] at h
      obtain ⟨rfl, rfl, rfl, rfl⟩ := h
      exact ⟨ha, hg, rfl, hc⟩

theorem byte_leaf (str : Bool) : LeafOk (ByteP.init []) (ByteP.feed str) ByteI :=
  LeafOk.of_step (J := ByteP.Inv)
    (fun z t h => by
      unfold ByteP.init at h; split at h
      · cases h
      · split at h <;> cases h
        · next h0 => exact ⟨by simp, rfl, by simp [h0]⟩
        · exact ⟨by simp, rfl, rfl⟩)
    (fun z e h => by
      unfold ByteP.init at h; split at h
      · cases h; exact size_err
      · split at h <;> cases h)
    (fun _ _ _ h => h.1) (fun t s h => ByteP.feed_step str t s h)
    (fun z n t s st t' s' k hi h hst hj => by
      obtain ⟨h1, h2, h3, h4⟩ := byte_fed hi.1 h
      have := hi.2.1; have := hi.2.2
      exact ⟨hj, by omega, by omega⟩)
    (fun z n t s st t' s' k hi h => (byte_fed hi.1 h).1)

theorem byte_exact (str : Bool) (z n : Nat) (t : ByteP) (s : Src) (t' : ByteP) (s' : Src) (k : Nat)
    (hi : ByteI z n t) (h : ByteP.feed str t s = (.okCompleted, t', s', k)) : n + k = z := by
  have := (byte_fed hi.1 h).2.2.2 rfl
  have := hi.2
  omega

/-! ### Skipped elements -/

theorem skip_fed {t : Nat} {s : Src} {st t' s' k} (h : skipFeed t s = (st, t', s', k)) :
    Adv st s s' k ∧ k ≤ t ∧ t' = t - k ∧ (st = .okCompleted → k = t) := by
  refine ⟨skipFeed_adv _ _ h, ?_⟩
  unfold skipFeed at h
  split at h
  · next h0 =>
    simp only [Prod.mk.injEq] at h
    obtain ⟨rfl, rfl, rfl, rfl⟩ := h
    exact ⟨by omega, by omega, fun _ => by omega⟩
  · rcases hr : byteLoop t (t + 1) [] s with ⟨st1, g, s1, k1⟩
    obtain ⟨ds, i1, i2, i3, i4, i5, i6⟩ := byteLoop_facts _ _ _ _ (by simp; omega) (by simp) hr
    rw [hr] at h
    simp only [Prod.mk.injEq, List.length_nil, Nat.sub_zero] at h i6
    obtain ⟨rfl, rfl, rfl, rfl⟩ := h
    rcases i6 with ⟨rfl, c⟩ | ⟨rfl, c, d⟩ | ⟨rfl, c, d⟩
    · exact ⟨by omega, rfl, fun _ => by omega⟩
    · exact ⟨by omega, rfl, fun h => (nomatch h)⟩
    · exact ⟨by omega, rfl, fun h => (nomatch h)⟩

/-- The invariant of the parser of skipped elements. -/
def SkipI (z n : Nat) (t : Nat) : Prop := t + n = z

theorem skip_leaf {ini : Nat → Except Status Nat} (h1 : ∀ z t, ini z = .ok t → t = z)
    (h2 : ∀ z e, ini z = .error e → e.isStall = false ∧ e ≠ .diverged ∧ e ≠ .okCompleted) :
    LeafOk ini skipFeed SkipI :=
  LeafOk.of_step (J := fun _ => True)
    (fun z t h => by rw [h1 _ _ h]; rfl) h2
    (fun _ _ _ _ => trivial) (fun t s _ => skipFeed_step t s)
    (fun z n t s st t' s' k hi h hst _ => by
      obtain ⟨h1, h2, h3, h4⟩ := skip_fed h
      unfold SkipI at hi ⊢
      omega)
    (fun z n t s st t' s' k hi h => (skip_fed h).1)

theorem skip_exact (z n : Nat) (t : Nat) (s : Src) (t' : Nat) (s' : Src) (k : Nat)
    (hi : SkipI z n t) (h : skipFeed t s = (.okCompleted, t', s', k)) : n + k = z := by
  have := (skip_fed h).2.2.2 rfl
  unfold SkipI at hi
  omega

/-- The invariant of a `SkipParser`. -/
def SkipInv (x : skipEP.σ) : Prop := SkipI x.size x.n x.t

theorem skipEP_good : skipEP.Good SkipInv :=
  leaf_good (skip_leaf (fun z t h => by split at h <;> cases h; rfl)
    (fun z e h => by split at h <;> cases h; exact size_err))

theorem skipEP_exact : skipEP.Exact SkipInv := leaf_exact skip_exact

/-! ### Virtual blocks -/

/-- The invariant of the virtual block parser. -/
def VirtI (_z _n : Nat) (t : VirtP) : Prop := t.hdr.Inv

theorem virt_leaf : LeafOk VirtP.init VirtP.feed VirtI where
  init z t h := by
    unfold VirtP.init at h; split at h
    · cases h
    · cases h
      exact ⟨fun h => (nomatch h), fun _ => ⟨Nat.le_refl _, fresh_uint⟩⟩
  initErr z e h := by
    unfold VirtP.init at h; split at h
    · cases h; exact size_err
    · cases h
  step z n t s st t' s' k hi h := by
    obtain ⟨size, hdr, total⟩ := t
    have hfd : ∀ hdr total s, VirtP.feed ⟨size, hdr, total⟩ s = (match hdr.feed s with
      | (st, h, s', k) =>
        if st.completedOk then
          if size < total + k then (.invalidElementValue, ⟨size, h, total + k⟩, s', k)
          else (.okCompleted, ⟨size, h, total + k⟩, s', k)
        else (st, ⟨size, h, total + k⟩, s', k)) := fun _ _ _ => rfl
    rw [hfd] at h
    rcases hr : hdr.feed s with ⟨st1, h1, s1, k1⟩
    obtain ⟨g0, g1, g2⟩ := BlockHdr.feed_step hdr s hi _ _ _ _ hr
    rw [hr] at h
    simp only at h
    by_cases hc : st1.completedOk
    · rw [if_pos hc] at h
      have := completedOk_iff.mp hc
      subst this
      have h' := g1 rfl
      split at h <;>
      · next hsz =>
        simp only [Prod.mk.injEq] at h
        obtain ⟨rfl, rfl, rfl, rfl⟩ := h
        refine ⟨g0, fun _ => .inl ?_, fun h => (nomatch h)⟩
        rw [hfd, h']
        simp only
        rw [if_pos hc]
        simp only [hsz, if_true, if_false]
    · rw [if_neg hc] at h
      simp only [Prod.mk.injEq] at h
      obtain ⟨rfl, rfl, rfl, rfl⟩ := h
      refine ⟨g0, fun hst => .inl ?_, fun hst => ⟨(g2 hst).1, (g2 hst).2.1, .inl ?_⟩⟩
      · rw [hfd, g1 hst]
        simp only
        rw [if_neg hc]
      · rw [hfd, hfd, (g2 hst).2.2]
        rcases h1.feed s1.flat with ⟨st2, h2, s2, k2⟩
        simp only [addN_mk, Nat.add_assoc]
        by_cases hc2 : st2.completedOk
        · by_cases hz : size < total + (k1 + k2)
          · simp [hc2, hz]
          · simp [hc2, hz]
        · simp [hc2]
  adv z n t s st t' s' k hi h := by
    unfold VirtP.feed at h
    rcases hr : t.hdr.feed s with ⟨st1, h1, s1, k1⟩
    have ha := BlockHdr.feed_adv _ _ hr
    rw [hr] at h
    simp only at h
    split at h
    · split at h <;>
      · simp only [Prod.mk.injEq] at h
        obtain ⟨rfl, rfl, rfl, rfl⟩ := h
        exact ⟨ha.adv, by first | exact .inl rfl | exact .inr (.inr (.inr (by decide)))⟩
    · simp only [Prod.mk.injEq] at h
      obtain ⟨rfl, rfl, rfl, rfl⟩ := h
      exact ha

/-! ### Void and unknown elements -/

/-- The invariant of `VoidParser` and `UnknownParser`. -/
def DataInv (x : DataSt) : Prop := x.buf.length ≤ x.m.size

theorem dataEP_feed (cb : Cb) (ev : Meta → Bytes → Ev) (q : Bool) (x : DataSt × Log)
    (s : Src) : DataSt.feed cb ev q x s =
      match onFrame x.1.m.size x.1.buf s with
      | (st, buf, s', k) =>
        if st.completedOk then
          ((cb.call q x.2 (ev x.1.m buf)).1, (⟨x.1.m, buf⟩, (cb.call q x.2 (ev x.1.m buf)).2.2), s', k)
        else (st, (⟨x.1.m, buf⟩, x.2), s', k) := rfl

theorem onFrame_len {size : Nat} {buf : Bytes} {s : Src} (h : buf.length ≤ size)
    {st : Status} {buf' : Bytes} {s' : Src} {k : Nat}
    (he : onFrame size buf s = (st, buf', s', k)) :
    buf'.length = buf.length + k ∧ (st = .okCompleted → buf'.length = size) := by
  unfold onFrame at he
  split at he
  · next hb =>
    simp only [Prod.mk.injEq] at he
    obtain ⟨rfl, rfl, rfl, rfl⟩ := he
    exact ⟨rfl, fun _ => hb⟩
  · obtain ⟨ds, i1, i2, i3, i4, i5, i6⟩ := byteLoop_facts _ _ _ _ (by omega) (by omega) he
    refine ⟨by rw [i2, List.length_append, i3], fun hst => ?_⟩
    rcases i6 with ⟨-, c⟩ | ⟨hx, -⟩ | ⟨hx, -⟩
    · rw [i2, List.length_append]; omega
    · rw [hx] at hst; cases hst
    · rw [hx] at hst; cases hst

theorem DataSt.feed_adv {cb : Cb} (hcb : cb.Proper) {ev : Meta → Bytes → Ev} {q : Bool}
    {p p' : DataSt} {L L' : Log} {s s' : Src} {st : Status} {k : Nat} (hi : DataInv p)
    (he : DataSt.feed cb ev q (p, L) s = (st, (p', L'), s', k)) :
    Advance s s' k ∧ p'.buf.length = p.buf.length + k ∧ p'.m = p.m ∧ st ≠ .diverged ∧
      (st = .okCompleted → p'.buf.length = p.m.size) := by
  obtain ⟨m, buf⟩ := p
  rw [dataEP_feed] at he
  rcases hr : onFrame m.size buf s with ⟨st1, b1, s1, k1⟩
  have ha := onFrame_adv _ _ _ hi hr
  have hl := onFrame_len hi hr
  simp only [hr] at he
  split at he
  · next hc =>
    simp only [Prod.mk.injEq] at he
    obtain ⟨rfl, ⟨rfl, rfl⟩, rfl, rfl⟩ := he
    exact ⟨ha.adv, hl.1, rfl, (hcb.call q L (ev m b1)).2, fun _ => hl.2 (completedOk_iff.mp hc)⟩
  · next hc =>
    simp only [Prod.mk.injEq] at he
    obtain ⟨rfl, ⟨rfl, rfl⟩, rfl, rfl⟩ := he
    exact ⟨ha.adv, hl.1, rfl, ha.not_diverged, fun h => by rw [h] at hc; exact absurd rfl hc⟩

theorem dataEP_good {cb : Cb} (hcb : cb.Proper) {bad : Status}
    (hbad : bad.isStall = false ∧ bad ≠ .diverged ∧ bad ≠ .okCompleted)
    (ev : Meta → Bytes → Ev) : (dataEP cb bad ev).Good DataInv where
  init m mx p he := by
    simp only [dataEP] at he
    split at he
    · cases he
    · cases he; exact ⟨Nat.zero_le _, rfl, rfl⟩
  initErr m mx e he := by
    simp only [dataEP] at he
    split at he
    · cases he; exact hbad
    · cases he
  seek a m p he := nomatch he
  step q p L s hi := by
    obtain ⟨m, buf⟩ := p
    change TStep (DataSt.feed cb ev q) DataInv (⟨m, buf⟩, L) s
    intro st x' s' k he
    rw [dataEP_feed] at he
    rcases hr : onFrame m.size buf s with ⟨st1, b1, s1, k1⟩
    obtain ⟨h0, h1, h2⟩ := onFrame_step m.size buf s hi _ _ _ _ hr
    simp only [hr] at he
    by_cases hc : st1.completedOk
    · rw [if_pos hc] at he
      simp only [Prod.mk.injEq] at he
      obtain ⟨rfl, rfl, rfl, rfl⟩ := he
      have := completedOk_iff.mp hc
      subst this
      have hns := (hcb.call q L (ev m b1)).1
      refine ⟨h0, fun hst => .inl ?_, fun hst => ?_⟩
      · rw [dataEP_feed]
        simp only [h1 rfl]
        rw [if_pos hc]
      · rw [hns] at hst; cases hst
    · rw [if_neg hc] at he
      simp only [Prod.mk.injEq] at he
      obtain ⟨rfl, rfl, rfl, rfl⟩ := he
      refine ⟨h0, fun hst => .inl ?_, fun hst => ⟨(h2 hst).1, (h2 hst).2.1, .inl ?_⟩⟩
      · rw [dataEP_feed]
        simp only [h1 hst]
        rw [if_neg hc]
      · rw [dataEP_feed, dataEP_feed]
        simp only [(h2 hst).2.2]
        rcases onFrame m.size b1 s1.flat with ⟨st2, b2, s2, k2⟩
        simp only [addN_mk]
        by_cases hc2 : st2.completedOk
        · simp [hc2]
        · simp [hc2]
  adv q p L s st p' L' s' k hi he := by
    obtain ⟨h1, h2, h3, h4, -⟩ := DataSt.feed_adv hcb hi he
    exact ⟨h1, h2, congrArg Meta.size h3, h4⟩
  cached q p L s p' L' s' k hi he hc := absurd rfl hc

theorem dataEP_exact {cb : Cb} (hcb : cb.Proper) {bad : Status}
    (ev : Meta → Bytes → Ev) : (dataEP cb bad ev).Exact DataInv :=
  fun _ _ _ _ _ _ _ _ hi he _ _ _ => (DataSt.feed_adv hcb hi he).2.2.2.2 rfl

theorem voidEP_good {cb : Cb} (hcb : cb.Proper) : (voidEP cb).Good DataInv :=
  dataEP_good hcb size_err _

theorem unknownEP_good {cb : Cb} (hcb : cb.Proper) : (unknownEP cb).Good DataInv :=
  dataEP_good hcb ⟨rfl, by simp, by simp⟩ _

end Verif.Web
