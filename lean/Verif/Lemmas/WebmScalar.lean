/-
Helper lemmas about the incremental scalar parsers.
-/
import Verif.Model.WebmScalar
import Verif.Spec.Feeding
import Verif.Spec.Ebml
import Verif.Lemmas.ParserPrims

namespace Verif.Web
open Verif Verif.Spec

theorem flat_eq (s : Src) : s.flat = allAtOnce s.bytes s.pos := by
  obtain ⟨evs, pos⟩ := s
  simp only [Src.flat, allAtOnce, Src.bytes, Src.mk.injEq, and_true]
  induction evs with
  | nil => rfl
  | cons e es ih => cases e <;> simp [ih]

theorem flat_none (es : List (Option UInt8)) (p : Nat) :
    Src.flat ⟨none :: es, p⟩ = Src.flat ⟨es, p⟩ := by simp [Src.flat]

theorem flat_some (b : UInt8) (es : List (Option UInt8)) (p : Nat) :
    (Src.flat ⟨some b :: es, p⟩).readByte = (.okCompleted, some b, Src.flat ⟨es, p + 1⟩) := by
  simp [Src.flat, Src.readByte]

theorem flat_nil (p : Nat) : Src.flat ⟨[], p⟩ = ⟨[], p⟩ := rfl

theorem stalls_none (es : List (Option UInt8)) (p q : Nat) :
    Src.stalls ⟨es, q⟩ < Src.stalls ⟨none :: es, p⟩ := by simp [Src.stalls]

theorem stalls_some (b : UInt8) (es : List (Option UInt8)) (p q : Nat) :
    Src.stalls ⟨some b :: es, p⟩ = Src.stalls ⟨es, q⟩ := by simp [Src.stalls]

/-- Add the bytes read by an earlier call. -/
def addN {σ} (k : Nat) (r : Fed σ) : Fed σ := (r.1, r.2.1, r.2.2.1, k + r.2.2.2)

@[simp] theorem addN_zero {σ} (r : Fed σ) : addN 0 r = r := by simp [addN]

@[simp] theorem addN_mk {σ} (k : Nat) (st : Status) (p : σ) (s : Src) (n : Nat) :
    addN k (st, p, s, n) = (st, p, s, k + n) := rfl

@[simp] theorem addN_addN {σ} (k l : Nat) (r : Fed σ) : addN k (addN l r) = addN (k + l) r := by
  simp [addN, Nat.add_assoc]

/-- The one-step form of schedule independence: a call that stalls has made progress that the
next call continues from, as seen from a call with everything available. -/
def StepOk {σ} (feed : σ → Src → Fed σ) (inv : σ → Prop) (p : σ) (s : Src) : Prop :=
  ∀ st p' s' k, feed p s = (st, p', s', k) → s'.stalls ≤ s.stalls ∧
    (st.isStall = false → feed p s.flat = (st, p', s'.flat, k)) ∧
    (st.isStall = true → s'.stalls < s.stalls ∧ inv p' ∧
      feed p s.flat = addN k (feed p' s'.flat))

theorem StepOk.weaken {σ} {feed : σ → Src → Fed σ} {inv inv' : σ → Prop} {p : σ} {s : Src}
    (hi : ∀ p, inv p → inv' p) (h : StepOk feed inv p s) : StepOk feed inv' p s := by
  intro st p' s' k he
  obtain ⟨h0, h1, h2⟩ := h st p' s' k he
  exact ⟨h0, h1, fun hst => ⟨(h2 hst).1, hi _ (h2 hst).2.1, (h2 hst).2.2⟩⟩

theorem scheduleIndependent_of_step {σ} {feed : σ → Src → Fed σ} {inv : σ → Prop}
    (h : ∀ p s, inv p → StepOk feed inv p s) {p : σ} (hp : inv p) : ScheduleIndependent feed p := by
  intro s fuel
  induction fuel generalizing p s with
  | zero => intro hf; omega
  | succ f ih =>
    intro hf
    unfold drive
    rcases hfe : feed p s with ⟨st, p', s', k⟩
    have hs := (h p s hp st p' s' k hfe).2
    simp only
    cases hst : st.isStall
    · simp only [Bool.false_eq_true, if_false]
      rw [← flat_eq, ← flat_eq]
      exact hs.1 hst
    · simp only [if_true]
      obtain ⟨hlt, hinv, he⟩ := hs.2 hst
      have := ih hinv s' (by omega)
      rcases hd : drive feed f p' s' with ⟨st', p'', s'', k'⟩
      rw [hd] at this
      simp only at this ⊢
      rw [← flat_eq] at this ⊢
      rw [he, this]
      simp

/-! ### The accumulation loop -/

theorem accumLoop_some (bits n i : Nat) (b : UInt8) (es : List (Option UInt8)) (pos : Nat) :
    accumLoop bits (n + 1) i ⟨some b :: es, pos⟩ =
      addN 1 (accumLoop bits n (((i <<< 8) ||| b.toNat) % 2 ^ bits) ⟨es, pos + 1⟩) := by
  simp [accumLoop, Src.readByte, addN, Nat.add_comm]

theorem accumLoop_flat_some (bits n i : Nat) (b : UInt8) (es : List (Option UInt8)) (pos : Nat) :
    accumLoop bits (n + 1) i (Src.flat ⟨some b :: es, pos⟩) =
      addN 1 (accumLoop bits n (((i <<< 8) ||| b.toNat) % 2 ^ bits) (Src.flat ⟨es, pos + 1⟩)) := by
  rw [accumLoop, flat_some]
  simp [addN, Nat.add_comm]

theorem accumLoop_step (bits n i : Nat) (s : Src) {st : Status} {i' : Nat} {s' : Src} {k : Nat}
    (h : accumLoop bits n i s = (st, i', s', k)) : s'.stalls ≤ s.stalls ∧ (
      (st = .okCompleted ∧ k = n ∧ accumLoop bits n i s.flat = (.okCompleted, i', s'.flat, n)) ∨
      (st = .endOfFile ∧ k < n ∧ accumLoop bits n i s.flat = (.endOfFile, i', s'.flat, k)) ∨
      (st = .wouldBlock ∧ k < n ∧ s'.stalls < s.stalls ∧
        accumLoop bits n i s.flat = addN k (accumLoop bits (n - k) i' s'.flat))) := by
  induction n generalizing i s st i' s' k with
  | zero =>
    simp only [accumLoop, Prod.mk.injEq] at h
    obtain ⟨rfl, rfl, rfl, rfl⟩ := h
    simp [accumLoop]
  | succ n ih =>
    obtain ⟨evs, pos⟩ := s
    cases evs with
    | nil =>
      simp only [accumLoop, Src.readByte, Prod.mk.injEq] at h
      obtain ⟨rfl, rfl, rfl, rfl⟩ := h
      simp [accumLoop, Src.readByte, Src.flat]
    | cons e es =>
      cases e with
      | none =>
        simp only [accumLoop, Src.readByte, Prod.mk.injEq] at h
        obtain ⟨rfl, rfl, rfl, rfl⟩ := h
        refine ⟨Nat.le_of_lt (stalls_none _ _ _), .inr (.inr ⟨rfl, by simp, stalls_none _ _ _, ?_⟩)⟩
        rw [flat_none]
        simp
      | some b =>
        rw [accumLoop_some] at h
        rcases hr : accumLoop bits n (((i <<< 8) ||| b.toNat) % 2 ^ bits) ⟨es, pos + 1⟩ with
          ⟨st2, i2, s2, k2⟩
        have := ih _ _ hr
        rw [hr] at h
        simp only [addN_mk, Prod.mk.injEq] at h
        obtain ⟨rfl, rfl, rfl, rfl⟩ := h
        rw [accumLoop_flat_some]
        obtain ⟨hle, this⟩ := this
        refine ⟨by rwa [stalls_some b es pos (pos + 1)], ?_⟩
        rcases this with ⟨h1, h2, h3⟩ | ⟨h1, h2, h3⟩ | ⟨h1, h2, h3, h4⟩
        · exact .inl ⟨h1, by omega, by rw [h3, addN_mk]; simp [Nat.add_comm]⟩
        · exact .inr (.inl ⟨h1, by omega, by rw [h3, addN_mk]⟩)
        · refine .inr (.inr ⟨h1, by omega, ?_, ?_⟩)
          · rwa [stalls_some b es pos (pos + 1)]
          · rw [h4, addN_addN, show n + 1 - (1 + k2) = n - k2 by omega]

theorem accumulate_eq {bits n i : Nat} {s : Src} (h : n ≤ bits / 8) :
    accumulate bits n i s = accumLoop bits n i s := if_neg (by omega)

theorem accumulate64_eq {n i : Nat} {s : Src} (h : n ≤ 8) :
    accumulate 64 n i s = accumLoop 64 n i s := accumulate_eq h

theorem accumulate32_eq {n i : Nat} {s : Src} (h : n ≤ 4) :
    accumulate 32 n i s = accumLoop 32 n i s := accumulate_eq h

theorem completedOk_iff {st : Status} : st.completedOk = true ↔ st = .okCompleted := by
  simp [Status.completedOk]

/-- A parser step that is one accumulation followed by a state update. -/
def mapFed {σ} (r : Fed Nat) (f : Status → Nat → Nat → σ) : Fed σ :=
  (r.1, f r.1 r.2.1 r.2.2.2, r.2.2.1, r.2.2.2)

theorem accum_step {σ} {feed : σ → Src → Fed σ} {bits : Nat} {rem val : σ → Nat}
    {upd : σ → Status → Nat → Nat → σ} {inv : σ → Prop}
    (hfeed : ∀ p s, inv p → feed p s = mapFed (accumLoop bits (rem p) (val p) s) (upd p))
    (h1 : ∀ p v k, inv p → k < rem p → rem (upd p .wouldBlock v k) = rem p - k ∧
      val (upd p .wouldBlock v k) = v ∧ inv (upd p .wouldBlock v k))
    (h2 : ∀ p v k st2 v2 k2, inv p → k < rem p →
      upd (upd p .wouldBlock v k) st2 v2 k2 = upd p st2 v2 (k + k2))
    (p : σ) (s : Src) (hp : inv p) : StepOk feed inv p s := by
  intro st p' s' k h
  rw [hfeed p s hp] at h
  rw [hfeed p s.flat hp]
  rcases hr : accumLoop bits (rem p) (val p) s with ⟨st2, i2, s2, k2⟩
  rw [hr] at h
  simp only [mapFed, Prod.mk.injEq] at h
  obtain ⟨rfl, rfl, rfl, rfl⟩ := h
  obtain ⟨hle, hst⟩ := accumLoop_step _ _ _ _ hr
  refine ⟨hle, ?_⟩
  rcases hst with ⟨rfl, h2', h3⟩ | ⟨rfl, h2', h3⟩ | ⟨rfl, h2', h3, h4⟩
  · subst h2'; rw [h3]; simp [mapFed, Status.isStall]
  · rw [h3]; simp [mapFed, Status.isStall]
  · refine ⟨by simp [Status.isStall], fun _ => ⟨h3, (h1 p _ _ hp h2').2.2, ?_⟩⟩
    rw [hfeed _ _ (h1 p _ _ hp h2').2.2, (h1 p _ _ hp h2').1, (h1 p _ _ hp h2').2.1, h4]
    simp only [mapFed, addN]
    rw [h2 p _ _ _ _ _ hp h2']

theorem allAtOnce_readByte_cons (b : UInt8) (bs : Bytes) (p : Nat) :
    (allAtOnce (b :: bs) p).readByte = (.okCompleted, some b, allAtOnce bs (p + 1)) := rfl

/-- Accumulation with all the data available. -/
theorem accumLoop_allAtOnce (bits n i : Nat) (bs : Bytes) (p : Nat) :
    accumLoop bits n i (allAtOnce bs p) =
      (if n ≤ bs.length then .okCompleted else .endOfFile,
       (bs.take n).foldl (fun a b => ((a <<< 8) ||| b.toNat) % 2 ^ bits) i,
       allAtOnce (bs.drop n) (p + min n bs.length), min n bs.length) := by
  induction n generalizing i bs p with
  | zero => simp [accumLoop]
  | succ n ih =>
    cases bs with
    | nil => simp [accumLoop, allAtOnce, Src.readByte]
    | cons b bs =>
      rw [accumLoop, allAtOnce_readByte_cons]
      simp only [ih]
      simp only [List.length_cons, List.take_succ_cons, List.foldl_cons, List.drop_succ_cons,
        Prod.mk.injEq, true_and, Nat.add_le_add_iff_right,
        Nat.add_min_add_right, and_true]
      congr 1; omega

theorem foldl_acc (bits : Nat) (bs : Bytes) (i : Nat) (hi : i < 2 ^ bits) :
    bs.foldl (fun a b => ((a <<< 8) ||| b.toNat) % 2 ^ bits) i =
      (i * 256 ^ bs.length + beVal bs) % 2 ^ bits := by
  induction bs generalizing i with
  | nil => simp [Nat.mod_eq_of_lt hi]
  | cons b bs ih =>
    rw [List.foldl_cons, ih _ (Nat.mod_lt _ (Nat.pow_pos (by decide))), shl8_or, beVal_cons,
      List.length_cons, Nat.pow_succ]
    rw [Nat.add_mod, Nat.mul_mod, Nat.mod_mod, ← Nat.mul_mod, ← Nat.add_mod]
    congr 1
    rw [Nat.add_mul, Nat.mul_assoc, Nat.mul_comm 256, Nat.add_assoc]

/-- Accumulation with all the data available, enough of it, and no overflow. -/
theorem accumLoop_value {bits n i : Nat} {bs : Bytes} {p : Nat} (hn : n ≤ bs.length)
    (hb : i * 256 ^ n + beVal (bs.take n) < 2 ^ bits) :
    accumLoop bits n i (allAtOnce bs p) =
      (.okCompleted, i * 256 ^ n + beVal (bs.take n), allAtOnce (bs.drop n) (p + n), n) := by
  have hi : i < 2 ^ bits := by
    have : i ≤ i * 256 ^ n := Nat.le_mul_of_pos_right _ (Nat.pow_pos (by decide))
    omega
  rw [accumLoop_allAtOnce, if_pos hn, Nat.min_eq_left hn, foldl_acc _ _ _ hi]
  simp only [List.length_take, Nat.min_eq_left hn, Nat.mod_eq_of_lt hb]

/-! ### Stepwise schedule independence of the individual parsers -/

theorem clz_facts : ∀ b : UInt8, b ≠ 0 →
    countLeadingZeros b ≤ 7 ∧ (Par.markerLoop b 0x80 1 8).2 = countLeadingZeros b + 1 :=
  Par.forall_byte (by decide +kernel)

theorem idclz_facts : ∀ b : UInt8,
    (b &&& 0xf0 = 0 → Par.idBitLoop b 0 4 = none) ∧
    (b &&& 0xf0 ≠ 0 → countLeadingZeros b ≤ 3 ∧
      Par.idBitLoop b 0 4 = some (countLeadingZeros b)) :=
  Par.forall_byte (by decide +kernel)

/-- A parser whose first call reads one byte `b` and then continues as in state `mk b`. -/
theorem first_byte_step {σ} {feed : σ → Src → Fed σ} {inv : σ → Prop} {p : σ} {mk : UInt8 → σ}
    {bad : UInt8 → Option Status}
    (hbad : ∀ b st, bad b = some st → st.isStall = false)
    (hnil : ∀ pos, feed p ⟨[], pos⟩ = (.endOfFile, p, ⟨[], pos⟩, 0))
    (hnone : ∀ es pos, feed p ⟨none :: es, pos⟩ = (.wouldBlock, p, ⟨es, pos⟩, 0))
    (hsome : ∀ b es pos, feed p ⟨some b :: es, pos⟩ =
      match bad b with
      | some st => (st, p, ⟨es, pos + 1⟩, 1)
      | none => addN 1 (feed (mk b) ⟨es, pos + 1⟩))
    (hp : inv p) (hmk : ∀ b s, bad b = none → StepOk feed inv (mk b) s) (s : Src) :
    StepOk feed inv p s := by
  intro st p' s' k h
  obtain ⟨evs, pos⟩ := s
  cases evs with
  | nil =>
    rw [hnil] at h
    simp only [Prod.mk.injEq] at h
    obtain ⟨rfl, rfl, rfl, rfl⟩ := h
    simp [flat_nil, hnil, Status.isStall]
  | cons e es =>
    cases e with
    | none =>
      rw [hnone] at h
      simp only [Prod.mk.injEq] at h
      obtain ⟨rfl, rfl, rfl, rfl⟩ := h
      refine ⟨Nat.le_of_lt (stalls_none _ _ _), by simp [Status.isStall],
        fun _ => ⟨stalls_none _ _ _, hp, ?_⟩⟩
      rw [flat_none]; simp
    | some b =>
      have hflat : Src.flat ⟨some b :: es, pos⟩ = ⟨some b :: (Src.flat ⟨es, pos⟩).evs, pos⟩ := by
        simp [Src.flat]
      have hflat2 : (⟨(Src.flat ⟨es, pos⟩).evs, pos + 1⟩ : Src) = Src.flat ⟨es, pos + 1⟩ := rfl
      rw [hsome] at h
      rw [hflat, hsome, hflat2]
      cases hb : bad b with
      | some st2 =>
        rw [hb] at h
        simp only [Prod.mk.injEq] at h
        obtain ⟨rfl, rfl, rfl, rfl⟩ := h
        simp [hbad b _ hb, stalls_some b es pos (pos + 1)]
      | none =>
        rw [hb] at h
        simp only at h ⊢
        rcases hr : feed (mk b) ⟨es, pos + 1⟩ with ⟨st2, p2, s2, k2⟩
        rw [hr] at h
        simp only [addN_mk, Prod.mk.injEq] at h
        obtain ⟨rfl, rfl, rfl, rfl⟩ := h
        obtain ⟨hle, this⟩ := hmk b _ hb _ _ _ _ hr
        refine ⟨by rwa [stalls_some b es pos (pos + 1)], fun hst => ?_, fun hst => ?_⟩
        · rw [this.1 hst]; rfl
        · obtain ⟨h1, h2, h3⟩ := this.2 hst
          refine ⟨by rwa [stalls_some b es pos (pos + 1)], h2, ?_⟩
          rw [h3, addN_addN]

def VarInt.Inv (p : VarInt) : Prop := ∀ r, p.remaining = some r → r ≤ 8

theorem VarInt.feed_step (p : VarInt) (s : Src) (hinv : p.Inv) : StepOk VarInt.feed VarInt.Inv p s := by
  have hsome : ∀ p s, (p.remaining ≠ none ∧ VarInt.Inv p) →
      StepOk VarInt.feed (fun p => p.remaining ≠ none ∧ VarInt.Inv p) p s := by
    refine accum_step (bits := 64) (rem := fun p => p.remaining.getD 0) (val := VarInt.value)
      (upd := fun p st v k => if st.completedOk then
        { p with remaining := some (p.remaining.getD 0 - k),
                 value := v &&& ((2 ^ 64 - 1) >>> (57 - 7 * p.total)) }
        else { p with remaining := some (p.remaining.getD 0 - k), value := v }) ?_ ?_ ?_
    · rintro p s ⟨h1, h2⟩
      obtain ⟨r, hr⟩ := Option.ne_none_iff_exists'.mp h1
      have := h2 r hr
      unfold VarInt.feed
      simp only [hr, VarInt.tail, accumulate64_eq this, mapFed, Option.getD_some]
      rcases accumLoop 64 r p.value s with ⟨st, v, s', k⟩
      simp only
      split
      · rename_i h
        rw [completedOk_iff.mp h]
      · rfl
    · rintro p v k ⟨h1, h2⟩ hk
      obtain ⟨r, hr⟩ := Option.ne_none_iff_exists'.mp h1
      have := h2 r hr
      rw [if_neg (by simp [Status.completedOk])]
      simp only [hr, Option.getD_some]
      refine ⟨trivial, trivial, by simp, ?_⟩
      intro r' h'
      simp at h'
      omega
    · rintro p v k st2 v2 k2 ⟨h1, h2⟩ hk
      rw [if_neg (c := Status.completedOk .wouldBlock = true) (by simp [Status.completedOk])]
      simp [Nat.sub_sub]
  have weaken : ∀ p s, StepOk VarInt.feed (fun p => p.remaining ≠ none ∧ VarInt.Inv p) p s →
      StepOk VarInt.feed VarInt.Inv p s := fun p s h => StepOk.weaken (fun _ h => h.2) h
  cases hrem : p.remaining with
  | some rem => exact weaken p s (hsome p s ⟨by simp [hrem], hinv⟩)
  | none =>
    refine first_byte_step (mk := fun b => { remaining := some (countLeadingZeros b), total := countLeadingZeros b, value := b.toNat })
      (bad := fun b => if b = 0 then some .invalidElementValue else none) ?_ ?_ ?_ ?_ hinv ?_ s
    · intro b st h
      split at h <;> simp at h
      subst h; rfl
    · intro pos; simp [VarInt.feed, hrem, Src.readByte]
    · intro es pos; simp [VarInt.feed, hrem, Src.readByte]
    · intro b es pos
      by_cases hb : b = 0
      · simp [VarInt.feed, hrem, Src.readByte, hb]
      · simp [VarInt.feed, hrem, Src.readByte, hb, addN, Nat.add_comm]
    · intro b s hb
      have hb0 : b ≠ 0 := by
        intro h; simp [h] at hb
      have := (clz_facts b hb0).1
      refine weaken _ _ (hsome _ _ ⟨by simp, ?_⟩)
      intro r hr
      simp at hr
      omega

def IdP.Inv (p : IdP) : Prop := ∀ r, p.remaining = some r → r ≤ 4

theorem IdP.feed_step (p : IdP) (s : Src) (hinv : p.Inv) : StepOk IdP.feed IdP.Inv p s := by
  have hsome : ∀ p s, (p.remaining ≠ none ∧ IdP.Inv p) →
      StepOk IdP.feed (fun p => p.remaining ≠ none ∧ IdP.Inv p) p s := by
    refine accum_step (bits := 32) (rem := fun p => p.remaining.getD 0) (val := IdP.id)
      (upd := fun p _ v k => { remaining := some (p.remaining.getD 0 - k), id := v }) ?_ ?_ ?_
    · rintro p s ⟨h1, h2⟩
      obtain ⟨r, hr⟩ := Option.ne_none_iff_exists'.mp h1
      have := h2 r hr
      unfold IdP.feed
      simp only [hr, IdP.tail, accumulate32_eq this, mapFed, Option.getD_some]
    · rintro p v k ⟨h1, h2⟩ hk
      obtain ⟨r, hr⟩ := Option.ne_none_iff_exists'.mp h1
      have := h2 r hr
      simp only [hr, Option.getD_some]
      refine ⟨trivial, trivial, by simp, ?_⟩
      intro r' h'
      simp at h'
      omega
    · rintro p v k st2 v2 k2 ⟨h1, h2⟩ hk
      simp [Nat.sub_sub]
  have weaken : ∀ p s, StepOk IdP.feed (fun p => p.remaining ≠ none ∧ IdP.Inv p) p s →
      StepOk IdP.feed IdP.Inv p s := fun p s h => StepOk.weaken (fun _ h => h.2) h
  cases hrem : p.remaining with
  | some rem => exact weaken p s (hsome p s ⟨by simp [hrem], hinv⟩)
  | none =>
    refine first_byte_step (mk := fun b => { remaining := some (countLeadingZeros b), id := b.toNat })
      (bad := fun b => if b &&& 0xf0 = 0 then some .invalidElementId else none) ?_ ?_ ?_ ?_ hinv ?_ s
    · intro b st h
      split at h <;> simp at h
      subst h; rfl
    · intro pos; simp [IdP.feed, hrem, Src.readByte]
    · intro es pos; simp [IdP.feed, hrem, Src.readByte]
    · intro b es pos
      by_cases hb : b &&& 0xf0 = 0
      · simp [IdP.feed, hrem, Src.readByte, hb]
      · simp [IdP.feed, hrem, Src.readByte, hb, addN, Nat.add_comm]
    · intro b s hb
      have hb0 : b &&& 0xf0 ≠ 0 := by
        intro h; simp [h] at hb
      have := ((idclz_facts b).2 hb0).1
      refine weaken _ _ (hsome _ _ ⟨by simp, ?_⟩)
      intro r hr
      simp at hr
      omega

theorem SizeP.feed_step (p : SizeP) (s : Src) (hinv : VarInt.Inv p) :
    StepOk SizeP.feed VarInt.Inv p s := by
  intro st p' s' k h
  unfold SizeP.feed at h ⊢
  rcases hr : VarInt.feed p s with ⟨st2, p2, s2, k2⟩
  obtain ⟨hle, this⟩ := VarInt.feed_step p s hinv _ _ _ _ hr
  rw [hr] at h
  simp only [Prod.mk.injEq] at h
  obtain ⟨rfl, rfl, rfl, rfl⟩ := h
  refine ⟨hle, ?_⟩
  by_cases hv : st2 = .invalidElementValue
  · subst hv
    rw [this.1 rfl]
    simp [Status.isStall]
  · rw [if_neg hv]
    refine ⟨fun hst => ?_, fun hst => ?_⟩
    · rw [this.1 hst]; simp [hv]
    · obtain ⟨h1, h2, h3⟩ := this.2 hst
      refine ⟨h1, h2, ?_⟩
      rw [h3]
      rfl

theorem IntP.feed_step (signed : Bool) (p : IntP) (s : Src) (h : p.remaining ≤ 8) :
    StepOk (IntP.feed signed) (fun p => p.remaining ≤ 8) p s := by
  refine accum_step (bits := 64) (rem := IntP.remaining) (val := IntP.value)
    (upd := fun p _ v k => { p with
      remaining := p.remaining - k
      value := if signed ∧ p.remaining - k = 0 ∧ p.size > 0 then IntP.signExtend p.size v else v })
    ?_ ?_ ?_ p s h
  · intro p s hp
    simp only [IntP.feed, accumulate64_eq hp, mapFed]
  · intro p v k hp hk
    refine ⟨rfl, ?_, ?_⟩
    · simp only; rw [if_neg (by omega)]
    · simp only; omega
  · intro p v k st2 v2 k2 hp hk
    simp [Nat.sub_sub]

theorem DateP.feed_step (p : DateP) (s : Src) (h : p.remaining ≤ 8) :
    StepOk DateP.feed (fun p => p.remaining ≤ 8) p s := by
  refine accum_step (bits := 64) (rem := DateP.remaining) (val := DateP.value)
    (upd := fun p _ v k => { remaining := p.remaining - k, value := v }) ?_ ?_ ?_ p s h
  · intro p s hp
    simp only [DateP.feed, accumulate64_eq hp, mapFed]
  · intro p v k hp hk
    exact ⟨rfl, rfl, by simp only; omega⟩
  · intro p v k st2 v2 k2 hp hk
    simp [Nat.sub_sub]

theorem IdElemP.feed_step (p : IdElemP) (s : Src) (h : p.remaining ≤ 4) :
    StepOk IdElemP.feed (fun p => p.remaining ≤ 4) p s := by
  refine accum_step (bits := 32) (rem := DateP.remaining) (val := DateP.value)
    (upd := fun p _ v k => { remaining := p.remaining - k, value := v }) ?_ ?_ ?_ p s h
  · intro p s hp
    simp only [IdElemP.feed, accumulate32_eq hp, mapFed]
  · intro p v k hp hk
    exact ⟨rfl, rfl, by simp only; omega⟩
  · intro p v k st2 v2 k2 hp hk
    simp [Nat.sub_sub]

theorem FloatP.feed_step (p : FloatP) (s : Src) (h : p.remaining ≤ 8) :
    StepOk FloatP.feed (fun p => p.remaining ≤ 8) p s := by
  refine accum_step (bits := 64) (rem := FloatP.remaining) (val := FloatP.acc)
    (upd := fun p _ v k =>
      if p.remaining = 0 then p
      else if p.remaining - k = 0 then { p with remaining := p.remaining - k, acc := v, value := some (if p.use32 then (4, v % 2 ^ 32) else (8, v)) }
      else { p with remaining := p.remaining - k, acc := v }) ?_ ?_ ?_ p s h
  · intro p s hp
    unfold FloatP.feed
    by_cases h0 : p.remaining = 0
    · simp [h0, mapFed, accumLoop]
    · rw [if_neg h0]
      simp only [accumulate64_eq hp, mapFed, if_neg h0]
      rcases accumLoop 64 p.remaining p.acc s with ⟨st, v, s', k⟩
      simp only
      split <;> rfl
  · intro p v k hp hk
    rw [if_neg (by omega), if_neg (by omega)]
    exact ⟨rfl, rfl, by simp only; omega⟩
  · intro p v k st2 v2 k2 hp hk
    rw [if_neg (by omega : ¬ p.remaining = 0), if_neg (by omega : ¬ p.remaining - k = 0)]
    simp only
    rw [if_neg (by omega : ¬ p.remaining - k = 0), if_neg (by omega : ¬ p.remaining = 0)]
    simp [Nat.sub_sub]

/-- Sequential composition: phase `A` (a parser of its own), then the rest. -/
theorem seq_step {σ τ} {feed : σ → Src → Fed σ} {feedA : τ → Src → Fed τ} {inv : σ → Prop}
    {invA : τ → Prop} {setA next : τ → σ}
    (hfeed : ∀ a s, invA a → feed (setA a) s = match feedA a s with
      | (st, a', s', k) =>
        if st.completedOk then addN k (feed (next a') s') else (st, setA a', s', k))
    (hA : ∀ a s, invA a → StepOk feedA invA a s)
    (hB : ∀ a s, StepOk feed inv (next a) s)
    (hinv : ∀ a, invA a → inv (setA a)) (a : τ) (s : Src) (ha : invA a) :
    StepOk feed inv (setA a) s := by
  intro st p' s' k h
  rw [hfeed a s ha] at h
  rcases hr : feedA a s with ⟨st1, a1, s1, k1⟩
  obtain ⟨hle, h1, h2⟩ := hA a s ha _ _ _ _ hr
  rw [hr] at h
  simp only at h
  by_cases hc : st1.completedOk
  · rw [if_pos hc] at h
    have hst1 : st1 = .okCompleted := completedOk_iff.mp hc
    rcases hq : feed (next a1) s1 with ⟨st2, p2, s2, k2⟩
    rw [hq] at h
    simp only [addN_mk, Prod.mk.injEq] at h
    obtain ⟨rfl, rfl, rfl, rfl⟩ := h
    obtain ⟨hle2, g1, g2⟩ := hB a1 s1 _ _ _ _ hq
    have hfl := h1 (by rw [hst1]; rfl)
    have hflat : feed (setA a) s.flat = addN k1 (feed (next a1) s1.flat) := by
      rw [hfeed a _ ha, hfl]; simp only; rw [if_pos hc]
    refine ⟨by omega, fun hst => ?_, fun hst => ?_⟩
    · rw [hflat, g1 hst]; rfl
    · obtain ⟨g3, g4, g5⟩ := g2 hst
      exact ⟨by omega, g4, by rw [hflat, g5, addN_addN]⟩
  · rw [if_neg hc] at h
    simp only [Prod.mk.injEq] at h
    obtain ⟨rfl, rfl, rfl, rfl⟩ := h
    refine ⟨hle, fun hst => ?_, fun hst => ?_⟩
    · rw [hfeed a _ ha, h1 hst]; simp only; rw [if_neg hc]
    · obtain ⟨g3, g4, g5⟩ := h2 hst
      refine ⟨g3, hinv _ g4, ?_⟩
      rcases hq : feedA a1 s1.flat with ⟨st2, a2, s2, k2⟩
      rw [hfeed a _ ha, g5, hfeed a1 _ g4, hq, addN_mk]
      simp only
      by_cases hc2 : st2.completedOk
      · rw [if_pos hc2, if_pos hc2, addN_addN]
      · rw [if_neg hc2, if_neg hc2, addN_mk]

theorem readByte_step (s : Src) :
    match s.readByte with
    | (_, some b, s') => s'.stalls = s.stalls ∧ s.flat.readByte = (.okCompleted, some b, s'.flat)
    | (st, none, s') =>
      (st = .endOfFile ∧ s' = s ∧ s.flat.readByte = (.endOfFile, none, s'.flat)) ∨
      (st = .wouldBlock ∧ s'.stalls < s.stalls ∧ s.flat = s'.flat) := by
  obtain ⟨evs, pos⟩ := s
  cases evs with
  | nil => exact .inl ⟨rfl, rfl, rfl⟩
  | cons e es =>
    cases e with
    | none => exact .inr ⟨rfl, stalls_none _ _ _, flat_none _ _⟩
    | some b => exact ⟨(stalls_some b es pos (pos + 1)).symm, flat_some _ _ _⟩

def BlockHdr.Inv (p : BlockHdr) : Prop :=
  (p.state = .readingTimecode → p.tcRemaining ≤ 2) ∧
  (p.state = .readingTrackNumber → p.tcRemaining ≤ 2 ∧ p.uint.Inv)

theorem BlockHdr.inv_flags {p : BlockHdr} (h : p.state = .readingFlags) : p.Inv := by
  simp [BlockHdr.Inv, h]

theorem BlockHdr.feed_flags_step (p : BlockHdr) (s : Src) (h : p.state = .readingFlags) :
    StepOk BlockHdr.feed BlockHdr.Inv p s := by
  intro st p' s' k he
  have hf : ∀ s, p.feed s = p.feedFlags s := by intro s; simp [BlockHdr.feed, h]
  rw [hf] at he
  rw [hf]
  have hb := readByte_step s
  unfold BlockHdr.feedFlags at he ⊢
  rcases hr : s.readByte with ⟨st1, b, s1⟩
  rw [hr] at hb he
  cases b with
  | some b =>
    simp only [Prod.mk.injEq] at hb he
    obtain ⟨rfl, rfl, rfl, rfl⟩ := he
    rw [hb.2]
    simp [hb.1, Status.isStall]
  | none =>
    simp only [Prod.mk.injEq] at hb he
    obtain ⟨rfl, rfl, rfl, rfl⟩ := he
    rcases hb with ⟨rfl, rfl, hb⟩ | ⟨rfl, hlt, hb⟩
    · rw [hb]; simp [Status.isStall]
    · refine ⟨Nat.le_of_lt hlt, by simp [Status.isStall], fun _ => ⟨hlt, BlockHdr.inv_flags h, ?_⟩⟩
      rw [hb, hf]
      simp [BlockHdr.feedFlags]

/-- The timecode phase as a parser of its own: remaining bytes and accumulator. -/
def tcFeed (a : Nat × Nat) (s : Src) : Fed (Nat × Nat) :=
  mapFed (accumLoop 16 a.1 a.2 s) (fun _ v k => (a.1 - k, v))

theorem tcFeed_step (a : Nat × Nat) (s : Src) (h : a.1 ≤ 2) :
    StepOk tcFeed (fun a => a.1 ≤ 2) a s := by
  refine accum_step (bits := 16) (rem := Prod.fst) (val := Prod.snd)
    (upd := fun a _ v k => (a.1 - k, v)) ?_ ?_ ?_ a s h
  · intro p s _; rfl
  · intro p v k hp hk; exact ⟨rfl, rfl, by simp only; omega⟩
  · intro p v k st2 v2 k2 hp hk; simp [Nat.sub_sub]

theorem accumulate16_eq {n i : Nat} {s : Src} (h : n ≤ 2) :
    accumulate 16 n i s = accumLoop 16 n i s := accumulate_eq h

theorem BlockHdr.feed_timecode_step (p : BlockHdr) (s : Src) (h : p.state = .readingTimecode)
    (h2 : p.tcRemaining ≤ 2) : StepOk BlockHdr.feed BlockHdr.Inv p s := by
  obtain ⟨st, u, tr, t, tc, f⟩ := p
  simp only at h h2
  subst h
  refine seq_step (feedA := tcFeed) (invA := fun a => a.1 ≤ 2)
    (setA := fun a => (⟨.readingTimecode, u, a.1, t, a.2, f⟩ : BlockHdr))
    (next := fun a => (⟨.readingFlags, u, a.1, t, a.2, f⟩ : BlockHdr)) ?_ tcFeed_step ?_ ?_ (tr, tc) s h2
  · rintro ⟨r, v⟩ s hr
    simp only [BlockHdr.feed, BlockHdr.feedTimecode, tcFeed, mapFed, accumulate16_eq hr]
    rfl
  · intro a s
    exact BlockHdr.feed_flags_step _ _ rfl
  · intro a ha; exact ⟨fun _ => ha, fun h => by cases h⟩

theorem BlockHdr.feed_step (p : BlockHdr) (s : Src) (hinv : p.Inv) :
    StepOk BlockHdr.feed BlockHdr.Inv p s := by
  cases h : p.state with
  | readingFlags => exact BlockHdr.feed_flags_step p s h
  | readingTimecode => exact BlockHdr.feed_timecode_step p s h (hinv.1 h)
  | done =>
    intro st p' s' k he
    have hf : ∀ s, p.feed s = (.okCompleted, p, s, 0) := by intro s; simp [BlockHdr.feed, h]
    rw [hf] at he
    simp only [Prod.mk.injEq] at he
    obtain ⟨rfl, rfl, rfl, rfl⟩ := he
    rw [hf]
    simp [Status.isStall]
  | readingTrackNumber =>
    obtain ⟨h2, hu⟩ := hinv.2 h
    obtain ⟨st, u, tr, t, tc, f⟩ := p
    simp only at h h2 hu
    subst h
    refine seq_step (feedA := VarInt.feed) (invA := VarInt.Inv)
      (setA := fun a => (⟨.readingTrackNumber, a, tr, t, tc, f⟩ : BlockHdr))
      (next := fun a => (⟨.readingTimecode, a, tr, a.value, tc, f⟩ : BlockHdr)) ?_
      VarInt.feed_step ?_ ?_ u s hu
    · intro a s _
      simp only [BlockHdr.feed, BlockHdr.feedTrack]
      rfl
    · intro a s
      exact BlockHdr.feed_timecode_step _ _ rfl h2
    · intro a ha; exact ⟨fun h => by (cases h), fun _ => ⟨h2, ha⟩⟩

/-! ### Byte strings -/

theorem takeAvail_facts (n : Nat) (evs : List (Option UInt8)) {bs : Bytes}
    {es : List (Option UInt8)} {b : Bool} (h : takeAvail n evs = (bs, es, b)) :
    evs.filterMap id = bs ++ es.filterMap id ∧ bs.length ≤ n ∧
    es.countP Option.isNone ≤ evs.countP Option.isNone ∧
    (bs.length < n → b = true → es.countP Option.isNone < evs.countP Option.isNone) ∧
    (bs.length < n → b = false → es = []) := by
  induction n generalizing evs bs with
  | zero =>
    simp only [takeAvail, Prod.mk.injEq] at h
    obtain ⟨rfl, rfl, rfl⟩ := h
    simp
  | succ n ih =>
    cases evs with
    | nil =>
      simp only [takeAvail, Prod.mk.injEq] at h
      obtain ⟨rfl, rfl, rfl⟩ := h
      simp
    | cons e evs =>
      cases e with
      | none =>
        simp only [takeAvail, Prod.mk.injEq] at h
        obtain ⟨rfl, rfl, rfl⟩ := h
        simp
      | some a =>
        rcases hr : takeAvail n evs with ⟨bs1, es1, b1⟩
        simp only [takeAvail, hr, Prod.mk.injEq] at h
        obtain ⟨rfl, rfl, rfl⟩ := h
        obtain ⟨h1, h2, h3, h4, h5⟩ := ih evs hr
        refine ⟨by simp [h1], by simp; omega, by simpa using h3, ?_, ?_⟩
        · intro hl hb; simp at hl; simpa using h4 hl hb
        · intro hl hb; simp at hl; exact h5 hl hb

theorem takeAvail_all (n : Nat) (bs : Bytes) :
    takeAvail n (bs.map some) = (bs.take n, (bs.drop n).map some, false) := by
  induction n generalizing bs with
  | zero => simp [takeAvail]
  | succ n ih =>
    cases bs with
    | nil => simp [takeAvail]
    | cons b bs => simp [takeAvail, ih]

/-- The byte loop with everything available. -/
theorem byteLoop_all (size f : Nat) (got bs : Bytes) (p : Nat) (h : got.length < size)
    (hf : size - got.length < f) :
    byteLoop size f got (allAtOnce bs p) =
      (if size - got.length ≤ bs.length then .okCompleted else .endOfFile,
       got ++ bs.take (size - got.length),
       allAtOnce (bs.drop (size - got.length)) (p + min (size - got.length) bs.length),
       min (size - got.length) bs.length) := by
  obtain ⟨f, rfl⟩ : ∃ g, f = g + 2 := ⟨f - 2, by omega⟩
  have hread : ∀ m (cs : Bytes) q, 0 < m → (allAtOnce cs q).read m =
      (if m ≤ cs.length then .okCompleted else if cs.length > 0 then .okPartial else .endOfFile,
       cs.take m, allAtOnce (cs.drop m) (q + min m cs.length)) := by
    intro m cs q hm
    simp only [Src.read, allAtOnce, takeAvail_all, List.length_take]
    by_cases h1 : m ≤ cs.length
    · rw [if_pos (by omega), if_pos h1]
    · rw [if_neg (by omega), if_neg h1]
      by_cases h2 : cs.length > 0
      · rw [if_pos (by omega), if_pos h2]
      · rw [if_neg (by omega), if_neg h2]; simp
  have hm : 0 < size - got.length := by omega
  rw [byteLoop, hread _ _ _ hm]
  simp only
  by_cases h1 : size - got.length ≤ bs.length
  · rw [if_pos h1, if_neg (by simp), if_pos h1, List.length_take]
  · rw [if_neg h1]
    by_cases h2 : bs.length > 0
    · rw [if_pos h2, if_pos rfl]
      rw [byteLoop, hread _ _ _ (by rw [List.length_append, List.length_take]; omega)]
      have hd : bs.drop (size - got.length) = [] := List.drop_eq_nil_iff.mpr (by omega)
      have hmn : min (size - got.length) bs.length = bs.length := by omega
      have ht : bs.take (size - got.length) = bs := List.take_of_length_le (by omega)
      simp only [hd, hmn, ht, List.length_append, List.length_nil, List.take_nil, List.append_nil]
      rw [if_neg (by omega : ¬ size - (got.length + bs.length) ≤ 0), if_neg h1]
      simp
    · rw [if_neg h2]
      have : bs = [] := List.eq_nil_of_length_eq_zero (by omega)
      subst this
      simp
      omega

/-- What the byte loop does on any schedule. -/
theorem byteLoop_facts (size f : Nat) (got : Bytes) (s : Src) (h : got.length < size)
    (hf : size - got.length < f) {st : Status} {got' : Bytes} {s' : Src} {k : Nat}
    (he : byteLoop size f got s = (st, got', s', k)) :
    ∃ ds, s.bytes = ds ++ s'.bytes ∧ got' = got ++ ds ∧ k = ds.length ∧ s'.pos = s.pos + k ∧
      s'.stalls ≤ s.stalls ∧
      ((st = .okCompleted ∧ ds.length = size - got.length) ∨
       (st = .endOfFile ∧ s'.bytes = [] ∧ ds.length < size - got.length) ∨
       (st = .wouldBlock ∧ s'.stalls < s.stalls ∧ ds.length < size - got.length)) := by
  induction f generalizing got s st got' s' k with
  | zero => omega
  | succ f ih =>
    rw [byteLoop] at he
    rcases hr : takeAvail (size - got.length) s.evs with ⟨bs, es, b⟩
    obtain ⟨h1, h2, h3, h4, h5⟩ := takeAvail_facts _ _ hr
    simp only [Src.read, hr] at he
    by_cases hfull : bs.length = size - got.length
    · rw [if_pos hfull] at he
      simp only [reduceCtorEq, if_false, Prod.mk.injEq] at he
      obtain ⟨rfl, rfl, rfl, rfl⟩ := he
      exact ⟨bs, h1, rfl, rfl, rfl, h3, .inl ⟨rfl, hfull⟩⟩
    · rw [if_neg hfull] at he
      by_cases hpos : bs.length > 0
      · rw [if_pos hpos] at he
        simp only [if_true] at he
        rcases hq : byteLoop size f (got ++ bs) ⟨es, s.pos + bs.length⟩ with ⟨st2, g2, s2, k2⟩
        have hl : (got ++ bs).length = got.length + bs.length := List.length_append
        obtain ⟨ds, i1, i2, i3, i4, i5, i6⟩ := ih (got ++ bs) _ (by omega) (by omega) hq
        simp only [hq, Prod.mk.injEq] at he
        obtain ⟨rfl, rfl, rfl, rfl⟩ := he
        refine ⟨bs ++ ds, ?_, ?_, ?_, ?_, ?_, ?_⟩
        · simp only [Src.bytes] at i1 h1 ⊢; rw [h1, i1, List.append_assoc]
        · rw [i2, List.append_assoc]
        · rw [List.length_append]; omega
        · rw [i4]; simp only; omega
        · simp only [Src.stalls] at i5 ⊢; omega
        · simp only [hl, Src.stalls, List.length_append] at i6 ⊢
          rcases i6 with ⟨a, c⟩ | ⟨a, c, d⟩ | ⟨a, c, d⟩
          · exact .inl ⟨a, by omega⟩
          · exact .inr (.inl ⟨a, c, by omega⟩)
          · exact .inr (.inr ⟨a, by omega, by omega⟩)
      · rw [if_neg hpos] at he
        have hnil : bs = [] := List.eq_nil_of_length_eq_zero (by omega)
        subst hnil
        cases b with
        | true =>
          simp only [if_true, reduceCtorEq, if_false, Prod.mk.injEq] at he
          obtain ⟨rfl, rfl, rfl, rfl⟩ := he
          refine ⟨[], h1, by simp, rfl, rfl, h3, .inr (.inr ⟨rfl, h4 (by simp; omega) rfl, by simp; omega⟩)⟩
        | false =>
          simp only [Bool.false_eq_true, if_false, reduceCtorEq, Prod.mk.injEq] at he
          obtain ⟨rfl, rfl, rfl, rfl⟩ := he
          have : es = [] := h5 (by simp; omega) rfl
          subst this
          refine ⟨[], h1, by simp, rfl, rfl, h3, .inr (.inl ⟨rfl, rfl, by simp; omega⟩)⟩

def ByteP.Inv (p : ByteP) : Prop := p.got.length ≤ p.size

/-- The byte parser with everything available. -/
theorem ByteP.feed_all (str : Bool) (p : ByteP) (bs : Bytes) (q : Nat)
    (h : p.got.length < p.size) :
    ByteP.feed str p (allAtOnce bs q) =
      if p.size - p.got.length ≤ bs.length then
        (.okCompleted,
         { p with
           got := p.got ++ bs.take (p.size - p.got.length)
           result := if str then stripNul (p.got ++ bs.take (p.size - p.got.length))
             else p.got ++ bs.take (p.size - p.got.length) },
         allAtOnce (bs.drop (p.size - p.got.length)) (q + (p.size - p.got.length)),
         p.size - p.got.length)
      else
        (.endOfFile, { p with got := p.got ++ bs }, allAtOnce [] (q + bs.length), bs.length) := by
  unfold ByteP.feed
  rw [if_neg (by omega), byteLoop_all _ _ _ _ _ h (by omega)]
  simp only
  by_cases hc : p.size - p.got.length ≤ bs.length
  · simp only [if_pos hc]
    rw [if_pos (show Status.okCompleted.completedOk = true from rfl), show min (p.size - p.got.length) bs.length = p.size - p.got.length by omega]
  · simp only [if_neg hc]
    rw [if_neg (by decide), show min (p.size - p.got.length) bs.length = bs.length by omega,
      List.take_of_length_le (by omega), List.drop_eq_nil_iff.mpr (by omega)]

theorem ByteP.feed_step (str : Bool) (p : ByteP) (s : Src) (hinv : p.Inv) :
    StepOk (ByteP.feed str) ByteP.Inv p s := by
  intro st p' s' k he
  by_cases hd : p.got.length = p.size
  · have hf : ∀ s, ByteP.feed str p s = (.okCompleted, p, s, 0) := by
      intro s; unfold ByteP.feed; rw [if_pos hd]
    rw [hf] at he
    simp only [Prod.mk.injEq] at he
    obtain ⟨rfl, rfl, rfl, rfl⟩ := he
    refine ⟨Nat.le_refl _, fun _ => by rw [hf], fun h => by simp [Status.isStall] at h⟩
  · have hlt : p.got.length < p.size := by unfold ByteP.Inv at hinv; omega
    unfold ByteP.feed at he
    rw [if_neg hd] at he
    rcases hr : byteLoop p.size (p.size - p.got.length + 1) p.got s with ⟨st1, g1, s1, k1⟩
    obtain ⟨ds, i1, i2, i3, i4, i5, i6⟩ := byteLoop_facts _ _ _ _ hlt (by omega) hr
    rw [flat_eq s, ByteP.feed_all _ _ _ _ hlt, i1]
    simp only [hr] at he
    rcases i6 with ⟨rfl, c⟩ | ⟨rfl, c, d⟩ | ⟨rfl, c, d⟩
    · rw [if_pos (show Status.okCompleted.completedOk = true from rfl)] at he
      simp only [Prod.mk.injEq] at he
      obtain ⟨rfl, rfl, rfl, rfl⟩ := he
      refine ⟨i5, fun _ => ?_, fun h => by simp [Status.isStall] at h⟩
      rw [flat_eq s1, if_pos (by rw [List.length_append]; omega), ← c]
      simp only [List.take_left', List.drop_left']
      rw [i2, i4, i3]
    · rw [if_neg (by decide)] at he
      simp only [Prod.mk.injEq] at he
      obtain ⟨rfl, rfl, rfl, rfl⟩ := he
      refine ⟨i5, fun _ => ?_, fun h => by simp [Status.isStall] at h⟩
      rw [flat_eq s1, c, List.append_nil, if_neg (by omega), i2, i4, i3]
    · rw [if_neg (by decide)] at he
      simp only [Prod.mk.injEq] at he
      obtain ⟨rfl, rfl, rfl, rfl⟩ := he
      have hg : g1.length = p.got.length + ds.length := by rw [i2, List.length_append]
      refine ⟨i5, fun h => by simp [Status.isStall] at h, fun _ => ⟨c, ?_, ?_⟩⟩
      · simp only [ByteP.Inv]; omega
      · rw [flat_eq s1, ByteP.feed_all _ _ _ _ (by simp only; omega)]
        simp only [List.length_append, hg]
        have e1 : p.size - (p.got.length + ds.length) = p.size - p.got.length - ds.length := by omega
        by_cases hc : p.size - p.got.length ≤ ds.length + s1.bytes.length
        · rw [if_pos hc, e1, if_pos (show p.size - p.got.length - ds.length ≤ s1.bytes.length by omega),
            addN_mk]
          have e2 : List.take (p.size - p.got.length) (ds ++ s1.bytes) =
              ds ++ List.take (p.size - p.got.length - ds.length) s1.bytes := by
            rw [List.take_append, List.take_of_length_le (by omega)]
          have e3 : List.drop (p.size - p.got.length) (ds ++ s1.bytes) =
              List.drop (p.size - p.got.length - ds.length) s1.bytes := by
            rw [List.drop_append, List.drop_eq_nil_iff.mpr (by omega : ds.length ≤ _),
              List.nil_append]
          rw [e2, e3, i2, i4, i3]
          simp only [List.append_assoc]
          rw [show s.pos + ds.length + (p.size - p.got.length - ds.length) =
            s.pos + (p.size - p.got.length) by omega,
            show ds.length + (p.size - p.got.length - ds.length) = p.size - p.got.length by omega]
        · rw [if_neg hc, e1, if_neg (show ¬ p.size - p.got.length - ds.length ≤ s1.bytes.length by omega),
            addN_mk, i2, i4, i3]
          simp only [List.append_assoc, Nat.add_assoc]

end Verif.Web
