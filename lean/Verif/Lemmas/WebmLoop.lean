/-
Helper lemmas about `loopFeed`: schedule independence and byte accounting of one pass carry over
to the loop.
-/
import Verif.Model.WebmLoop
import Verif.Lemmas.WebmScalar

namespace Verif.Web
open Verif Verif.Spec

/-- Add the bytes read by an earlier pass. -/
def addP {σ} (k : Nat) (r : Pass σ) : Pass σ := (r.1, r.2.1, r.2.2.1, k + r.2.2.2)

@[simp] theorem addP_mk {σ} (k : Nat) (st : Option Status) (p : σ) (s : Src) (n : Nat) :
    addP k (st, p, s, n) = (st, p, s, k + n) := rfl

/-- `StepOk` for one pass. -/
def PassOk {σ} (body : σ → Src → Pass σ) (inv : σ → Prop) (p : σ) (s : Src) : Prop :=
  ∀ r p' s' k, body p s = (r, p', s', k) → s'.stalls ≤ s.stalls ∧
    ((∀ st, r = some st → st.isStall = false) →
      body p s.flat = (r, p', s'.flat, k) ∧ (r = none → inv p')) ∧
    (∀ st, r = some st → st.isStall = true → s'.stalls < s.stalls ∧ inv p' ∧
      body p s.flat = addP k (body p' s'.flat))

theorem flat_bytes (s : Src) : s.flat.bytes = s.bytes := by
  rw [flat_eq]; simp [allAtOnce, Src.bytes]

theorem flat_pos (s : Src) : s.flat.pos = s.pos := rfl

@[simp] theorem allAtOnce_bytes (bs : Bytes) (q : Nat) : (allAtOnce bs q).bytes = bs := by
  simp [allAtOnce, Src.bytes]

@[simp] theorem allAtOnce_pos (bs : Bytes) (q : Nat) : (allAtOnce bs q).pos = q := rfl

theorem flat_flat (s : Src) : s.flat.flat = s.flat := by
  rw [flat_eq s.flat, flat_eq s]; simp

/-- `loopFeed` when the measure decreases at this pass. -/
theorem loopFeed_cont {σ} {body : σ → Src → Pass σ} {μ : σ → Nat → Nat} {p p' : σ} {s s' : Src}
    {k : Nat} (h : body p s = (none, p', s', k))
    (hμ : μ p' s'.bytes.length < μ p s.bytes.length) :
    loopFeed body μ p s = addN k (loopFeed body μ p' s') := by
  rw [loopFeed, h]; simp only; rw [dif_pos hμ]; rfl

theorem loopFeed_ret {σ} {body : σ → Src → Pass σ} {μ : σ → Nat → Nat} {p p' : σ} {s s' : Src}
    {k : Nat} {st : Status} (h : body p s = (some st, p', s', k)) :
    loopFeed body μ p s = (st, p', s', k) := by
  rw [loopFeed, h]

/-- Every pass that continues decreases the measure. -/
def Decreasing {σ} (body : σ → Src → Pass σ) (μ : σ → Nat → Nat) (inv : σ → Prop) : Prop :=
  ∀ p s p' s' k, inv p → body p s = (none, p', s', k) → μ p' s'.bytes.length < μ p s.bytes.length

/-- Induction over the passes of the loop. -/
theorem loopFeed_induct {σ} {body : σ → Src → Pass σ} {μ : σ → Nat → Nat} {inv : σ → Prop}
    (hd : Decreasing body μ inv)
    {P : σ → Src → Fed σ → Prop}
    (hret : ∀ p s st p' s' k, inv p → body p s = (some st, p', s', k) → P p s (st, p', s', k))
    (hinv : ∀ p s p' s' k, inv p → body p s = (none, p', s', k) → inv p')
    (hcont : ∀ p s p' s' k r, inv p → body p s = (none, p', s', k) → P p' s' r → P p s (addN k r))
    (p : σ) (s : Src) (hp : inv p) : P p s (loopFeed body μ p s) := by
  induction hn : μ p s.bytes.length using Nat.strongRecOn generalizing p s with
  | _ n ih =>
    rcases hb : body p s with ⟨r, p', s', k⟩
    cases r with
    | some st => rw [loopFeed_ret hb]; exact hret _ _ _ _ _ _ hp hb
    | none =>
      have hlt := hd _ _ _ _ _ hp hb
      rw [loopFeed_cont hb hlt]
      exact hcont _ _ _ _ _ _ hp hb (ih _ (by omega) _ _ (hinv _ _ _ _ _ hp hb) rfl)

theorem loopFeed_step {σ} {body : σ → Src → Pass σ} {μ : σ → Nat → Nat} {inv : σ → Prop}
    (hd : Decreasing body μ inv) (h : ∀ p s, inv p → PassOk body inv p s)
    (p : σ) (s : Src) (hp : inv p) : StepOk (loopFeed body μ) inv p s := by
  have key := loopFeed_induct (body := body) (μ := μ) (inv := inv) hd
    (P := fun p s r => r.2.2.1.stalls ≤ s.stalls ∧
      (r.1.isStall = false → loopFeed body μ p s.flat = (r.1, r.2.1, r.2.2.1.flat, r.2.2.2)) ∧
      (r.1.isStall = true → r.2.2.1.stalls < s.stalls ∧ inv r.2.1 ∧
        loopFeed body μ p s.flat = addN r.2.2.2 (loopFeed body μ r.2.1 r.2.2.1.flat)))
    ?_ ?_ ?_ p s hp
  · intro st p' s' k he
    rw [he] at key
    exact key
  · intro p s st p' s' k hp hb
    obtain ⟨h0, h1, h2⟩ := h p s hp _ _ _ _ hb
    refine ⟨h0, fun hst => ?_, fun hst => ?_⟩
    · have := (h1 (fun st' hs => by cases hs; exact hst)).1
      exact loopFeed_ret this
    · obtain ⟨g1, g2, g3⟩ := h2 st rfl hst
      refine ⟨g1, g2, ?_⟩
      simp only
      rcases hq : body p' s'.flat with ⟨r, p2, s2, k2⟩
      rw [hq, addP_mk] at g3
      cases r with
      | some st2 => rw [loopFeed_ret g3, loopFeed_ret hq]; rfl
      | none =>
        rw [loopFeed_cont g3 (hd _ _ _ _ _ hp g3), loopFeed_cont hq (hd _ _ _ _ _ g2 hq), addN_addN]
  · intro p s p' s' k hp hb
    exact ((h p s hp _ _ _ _ hb).2.1 (fun st' hs => by cases hs)).2 rfl
  · intro p s p' s' k r hp hb ih
    obtain ⟨st, p2, s2, k2⟩ := r
    obtain ⟨h0, h1, -⟩ := h p s hp _ _ _ _ hb
    have hf := (h1 (fun st' hs => by cases hs)).1
    obtain ⟨i0, i1, i2⟩ := ih
    simp only [addN_mk] at i0 i1 i2 ⊢
    have hl : loopFeed body μ p s.flat = addN k (loopFeed body μ p' s'.flat) :=
      loopFeed_cont hf (hd _ _ _ _ _ hp hf)
    refine ⟨by omega, fun hst => ?_, fun hst => ?_⟩
    · rw [hl, i1 hst]; rfl
    · obtain ⟨g1, g2, g3⟩ := i2 hst
      exact ⟨by omega, g2, by rw [hl, g3, addN_addN]⟩

/-- A pass that runs a parser of its own: `mk a n` is the state while that parser is in state
`a` after `n` bytes, `fin` what follows its completion. -/
theorem sub_pass {σ τ} {body : σ → Src → Pass σ} {inv : σ → Prop} {feedA : τ → Src → Fed τ}
    {invA : τ → Prop} (mk : τ → Nat → σ) (fin : τ → Nat → Nat → σ)
    (hbody : ∀ a n s, invA a → body (mk a n) s = match feedA a s with
      | (st, a', s', k) =>
        if st.completedOk then (none, fin a' (n + k) s'.pos, s', k)
        else (some st, mk a' (n + k), s', k))
    (hA : ∀ a s, invA a → StepOk feedA invA a s)
    (hinv : ∀ a n, invA a → inv (mk a n)) (a : τ) (n : Nat) (s : Src) (ha : invA a)
    (hfin : ∀ a' s' k, feedA a s = (.okCompleted, a', s', k) → inv (fin a' (n + k) s'.pos)) :
    PassOk body inv (mk a n) s := by
  intro r p' s' k h
  rw [hbody a n s ha] at h
  rcases hr : feedA a s with ⟨st1, a1, s1, k1⟩
  obtain ⟨hle, h1, h2⟩ := hA a s ha _ _ _ _ hr
  rw [hr] at h
  simp only at h
  by_cases hc : st1.completedOk
  · rw [if_pos hc] at h
    simp only [Prod.mk.injEq] at h
    obtain ⟨rfl, rfl, rfl, rfl⟩ := h
    have hst1 : st1 = .okCompleted := completedOk_iff.mp hc
    subst hst1
    refine ⟨hle, fun _ => ⟨?_, fun _ => hfin _ _ _ hr⟩, fun st hst => (nomatch hst)⟩
    rw [hbody a n _ ha, h1 rfl]
    simp only
    rw [if_pos hc]
    rfl
  · rw [if_neg hc] at h
    simp only [Prod.mk.injEq] at h
    obtain ⟨rfl, rfl, rfl, rfl⟩ := h
    refine ⟨hle, fun hst => ⟨?_, fun h => (nomatch h)⟩, fun st hst hstall => ?_⟩
    · rw [hbody a n _ ha, h1 (hst _ rfl)]
      simp only
      rw [if_neg hc]
    · cases hst
      obtain ⟨g1, g2, g3⟩ := h2 hstall
      refine ⟨g1, hinv _ _ g2, ?_⟩
      rw [hbody a n _ ha, hbody a1 _ _ g2, g3]
      rcases hq : feedA a1 s1.flat with ⟨st2, a2, s2, k2⟩
      simp only [addN_mk, Nat.add_assoc]
      by_cases hc2 : st2.completedOk
      · simp [hc2]
      · simp [hc2]

/-- A pass that reads one byte. -/
theorem byte_pass {σ} {body : σ → Src → Pass σ} {inv : σ → Prop} {p : σ} {f : UInt8 → σ}
    (hbody : ∀ s, body p s = match s.readByte with
      | (_, some b, s') => (none, f b, s', 1)
      | (st, none, s') => (some st, p, s', 0))
    (hp : inv p) (hf : ∀ b, inv (f b)) (s : Src) : PassOk body inv p s := by
  intro r p' s' k h
  rw [hbody s] at h
  have hb := readByte_step s
  rcases hr : s.readByte with ⟨st1, b, s1⟩
  rw [hr] at hb h
  cases b with
  | some b =>
    simp only [Prod.mk.injEq] at hb h
    obtain ⟨rfl, rfl, rfl, rfl⟩ := h
    refine ⟨by omega, fun _ => ⟨?_, fun _ => hf b⟩, fun st hst => (nomatch hst)⟩
    rw [hbody, hb.2]
  | none =>
    simp only [Prod.mk.injEq] at hb h
    obtain ⟨rfl, rfl, rfl, rfl⟩ := h
    rcases hb with ⟨rfl, rfl, hb⟩ | ⟨rfl, hlt, hb⟩
    · refine ⟨Nat.le_refl _, fun _ => ⟨?_, fun h => (nomatch h)⟩, fun st hst hs => ?_⟩
      · rw [hbody, hb]
      · cases hst; cases hs
    · refine ⟨Nat.le_of_lt hlt, fun hst => ?_, fun st hst hs => ⟨hlt, hp, ?_⟩⟩
      · have := hst _ rfl; cases this
      · rw [hb]
        rcases body p s1.flat with ⟨a, b, c, d⟩
        simp

/-- A pass that reads nothing. -/
theorem tau_pass {σ} {body : σ → Src → Pass σ} {inv : σ → Prop} {p p' : σ} {r : Option Status}
    (hbody : ∀ s, body p s = (r, p', s, 0)) (hr : ∀ st, r = some st → st.isStall = false)
    (hp : r = none → inv p') (s : Src) : PassOk body inv p s := by
  intro r1 p1 s1 k1 h
  rw [hbody s] at h
  simp only [Prod.mk.injEq] at h
  obtain ⟨rfl, rfl, rfl, rfl⟩ := h
  exact ⟨Nat.le_refl _, fun _ => ⟨hbody _, hp⟩, fun st hst hs => by rw [hr st hst] at hs; cases hs⟩

/-- The loop does not go round for ever. -/
theorem loopFeed_not_diverged {σ} {body : σ → Src → Pass σ} {μ : σ → Nat → Nat} {inv : σ → Prop}
    (hd : Decreasing body μ inv)
    (hinv : ∀ p s p' s' k, inv p → body p s = (none, p', s', k) → inv p')
    (hb : ∀ p s p' s' k, inv p → body p s ≠ (some .diverged, p', s', k))
    (p : σ) (s : Src) (hp : inv p) : (loopFeed body μ p s).1 ≠ .diverged :=
  loopFeed_induct (P := fun _ _ r => r.1 ≠ .diverged) hd
    (fun p s st p' s' k hp h => by
      intro hst
      simp only at hst
      subst hst
      exact hb _ _ _ _ _ hp h) hinv
    (fun _ _ _ _ _ _ _ _ h => h) p s hp

/-- The last pass: an invariant of the passes (which may count the bytes read so far) holds where
the loop returns. -/
theorem loopFeed_reach {σ} {body : σ → Src → Pass σ} {μ : σ → Nat → Nat} {inv : σ → Prop}
    (hd : Decreasing body μ inv)
    (hinv : ∀ p s p' s' k, inv p → body p s = (none, p', s', k) → inv p')
    {J : σ → Src → Nat → Prop}
    (hJ : ∀ p s n p' s' k, inv p → J p s n → body p s = (none, p', s', k) → J p' s' (n + k))
    {p : σ} {s : Src} (hp : inv p) {n : Nat} (h0 : J p s n) {st : Status} {p' : σ} {s' : Src} {k : Nat}
    (h : loopFeed body μ p s = (st, p', s', k)) :
    ∃ q t m l, inv q ∧ J q t (n + m) ∧ k = m + l ∧ body q t = (some st, p', s', l) := by
  have key := loopFeed_induct (body := body) (μ := μ) (inv := inv) hd
    (P := fun p s r => ∀ n, J p s n → ∃ q t m l, inv q ∧ J q t (n + m) ∧ r.2.2.2 = m + l ∧
      body q t = (some r.1, r.2.1, r.2.2.1, l)) ?_ hinv ?_ p s hp n h0
  · rw [h] at key; exact key
  · intro p s st p' s' k hp hb n hn
    exact ⟨p, s, 0, k, hp, hn, by simp, hb⟩
  · intro p s p' s' k r hp hb ih n hn
    obtain ⟨q, t, m, l, h1, h2, h3, h4⟩ := ih (n + k) (hJ _ _ _ _ _ _ hp hn hb)
    refine ⟨q, t, k + m, l, h1, by rwa [← Nat.add_assoc], ?_, h4⟩
    simp only [addN, h3]; omega

/-! ### Byte accounting -/

/-- `s'` is `s` after `k` more bytes. -/
def Advance (s s' : Src) (k : Nat) : Prop :=
  ∃ ds, s.bytes = ds ++ s'.bytes ∧ ds.length = k ∧ s'.pos = s.pos + k

theorem Advance.refl (s : Src) : Advance s s 0 := ⟨[], rfl, rfl, rfl⟩

theorem Advance.trans {a b c : Src} {k l : Nat} (h : Advance a b k) (g : Advance b c l) :
    Advance a c (k + l) := by
  obtain ⟨d1, h1, h2, h3⟩ := h
  obtain ⟨d2, g1, g2, g3⟩ := g
  exact ⟨d1 ++ d2, by rw [h1, g1, List.append_assoc], by rw [List.length_append, h2, g2],
    by rw [g3, h3, Nat.add_assoc]⟩

theorem Advance.length {s s' : Src} {k : Nat} (h : Advance s s' k) :
    s.bytes.length = k + s'.bytes.length := by
  obtain ⟨ds, h1, h2, -⟩ := h
  rw [h1, List.length_append, h2]

theorem readByte_advance (s : Src) :
    match s.readByte with
    | (st, some b, s') => st = .okCompleted ∧ Advance s s' 1 ∧ s.bytes = b :: s'.bytes
    | (st, none, s') => (st = .endOfFile ∨ st = .wouldBlock) ∧ Advance s s' 0 := by
  obtain ⟨evs, pos⟩ := s
  cases evs with
  | nil => exact ⟨.inl rfl, Advance.refl _⟩
  | cons e es =>
    cases e with
    | none => exact ⟨.inr rfl, [], rfl, rfl, rfl⟩
    | some b => exact ⟨rfl, ⟨[b], rfl, rfl, rfl⟩, rfl⟩

theorem accumLoop_advance (bits n i : Nat) (s : Src) {st : Status} {i' : Nat} {s' : Src} {k : Nat}
    (h : accumLoop bits n i s = (st, i', s', k)) : Advance s s' k ∧
      (st = .okCompleted ∨ st = .endOfFile ∨ st = .wouldBlock) := by
  induction n generalizing i s st i' s' k with
  | zero =>
    simp only [accumLoop, Prod.mk.injEq] at h
    obtain ⟨rfl, rfl, rfl, rfl⟩ := h
    exact ⟨Advance.refl _, .inl rfl⟩
  | succ n ih =>
    have hb := readByte_advance s
    unfold accumLoop at h
    rcases hr : s.readByte with ⟨st1, b, s1⟩
    rw [hr] at hb h
    cases b with
    | none =>
      simp only [Prod.mk.injEq] at hb h
      obtain ⟨rfl, rfl, rfl, rfl⟩ := h
      exact ⟨hb.2, .inr hb.1⟩
    | some b =>
      simp only at hb h
      rcases hq : accumLoop bits n (((i <<< 8) ||| b.toNat) % 2 ^ bits) s1 with ⟨st2, i2, s2, k2⟩
      rw [hq] at h
      simp only [Prod.mk.injEq] at h
      obtain ⟨rfl, rfl, rfl, rfl⟩ := h
      obtain ⟨a, c⟩ := ih _ _ hq
      exact ⟨by have := hb.2.1.trans a; rwa [Nat.add_comm] at this, c⟩

theorem accumulate_advance (bits n i : Nat) (s : Src) {st : Status} {i' : Nat} {s' : Src} {k : Nat}
    (h : accumulate bits n i s = (st, i', s', k)) : Advance s s' k ∧
      (st = .okCompleted ∨ st = .endOfFile ∨ st = .wouldBlock ∨ st = .invalidElementSize) := by
  unfold accumulate at h
  split at h
  · simp only [Prod.mk.injEq] at h
    obtain ⟨rfl, rfl, rfl, rfl⟩ := h
    exact ⟨Advance.refl _, by simp⟩
  · obtain ⟨a, c⟩ := accumLoop_advance _ _ _ _ h
    exact ⟨a, by rcases c with c | c | c <;> simp [c]⟩

/-- Status and byte count of a parser call: the reader advanced by `k` bytes, and the status is
completion, end of file, "would block" or a parsing error. -/
structure Adv (st : Status) (s s' : Src) (k : Nat) : Prop where
  adv : Advance s s' k
  plain : st = .okCompleted ∨ st = .endOfFile ∨ st = .wouldBlock ∨ st.isParsingError = true

theorem accumulate_adv (bits n i : Nat) (s : Src) {st : Status} {i' : Nat} {s' : Src} {k : Nat}
    (h : accumulate bits n i s = (st, i', s', k)) : Adv st s s' k := by
  obtain ⟨a, c⟩ := accumulate_advance _ _ _ _ h
  exact ⟨a, by rcases c with rfl | rfl | rfl | rfl <;> simp [Status.isParsingError, Status.code]⟩

theorem VarInt.tail_adv (p : VarInt) (rem : Nat) (s : Src) {st p' s' k}
    (h : p.tail rem s = (st, p', s', k)) : Adv st s s' k := by
  unfold VarInt.tail at h
  rcases hr : accumulate 64 rem p.value s with ⟨st1, v, s1, k1⟩
  have := accumulate_adv _ _ _ _ hr
  rw [hr] at h
  simp only at h
  split at h
  · next hc =>
    simp only [Prod.mk.injEq] at h
    obtain ⟨rfl, rfl, rfl, rfl⟩ := h
    exact ⟨this.adv, .inl rfl⟩
  · simp only [Prod.mk.injEq] at h
    obtain ⟨rfl, rfl, rfl, rfl⟩ := h
    exact this

theorem VarInt.feed_adv (p : VarInt) (s : Src) {st p' s' k}
    (h : p.feed s = (st, p', s', k)) : Adv st s s' k := by
  unfold VarInt.feed at h
  split at h
  · exact VarInt.tail_adv _ _ _ h
  · have hb := readByte_advance s
    rcases hr : s.readByte with ⟨st1, b, s1⟩
    rw [hr] at hb h
    cases b with
    | none =>
      simp only [Prod.mk.injEq] at hb h
      obtain ⟨rfl, rfl, rfl, rfl⟩ := h
      exact ⟨hb.2, by rcases hb.1 with rfl | rfl <;> simp⟩
    | some b =>
      simp only at hb h
      split at h
      · simp only [Prod.mk.injEq] at h
        obtain ⟨rfl, rfl, rfl, rfl⟩ := h
        exact ⟨hb.2.1, .inr (.inr (.inr (by decide)))⟩
      · generalize hq : VarInt.tail _ (countLeadingZeros b) s1 = r at h
        obtain ⟨st2, p2, s2, k2⟩ := r
        have := VarInt.tail_adv _ _ _ hq
        simp only [Prod.mk.injEq] at h
        obtain ⟨rfl, rfl, rfl, rfl⟩ := h
        exact ⟨by have := hb.2.1.trans this.adv; rwa [Nat.add_comm] at this, this.plain⟩

theorem IdP.feed_adv (p : IdP) (s : Src) {st p' s' k}
    (h : p.feed s = (st, p', s', k)) : Adv st s s' k := by
  unfold IdP.feed at h
  split at h
  · next rem _ =>
    unfold IdP.tail at h
    rcases hr : accumulate 32 rem p.id s with ⟨st1, v, s1, k1⟩
    have := accumulate_adv _ _ _ _ hr
    rw [hr] at h
    simp only [Prod.mk.injEq] at h
    obtain ⟨rfl, rfl, rfl, rfl⟩ := h
    exact this
  · have hb := readByte_advance s
    rcases hr : s.readByte with ⟨st1, b, s1⟩
    rw [hr] at hb h
    cases b with
    | none =>
      simp only [Prod.mk.injEq] at hb h
      obtain ⟨rfl, rfl, rfl, rfl⟩ := h
      exact ⟨hb.2, by rcases hb.1 with rfl | rfl <;> simp⟩
    | some b =>
      simp only at hb h
      split at h
      · simp only [Prod.mk.injEq] at h
        obtain ⟨rfl, rfl, rfl, rfl⟩ := h
        exact ⟨hb.2.1, .inr (.inr (.inr (by decide)))⟩
      · unfold IdP.tail at h
        rcases hq : accumulate 32 (countLeadingZeros b) b.toNat s1 with ⟨st2, v2, s2, k2⟩
        have := accumulate_adv _ _ _ _ hq
        rw [hq] at h
        simp only [Prod.mk.injEq] at h
        obtain ⟨rfl, rfl, rfl, rfl⟩ := h
        exact ⟨by have := hb.2.1.trans this.adv; rwa [Nat.add_comm] at this, this.plain⟩

theorem SizeP.feed_adv (p : SizeP) (s : Src) {st p' s' k}
    (h : SizeP.feed p s = (st, p', s', k)) : Adv st s s' k := by
  unfold SizeP.feed at h
  rcases hr : VarInt.feed p s with ⟨st1, p1, s1, k1⟩
  have := VarInt.feed_adv _ _ hr
  rw [hr] at h
  simp only [Prod.mk.injEq] at h
  obtain ⟨rfl, rfl, rfl, rfl⟩ := h
  refine ⟨this.adv, ?_⟩
  split
  · exact .inr (.inr (.inr (by decide)))
  · exact this.plain

theorem BlockHdr.feedFlags_adv (p : BlockHdr) (s : Src) {st p' s' k}
    (h : p.feedFlags s = (st, p', s', k)) : Adv st s s' k := by
  unfold BlockHdr.feedFlags at h
  have hb := readByte_advance s
  rcases hr : s.readByte with ⟨st1, b, s1⟩
  rw [hr] at hb h
  cases b with
  | none =>
    simp only [Prod.mk.injEq] at hb h
    obtain ⟨rfl, rfl, rfl, rfl⟩ := h
    exact ⟨hb.2, by rcases hb.1 with rfl | rfl <;> simp⟩
  | some b =>
    simp only [Prod.mk.injEq] at hb h
    obtain ⟨rfl, rfl, rfl, rfl⟩ := h
    exact ⟨hb.2.1, .inl rfl⟩

theorem BlockHdr.feedTimecode_adv (p : BlockHdr) (s : Src) {st p' s' k}
    (h : p.feedTimecode s = (st, p', s', k)) : Adv st s s' k := by
  unfold BlockHdr.feedTimecode at h
  rcases hr : accumulate 16 p.tcRemaining p.timecode s with ⟨st1, v, s1, k1⟩
  have := accumulate_adv _ _ _ _ hr
  rw [hr] at h
  simp only at h
  split at h
  · generalize hq : BlockHdr.feedFlags _ s1 = r at h
    obtain ⟨st2, p2, s2, k2⟩ := r
    have h2 := BlockHdr.feedFlags_adv _ _ hq
    simp only [Prod.mk.injEq] at h
    obtain ⟨rfl, rfl, rfl, rfl⟩ := h
    exact ⟨this.adv.trans h2.adv, h2.plain⟩
  · simp only [Prod.mk.injEq] at h
    obtain ⟨rfl, rfl, rfl, rfl⟩ := h
    exact this

theorem BlockHdr.feed_adv (p : BlockHdr) (s : Src) {st p' s' k}
    (h : p.feed s = (st, p', s', k)) : Adv st s s' k := by
  unfold BlockHdr.feed at h
  split at h
  · unfold BlockHdr.feedTrack at h
    rcases hr : p.uint.feed s with ⟨st1, u, s1, k1⟩
    have := VarInt.feed_adv _ _ hr
    rw [hr] at h
    simp only at h
    split at h
    · generalize hq : BlockHdr.feedTimecode _ s1 = r at h
      obtain ⟨st2, p2, s2, k2⟩ := r
      have h2 := BlockHdr.feedTimecode_adv _ _ hq
      simp only [Prod.mk.injEq] at h
      obtain ⟨rfl, rfl, rfl, rfl⟩ := h
      exact ⟨this.adv.trans h2.adv, h2.plain⟩
    · simp only [Prod.mk.injEq] at h
      obtain ⟨rfl, rfl, rfl, rfl⟩ := h
      exact this
  · exact BlockHdr.feedTimecode_adv _ _ h
  · exact BlockHdr.feedFlags_adv _ _ h
  · simp only [Prod.mk.injEq] at h
    obtain ⟨rfl, rfl, rfl, rfl⟩ := h
    exact ⟨Advance.refl _, .inl rfl⟩

end Verif.Web
