/-
The element parsers of master elements: `EP.Good` and `EP.Exact`, given that of their children.
-/
import Verif.Lemmas.WebmTreeBlock

namespace Verif.Web
open Verif Verif.Spec

/-! ### Element sizes: at least one byte is read -/

/-- A size parser that still has something to read. -/
def SzOk (p : SizeP) : Prop := VarInt.Inv p ∧ p.remaining ≠ some 0

theorem SzOk.fresh : SzOk {} := ⟨fresh_uint, by simp⟩

theorem VarInt.tail_cnt {p : VarInt} {rem : Nat} (hr : rem ≤ 8) {s : Src} {st p' s' k}
    (h : p.tail rem s = (st, p', s', k)) :
    (st = .okCompleted → k = rem) ∧ (st.isStall = true → p'.remaining = some (rem - k) ∧ k < rem) := by
  unfold VarInt.tail at h
  rw [accumulate64_eq hr] at h
  rcases hq : accumLoop 64 rem p.value s with ⟨st1, v, s1, k1⟩
  obtain ⟨-, hc⟩ := accumLoop_step _ _ _ _ hq
  rw [hq] at h
  simp only at h
  split at h
  · next hc1 =>
    simp only [Prod.mk.injEq] at h
    obtain ⟨rfl, rfl, rfl, rfl⟩ := h
    refine ⟨fun _ => ?_, fun h => (nomatch h)⟩
    have hc1 := completedOk_iff.mp hc1
    rcases hc with ⟨-, h, -⟩ | ⟨h, -⟩ | ⟨h, -⟩
    · exact h
    · rw [hc1] at h; cases h
    · rw [hc1] at h; cases h
  · next hc1 =>
    simp only [Prod.mk.injEq] at h
    obtain ⟨rfl, rfl, rfl, rfl⟩ := h
    refine ⟨fun h => by rw [h] at hc1; exact absurd rfl hc1, fun hst => ⟨rfl, ?_⟩⟩
    rcases hc with ⟨h, -⟩ | ⟨h, -⟩ | ⟨-, h, -⟩
    · rw [h] at hst; cases hst
    · rw [h] at hst; cases hst
    · exact h

theorem VarInt.feed_cnt {p : VarInt} (hp : SzOk p) {s : Src} {st p' s' k}
    (h : p.feed s = (st, p', s', k)) :
    (st = .okCompleted → 1 ≤ k) ∧ (st.isStall = true → p'.remaining ≠ some 0) := by
  unfold VarInt.feed at h
  split at h
  · next rem hrem =>
    obtain ⟨h1, h2⟩ := VarInt.tail_cnt (hp.1 _ hrem) h
    have hne : rem ≠ 0 := fun hx => hp.2 (by rw [hrem, hx])
    refine ⟨fun hst => by rw [h1 hst]; omega, fun hst => ?_⟩
    rw [(h2 hst).1]
    have := (h2 hst).2
    intro hx
    have := Option.some.inj hx
    omega
  · next hrem =>
    rcases hr : s.readByte with ⟨st1, b, s1⟩
    have hb := readByte_advance s
    rw [hr] at h hb
    cases b with
    | none =>
      simp only [Prod.mk.injEq] at h hb
      obtain ⟨rfl, rfl, rfl, rfl⟩ := h
      refine ⟨fun hst => ?_, fun _ => by rw [hrem]; simp⟩
      rcases hb.1 with h | h <;> rw [h] at hst <;> cases hst
    | some b =>
      simp only at h
      split at h
      · simp only [Prod.mk.injEq] at h
        obtain ⟨rfl, rfl, rfl, rfl⟩ := h
        exact ⟨fun _ => Nat.le_refl _, fun h => (nomatch h)⟩
      · next hb0 =>
        generalize hq : VarInt.tail _ (countLeadingZeros b) s1 = r at h
        obtain ⟨st2, p2, s2, k2⟩ := r
        have h7 : countLeadingZeros b ≤ 8 := by
          have := (clz_facts b hb0)
          omega
        obtain ⟨-, h2⟩ := VarInt.tail_cnt h7 hq
        simp only [Prod.mk.injEq] at h
        obtain ⟨rfl, rfl, rfl, rfl⟩ := h
        refine ⟨fun _ => by omega, fun hst => ?_⟩
        rw [(h2 hst).1]
        have := (h2 hst).2
        intro hx
        have := Option.some.inj hx
        omega

theorem SizeP.feed_cnt {p : SizeP} (hp : SzOk p) {s : Src} {st p' s' k}
    (h : SizeP.feed p s = (st, p', s', k)) :
    (st = .okCompleted → 1 ≤ k) ∧ (st.isStall = true → p'.remaining ≠ some 0) := by
  unfold SizeP.feed at h
  rcases hr : VarInt.feed p s with ⟨st1, p1, s1, k1⟩
  obtain ⟨h1, h2⟩ := VarInt.feed_cnt hp hr
  rw [hr] at h
  simp only [Prod.mk.injEq] at h
  obtain ⟨rfl, rfl, rfl, rfl⟩ := h
  constructor
  · intro h; split at h
    · cases h
    · exact h1 h
  · intro h; split at h
    · cases h
    · exact h2 h

theorem SizeP.feed_step' (p : SizeP) (s : Src) (hp : SzOk p) : StepOk SizeP.feed SzOk p s := by
  intro st p' s' k h
  obtain ⟨h0, h1, h2⟩ := SizeP.feed_step p s hp.1 _ _ _ _ h
  exact ⟨h0, h1, fun hst => ⟨(h2 hst).1, ⟨(h2 hst).2.1, (SizeP.feed_cnt hp h).2 hst⟩, (h2 hst).2.2⟩⟩

theorem Status.parsing_facts {st : Status} (h : st.isParsingError = true) :
    st.isStall = false ∧ st.isOk = false := by
  revert h
  cases st with
  | user c =>
    intro h
    simp only [Status.isParsingError, Status.isOk, Status.isStall, Status.code] at *
    refine ⟨?_, ?_⟩ <;> simp_all <;> omega
  | _ => decide

/-- An ID parser that has just started and stalls without a byte is as it was. -/
theorem IdP.feed_fresh {s : Src} {st a s' k} (h : IdP.feed {} s = (st, a, s', k)) (hk : k = 0) :
    a = {} := by
  unfold IdP.feed at h
  simp only at h
  rcases hr : s.readByte with ⟨st1, b, s1⟩
  rw [hr] at h
  cases b with
  | none =>
    simp only [Prod.mk.injEq] at h
    exact h.2.1.symm
  | some b =>
    simp only at h
    split at h
    · simp only [Prod.mk.injEq] at h
      omega
    · simp only [Prod.mk.injEq] at h
      omega

/-! ### Children -/

section
variable {kid : Nat → Kid}

/-- The invariant of the current child. -/
def ChildSt.Inv (I : ∀ id, (kid id).E.σ → Prop) : ChildSt kid → Prop
  | .none => False
  | .skip c => SkipInv c
  | .kid id c => I id c

/-- `child_parser_->Feed` as a function of parser and calls. -/
def ChildSt.feed' (q : Bool) (x : ChildSt kid × Log) (s : Src) : Fed (ChildSt kid × Log) :=
  ChildSt.feed q x.1 x.2 s

variable {I : ∀ id, (kid id).E.σ → Prop}

theorem ChildSt.step (hk : ∀ id, (kid id).E.Good (I id)) (q b : Bool) (c : ChildSt kid) (L : Log)
    (s : Src) (hc : c.Inv I ∧ c.starts = b) :
    TStep (ChildSt.feed' q) (fun c => c.Inv I ∧ c.starts = b) (c, L) s := by
  obtain ⟨hc, hb⟩ := hc
  cases c with
  | none => exact hc.elim
  | skip c =>
    intro st x' s' k h
    have hfd : ∀ c L s, ChildSt.feed' (kid := kid) q (.skip c, L) s =
        ((skipEP.feed q (c, L) s).1, (.skip (skipEP.feed q (c, L) s).2.1.1,
          (skipEP.feed q (c, L) s).2.1.2), (skipEP.feed q (c, L) s).2.2.1,
          (skipEP.feed q (c, L) s).2.2.2) := fun _ _ _ => rfl
    rw [hfd] at h
    rcases hr : skipEP.feed q (c, L) s with ⟨st1, ⟨c1, L1⟩, s1, k1⟩
    obtain ⟨g0, g1, g2⟩ := skipEP_good.step q c L s hc _ _ _ _ hr
    rw [hr] at h
    simp only [Prod.mk.injEq] at h
    obtain ⟨rfl, rfl, rfl, rfl⟩ := h
    refine ⟨g0, fun hst => ?_, fun hst => ?_⟩
    · rw [hfd]
      rcases g1 hst with g1 | ⟨e1, e2, e3⟩
      · rw [g1]; exact .inl rfl
      · exact .inr ⟨e1, e2, e3⟩
    · obtain ⟨f1, f2, f3⟩ := g2 hst
      refine ⟨f1, ⟨f2, hb⟩, ?_⟩
      rw [hfd, hfd]
      rcases f3 with f3 | ⟨e1, e2, e3⟩
      · rw [f3]; exact .inl rfl
      · exact .inr ⟨e1, e2, e3⟩
  | kid id c =>
    intro st x' s' k h
    have hfd : ∀ c L s, ChildSt.feed' (kid := kid) q (.kid id c, L) s =
        (((kid id).E.feed q (c, L) s).1, (.kid id ((kid id).E.feed q (c, L) s).2.1.1,
          ((kid id).E.feed q (c, L) s).2.1.2), ((kid id).E.feed q (c, L) s).2.2.1,
          ((kid id).E.feed q (c, L) s).2.2.2) := fun _ _ _ => rfl
    rw [hfd] at h
    rcases hr : (kid id).E.feed q (c, L) s with ⟨st1, ⟨c1, L1⟩, s1, k1⟩
    obtain ⟨g0, g1, g2⟩ := (hk id).step q c L s hc _ _ _ _ hr
    rw [hr] at h
    simp only [Prod.mk.injEq] at h
    obtain ⟨rfl, rfl, rfl, rfl⟩ := h
    refine ⟨g0, fun hst => ?_, fun hst => ?_⟩
    · rw [hfd]
      rcases g1 hst with g1 | ⟨e1, e2, e3⟩
      · rw [g1]; exact .inl rfl
      · exact .inr ⟨e1, e2, e3⟩
    · obtain ⟨f1, f2, f3⟩ := g2 hst
      refine ⟨f1, ⟨f2, hb⟩, ?_⟩
      rw [hfd, hfd]
      rcases f3 with f3 | ⟨e1, e2, e3⟩
      · rw [f3]; exact .inl rfl
      · exact .inr ⟨e1, e2, e3⟩

theorem ChildSt.adv (hk : ∀ id, (kid id).E.Good (I id)) {q : Bool} {c c' : ChildSt kid} {L L' : Log}
    {s s' : Src} {st : Status} {k : Nat} (hc : c.Inv I)
    (h : ChildSt.feed' q (c, L) s = (st, (c', L'), s', k)) :
    Advance s s' k ∧ c'.count = c.count + k ∧ st ≠ .diverged ∧
      (st = .okCompleted → c'.cached ≠ .none → 0 < c'.count) := by
  cases c with
  | none => exact hc.elim
  | skip c =>
    unfold ChildSt.feed' ChildSt.feed at h
    rcases hr : skipEP.feed q (c, L) s with ⟨st1, ⟨c1, L1⟩, s1, k1⟩
    simp only [hr, Prod.mk.injEq] at h
    obtain ⟨rfl, ⟨rfl, rfl⟩, rfl, rfl⟩ := h
    obtain ⟨h1, h2, -, h4⟩ := skipEP_good.adv _ _ _ _ _ _ _ _ _ hc hr
    exact ⟨h1, h2, h4, fun _ hx => absurd rfl hx⟩
  | kid id c =>
    unfold ChildSt.feed' ChildSt.feed at h
    rcases hr : (kid id).E.feed q (c, L) s with ⟨st1, ⟨c1, L1⟩, s1, k1⟩
    simp only [hr, Prod.mk.injEq] at h
    obtain ⟨rfl, ⟨rfl, rfl⟩, rfl, rfl⟩ := h
    obtain ⟨h1, h2, -, h4⟩ := (hk id).adv _ _ _ _ _ _ _ _ _ hc hr
    refine ⟨h1, h2, h4, fun hst hx => ?_⟩
    subst hst
    exact (hk id).cached _ _ _ _ _ _ _ _ hc hr hx

/-! ### The invariant of a master parser -/

/-- States in which no part of a child's size has been read. -/
def MState.beforeSize : MState → Bool
  | .begin | .firstId | .moreId | .size => true
  | _ => false

/-- What holds of a master parser between passes. -/
structure MSt.Inv (I : ∀ id, (kid id).E.σ → Prop) (m : MSt kid) : Prop where
  idle : m.state = .begin ∨ m.state = .firstId → m.idp = {}
  idp : m.state = .moreId → m.idp.Inv
  szp : m.state.beforeSize = true → SzOk m.szp
  val : m.state = .validating → 0 < m.total
  cach : m.cached = true → 0 < m.total
  body : m.state = .body → m.child.Inv I ∧ m.child.count ≤ m.total
  done : m.state = .childDone → m.child.cached ≠ none → 0 < m.total
  fin : m.state = .ended ∨ m.state = .complete → m.me.size ≠ kUnknownElementSize →
    m.total = m.me.size
  beg : m.state = .begin → m.total = 0

/-- The invariant away from the states it speaks about. -/
theorem MSt.Inv.plain {m : MSt kid} (hs : m.state = .action ∨ m.state = .initing)
    (hc : m.cached = true → 0 < m.total) : m.Inv I := by
  constructor
  case cach => exact hc
  all_goals rcases hs with hs | hs <;> simp [hs, MState.beforeSize]

theorem MSt.init_inv (w : Wrap) (me : Meta) (mx : Nat) : (MSt.init (kid := kid) w me mx).Inv I := by
  unfold MSt.init
  constructor
  · intro _; rfl
  · simp only; split
    · simp
    · split <;> simp
  · intro _; exact .fresh
  · simp only; split
    · simp
    · split <;> simp
  · intro h; cases h
  · simp only; split
    · simp
    · split <;> simp
  · simp only; split
    · simp
    · split <;> simp
  · simp only; split
    · simp
    · split
      · next h => intro _ _; exact h.symm
      · simp
  · intro _; rfl

theorem MSt.seek_inv (hk : ∀ id, (kid id).E.Good (I id)) {w : Wrap} {known : Nat → Bool}
    {anc : List Nat} {m : Meta} {p : MSt kid} (h : MSt.seek w known anc m = some p) :
    p.Inv I ∧ p.total = 0 := by
  unfold MSt.seek at h
  split at h
  · split at h
    · cases h
      exact ⟨.plain (.inl rfl) (fun h => (nomatch h)), rfl⟩
    · cases h
  · split at h
    · split at h
      · next c hc =>
        cases h
        obtain ⟨h1, h2⟩ := (hk _).seek _ _ _ hc
        refine ⟨?_, rfl⟩
        constructor <;> simp [MState.beforeSize]
        exact ⟨h1, h2⟩
      · cases h
    · cases h

/-! ### One pass -/

theorem MSt.callStart_eq (cb : Cb) (q : Bool) (v : Val) (next : MState) (m : MSt kid) (L : Log)
    (s : Src) : MSt.callStart cb q v next (m, L) s =
      if (cb.call q L (.start m.me v)).1.completedOk then
        (none, ({ m with skip := (cb.call q L (.start m.me v)).2.1, started := true, state := next },
          (cb.call q L (.start m.me v)).2.2), s, 0)
      else (some (cb.call q L (.start m.me v)).1,
        ({ m with skip := (cb.call q L (.start m.me v)).2.1 }, (cb.call q L (.start m.me v)).2.2),
        s, 0) := rfl

/-- A call of the callback as a pass. -/
theorem call_pass {σ} {body : σ × Log → Src → Pass (σ × Log)} {inv : σ → Prop} {cb : Cb}
    (hcb : cb.Proper) {q : Bool} {L : Log} {e : Ev} {m : σ} {next bad : Bool → σ}
    (hbody : ∀ s, body (m, L) s = if (cb.call q L e).1.completedOk then
        (none, (next (cb.call q L e).2.1, (cb.call q L e).2.2), s, 0)
      else (some (cb.call q L e).1, (bad (cb.call q L e).2.1, (cb.call q L e).2.2), s, 0))
    (hn : ∀ b, inv (next b)) (s : Src) : TPass body inv (m, L) s := by
  by_cases hc : (cb.call q L e).1.completedOk
  · exact ttau_pass (r := none) (fun s => by rw [hbody, if_pos hc]) (fun st h => (nomatch h))
      (fun _ => hn _) s
  · exact ttau_pass (r := some _) (fun s => by rw [hbody, if_neg hc])
      (fun st h => by cases h; exact (hcb.call q L e).1) (fun h => (nomatch h)) s

theorem MSt.validate_inv {known : Nat → Bool} {m : MSt kid} (hs : m.state = .validating)
    (hi : m.Inv I) : ((m.validate known).1 = none → (m.validate known).2.Inv I) ∧
      (∀ st, (m.validate known).1 = some st →
        st.isStall = false ∧ st ≠ .diverged ∧ st ≠ .okCompleted) ∧
      (m.validate known).2.total = m.total ∧ (m.validate known).2.me = m.me ∧
      ((m.validate known).1 = none → (m.validate known).2.rank < m.rank) := by
  have hr : m.rank = 26 := by unfold MSt.rank; rw [hs]
  unfold MSt.validate
  generalize m.total + (if m.cm.size = kUnknownElementSize then 0 else m.cm.size) = z
  split
  · exact ⟨fun h => (nomatch h), fun st h => by cases h; simp [Status.isStall], rfl, rfl, fun h => (nomatch h)⟩
  · split
    · next h2 =>
      refine ⟨fun _ => ?_, fun st h => (nomatch h), rfl, rfl, fun _ => by rw [hr]; simp [MSt.rank]⟩
      constructor <;> simp [MState.beforeSize]
      · exact hi.val hs
      · intro h; exact absurd h2.1 h
    · split
      · exact ⟨fun h => (nomatch h), fun st h => by cases h; simp [Status.isStall], rfl, rfl, fun h => (nomatch h)⟩
      · exact ⟨fun _ => .plain (.inl rfl) hi.cach, fun st h => (nomatch h), rfl, rfl,
          fun _ => by rw [hr]; simp [MSt.rank]⟩

theorem MSt.rank_body {m : MSt kid} (hs : m.state = .body) :
    m.rank = (if m.child.count > 0 then 40 else 20) + (if m.started then 0 else 1) := by
  unfold MSt.rank; rw [hs]

theorem MSt.rank_fresh {m : MSt kid} (hs : m.state = .body) (hc : m.child.count = 0) :
    m.rank < 24 := by
  rw [MSt.rank_body hs, if_neg (by omega)]
  split <;> omega

theorem MSt.initChild_inv (hk : ∀ id, (kid id).E.Good (I id)) {m : MSt kid} (hs : m.state = .initing)
    (hi : m.Inv I) : (m.initChild.1 = none → m.initChild.2.Inv I) ∧
      (∀ st, m.initChild.1 = some st → st.isStall = false ∧ st ≠ .diverged ∧ st ≠ .okCompleted) ∧
      m.initChild.2.total = m.total ∧ m.initChild.2.me = m.me ∧
      (m.initChild.1 = none → m.initChild.2.rank < m.rank) := by
  have hr : m.rank = 24 := by unfold MSt.rank; rw [hs]
  unfold MSt.initChild
  split
  · split
    · next c hc =>
      obtain ⟨h1, h2, -⟩ := skipEP_good.init _ _ _ hc
      refine ⟨fun _ => ?_, fun st h => (nomatch h), rfl, rfl, fun _ => ?_⟩
      · constructor <;> simp [MState.beforeSize]
        · exact hi.cach
        · exact ⟨h1, by show skipEP.count c ≤ _; rw [h2]; exact Nat.zero_le _⟩
      · rw [hr]; exact MSt.rank_fresh rfl h2
    · next e he =>
      exact ⟨fun h => (nomatch h), fun st h => by cases h; exact skipEP_good.initErr _ _ _ he, rfl, rfl,
        fun h => (nomatch h)⟩
  · split
    · next c hc =>
      obtain ⟨h1, h2, -⟩ := (hk _).init _ _ _ hc
      refine ⟨fun _ => ?_, fun st h => (nomatch h), rfl, rfl, fun _ => ?_⟩
      · constructor <;> simp [MState.beforeSize]
        · exact hi.cach
        · exact ⟨h1, by show (kid m.cm.id).E.count c ≤ _; rw [h2]; exact Nat.zero_le _⟩
      · rw [hr]; exact MSt.rank_fresh rfl h2
    · next e he =>
      exact ⟨fun h => (nomatch h), fun st h => by cases h; exact (hk _).initErr _ _ _ he, rfl, rfl,
        fun h => (nomatch h)⟩

theorem MSt.nextChild_inv {m : MSt kid} (hs : m.state = .childDone) (hi : m.Inv I) :
    (m.nextChild.1 = none → m.nextChild.2.Inv I) ∧
      (∀ st, m.nextChild.1 = some st → st.isStall = false ∧ st ≠ .diverged ∧ st ≠ .okCompleted) ∧
      m.nextChild.2.total = m.total ∧ m.nextChild.2.me = m.me ∧
      (m.nextChild.1 = none → m.nextChild.2.rank < m.rank) := by
  have hr : m.rank = if m.child.cached.isSome then 30 else 18 := by unfold MSt.rank; rw [hs]
  unfold MSt.nextChild
  split
  · exact ⟨fun h => (nomatch h), fun st h => by cases h; simp [Status.isStall], rfl, rfl, fun h => (nomatch h)⟩
  · split
    · next heq =>
      refine ⟨fun _ => ?_, fun st h => (nomatch h), rfl, rfl, fun _ => ?_⟩
      · constructor <;> simp [MState.beforeSize]
        · exact hi.cach
        · intro h
          rw [heq]
          unfold MSt.cap
          rw [if_neg h]
      · rw [hr]; simp only [MSt.rank]; split <;> omega
    · cases hc : m.child.cached with
      | some c =>
        refine ⟨fun _ => ?_, fun st h => (nomatch h), rfl, rfl, fun _ => ?_⟩
        · constructor <;> simp [MState.beforeSize]
          · exact hi.done hs (by rw [hc]; simp)
          · exact hi.cach
        · rw [hr, hc]; simp [MSt.rank]
      | none =>
        refine ⟨fun _ => ?_, fun st h => (nomatch h), rfl, rfl, fun _ => ?_⟩
        · constructor <;> simp [MState.beforeSize]
          · exact .fresh
          · exact hi.cach
        · rw [hr, hc]; simp [MSt.rank]

theorem MSt.firstId_pass {known : Nat → Bool} {cb : Cb} {w : Wrap} {q : Bool} (m : MSt kid) (L : Log)
    (s : Src) (hs : m.state = .firstId) (hi : m.Inv I) :
    PassOk (MSt.body cb w known q) (fun x => x.1.Inv I) (m, L) s := by
  obtain ⟨me, mx, state, total, idp, szp, cm, child, childSkip, skip, started, value, cached⟩ := m
  simp only at hs
  subst hs
  have hidp := hi.idle (.inr rfl)
  simp only at hidp
  subst hidp
  have hsz := hi.szp rfl
  have hca := hi.cach
  simp only at hsz hca
  clear hi
  have hb : ∀ total cm s, MSt.body cb w known q
      ((⟨me, mx, .firstId, total, {}, szp, cm, child, childSkip, skip, started, value, cached⟩ : MSt kid), L) s =
      match IdP.feed {} s with
      | (st, a, s', k) =>
        if st = .endOfFile ∧ me.size = kUnknownElementSize ∧ k = 0 then
          (none, ((⟨me, mx, .ended, total + k, a, szp, ⟨cm.id, k, cm.size, s.pos⟩, child, childSkip, skip, started, value, cached⟩ : MSt kid), L), s', k)
        else if !st.isOk then
          (some st, (if k > 0 then (⟨me, mx, .moreId, total + k, a, szp, ⟨cm.id, k, cm.size, s.pos⟩, child, childSkip, skip, started, value, cached⟩ : MSt kid)
            else ⟨me, mx, .firstId, total + k, a, szp, ⟨cm.id, k, cm.size, s.pos⟩, child, childSkip, skip, started, value, cached⟩, L), s', k)
        else if st.completedOk then (none, ((⟨me, mx, .size, total + k, a, szp, ⟨cm.id, k, cm.size, s.pos⟩, child, childSkip, skip, started, value, cached⟩ : MSt kid), L), s', k)
        else (none, ((⟨me, mx, .moreId, total + k, a, szp, ⟨cm.id, k, cm.size, s.pos⟩, child, childSkip, skip, started, value, cached⟩ : MSt kid), L), s', k) :=
    fun _ _ _ => rfl
  have hb2 : ∀ total a cm s, MSt.body cb w known q
      ((⟨me, mx, .moreId, total, a, szp, cm, child, childSkip, skip, started, value, cached⟩ : MSt kid), L) s =
      match IdP.feed a s with
      | (st, a, s', k) =>
        if st.completedOk then (none, ((⟨me, mx, .size, total + k, a, szp, ⟨cm.id, cm.headerSize + k, cm.size, cm.position⟩, child, childSkip, skip, started, value, cached⟩ : MSt kid), L), s', k)
        else (some st, ((⟨me, mx, .moreId, total + k, a, szp, ⟨cm.id, cm.headerSize + k, cm.size, cm.position⟩, child, childSkip, skip, started, value, cached⟩ : MSt kid), L), s', k) :=
    fun _ _ _ _ => rfl
  intro r x' s' k h
  rw [hb] at h
  rcases hr : IdP.feed {} s with ⟨st1, a1, s1, k1⟩
  have hadv := IdP.feed_adv _ _ hr
  obtain ⟨g0, g1, g2⟩ := IdP.feed_step {} s (fun _ h => (nomatch h)) _ _ _ _ hr
  rw [hr] at h
  simp only at h
  cases hst : st1.isStall with
  | false =>
    have g1 := g1 hst
    have hfl : MSt.body cb w known q
        ((⟨me, mx, .firstId, total, {}, szp, cm, child, childSkip, skip, started, value, cached⟩ : MSt kid), L) s.flat =
        (r, x', s'.flat, k) := by
      rw [hb, g1]
      simp only [flat_pos]
      split at h
      · next hc =>
        rw [if_pos hc]
        simp only [Prod.mk.injEq] at h ⊢
        obtain ⟨rfl, rfl, rfl, rfl⟩ := h
        simp
      · next hc =>
        rw [if_neg hc]
        split at h
        · next hc2 =>
          rw [if_pos hc2]
          simp only [Prod.mk.injEq] at h ⊢
          obtain ⟨rfl, rfl, rfl, rfl⟩ := h
          simp
        · next hc2 =>
          rw [if_neg hc2]
          split at h
          · next hc3 =>
            rw [if_pos hc3]
            simp only [Prod.mk.injEq] at h ⊢
            obtain ⟨rfl, rfl, rfl, rfl⟩ := h
            simp
          · next hc3 =>
            rw [if_neg hc3]
            simp only [Prod.mk.injEq] at h ⊢
            obtain ⟨rfl, rfl, rfl, rfl⟩ := h
            simp
    have hs' : s' = s1 ∧ k = k1 := by
      split at h
      · simp only [Prod.mk.injEq] at h; exact ⟨h.2.2.1.symm, h.2.2.2.symm⟩
      · split at h
        · simp only [Prod.mk.injEq] at h; exact ⟨h.2.2.1.symm, h.2.2.2.symm⟩
        · split at h <;> (simp only [Prod.mk.injEq] at h; exact ⟨h.2.2.1.symm, h.2.2.2.symm⟩)
    refine ⟨by rw [hs'.1]; exact g0, fun _ => ⟨hfl, fun hrn => ?_⟩, fun st hrs hstall => ?_⟩
    · subst hrn
      split at h
      · next hc =>
        simp only [Prod.mk.injEq] at h
        obtain ⟨-, rfl, -, -⟩ := h
        constructor <;> simp [MState.beforeSize]
        · intro hx; have := hca hx; omega
        · intro hx; exact absurd hc.2.1 hx
      · split at h
        · simp only [Prod.mk.injEq] at h; cases h.1
        · split at h
          · simp only [Prod.mk.injEq] at h
            obtain ⟨-, rfl, -, -⟩ := h
            constructor <;> simp [MState.beforeSize]
            · exact hsz
            · intro hx; have := hca hx; omega
          · next h1 h2 =>
            exfalso
            rcases hadv.plain with rfl | rfl | rfl | hp
            · exact h2 rfl
            · exact h1 rfl
            · cases hst
            · have : st1.isOk = false := by
                exact (Status.parsing_facts hp).2
              rw [this] at h1; exact h1 rfl
    · subst hrs
      exfalso
      have : st = st1 := by
        split at h
        · simp only [Prod.mk.injEq] at h; cases h.1
        · split at h
          · simp only [Prod.mk.injEq] at h; exact (Option.some.inj h.1).symm
          · split at h <;> (simp only [Prod.mk.injEq] at h; cases h.1)
      rw [this, hst] at hstall; cases hstall
  | true =>
    have hwb : st1 = .wouldBlock := by
      rcases hadv.plain with rfl | rfl | rfl | hp
      · cases hst
      · cases hst
      · rfl
      · rw [(Status.parsing_facts hp).1] at hst; cases hst
    subst hwb
    obtain ⟨f1, f2, f3⟩ := g2 rfl
    rw [if_neg (by simp), if_pos (by rfl)] at h
    simp only [Prod.mk.injEq] at h
    obtain ⟨rfl, rfl, rfl, rfl⟩ := h
    refine ⟨g0, fun hx => ?_, fun st hrs hstall => ⟨f1, ?_, ?_⟩⟩
    · have := hx _ rfl; cases this
    · by_cases hk : k1 > 0
      · simp only [if_pos hk]
        constructor <;> simp [MState.beforeSize]
        · exact f2
        · exact hsz
        · intro hx; have := hca hx; omega
      · simp only [if_neg hk]
        have := IdP.feed_fresh hr (by omega)
        constructor <;> simp [MState.beforeSize]
        · exact this
        · exact hsz
        · intro hx; have := hca hx; omega
    · rw [hb, f3]
      by_cases hk : k1 > 0
      · simp only [if_pos hk]
        rw [hb2]
        rcases hq : IdP.feed a1 s1.flat with ⟨st2, a2, s2, k2⟩
        simp only [addN_mk]
        have hne : ¬(st2 = .endOfFile ∧ me.size = kUnknownElementSize ∧ k1 + k2 = 0) :=
          fun h => by have := h.2.2; omega
        have hadv2 := IdP.feed_adv _ _ hq
        have hpl : st2 = .okCompleted ∨ (st2.isOk = false ∧ st2.completedOk = false) := by
          rcases hadv2.plain with rfl | rfl | rfl | hp
          · exact .inl rfl
          · exact .inr ⟨rfl, rfl⟩
          · exact .inr ⟨rfl, rfl⟩
          · have := (Status.parsing_facts hp).2
            refine .inr ⟨this, ?_⟩
            cases hx : st2.completedOk with
            | false => rfl
            | true => rw [completedOk_iff.mp hx] at this; cases this
        rcases hpl with rfl | ⟨p1, p2⟩
        · simp [Status.isOk, Status.completedOk, Nat.add_assoc, addP_mk, flat_pos]
        · have hne2 : ¬(st2 = .endOfFile ∧ me.size = kUnknownElementSize ∧ k1 = 0 ∧ k2 = 0) :=
            fun h => by have := h.2.2.1; omega
          simp [p1, p2, Nat.add_assoc, addP_mk, hk, hne2, flat_pos]
          omega
      · have hk0 : k1 = 0 := by omega
        subst hk0
        have := IdP.feed_fresh hr rfl
        subst this
        simp only [if_neg hk]
        rw [hb]
        obtain ⟨ds, -, -, hpos⟩ := hadv.adv
        rcases hq : IdP.feed {} s1.flat with ⟨st2, a2, s2, k2⟩
        simp only [addN_mk, Nat.zero_add, Nat.add_zero, flat_pos] at hpos ⊢
        rw [hpos]
        split
        · simp only [addP_mk, Nat.zero_add]
        · split
          · simp only [addP_mk, Nat.zero_add]
          · split <;> simp only [addP_mk, Nat.zero_add]

/-- One pass, stalled or not, agrees with the pass on everything. -/
theorem MSt.body_pass (hk : ∀ id, (kid id).E.Good (I id)) {cb : Cb} (hcb : cb.Proper) (w : Wrap)
    (known : Nat → Bool) (q : Bool) (x : MSt kid × Log) (s : Src) (hi : x.1.Inv I) :
    TPass (MSt.body cb w known q) (MSt.Inv I) x s := by
  obtain ⟨m, L⟩ := x
  simp only at hi
  cases hs : m.state with
  | begin =>
    refine call_pass hcb (q := q) (e := .start m.me .nil)
      (next := fun b => { m with skip := b, started := true, state := if m.me.size = 0 then .ended else .firstId })
      (bad := fun b => { m with skip := b })
      (fun s => Eq.trans (by unfold MSt.body; simp only [hs]) (MSt.callStart_eq cb q .nil _ m L s)) (fun b => ?_) s
    have h1 := hi.idle (.inl hs)
    have h2 := hi.szp (by rw [hs]; rfl)
    have h3 := hi.beg hs
    constructor
    case idle => intro _; exact h1
    case szp => intro _; exact h2
    case cach => exact hi.cach
    case fin =>
      intro hx _
      by_cases hz : m.me.size = 0
      · show m.total = m.me.size
        rw [h3, hz]
      · simp only [if_neg hz] at hx
        rcases hx with hx | hx <;> cases hx
    all_goals
      intro hx
      by_cases hz : m.me.size = 0
      · simp [if_pos hz] at hx
      · simp [if_neg hz] at hx
  | firstId => exact TPass.of_passOk (MSt.firstId_pass m L s hs hi)
  | moreId =>
    have h := sub_pass (body := MSt.body cb w known q) (inv := fun x => x.1.Inv I) (feedA := IdP.feed) (invA := IdP.Inv)
      (fun a n => ({ m with
        idp := a, total := m.total + n, state := .moreId
        cm := { m.cm with headerSize := m.cm.headerSize + n } }, L))
      (fun a n _ => ({ m with
        idp := a, total := m.total + n, state := .size
        cm := { m.cm with headerSize := m.cm.headerSize + n } }, L))
      ?_ IdP.feed_step ?_ m.idp 0 s (hi.idp hs) ?_
    · have : ({ m with
        idp := m.idp, total := m.total + 0, state := MState.moreId
        cm := { m.cm with headerSize := m.cm.headerSize + 0 } } : MSt kid) = m := by
        rw [← hs]; rfl
      rw [this] at h
      exact TPass.of_passOk h
    · intro a n s ha
      simp only [MSt.body, MSt.moreId, Nat.add_assoc]
    · intro a n ha
      constructor <;> simp [MState.beforeSize]
      · exact ha
      · exact hi.szp (by rw [hs]; rfl)
      · intro hx; have := hi.cach hx; omega
    · intro a' s' k _
      constructor <;> simp [MState.beforeSize]
      · exact hi.szp (by rw [hs]; rfl)
      · intro hx; have := hi.cach hx; omega
  | size =>
    have h := sub_pass (body := MSt.body cb w known q) (inv := fun x => x.1.Inv I) (feedA := SizeP.feed) (invA := SzOk)
      (fun a n => ({ m with
        szp := a, total := m.total + n, state := .size
        cm := { m.cm with headerSize := m.cm.headerSize + n } }, L))
      (fun a n _ => ({ m with
        szp := a, total := m.total + n, state := .validating
        cm := { m.cm with headerSize := m.cm.headerSize + n, id := m.idp.id, size := SizeP.size a } }, L))
      ?_ SizeP.feed_step' ?_ m.szp 0 s (hi.szp (by rw [hs]; rfl)) ?_
    · have : ({ m with
        szp := m.szp, total := m.total + 0, state := MState.size
        cm := { m.cm with headerSize := m.cm.headerSize + 0 } } : MSt kid) = m := by
        rw [← hs]; rfl
      rw [this] at h
      exact TPass.of_passOk h
    · intro a n s ha
      simp only [MSt.body, MSt.readSize, Nat.add_assoc]
    · intro a n ha
      constructor <;> simp [MState.beforeSize]
      · exact ha
      · intro hx; have := hi.cach hx; omega
    · intro a' s' k hfd
      have := (SizeP.feed_cnt (hi.szp (by rw [hs]; rfl)) hfd).1 rfl
      constructor <;> simp [MState.beforeSize]
      · omega
      · intro _; omega
  | validating =>
    obtain ⟨h1, h2, -⟩ := MSt.validate_inv (known := known) hs hi
    exact ttau_pass (fun s => by unfold MSt.body; simp only [hs]; rfl) (fun st h => (h2 st h).1) h1 s
  | action =>
    refine call_pass hcb (q := q || m.skip || m.childSkip) (e := .element m.cm)
      (next := fun b => { m with childSkip := b, state := .initing })
      (bad := fun b => { m with childSkip := b })
      (fun s => by unfold MSt.body; simp only [hs]) (fun b => ?_) s
    exact .plain (.inr rfl) hi.cach
  | initing =>
    obtain ⟨h1, h2, -⟩ := MSt.initChild_inv hk hs hi
    exact ttau_pass (fun s => by unfold MSt.body; simp only [hs]; rfl) (fun st h => (h2 st h).1) h1 s
  | body =>
    by_cases hn : m.needStart w = true
    · refine call_pass hcb (q := q || m.skip || m.childSkip) (e := .start m.me m.value)
        (next := fun b => { m with skip := b, started := true, state := .body })
        (bad := fun b => { m with skip := b })
        (fun s => Eq.trans (by unfold MSt.body; simp only [hs, hn]; rfl) (MSt.callStart_eq cb (q || m.skip || m.childSkip) m.value .body m L s)) (fun b => ?_) s
      constructor <;> simp [MState.beforeSize]
      · exact hi.cach
      · exact hi.body hs
    · obtain ⟨hb1, hb2⟩ := hi.body hs
      have h := tsub_pass (body := MSt.body cb w known q) (inv := MSt.Inv I)
        (feedA := ChildSt.feed' (q || m.skip || m.childSkip))
        (invA := fun c => c.Inv I ∧ c.starts = m.child.starts)
        (fun c n => { m with child := c, total := m.total + n, state := .body })
        (fun c n _ => { m with
          child := c, total := m.total + n, value := c.consume m.skip m.value, state := .childDone })
        ?_ m.child 0 L s ⟨hb1, rfl⟩ (ChildSt.step hk _ _ _ _ _ ⟨hb1, rfl⟩) ?_ ?_
      · have he : ({ m with child := m.child, total := m.total + 0, state := MState.body } : MSt kid) = m := by
          rw [← hs]; rfl
        rw [he] at h
        exact h
      · intro c n L s hc
        have hn' : MSt.needStart w ({ m with child := c, total := m.total + n, state := MState.body } : MSt kid) = false := by
          simp only [MSt.needStart] at hn ⊢
          rw [hc.2]
          simpa using hn
        simp only [MSt.body, hn', Nat.add_assoc]
        rfl
      · intro st a' L' s' k hf hst hI
        obtain ⟨-, c2, -⟩ := ChildSt.adv hk hb1 hf
        constructor <;> simp [MState.beforeSize]
        · intro hx; have := hi.cach hx; omega
        · exact ⟨hI.1, by omega⟩
      · intro a' L' s' k hf
        obtain ⟨-, c2, -, c4⟩ := ChildSt.adv hk hb1 hf
        constructor <;> simp [MState.beforeSize]
        · intro hx; have := hi.cach hx; omega
        · intro hx; have := c4 rfl hx; omega
  | childDone =>
    obtain ⟨h1, h2, -⟩ := MSt.nextChild_inv hs hi
    exact ttau_pass (fun s => by unfold MSt.body; simp only [hs]; rfl) (fun st h => (h2 st h).1) h1 s
  | ended =>
    have hfin : ∀ (b : Bool) (c : Bool), ({ m with skip := b, started := c, state := .complete } : MSt kid).Inv I := by
      intro b c
      constructor <;> simp [MState.beforeSize]
      · exact hi.cach
      · exact hi.fin (.inl hs)
    by_cases hc : w.start = .tagged ∧ m.started = false
    · refine call_pass hcb (q := q) (e := .start m.me m.value)
        (next := fun b => { m with skip := b, started := true, state := .complete })
        (bad := fun b => { m with skip := b })
        (fun s => Eq.trans (by unfold MSt.body; simp only [hs]; rw [if_pos hc]) (MSt.callStart_eq cb q m.value .complete m L s)) (fun b => hfin _ _) s
    · exact ttau_pass (r := none) (fun s => by unfold MSt.body; simp only [hs]; rw [if_neg hc]) (fun st h => (nomatch h))
        (fun _ => hfin _ _) s
  | complete =>
    by_cases hc : (w.complete && !m.skip) = true
    · exact ttau_pass (r := some (cb.call q L (.complete m.me m.value)).1)
        (x' := (m, (cb.call q L (.complete m.me m.value)).2.2))
        (fun s => by unfold MSt.body; simp only [hs]; rw [if_pos hc])
        (fun st h => by cases h; exact (hcb.call _ _ _).1) (fun h => (nomatch h)) s
    · exact ttau_pass (r := some .okCompleted) (x' := (m, L))
        (fun s => by unfold MSt.body; simp only [hs]; rw [if_neg hc])
        (fun st h => by cases h; rfl) (fun h => (nomatch h)) s

theorem MSt.body_facts (hk : ∀ id, (kid id).E.Good (I id)) {cb : Cb} (hcb : cb.Proper) (w : Wrap)
    (known : Nat → Bool) (q : Bool) {x : MSt kid × Log} {s : Src} (hi : x.1.Inv I) {r x' s' k}
    (h : MSt.body cb w known q x s = (r, x', s', k)) :
    Advance s s' k ∧ x'.1.total = x.1.total + k ∧ x'.1.me = x.1.me ∧ r ≠ some .diverged ∧
      (r = some .okCompleted → x.1.state = .complete ∧ x'.1 = x.1) ∧
      (r = none → x'.1.Inv I ∧ MSt.measure x' s'.bytes.length < MSt.measure x s.bytes.length) := by
  have hinv : r = none → x'.1.Inv I := fun hr =>
    ((MSt.body_pass hk hcb w known q x s hi _ _ _ _ h).2.1 (fun st h => by rw [hr] at h; cases h)).2 hr
  obtain ⟨m, L⟩ := x
  simp only at hi
  have hcall : ∀ {q e} {next bad : Bool → MSt kid}
      (_ : (if (cb.call q L e).1.completedOk then
        ((none : Option Status), (next (cb.call q L e).2.1, (cb.call q L e).2.2), s, 0)
      else (some (cb.call q L e).1, (bad (cb.call q L e).2.1, (cb.call q L e).2.2), s, 0)) = (r, x', s', k))
      (_ : ∀ b, (bad b).total = m.total ∧ (bad b).me = m.me) (_ : ∀ b, (next b).total = m.total ∧ (next b).me = m.me ∧ (next b).rank < m.rank),
      Advance s s' k ∧ x'.1.total = m.total + k ∧ x'.1.me = m.me ∧ r ≠ some .diverged ∧
      (r = some .okCompleted → m.state = .complete ∧ x'.1 = m) ∧
      (r = none → x'.1.Inv I ∧ MSt.measure x' s'.bytes.length < MSt.measure (m, L) s.bytes.length) := by
    intro q e next bad h hbad hn
    split at h
    · simp only [Prod.mk.injEq] at h
      obtain ⟨rfl, rfl, rfl, rfl⟩ := h
      obtain ⟨n1, n2, n3⟩ := hn (cb.call q L e).2.1
      refine ⟨Advance.refl _, n1, n2, by simp, fun h => (nomatch h), fun _ => ⟨hinv rfl, ?_⟩⟩
      simp only [MSt.measure]
      omega
    · next hc =>
      simp only [Prod.mk.injEq] at h
      obtain ⟨rfl, rfl, rfl, rfl⟩ := h
      refine ⟨Advance.refl _, (hbad _).1, (hbad _).2, fun h => ?_, fun h => ?_, fun h => (nomatch h)⟩
      · exact (hcb.call q L e).2 (Option.some.inj h)
      · rw [Option.some.inj h] at hc; exact absurd rfl hc
  have htau : ∀ {y : Option Status × MSt kid}
      (_ : (y.1, (y.2, L), s, 0) = (r, x', s', k))
      (_ : (∀ st, y.1 = some st → st.isStall = false ∧ st ≠ .diverged ∧ st ≠ .okCompleted) ∧
        y.2.total = m.total ∧ y.2.me = m.me ∧ (y.1 = none → y.2.rank < m.rank)),
      Advance s s' k ∧ x'.1.total = m.total + k ∧ x'.1.me = m.me ∧ r ≠ some .diverged ∧
      (r = some .okCompleted → m.state = .complete ∧ x'.1 = m) ∧
      (r = none → x'.1.Inv I ∧ MSt.measure x' s'.bytes.length < MSt.measure (m, L) s.bytes.length) := by
    intro y h hn
    simp only [Prod.mk.injEq] at h
    obtain ⟨rfl, rfl, rfl, rfl⟩ := h
    obtain ⟨n1, n2, n3, n4⟩ := hn
    refine ⟨Advance.refl _, n2, n3, fun h => (n1 _ h).2.1 rfl, fun h => absurd rfl (n1 _ h).2.2, fun hr => ⟨hinv hr, ?_⟩⟩
    simp only [MSt.measure]
    have := n4 hr
    omega
  have hread : ∀ {st : Status} {m' m2 : MSt kid} {s1 k1} (_ : Adv st s s1 k1)
      (_ : (if st.completedOk then ((none : Option Status), (m', L), s1, k1) else (some st, (m2, L), s1, k1)) = (r, x', s', k))
      (_ : m'.total = m.total + k1 ∧ m'.me = m.me ∧ m'.rank < m.rank + 64 * k1 ∧ m2.total = m.total + k1 ∧ m2.me = m.me),
      Advance s s' k ∧ x'.1.total = m.total + k ∧ x'.1.me = m.me ∧ r ≠ some .diverged ∧
      (r = some .okCompleted → m.state = .complete ∧ x'.1 = m) ∧
      (r = none → x'.1.Inv I ∧ MSt.measure x' s'.bytes.length < MSt.measure (m, L) s.bytes.length) := by
    intro st m' m2 s1 k1 ha h hn
    obtain ⟨n1, n2, n3, n4, n5⟩ := hn
    split at h
    · simp only [Prod.mk.injEq] at h
      obtain ⟨rfl, rfl, rfl, rfl⟩ := h
      refine ⟨ha.adv, n1, n2, by simp, fun h => (nomatch h), fun _ => ⟨hinv rfl, ?_⟩⟩
      have := ha.adv.length
      simp only [MSt.measure]
      omega
    · next hc =>
      simp only [Prod.mk.injEq] at h
      obtain ⟨rfl, rfl, rfl, rfl⟩ := h
      refine ⟨ha.adv, n4, n5, fun h => ha.not_diverged (Option.some.inj h), fun h => ?_, fun h => (nomatch h)⟩
      rw [Option.some.inj h] at hc; exact absurd rfl hc
  unfold MSt.body at h
  cases hs : m.state with
  | begin =>
    simp only [hs] at h
    rw [MSt.callStart_eq] at h
    have hr : m.rank = 60 := by unfold MSt.rank; rw [hs]
    refine hs ▸ hcall (next := fun b => { m with skip := b, started := true, state := if m.me.size = 0 then .ended else .firstId }) (bad := fun b => { m with skip := b }) h (fun b => ⟨rfl, rfl⟩) (fun b => ⟨rfl, rfl, ?_⟩)
    rw [hr]
    unfold MSt.rank
    by_cases hz : m.me.size = 0
    · simp [hz]
    · simp [hz]
  | firstId =>
    simp only [hs] at h
    unfold MSt.firstId at h
    rcases hq : m.idp.feed s with ⟨st1, a1, s1, k1⟩
    have hadv := IdP.feed_adv _ _ hq
    have hl := hadv.adv.length
    simp only [hq] at h
    have hr : m.rank = 10 := by unfold MSt.rank; rw [hs]
    split at h
    · simp only [Prod.mk.injEq] at h
      obtain ⟨rfl, rfl, rfl, rfl⟩ := h
      refine ⟨hadv.adv, rfl, rfl, by simp, fun h => (nomatch h), fun _ => ⟨hinv rfl, ?_⟩⟩
      simp only [MSt.measure]; rw [hr]; simp only [MSt.rank]; omega
    · split at h
      · next hok =>
        simp only [Prod.mk.injEq] at h
        obtain ⟨rfl, rfl, rfl, rfl⟩ := h
        refine ⟨hadv.adv, ?_, ?_, fun h => hadv.not_diverged (Option.some.inj h), fun h => ?_, fun h => (nomatch h)⟩
        · dsimp only; split <;> rfl
        · dsimp only; split <;> rfl
        · rw [Option.some.inj h] at hok; cases hok
      · split at h
        · simp only [Prod.mk.injEq] at h
          obtain ⟨rfl, rfl, rfl, rfl⟩ := h
          refine ⟨hadv.adv, rfl, rfl, by simp, fun h => (nomatch h), fun _ => ⟨hinv rfl, ?_⟩⟩
          simp only [MSt.measure]; rw [hr]; simp only [MSt.rank]; omega
        · simp only [Prod.mk.injEq] at h
          obtain ⟨rfl, rfl, rfl, rfl⟩ := h
          refine ⟨hadv.adv, rfl, rfl, by simp, fun h => (nomatch h), fun _ => ⟨hinv rfl, ?_⟩⟩
          simp only [MSt.measure]; rw [hr]; simp only [MSt.rank]; omega
  | moreId =>
    simp only [hs] at h
    unfold MSt.moreId at h
    rcases hq : m.idp.feed s with ⟨st1, a1, s1, k1⟩
    simp only [hq] at h
    have hr : m.rank = 9 := by unfold MSt.rank; rw [hs]
    refine hs ▸ hread (IdP.feed_adv _ _ hq) h ⟨rfl, rfl, ?_, rfl, rfl⟩
    rw [hr]; simp only [MSt.rank]; omega
  | size =>
    simp only [hs] at h
    unfold MSt.readSize at h
    rcases hq : SizeP.feed m.szp s with ⟨st1, a1, s1, k1⟩
    simp only [hq] at h
    have hr : m.rank = 8 := by unfold MSt.rank; rw [hs]
    by_cases hc : st1 = .okCompleted
    · subst hc
      have := (SizeP.feed_cnt (hi.szp (by rw [hs]; rfl)) hq).1 rfl
      refine hs ▸ hread (SizeP.feed_adv _ _ hq) h ⟨rfl, rfl, ?_, rfl, rfl⟩
      rw [hr]; simp only [MSt.rank]; omega
    · rw [if_neg (fun h => hc (completedOk_iff.mp h))] at h
      refine hs ▸ hread (m' := { m with total := m.total + k1, state := .complete }) (m2 := { m with
        szp := a1, total := m.total + k1
        cm := { m.cm with headerSize := m.cm.headerSize + k1 } }) (SizeP.feed_adv _ _ hq)
        (by rw [if_neg (fun h => hc (completedOk_iff.mp h))]; exact h) ⟨rfl, rfl, ?_, rfl, rfl⟩
      rw [hr]; simp only [MSt.rank]; omega
  | validating =>
    simp only [hs] at h
    exact hs ▸ htau h (MSt.validate_inv hs hi).2
  | action =>
    simp only [hs] at h
    have hr : m.rank = 25 := by unfold MSt.rank; rw [hs]
    refine hs ▸ hcall (next := fun b => { m with childSkip := b, state := .initing }) (bad := fun b => { m with childSkip := b, state := .action }) h (fun b => ⟨rfl, rfl⟩) (fun b => ⟨rfl, rfl, ?_⟩)
    rw [hr]; simp only [MSt.rank]; omega
  | initing =>
    simp only [hs] at h
    exact hs ▸ htau h (MSt.initChild_inv hk hs hi).2
  | body =>
    simp only [hs] at h
    have hr := MSt.rank_body hs
    by_cases hn : m.needStart w = true
    · rw [if_pos hn, MSt.callStart_eq] at h
      refine hs ▸ hcall (next := fun b => { m with skip := b, started := true, state := .body }) (bad := fun b => { m with skip := b }) h (fun b => ⟨rfl, rfl⟩) (fun b => ⟨rfl, rfl, ?_⟩)
      have hst : m.started = false := by
        unfold MSt.needStart at hn
        cases hx : m.started with
        | false => rfl
        | true => rw [hx] at hn; simp at hn
      rw [hr, MSt.rank_body rfl, hst]
      simp only [if_true, Bool.false_eq_true, if_false]
      omega
    · rw [if_neg hn] at h
      obtain ⟨hb1, hb2⟩ := hi.body hs
      rcases hq : m.child.feed (q || m.skip || m.childSkip) L s with ⟨st1, ⟨c1, L1⟩, s1, k1⟩
      obtain ⟨a1, a2, a3, a4⟩ := ChildSt.adv hk hb1 hq
      have hl := a1.length
      simp only [hq] at h
      split at h
      · next hc =>
        simp only [Prod.mk.injEq] at h
        obtain ⟨rfl, rfl, rfl, rfl⟩ := h
        refine ⟨a1, rfl, rfl, by simp, fun h => (nomatch h), fun _ => ⟨hinv rfl, ?_⟩⟩
        simp only [MSt.measure]
        rw [hr]
        have hr2 : ({ m with child := c1, total := m.total + k1, value := c1.consume m.skip m.value, state := .childDone } : MSt kid).rank
          = if c1.cached.isSome then 30 else 18 := rfl
        rw [hr2]
        cases hcd : c1.cached with
        | none => simp only [Option.isSome_none, Bool.false_eq_true, if_false]; split <;> omega
        | some z =>
          have := a4 (completedOk_iff.mp hc) (by rw [hcd]; simp)
          simp only [Option.isSome_some, if_true]
          by_cases h0 : m.child.count > 0
          · rw [if_pos h0]; omega
          · rw [if_neg h0]; omega
      · next hc =>
        simp only [Prod.mk.injEq] at h
        obtain ⟨rfl, rfl, rfl, rfl⟩ := h
        refine ⟨a1, rfl, rfl, fun h => a3 (Option.some.inj h), fun h => ?_, fun h => (nomatch h)⟩
        rw [Option.some.inj h] at hc; exact absurd rfl hc
  | childDone =>
    simp only [hs] at h
    exact hs ▸ htau h (MSt.nextChild_inv hs hi).2
  | ended =>
    simp only [hs] at h
    have hr : m.rank = 1 := by unfold MSt.rank; rw [hs]
    split at h
    · rw [MSt.callStart_eq] at h
      refine hs ▸ hcall (next := fun b => { m with skip := b, started := true, state := .complete }) (bad := fun b => { m with skip := b }) h (fun b => ⟨rfl, rfl⟩) (fun b => ⟨rfl, rfl, ?_⟩)
      rw [hr]; simp only [MSt.rank]; omega
    · refine hs ▸ htau (y := (none, { m with state := .complete })) h ⟨fun st h => (nomatch h), rfl, rfl, fun _ => ?_⟩
      rw [hr]; simp only [MSt.rank]; omega
  | complete =>
    simp only [hs] at h
    split at h
    · simp only [Prod.mk.injEq] at h
      obtain ⟨rfl, rfl, rfl, rfl⟩ := h
      exact ⟨Advance.refl _, rfl, rfl, fun h => (hcb.call _ _ _).2 (Option.some.inj h), fun _ => ⟨rfl, rfl⟩, fun h => (nomatch h)⟩
    · simp only [Prod.mk.injEq] at h
      obtain ⟨rfl, rfl, rfl, rfl⟩ := h
      exact ⟨Advance.refl _, rfl, rfl, by simp, fun _ => ⟨rfl, rfl⟩, fun h => (nomatch h)⟩

/-- `Feed` of a master parser. -/
def MSt.feed (cb : Cb) (w : Wrap) (known : Nat → Bool) (q : Bool) :
    MSt kid × Log → Src → Fed (MSt kid × Log) :=
  loopFeed (MSt.body cb w known q) MSt.measure

theorem MSt.decreasing (hk : ∀ id, (kid id).E.Good (I id)) {cb : Cb} (hcb : cb.Proper) (w : Wrap)
    (known : Nat → Bool) (q : Bool) :
    Decreasing (MSt.body (kid := kid) cb w known q) MSt.measure (fun x => x.1.Inv I) :=
  fun _ _ _ _ _ hi h => ((MSt.body_facts hk hcb w known q hi h).2.2.2.2.2 rfl).2

theorem MSt.feed_facts (hk : ∀ id, (kid id).E.Good (I id)) {cb : Cb} (hcb : cb.Proper) {w : Wrap}
    {known : Nat → Bool} {q : Bool} {x : MSt kid × Log} {s : Src} (hi : x.1.Inv I) {st x' s' k}
    (h : MSt.feed cb w known q x s = (st, x', s', k)) :
    Advance s s' k ∧ x'.1.total = x.1.total + k ∧ x'.1.me = x.1.me ∧ st ≠ .diverged ∧
      (st = .okCompleted → x'.1.Inv I ∧ x'.1.state = .complete) := by
  have key := loopFeed_induct (body := MSt.body cb w known q) (μ := MSt.measure)
    (inv := fun x => x.1.Inv I) (MSt.decreasing hk hcb w known q)
    (P := fun x s r => Advance s r.2.2.1 r.2.2.2 ∧ r.2.1.1.total = x.1.total + r.2.2.2 ∧
      r.2.1.1.me = x.1.me ∧ r.1 ≠ .diverged ∧
      (r.1 = .okCompleted → r.2.1.1.Inv I ∧ r.2.1.1.state = .complete)) ?_ ?_ ?_ x s hi
  · change loopFeed _ _ _ _ = _ at h
    rw [h] at key
    exact key
  · intro p s st p' s' k hi h
    obtain ⟨b1, b2, b3, b4, b5, -⟩ := MSt.body_facts hk hcb w known q hi h
    refine ⟨b1, b2, b3, fun h => b4 (by simp only at h; rw [h]), fun h => ?_⟩
    obtain ⟨c1, c2⟩ := b5 (by simp only at h; rw [h])
    simp only [c2]
    exact ⟨hi, c1⟩
  · intro p s p' s' k hi h
    exact ((MSt.body_facts hk hcb w known q hi h).2.2.2.2.2 rfl).1
  · intro p s p' s' k r hi h ih
    obtain ⟨b1, b2, b3, -⟩ := MSt.body_facts hk hcb w known q hi h
    obtain ⟨c1, c2, c3, c4, c5⟩ := ih
    refine ⟨b1.trans c1, ?_, c3.trans b3, c4, c5⟩
    simp only [addN]; rw [c2, b2, Nat.add_assoc]

theorem masterEP_good {cb : Cb} (hcb : cb.Proper) (w : Wrap) (known : Nat → Bool)
    (hk : ∀ id, (kid id).E.Good (I id)) : (masterEP cb w known kid).Good (MSt.Inv I) where
  init m mx p he := by
    cases he
    exact ⟨MSt.init_inv w m mx, rfl, rfl⟩
  initErr m mx e he := nomatch he
  seek a m p he := MSt.seek_inv hk he
  step q p L s hi := loopFeed_tstep (MSt.decreasing hk hcb w known q)
    (fun x s hx => MSt.body_pass hk hcb w known q x s hx) (p, L) s hi
  adv q p L s st p' L' s' k hi he := by
    obtain ⟨h1, h2, h3, h4, -⟩ := MSt.feed_facts hk hcb (x := (p, L)) hi he
    exact ⟨h1, h2, congrArg Meta.size h3, h4⟩
  cached q p L s p' L' s' k hi he hc := by
    obtain ⟨-, -, -, -, h5⟩ := MSt.feed_facts hk hcb (x := (p, L)) hi he
    refine (h5 rfl).1.cach ?_
    cases hx : p'.cached with
    | true => rfl
    | false => exact absurd (by simp only [masterEP]; rw [hx]; simp) hc

theorem masterEP_exact {cb : Cb} (hcb : cb.Proper) (w : Wrap) (known : Nat → Bool)
    (hk : ∀ id, (kid id).E.Good (I id)) : (masterEP cb w known kid).Exact (MSt.Inv I) := by
  intro q p L s p' L' s' k hi he _ hz _
  obtain ⟨-, -, h3, -, h5⟩ := MSt.feed_facts hk hcb (x := (p, L)) hi he
  obtain ⟨c1, c2⟩ := h5 rfl
  have h3 : p'.me = p.me := h3
  have := c1.fin (.inr c2) (by show p'.me.size ≠ _; rw [h3]; exact hz)
  show p'.total = p.me.size
  rw [← h3]
  exact this

end

/-! ### Whole trees -/

theorem tooDeep_good : (leafEP (fun _ => .error .exceededRecursionDepthLimit) skipFeed (fun _ => .nil)).Good
    (fun _ => False) where
  init m mx p he := nomatch he
  initErr m mx e he := by cases he; simp [Status.isStall]
  seek a m p he := nomatch he
  step q p L s hi := hi.elim
  adv q p L s st p' L' s' k hi he := hi.elim
  cached q p L s p' L' s' k hi he hc := hi.elim

/-- `EP.Good` for some invariant. -/
def EP.HasGood (E : EP) : Prop := ∃ inv, E.Good inv

theorem Leaf.good {cb : Cb} (hcb : cb.Proper) (l : Leaf) : (l.parser cb).HasGood := by
  cases l with
  | uint => rw [Leaf.parser]; exact ⟨_, leaf_good (int_leaf _)⟩
  | sint => rw [Leaf.parser]; exact ⟨_, leaf_good (int_leaf _)⟩
  | bool => rw [Leaf.parser]; exact ⟨_, leaf_good bool_leaf⟩
  | float => rw [Leaf.parser]; exact ⟨_, leaf_good float_leaf⟩
  | date => rw [Leaf.parser]; exact ⟨_, leaf_good date_leaf⟩
  | str => rw [Leaf.parser]; exact ⟨_, leaf_good (byte_leaf true)⟩
  | bin => rw [Leaf.parser]; exact ⟨_, leaf_good (byte_leaf false)⟩
  | idElem => rw [Leaf.parser]; exact ⟨_, leaf_good idElem_leaf⟩
  | virt => rw [Leaf.parser]; exact ⟨_, leaf_good virt_leaf⟩
  | block b => exact ⟨_, blockEP_good hcb b⟩
  | void => exact ⟨_, voidEP_good hcb⟩
  | tooDeep => exact ⟨_, tooDeep_good⟩

mutual
theorem Gram.good {cb : Cb} (hcb : cb.Proper) : ∀ g : Gram, (g.parser cb).HasGood
  | .leaf l => by rw [Gram.parser]; exact l.good hcb
  | .master w ks => by
    rw [Gram.parser]
    have h : ∀ id, ∃ inv, (ks.find cb id).E.Good inv := fun id => Kids.good hcb ks id
    obtain ⟨I, hI⟩ := Classical.axiomOfChoice h
    exact ⟨_, masterEP_good hcb w _ hI⟩
theorem Kids.good {cb : Cb} (hcb : cb.Proper) : ∀ (ks : Kids) (id : Nat),
    (ks.find cb id).E.HasGood
  | .nil, id => by
    rw [Kids.find]
    show (if id = kVoid then voidEP cb else unknownEP cb).HasGood
    split
    · exact ⟨_, voidEP_good hcb⟩
    · exact ⟨_, unknownEP_good hcb⟩
  | .cons i st co g rest, id => by
    rw [Kids.find]
    split
    · exact Gram.good hcb g
    · exact Kids.good hcb rest id
end

/-! ### Elements of known size are consumed whole -/

/-- `EP.Good` and `EP.Exact` for some invariant. -/
def EP.HasExact (E : EP) : Prop := ∃ inv, E.Good inv ∧ E.Exact inv

theorem tooDeep_exact :
    (leafEP (fun _ => .error .exceededRecursionDepthLimit) skipFeed (fun _ => .nil)).Exact
    (fun _ => False) := fun _ _ _ _ _ _ _ _ hi => hi.elim

theorem Leaf.exact {cb : Cb} (hcb : cb.Proper) (l : Leaf) (hl : l ≠ .virt) :
    (l.parser cb).HasExact := by
  cases l with
  | uint => rw [Leaf.parser]; exact ⟨_, leaf_good (int_leaf _), leaf_exact (int_exact _)⟩
  | sint => rw [Leaf.parser]; exact ⟨_, leaf_good (int_leaf _), leaf_exact (int_exact _)⟩
  | bool => rw [Leaf.parser]; exact ⟨_, leaf_good bool_leaf, leaf_exact bool_exact⟩
  | float => rw [Leaf.parser]; exact ⟨_, leaf_good float_leaf, leaf_exact float_exact⟩
  | date => rw [Leaf.parser]; exact ⟨_, leaf_good date_leaf, leaf_exact date_exact⟩
  | str => rw [Leaf.parser]; exact ⟨_, leaf_good (byte_leaf true), leaf_exact (byte_exact true)⟩
  | bin => rw [Leaf.parser]; exact ⟨_, leaf_good (byte_leaf false), leaf_exact (byte_exact false)⟩
  | idElem => rw [Leaf.parser]; exact ⟨_, leaf_good idElem_leaf, leaf_exact idElem_exact⟩
  | virt => exact absurd rfl hl
  | block b => exact ⟨_, blockEP_good hcb b, blockEP_exact hcb b⟩
  | void => exact ⟨_, voidEP_good hcb, dataEP_exact hcb _⟩
  | tooDeep => exact ⟨_, tooDeep_good, tooDeep_exact⟩

theorem Gram.exact {cb : Cb} (hcb : cb.Proper) (g : Gram) (hg : g ≠ .leaf .virt) :
    (g.parser cb).HasExact := by
  cases g with
  | leaf l => rw [Gram.parser]; exact l.exact hcb (fun h => hg (by rw [h]))
  | master w ks =>
    rw [Gram.parser]
    have h : ∀ id, ∃ inv, (ks.find cb id).E.Good inv := fun id => Kids.good hcb ks id
    obtain ⟨I, hI⟩ := Classical.axiomOfChoice h
    exact ⟨_, masterEP_good hcb w _ hI, masterEP_exact hcb w _ hI⟩

theorem skipEP_hasExact : skipEP.HasExact := ⟨_, skipEP_good, skipEP_exact⟩

theorem unknownEP_hasExact {cb : Cb} (hcb : cb.Proper) : (unknownEP cb).HasExact :=
  ⟨_, unknownEP_good hcb, dataEP_exact hcb _⟩

end Verif.Web
