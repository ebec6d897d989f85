/-
Element parsers run over one well-formed element without children, all data available, with a
callback that reads everything.
-/
import Verif.Spec.Document
import Verif.Lemmas.WebmTreeMaster
import Verif.Lemmas.WebmDoc
import Verif.Props.WebmLace

namespace Verif.Web
open Verif Verif.Spec

theorem Cb.Reads.proper {cb : Cb} (h : cb.Reads) : cb.Proper := by
  intro L e
  rw [(h L e).1]
  exact ⟨rfl, by simp, by simp⟩

/-- Parser `E`, set up for element `m`, reads from `s` to `s'`: the calls go from `L` to `L'`, its
value is `v`, and `c` is the header of the next element if it has read that. -/
def EP.Does (E : EP) (m : Meta) (mx : Nat) (L : Log) (s : Src) (L' : Log) (s' : Src) (k : Nat) (v : Val)
    (c : Option Meta) : Prop :=
  ∃ p0 p', E.init m mx = .ok p0 ∧ E.feed false (p0, L) s = (.okCompleted, (p', L'), s', k) ∧
    E.skipped p' = false ∧ E.value p' = v ∧ E.cached p' = c

theorem leafEP_does {τ : Type} {ini : Nat → Except Status τ} {fd : τ → Src → Fed τ} {val : τ → Val}
    {m : Meta} {mx : Nat} {L : Log} {s s' : Src} {k : Nat} {t t' : τ} {v : Val} (hi : ini m.size = .ok t)
    (hf : fd t s = (.okCompleted, t', s', k)) (hv : (if m.size = 0 then .dflt else val t') = v) :
    (leafEP ini fd val).Does m mx L s L s' k v none := by
  refine ⟨⟨m.size, t, 0⟩, ⟨m.size, t', 0 + k⟩, ?_, ?_, rfl, hv, rfl⟩
  · simp only [leafEP, hi]
  · simp only [leafEP, hf]

theorem beVal_lt64 {b : Bytes} (h : b.length ≤ 8) : beVal b < 2 ^ 64 := by
  have hl := beVal_lt b
  have r3 : 256 ^ b.length ≤ 2 ^ 64 := by
    rw [pow256]; exact Nat.pow_le_pow_right (by decide) (by omega)
  omega

/-- Bytes accumulated into a 64-bit variable starting from zero. -/
theorem accumulate_all {b post : Bytes} {pos : Nat} (h : b.length ≤ 8) :
    accumulate 64 b.length 0 (allAtOnce (b ++ post) pos) =
      (.okCompleted, beVal b, allAtOnce post (pos + b.length), b.length) := by
  have hl := beVal_lt64 h
  rw [accumulate64_eq h, accumLoop_value (by rw [List.length_append]; omega)
    (by rw [List.take_left' rfl]; omega), List.take_left' rfl, List.drop_left' rfl]
  simp

theorem signExtend_spec {b : Bytes} (h1 : 1 ≤ b.length) (h8 : b.length ≤ 8) :
    IntP.signExtend b.length (beVal b) = (twosVal b % 2 ^ 64).toNat := by
  have h := toI64_signExtend h1 h8
  have hlt : IntP.signExtend b.length (beVal b) < 2 ^ 64 := by
    unfold IntP.signExtend
    have hb := beVal_lt64 h8
    simp only
    split
    · exact Nat.or_lt_two_pow hb (Nat.mod_lt _ (by decide))
    · exact hb
  rw [← h]
  generalize IntP.signExtend b.length (beVal b) = x at *
  unfold toI64
  omega

theorem onFrame_all (b post : Bytes) (pos : Nat) :
    onFrame b.length [] (allAtOnce (b ++ post) pos) =
      (.okCompleted, b, allAtOnce post (pos + b.length), b.length) := by
  unfold onFrame
  by_cases h0 : b = []
  · subst h0; rfl
  · have : b.length ≠ 0 := fun h => h0 (List.eq_nil_of_length_eq_zero h)
    rw [if_neg (by simp only [List.length_nil]; omega), byteLoop_all _ _ _ _ _ (by simp; omega) (by omega)]
    simp

theorem dataEP_does {cb : Cb} (hcb : cb.Reads) {bad : Status} {ev : Meta → Bytes → Ev} {m : Meta} {mx : Nat}
    {L : Log} {b post : Bytes} {pos : Nat} (hm : m.size = b.length) (hk : m.size ≠ kUnknownElementSize) :
    (dataEP cb bad ev).Does m mx L (allAtOnce (b ++ post) pos) (L ++ [ev m b])
      (allAtOnce post (pos + b.length)) b.length .nil none := by
  refine ⟨⟨m, []⟩, ⟨m, b⟩, ?_, ?_, rfl, rfl, rfl⟩
  · simp only [dataEP, if_neg hk]
  · simp only [dataEP, DataSt.feed, hm, onFrame_all, Cb.call, (hcb _ _).1]
    rfl

/-- The call of the user's callback for what a block parser recorded. -/
def evOf (m : Meta) : BlockEv → Ev
  | .start v => .blockStart m v
  | .frame pos size _ data => .frame pos size data
  | .done v => .blockEnd m v

theorem readByte_none {s s' : Src} (h : s.readByte = (.okCompleted, none, s')) : False := by
  unfold Src.readByte at h
  split at h <;> simp at h

/-- Only the last state completes. -/
theorem BlockP.body_completes {simple : Bool} {p p' : BlockP} {s s' : Src} {k : Nat}
    (h : BlockP.body simple false p s = (some .okCompleted, p', s', k)) (hs : p.state ≠ .skipping) :
    p.state = .done ∧ p' = { p with log := p.log ++ [.done p.value] } ∧ s' = s ∧ k = 0 := by
  obtain ⟨elem, state, hdrRead, value, hdr, uint, xiph, laces, cur, framePos, frameSize, buf, log⟩ := p
  cases state <;> simp only [BlockP.body] at h
  case skipping => exact absurd rfl hs
  case done =>
    simp only [Prod.mk.injEq, true_and] at h
    obtain ⟨rfl, rfl, rfl⟩ := h
    exact ⟨rfl, rfl, rfl, rfl⟩
  all_goals
    exfalso
    repeat' split at h
    all_goals simp only [Prod.mk.injEq, Option.some.injEq, reduceCtorEq, false_and] at h
    all_goals (try (obtain ⟨rfl, -⟩ := h))
    all_goals
      first
        | (rename_i hc; exact hc (by rw [h.1]; rfl))
        | (rename_i hc; exact readByte_none hc)

/-- A pass that goes on: what it records. -/
theorem BlockP.body_records {simple : Bool} {p p' : BlockP} {s s' : Src} {k : Nat}
    (h : BlockP.body simple false p s = (none, p', s', k)) (hs : p.state ≠ .skipping) :
    p.state ≠ .done ∧ p'.state ≠ .skipping ∧ p'.elem = p.elem ∧
    ((p.state = .gettingAction ∧ p' = p.afterAction false ∧ s' = s ∧ k = 0) ∨
     (p.state = .readingFrames ∧ p.cur < p.laces.length ∧ p.state ≠ .gettingAction ∧
        ∃ e, p'.log = p.log ++ [e] ∧ frameEv p' = evOf p.elem e) ∨
     (p.state ≠ .gettingAction ∧ ¬ (p.state = .readingFrames ∧ p.cur < p.laces.length) ∧
        p'.log = p.log)) := by
  obtain ⟨elem, state, hdrRead, value, hdr, uint, xiph, laces, cur, framePos, frameSize, buf, log⟩ := p
  cases state <;> simp only [BlockP.body] at h
  case skipping => exact absurd rfl hs
  case done => simp at h
  case gettingAction =>
    simp only [Prod.mk.injEq, true_and] at h
    obtain ⟨rfl, rfl, rfl⟩ := h
    refine ⟨by simp, ?_, rfl, .inl ⟨rfl, rfl, rfl, rfl⟩⟩
    simp only [BlockP.afterAction]
    repeat' split
    all_goals simp_all
  case readingFrames =>
    split at h
    · next hc =>
      split at h
      · next hd =>
        simp only [Prod.mk.injEq, true_and] at h
        obtain ⟨rfl, rfl, rfl⟩ := h
        have hl : ∀ q : BlockP, ∀ d pos, (q.frameDone d pos).log =
            q.log ++ [BlockEv.frame q.framePos q.frameSize (pos - d.length) d] := by
          intro q d pos
          unfold BlockP.frameDone
          simp only
          split <;> rfl
        have hst : ∀ q : BlockP, ∀ d pos, (q.frameDone d pos).state = q.state ∧
            (q.frameDone d pos).elem = q.elem := by
          intro q d pos
          unfold BlockP.frameDone
          simp only
          split <;> exact ⟨rfl, rfl⟩
        refine ⟨by simp, by rw [(hst _ _ _).1]; simp, (hst _ _ _).2, .inr (.inl ⟨rfl, hc, by simp, _, hl _ _ _, ?_⟩)⟩
        unfold frameEv
        rw [hl]
        simp [evOf]
      · simp at h
    · next hc =>
      simp only [Prod.mk.injEq, true_and] at h
      obtain ⟨rfl, rfl, rfl⟩ := h
      exact ⟨by simp, by simp, rfl, .inr (.inr ⟨by simp, by simp [hc], rfl⟩)⟩
  all_goals
    repeat' split at h
    all_goals simp only [Prod.mk.injEq, reduceCtorEq, false_and, true_and] at h
    all_goals obtain ⟨rfl, -, -⟩ := h
    all_goals refine ⟨by simp, ?_⟩
    all_goals
      suffices hq : _ ≠ BPState.skipping ∧ _ = elem ∧ _ = log from
        ⟨hq.1, hq.2.1, .inr (.inr ⟨by simp, by simp, hq.2.2⟩)⟩
      first
        | (refine ⟨?_, rfl, rfl⟩; simp only [BlockP.afterHeader]; split <;> simp; done)
        | (refine ⟨?_, rfl, rfl⟩; simp [BlockP.afterLaceCount]; done)
        | (simp only [BlockP.xiphByte]; split <;> (refine ⟨?_, rfl, rfl⟩; simp))
        | (refine ⟨?_, rfl, rfl⟩; simp [BlockP.firstEbml]; done)
        | (refine ⟨?_, rfl, rfl⟩; simp [BlockP.nextEbml]; done)
        | (refine ⟨?_, rfl, rfl⟩; simp; done)
        | (rename_i hq
           simp only [BlockP.fixedLaces, BlockP.validate] at hq
           repeat' split at hq
           all_goals simp only [reduceCtorEq, Option.some.injEq] at hq
           all_goals (subst hq; exact ⟨by simp, rfl, rfl⟩))

/-- The block parser with calls follows the one that records them itself. -/
theorem BlkSt.feed_follows {cb : Cb} (hcb : cb.Reads) (simple : Bool) (p : BlockP) (s : Src) (hp : p.Inv)
    (hns : p.state ≠ .skipping) :
    ∀ (n : Nat) (L : Log), Acct p n → ∀ {p' s' k},
      BlockP.feed simple false p s = (.okCompleted, p', s', k) →
      ∃ new, p'.log = p.log ++ new ∧ ∃ p2 : BlockP, BlkSt.feed cb simple false (⟨p, n⟩, L) s =
        (.okCompleted, (⟨p2, n + k⟩, L ++ new.map (evOf p.elem)), s', k) ∧ new.getLast? = some (.done p2.value) ∧
        p2.state = .done := by
  have key := loopFeed_induct (body := BlockP.body simple false) (μ := BlockP.measure)
    (inv := fun p => p.Inv ∧ p.state ≠ .skipping) (fun p s p' s' k hi => BlockP.decreasing simple false p s p' s' k hi.1)
    (P := fun p s r => ∀ (n : Nat) (L : Log), Acct p n → r.1 = .okCompleted →
      ∃ new, r.2.1.log = p.log ++ new ∧ ∃ p2 : BlockP, BlkSt.feed cb simple false (⟨p, n⟩, L) s =
        (.okCompleted, (⟨p2, n + r.2.2.2⟩, L ++ new.map (evOf p.elem)), r.2.2.1, r.2.2.2) ∧
        new.getLast? = some (.done p2.value) ∧ p2.state = .done) ?_ ?_ ?_ p s ⟨hp, hns⟩
  · intro n L ha p' s' k h
    change loopFeed _ _ _ _ = _ at h
    rw [h] at key
    exact key n L ha rfl
  · intro p s st p' s' k hi h n L ha hst
    simp only at hst ⊢
    subst hst
    obtain ⟨h1, rfl, rfl, rfl⟩ := BlockP.body_completes h hi.2
    refine ⟨[.done p.value], rfl, p, ?_, rfl, h1⟩
    unfold BlkSt.feed
    refine loopFeed_ret ?_
    unfold BlkSt.body
    rw [if_neg (by simp [h1])]
    simp only [h]
    rw [if_neg (by rw [h1]; simp), if_pos h1]
    simp only [Cb.call, (hcb _ _).1]
    rfl
  · intro p s p' s' k hi h
    exact ⟨BlockP.inv_next simple false p s p' s' k hi.1 h, (BlockP.body_records h hi.2).2.1⟩
  · intro p s p' s' k r hi h ih n L ha hst
    simp only [addN] at hst ⊢
    obtain ⟨h1, h2, h3, h4⟩ := BlockP.body_records h hi.2
    have hm := BlockP.decreasing simple false p s p' s' k hi.1 h
    have step : ∀ e, p'.log = p.log ++ e → Acct p' (n + k) → 
        BlkSt.body cb simple false (⟨p, n⟩, L) s = (none, (⟨p', n + k⟩, L ++ e.map (evOf p.elem)), s', k) →
        ∃ new, r.2.1.log = p.log ++ new ∧ ∃ p2 : BlockP, BlkSt.feed cb simple false (⟨p, n⟩, L) s =
          (.okCompleted, (⟨p2, n + (k + r.2.2.2)⟩, L ++ new.map (evOf p.elem)), r.2.2.1, k + r.2.2.2) ∧
          new.getLast? = some (.done p2.value) ∧ p2.state = .done := by
      intro e he ha' hb
      obtain ⟨new, g1, p2, g2, g3, g4⟩ := ih (n + k) (L ++ e.map (evOf p.elem)) ha' hst
      refine ⟨e ++ new, by rw [g1, he, List.append_assoc], p2, ?_, ?_, g4⟩
      rotate_left
      · rw [List.getLast?_append, g3]; rfl
      unfold BlkSt.feed
      rw [loopFeed_cont hb hm]
      unfold BlkSt.feed at g2
      rw [g2, addN, h3, List.map_append, List.append_assoc, Nat.add_assoc]
    rcases h4 with ⟨e1, rfl, rfl, rfl⟩ | ⟨e1, e2, e3, e, e4, e5⟩ | ⟨e1, e2, e3⟩
    · refine step [.start p.value] rfl (BlockP.afterAction_inv e1 hi.1 ha false).2.1 ?_
      unfold BlkSt.body
      rw [if_pos e1]
      have hb : (cb L (.blockStart p.elem p.value)).2 = false := by
        cases hx : (cb L (.blockStart p.elem p.value)).2 with
        | false => rfl
        | true => obtain ⟨m, hm, -⟩ := (hcb _ _).2 hx; cases hm
      simp only [Cb.call, (hcb _ _).1, hb]
      rfl
    · refine step [e] e4 (BlockP.body_acct simple hi.1 ha e3 h1 h).2.2.2.1 ?_
      rw [BlkSt.body_else _ _ _ _ _ _ _ e3 h1, h]
      simp only
      rw [if_pos ⟨e1, e2, trivial⟩]
      simp only [Cb.call, (hcb _ _).1, e5]
      rfl
    · refine step [] (by simp [e3]) (BlockP.body_acct simple hi.1 ha e1 h1 h).2.2.2.1 ?_
      rw [BlkSt.body_else _ _ _ _ _ _ _ e1 h1, h]
      simp only
      rw [if_neg (fun hc => e2 ⟨hc.1, hc.2.1⟩)]
      simp

theorem byteP_all (str : Bool) (v post : Bytes) (q : Nat) (hv : v.length ≠ kUnknownElementSize) :
    ∃ p p', ByteP.init [] v.length = .ok p ∧
      ByteP.feed str p (allAtOnce (v ++ post) q) = (.okCompleted, p', allAtOnce post (q + v.length), v.length) ∧
      p'.result = if str then stripNul v else v := by
  unfold ByteP.init
  rw [if_neg hv]
  by_cases h0 : v.length = 0
  · have : v = [] := List.eq_nil_of_length_eq_zero h0
    subst this
    rw [if_pos h0]
    refine ⟨_, ⟨0, [], []⟩, rfl, ?_, ?_⟩
    · unfold ByteP.feed
      rw [if_pos rfl]
      rfl
    · cases str <;> rfl
  · rw [if_neg h0]
    refine ⟨_, ⟨v.length, v, if str then stripNul v else v⟩, rfl, ?_, rfl⟩
    rw [ByteP.feed_all _ _ _ _ (by simp; omega)]
    simp only [List.length_nil, Nat.sub_zero, List.nil_append]
    rw [if_pos (by rw [List.length_append]; omega), List.take_left' rfl, List.drop_left' rfl]

theorem map_frameEvents (m : Meta) (ann at_ : Nat) (fs : List Bytes) :
    (frameEvents ann at_ fs).map (evOf m) = frameCalls ann fs := by
  induction fs generalizing ann at_ with
  | nil => rfl
  | cons f fs ih => simp only [frameEvents, frameCalls, List.map_cons, evOf, ih]

theorem headerValue_named (simple : Bool) (track count : Nat) (tc : Int) (flags : UInt8) :
    Props.headerValue simple track count tc flags = blockNamed simple track tc flags count := by
  unfold Props.headerValue blockNamed
  congr 1
  unfold twosBytes
  rw [beVal_beBytes, Nat.mod_eq_of_lt]
  have : (256 : Nat) ^ 2 = 65536 := by decide
  omega

/-- Elements without children that are in the table. -/
theorem Leaf.does {cb : Cb} (hcb : cb.Reads) {l : Leaf} {p : Payload} (hp : p.Allowed l) {m : Meta} {mx : Nat}
    {L : Log} {post : Bytes} {pos : Nat} (hm : m.size = p.data.length) (hk : m.size < 2 ^ 56)
    (hpos : pos = m.position + m.headerSize) (hfit : pos + m.size < 2 ^ 64) :
    (l.parser cb).Does m mx L (allAtOnce (p.data ++ post) pos) (L ++ (p.read m (some l)).1)
      (allAtOnce post (pos + p.data.length)) p.data.length (p.read m (some l)).2 none := by
  have hun : m.size ≠ kUnknownElementSize := by unfold kUnknownElementSize; omega
  have hnil : ∀ b : Bytes, b.length = 0 ↔ b = [] := fun b => List.length_eq_zero_iff
  cases l with
  | tooDeep => cases p <;> exact hp.elim
  | virt => cases p <;> exact hp.elim
  | void =>
    cases p with
    | block => exact hp.elim
    | bytes b => exact dataEP_does hcb hm hun
  | block simple =>
    cases p with
    | bytes => exact hp.elim
    | block w track tc flags frames body =>
      obtain ⟨h1, h8, htw, hbody, hne⟩ := hp
      have hlen : 5 ≤ m.size := by
        rw [hm]
        have hb : 1 ≤ body.length := by
          rcases hbody with ⟨-, rfl⟩ | ⟨-, -, hdr, -, rfl⟩
          · cases body with
            | nil => exact absurd rfl hne
            | cons => simp
          · simp
        simp only [Payload.data, blockHead, List.length_append, Par.vint_length, twosBytes_length, List.length_singleton]
        omega
      have hini : BlockP.init m = .ok { elem := m } := by
        unfold BlockP.init
        rw [if_neg (by omega)]
      obtain ⟨p', g1, g2⟩ := Props.lace_run (simple := simple) (rest := post) (m := m) (pos := pos) h1 h8 htw hbody hne
        hini hm hpos (by unfold two64; omega)
      obtain ⟨new, f1, p2, f2, f3, f4⟩ := BlkSt.feed_follows hcb simple _ _ (BlockP.init_inv hini) (by simp) 0 L
        (BlockP.init_acct hini) g1
      simp only [List.nil_append] at f1
      rw [f1] at g2
      have hv : p2.value = blockNamed simple track tc flags frames.length := by
        rw [g2, List.getLast?_append] at f3
        simp only [List.getLast?_singleton, Option.some_or, Option.some.injEq, BlockEv.done.injEq] at f3
        rw [← f3, headerValue_named]
      rw [g2] at f2
      refine ⟨⟨{ elem := m }, 0⟩, ⟨p2, 0 + m.size⟩, ?_, ?_, ?_, ?_, rfl⟩
      · simp only [Leaf.parser, blockEP, hini]
      · show BlkSt.feed cb simple false _ _ = _
        simp only [Payload.data] at hm ⊢
        refine f2.trans ?_
        rw [← hm]
        simp only [List.map_append, List.map_cons, List.map_nil, evOf, map_frameEvents, headerValue_named, Payload.read,
          blockCalls]
        have hfl : frames.flatten.length ≤ m.size := by
          rw [hm]
          rcases hbody with ⟨-, rfl⟩ | ⟨-, -, hdr, -, rfl⟩ <;>
            simp only [List.length_append, List.flatten_cons, List.flatten_nil, List.length_nil] <;> omega
        have hann : annBase m (blockNamed simple track tc flags frames.length) (m.size - frames.flatten.length) =
            if (blockNamed simple track tc flags frames.length).lacing = .fixed ∧
                (blockNamed simple track tc flags frames.length).numFrames ≠ 1
            then m.position + m.headerSize + m.size - frames.flatten.length - m.headerSize
            else m.position + m.headerSize + m.size - frames.flatten.length := by
          unfold annBase
          split <;> omega
        rw [hann]
        rfl
      · show (p2.state == .skipping) = false
        rw [f4]; rfl
      · show Val.block p2.value = _
        rw [hv]; rfl
  | uint =>
    cases p with
    | block => exact hp.elim
    | bytes b =>
      have h8 : b.length ≤ 8 := hp
      simp only [Payload.data] at *
      rw [show (Payload.read m (some .uint) (.bytes b)).1 = [] from rfl, List.append_nil]
      refine leafEP_does (t := ⟨m.size, m.size, 0⟩) (t' := ⟨m.size, 0, beVal b⟩) ?_ ?_ ?_
      · unfold IntP.init; rw [if_neg (by omega)]; simp
      · simp only [IntP.feed, hm, accumulate_all h8]; simp
      · simp only [Payload.read, Payload.value, hm, hnil]
  | sint =>
    cases p with
    | block => exact hp.elim
    | bytes b =>
      have h8 : b.length ≤ 8 := hp
      simp only [Payload.data] at *
      rw [show (Payload.read m (some .sint) (.bytes b)).1 = [] from rfl, List.append_nil]
      by_cases h0 : b = []
      · subst h0
        refine leafEP_does (t := ⟨0, 0, 0⟩) (t' := ⟨0, 0, 0⟩) ?_ ?_ ?_
        · rw [hm]; rfl
        · rfl
        · rw [hm]; rfl
      · have h1 : 1 ≤ b.length := by
          rcases b with _ | ⟨x, b⟩
          · exact absurd rfl h0
          · simp
        refine leafEP_does (t := ⟨b.length, b.length, 0⟩) ?_ (IntP.feed_signed' h1 h8) ?_
        · unfold IntP.init; rw [if_neg (by omega), if_neg (by omega), hm]
        · rw [if_neg (by omega)]
          simp only [Payload.read, Payload.value, if_neg h0, signExtend_spec h1 h8]
  | bool =>
    cases p with
    | block => exact hp.elim
    | bytes b =>
      obtain ⟨h8, hv⟩ : b.length ≤ 8 ∧ beVal b ≤ 1 := hp
      simp only [Payload.data] at *
      rw [show (Payload.read m (some .bool) (.bytes b)).1 = [] from rfl, List.append_nil]
      refine leafEP_does (t := ⟨m.size, m.size, false⟩)
        (t' := ⟨m.size, 0, if m.size > 0 then beVal b == 1 else false⟩) ?_ ?_ ?_
      · unfold BoolP.init; rw [if_neg (by omega)]
      · simp only [BoolP.feed, hm, accumulate_all h8, Nat.sub_self]
        rw [if_neg (by omega)]
      · simp only [Payload.read, Payload.value, hm, hnil]
        split
        · rfl
        · next h => rw [if_pos (Nat.pos_of_ne_zero (fun hh => h ((hnil b).mp hh)))]
  | float =>
    cases p with
    | block => exact hp.elim
    | bytes b =>
      have h8 : b.length = 0 ∨ b.length = 4 ∨ b.length = 8 := hp
      simp only [Payload.data] at *
      rw [show (Payload.read m (some .float) (.bytes b)).1 = [] from rfl, List.append_nil]
      have hini : FloatP.init m.size = .ok ⟨m.size, m.size == 4, 0, none⟩ := by
        unfold FloatP.init; rw [if_pos (by omega)]
      by_cases h0 : b = []
      · subst h0
        refine leafEP_does hini (t' := ⟨0, false, 0, none⟩) ?_ ?_
        · rw [hm]; rfl
        · rw [hm]; rfl
      · have h1 : b.length ≠ 0 := fun h => h0 ((hnil b).mp h)
        refine leafEP_does hini (t' := ⟨0, m.size == 4, beVal b, some (b.length, beVal b)⟩) ?_ ?_
        · simp only [FloatP.feed, hm, if_neg h1, accumulate_all (show b.length ≤ 8 by omega), Nat.sub_self, if_true]
          have hlt := beVal_lt b
          rcases h8 with h | h | h
          · exact absurd h h1
          · rw [h] at hlt ⊢
            have : (256 : Nat) ^ 4 = 2 ^ 32 := by decide
            simp only [beq_self_eq_true, if_true]
            rw [Nat.mod_eq_of_lt (by omega)]
          · rw [h]; simp
        · rw [if_neg (by omega)]
          simp only [Payload.read, Payload.value, if_neg h0]
  | date =>
    cases p with
    | block => exact hp.elim
    | bytes b =>
      have h8 : b.length = 0 ∨ b.length = 8 := hp
      simp only [Payload.data] at *
      rw [show (Payload.read m (some .date) (.bytes b)).1 = [] from rfl, List.append_nil]
      refine leafEP_does (t := ⟨m.size, 0⟩) (t' := ⟨0, beVal b⟩) ?_ ?_ ?_
      · unfold DateP.init; rw [if_neg (by omega)]; simp
      · simp only [DateP.feed, hm, accumulate_all (show b.length ≤ 8 by omega), Nat.sub_self]
      · simp only [Payload.read, Payload.value, hm, hnil]
  | idElem =>
    cases p with
    | block => exact hp.elim
    | bytes b =>
      obtain ⟨h1, h4⟩ : 1 ≤ b.length ∧ b.length ≤ 4 := hp
      simp only [Payload.data] at *
      rw [show (Payload.read m (some .idElem) (.bytes b)).1 = [] from rfl, List.append_nil]
      refine leafEP_does (t := ⟨m.size, 0⟩) (t' := ⟨0, beVal b⟩) ?_ ?_ ?_
      · unfold IdElemP.init; rw [if_neg (by omega)]
      · have hl := beVal_lt b
        have r3 : 256 ^ b.length ≤ 2 ^ 32 := by
          rw [pow256]; exact Nat.pow_le_pow_right (by decide) (by omega)
        simp only [IdElemP.feed, hm]
        rw [accumulate32_eq h4, accumLoop_value (by rw [List.length_append]; omega)
          (by rw [List.take_left' rfl]; omega), List.take_left' rfl, List.drop_left' rfl]
        simp
      · simp only [Payload.read, Payload.value, hm, hnil]
  | str =>
    cases p with
    | block => exact hp.elim
    | bytes b =>
      simp only [Payload.data] at *
      rw [show (Payload.read m (some .str) (.bytes b)).1 = [] from rfl, List.append_nil]
      obtain ⟨q, q', g1, g2, g3⟩ := byteP_all true b post pos (by rw [← hm]; exact hun)
      refine leafEP_does (by rw [hm]; exact g1) g2 ?_
      simp only [Payload.read, Payload.value, hm, hnil, g3]
      rfl
  | bin =>
    cases p with
    | block => exact hp.elim
    | bytes b =>
      simp only [Payload.data] at *
      rw [show (Payload.read m (some .bin) (.bytes b)).1 = [] from rfl, List.append_nil]
      obtain ⟨q, q', g1, g2, g3⟩ := byteP_all false b post pos (by rw [← hm]; exact hun)
      refine leafEP_does (by rw [hm]; exact g1) g2 ?_
      simp only [Payload.read, Payload.value, hm, hnil, g3]
      rfl

/-- Elements without children that are not in the table. -/
theorem unknown_does {cb : Cb} (hcb : cb.Reads) {p : Payload} {m : Meta} {mx : Nat}
    {L : Log} {post : Bytes} {pos : Nat} (hm : m.size = p.data.length) (hk : m.size < 2 ^ 56) :
    (unknownEP cb).Does m mx L (allAtOnce (p.data ++ post) pos) (L ++ (p.read m none).1)
      (allAtOnce post (pos + p.data.length)) p.data.length .nil none := by
  have h : (p.read m none).1 = [.unknown m p.data] := by cases p <;> rfl
  rw [h]
  exact dataEP_does hcb hm (by unfold kUnknownElementSize; omega)

/-- Skipping an element. -/
theorem skipEP_all {m : Meta} {mx : Nat} {L : Log} {b post : Bytes} {pos : Nat} (hm : m.size = b.length)
    (hk : m.size ≠ kUnknownElementSize) (q : Bool) :
    ∃ p0 p', skipEP.init m mx = .ok p0 ∧ skipEP.feed q (p0, L) (allAtOnce (b ++ post) pos) =
      (.okCompleted, (p', L), allAtOnce post (pos + b.length), b.length) := by
  refine ⟨⟨m.size, m.size, 0⟩, ⟨m.size, m.size - b.length, 0 + b.length⟩, ?_, ?_⟩
  · simp only [skipEP, leafEP, if_neg hk]
  · simp only [skipEP, leafEP, skipFeed, hm]
    by_cases h0 : b = []
    · subst h0; rfl
    · have h1 : b.length ≠ 0 := fun h => h0 (List.length_eq_zero_iff.mp h)
      rw [if_neg h1, byteLoop_all _ _ _ _ _ (by simp; omega) (by omega)]
      simp

end Verif.Web
