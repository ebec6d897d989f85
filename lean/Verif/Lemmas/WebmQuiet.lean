/-
Feeding with a `SkipCallback` makes no calls on the user's callback; and when the document is
complete.
-/
import Verif.Lemmas.Ancestry

namespace Verif.Web
open Verif Verif.Spec

/-! ### Nothing is reported below a skipped element -/

/-- Fed with a `SkipCallback`, the parser makes no call on the user's callback. -/
def EP.Quiet (E : EP) : Prop := ∀ x s, (E.feed true x s).2.1.2 = x.2

/-- A loop whose passes make no calls. -/
theorem loopFeed_quiet {σ} {body : σ × Log → Src → Pass (σ × Log)} {μ : σ × Log → Nat → Nat}
    (h : ∀ x s, (body x s).2.1.2 = x.2) (x : σ × Log) (s : Src) :
    (loopFeed body μ x s).2.1.2 = x.2 := by
  generalize hn : μ x s.bytes.length = n
  induction n using Nat.strongRecOn generalizing x s with
  | ind n ih =>
    have hb := h x s
    rw [loopFeed]
    rcases hr : body x s with ⟨_ | st, x', s', k⟩
    · rw [hr] at hb
      simp only at hb ⊢
      split
      · next hμ =>
        simp only
        rw [ih _ (by rw [← hn]; exact hμ) x' s' rfl, hb]
      · exact hb
    · rw [hr] at hb
      exact hb

theorem leafEP_quiet {τ} (ini : Nat → Except Status τ) (fd : τ → Src → Fed τ) (val : τ → Val) :
    (leafEP ini fd val).Quiet := fun x s => rfl

theorem call_quiet (cb : Cb) (L : Log) (e : Ev) : cb.call true L e = (.okCompleted, true, L) := rfl

theorem dataEP_quiet (cb : Cb) (bad : Status) (ev : Meta → Bytes → Ev) :
    (dataEP cb bad ev).Quiet := by
  intro x s
  show (DataSt.feed cb ev true x s).2.1.2 = x.2
  unfold DataSt.feed
  rcases onFrame x.1.m.size x.1.buf s with ⟨st, buf, s', k⟩
  simp only [call_quiet]
  split <;> rfl

theorem blockEP_quiet (cb : Cb) (simple : Bool) : (blockEP cb simple).Quiet := by
  intro x s
  refine loopFeed_quiet ?_ x s
  intro x s
  unfold BlkSt.body
  simp only [call_quiet]
  split
  · rfl
  · rcases BlockP.body simple false x.1.p s with ⟨r, p', s', k⟩
    simp only
    split
    · rfl
    · split <;> rfl

theorem Leaf.quiet (cb : Cb) (l : Leaf) : (l.parser cb).Quiet := by
  cases l
  case block b => exact blockEP_quiet cb b
  case void => exact dataEP_quiet _ _ _
  all_goals exact leafEP_quiet _ _ _

theorem skipEP_quiet : skipEP.Quiet := leafEP_quiet _ _ _

theorem ChildSt.quiet {kid : Nat → Kid} (h : ∀ id, (kid id).E.Quiet) (c : ChildSt kid) (L : Log)
    (s : Src) : (c.feed true L s).2.1.2 = L := by
  cases c with
  | none => rfl
  | skip c => exact skipEP_quiet (c, L) s
  | kid id c => exact h id (c, L) s

theorem masterEP_quiet {kid : Nat → Kid} (cb : Cb) (w : Wrap) (known : Nat → Bool)
    (h : ∀ id, (kid id).E.Quiet) : (masterEP cb w known kid).Quiet := by
  intro x s
  refine loopFeed_quiet (body := MSt.body cb w known true) ?_ x s
  intro x s
  obtain ⟨m, L⟩ := x
  unfold MSt.body
  simp only [Bool.true_or, MSt.callStart, call_quiet]
  split
  · rfl
  · unfold MSt.firstId
    simp only
    repeat' split
    all_goals rfl
  · unfold MSt.moreId
    simp only
    repeat' split
    all_goals rfl
  · unfold MSt.readSize
    simp only
    repeat' split
    all_goals rfl
  · rfl
  · rfl
  · rfl
  · split
    · rfl
    · have := ChildSt.quiet h m.child L s
      rcases hr : m.child.feed true L s with ⟨st, y, s', k⟩
      rw [hr] at this
      simp only at this ⊢
      split <;> exact this
  · rfl
  · split <;> rfl
  · split <;> rfl

mutual
theorem Gram.quiet (cb : Cb) : ∀ g : Gram, (g.parser cb).Quiet
  | .leaf l => by rw [Gram.parser]; exact l.quiet cb
  | .master w ks => by
    rw [Gram.parser]
    exact masterEP_quiet cb w _ (fun id => Kids.quiet cb ks id)
theorem Kids.quiet (cb : Cb) : ∀ (ks : Kids) (id : Nat), (ks.find cb id).E.Quiet
  | .nil, id => by
    rw [Kids.find]
    show (if id = kVoid then voidEP cb else unknownEP cb).Quiet
    split
    · exact dataEP_quiet _ _ _
    · exact dataEP_quiet _ _ _
  | .cons i _ _ g rest, id => by
    rw [Kids.find]
    split
    · exact Gram.quiet cb g
    · exact Kids.quiet cb rest id
end

/-! ### The end of the document -/

theorem readByte_eof {s s' : Src} {b} (h : s.readByte = (.endOfFile, b, s')) : s'.bytes = [] := by
  unfold Src.readByte at h
  split at h
  · next he => simp only [Prod.mk.injEq] at h; obtain ⟨-, -, rfl⟩ := h; simp [Src.bytes, he]
  · cases h
  · cases h

theorem accumLoop_eof (bits : Nat) : ∀ (n i : Nat) (s : Src) {v s' k},
    accumLoop bits n i s = (.endOfFile, v, s', k) → s'.bytes = []
  | 0, i, s, v, s', k, h => by simp [accumLoop] at h
  | n + 1, i, s, v, s', k, h => by
    unfold accumLoop at h
    rcases hr : s.readByte with ⟨st1, b, s1⟩
    rw [hr] at h
    cases b with
    | none =>
      simp only [Prod.mk.injEq] at h
      obtain ⟨rfl, -, rfl, -⟩ := h
      exact readByte_eof hr
    | some b =>
      simp only at h
      rcases hr2 : accumLoop bits n (((i <<< 8) ||| b.toNat) % 2 ^ bits) s1 with ⟨st2, v2, s2, k2⟩
      rw [hr2] at h
      simp only [Prod.mk.injEq] at h
      obtain ⟨rfl, -, rfl, -⟩ := h
      exact accumLoop_eof bits n _ _ hr2

theorem IdP.feed_eof {p : IdP} {s : Src} {p' s' k} (h : p.feed s = (.endOfFile, p', s', k)) :
    s'.bytes = [] := by
  have ht : ∀ (p : IdP) rem s p' s' k, p.tail rem s = (.endOfFile, p', s', k) → s'.bytes = [] := by
    intro p rem s p' s' k h
    unfold IdP.tail at h
    rcases hr : accumulate 32 rem p.id s with ⟨st1, v, s1, k1⟩
    rw [hr] at h
    simp only [Prod.mk.injEq] at h
    obtain ⟨rfl, -, rfl, -⟩ := h
    unfold accumulate at hr
    split at hr
    · cases hr
    · exact accumLoop_eof _ _ _ _ hr
  unfold IdP.feed at h
  split at h
  · exact ht _ _ _ _ _ _ h
  · rcases hr : s.readByte with ⟨st1, b, s1⟩
    rw [hr] at h
    cases b with
    | none =>
      simp only [Prod.mk.injEq] at h
      obtain ⟨rfl, -, rfl, -⟩ := h
      exact readByte_eof hr
    | some b =>
      simp only at h
      split at h
      · cases h
      · generalize hq : IdP.tail _ (countLeadingZeros b) s1 = r at h
        obtain ⟨st2, p2, s2, k2⟩ := r
        simp only [Prod.mk.injEq] at h
        obtain ⟨rfl, -, rfl, -⟩ := h
        exact ht _ _ _ _ _ _ hq

theorem Doc.body_ended {kid : Nat → Kid} {cb : Cb} {root anc} {x x' : Doc kid × Log} {s s' : Src}
    {k : Nat} (h : Doc.body cb root anc x s = (none, x', s', k)) (he : x'.1.state = .ended) :
    s'.bytes = [] := by
  obtain ⟨d, L⟩ := x
  unfold Doc.body at h
  split at h
  · cases h; cases he
  · unfold Doc.readId at h
    rcases hr : d.idp.feed s with ⟨st, a, s1, k1⟩
    simp only [hr] at h
    split at h
    · cases h; cases he
    · split at h
      · next hc => cases h; obtain ⟨rfl, -⟩ := hc; exact IdP.feed_eof hr
      · cases h
  · unfold Doc.readSize at h
    simp only at h
    split at h
    · cases h; cases he
    · cases h
  · simp only [Prod.mk.injEq] at h
    obtain ⟨h1, rfl, -, -⟩ := h
    exfalso
    revert h1 he
    simp only [Doc.validate, Doc.validateOther]
    repeat' split
    all_goals simp
  · simp only at h
    split at h
    · cases h; cases he
    · cases h
  · simp only [Prod.mk.injEq] at h
    obtain ⟨h1, rfl, -, -⟩ := h
    exfalso
    revert h1 he
    simp only [Doc.initChild]
    repeat' split
    all_goals simp
  · simp only at h
    split at h
    · cases h
      exfalso
      revert he
      simp only [Doc.nextChild]
      split <;> simp
    · cases h
  · cases h

/-- A `Feed` that completes, not started at the end, has read everything. -/
theorem Doc.feed_whole {kid : Nat → Kid} {I : ∀ id, (kid id).E.σ → Prop}
    (hk : ∀ id, (kid id).E.Good (I id)) {cb : Cb} (hcb : cb.Proper) {root anc}
    (ha : AncOk kid root anc) {x : Doc kid × Log} {s : Src} (hi : x.1.Inv I)
    (hne : x.1.state ≠ .ended) {x' s' k}
    (h : Doc.feed cb root anc x s = (.okCompleted, x', s', k)) : s'.bytes = [] := by
  obtain ⟨q, t, m, l, hq, hj, -, hb⟩ := loopFeed_reach (Doc.decreasing hk hcb ha)
    (fun p s p' s' k hp hb => ((Doc.body_facts hk hcb ha hp hb).2.2.2 rfl).1)
    (J := fun p s _ => p.1.state = .ended → s.bytes = [])
    (fun p s n p' s' k _ _ hb he => Doc.body_ended hb he) hi (n := 0)
    (fun he => absurd he hne) h
  obtain ⟨-, -, hf, -⟩ := Doc.body_facts hk hcb ha hq hb
  obtain ⟨h1, h2⟩ := hf rfl
  have hb' : Doc.body cb root anc q t = (some .okCompleted, q, t, 0) := by
    unfold Doc.body; rw [h1]
  rw [hb'] at hb
  simp only [Prod.mk.injEq] at hb
  obtain ⟨-, -, rfl, -⟩ := hb
  exact hj h1

end Verif.Web
