/-
Helper lemmas about the element parsers of `Verif.Model.WebmTree`: schedule independence and byte
accounting of the parsers without children, and of `loopFeed` with a record of calls.
-/
import Verif.Spec.Parsing
import Verif.Model.WebmTree
import Verif.Lemmas.WebmBlock
import Verif.Lemmas.Scalars

namespace Verif.Web
open Verif Verif.Spec

/-- Equality of two outcomes, except that after the same parsing error and the same calls the
parser and the position may differ. -/
def FAgree {σ} (r r' : Fed (σ × Log)) : Prop :=
  r = r' ∨ (r.1 = r'.1 ∧ r.1.isParsingError = true ∧ r.2.1.2 = r'.2.1.2)

theorem FAgree.rfl' {σ} {r : Fed (σ × Log)} : FAgree r r := .inl rfl

theorem FAgree.trans {σ} {a b c : Fed (σ × Log)} (h : FAgree a b) (g : FAgree b c) :
    FAgree a c := by
  rcases h with rfl | ⟨h1, h2, h3⟩
  · exact g
  · rcases g with rfl | ⟨g1, g2, g3⟩
    · exact .inr ⟨h1, h2, h3⟩
    · exact .inr ⟨h1.trans g1, h2, h3.trans g3⟩

theorem FAgree.addN {σ} {a b : Fed (σ × Log)} (k : Nat) (h : FAgree a b) :
    FAgree (addN k a) (addN k b) := by
  rcases h with rfl | ⟨h1, h2, h3⟩
  · exact .inl rfl
  · exact .inr ⟨h1, h2, h3⟩

/-- `FAgree` for one pass. -/
def PAgree {σ} (r r' : Pass (σ × Log)) : Prop :=
  r = r' ∨ (∃ st, r.1 = some st ∧ r'.1 = some st ∧ st.isParsingError = true ∧ r.2.1.2 = r'.2.1.2)

/-- `StepOk` up to `FAgree`. -/
def TStep {σ} (feed : σ × Log → Src → Fed (σ × Log)) (inv : σ → Prop) (x : σ × Log) (s : Src) :
    Prop :=
  ∀ st x' s' k, feed x s = (st, x', s', k) → s'.stalls ≤ s.stalls ∧
    (st.isStall = false → FAgree (feed x s.flat) (st, x', s'.flat, k)) ∧
    (st.isStall = true → s'.stalls < s.stalls ∧ inv x'.1 ∧
      FAgree (feed x s.flat) (addN k (feed x' s'.flat)))

/-- `PassOk` up to `PAgree`. -/
def TPass {σ} (body : σ × Log → Src → Pass (σ × Log)) (inv : σ → Prop) (x : σ × Log) (s : Src) :
    Prop :=
  ∀ r x' s' k, body x s = (r, x', s', k) → s'.stalls ≤ s.stalls ∧
    ((∀ st, r = some st → st.isStall = false) →
      PAgree (body x s.flat) (r, x', s'.flat, k) ∧ (r = none → inv x'.1)) ∧
    (∀ st, r = some st → st.isStall = true → s'.stalls < s.stalls ∧ inv x'.1 ∧
      PAgree (body x s.flat) (addP k (body x' s'.flat)))

theorem TPass.of_passOk {σ} {body : σ × Log → Src → Pass (σ × Log)} {inv : σ → Prop} {x : σ × Log}
    {s : Src} (h : PassOk body (fun x => inv x.1) x s) : TPass body inv x s := by
  intro r x' s' k he
  obtain ⟨h0, h1, h2⟩ := h r x' s' k he
  exact ⟨h0, fun hr => ⟨.inl (h1 hr).1, (h1 hr).2⟩,
    fun st hr hst => ⟨(h2 st hr hst).1, (h2 st hr hst).2.1, .inl (h2 st hr hst).2.2⟩⟩

theorem loopFeed_tstep {σ} {body : σ × Log → Src → Pass (σ × Log)} {μ : σ × Log → Nat → Nat}
    {inv : σ → Prop} (hd : Decreasing body μ (fun x => inv x.1))
    (h : ∀ x s, inv x.1 → TPass body inv x s)
    (x : σ × Log) (s : Src) (hx : inv x.1) : TStep (loopFeed body μ) inv x s := by
  have retA : ∀ {x s st x' s' k}, PAgree (body x s) (some st, x', s', k) →
      FAgree (loopFeed body μ x s) (st, x', s', k) := by
    intro x s st x' s' k hp
    rcases hb : body x s with ⟨r, y, t, l⟩
    rw [hb] at hp
    rcases hp with he | ⟨st', h1, h2, h3, h4⟩
    · simp only [Prod.mk.injEq] at he
      obtain ⟨rfl, rfl, rfl, rfl⟩ := he
      exact .inl (loopFeed_ret hb)
    · simp only [Option.some.injEq] at h1 h2
      subst h1 h2
      rw [loopFeed_ret hb]
      exact .inr ⟨rfl, h3, h4⟩
  have key := loopFeed_induct (body := body) (μ := μ) (inv := fun x => inv x.1) hd
    (P := fun x s r => r.2.2.1.stalls ≤ s.stalls ∧
      (r.1.isStall = false →
        FAgree (loopFeed body μ x s.flat) (r.1, r.2.1, r.2.2.1.flat, r.2.2.2)) ∧
      (r.1.isStall = true → r.2.2.1.stalls < s.stalls ∧ inv r.2.1.1 ∧
        FAgree (loopFeed body μ x s.flat) (addN r.2.2.2 (loopFeed body μ r.2.1 r.2.2.1.flat))))
    ?_ ?_ ?_ x s hx
  · intro st p' s' k he
    rw [he] at key
    exact key
  · intro p s st p' s' k hp hb
    obtain ⟨h0, h1, h2⟩ := h p s hp _ _ _ _ hb
    refine ⟨h0, fun hst => ?_, fun hst => ?_⟩
    · exact retA (h1 (fun st' hs => by cases hs; exact hst)).1
    · obtain ⟨g1, g2, g3⟩ := h2 st rfl hst
      refine ⟨g1, g2, ?_⟩
      simp only
      rcases hq : body p' s'.flat with ⟨r, p2, s2, k2⟩
      rw [hq, addP_mk] at g3
      cases r with
      | some st2 => rw [loopFeed_ret hq]; exact retA g3
      | none =>
        rcases g3 with g3 | ⟨st', -, h, -⟩
        · rw [loopFeed_cont g3 (hd _ _ _ _ _ hp g3), loopFeed_cont hq (hd _ _ _ _ _ g2 hq), addN_addN]
          exact .inl rfl
        · cases h
  · intro p s p' s' k hp hb
    exact ((h p s hp _ _ _ _ hb).2.1 (fun st' hs => by cases hs)).2 rfl
  · intro p s p' s' k r hp hb ih
    obtain ⟨st, p2, s2, k2⟩ := r
    obtain ⟨h0, h1, -⟩ := h p s hp _ _ _ _ hb
    have hf : body p s.flat = (none, p', s'.flat, k) := by
      rcases (h1 (fun st' hs => by cases hs)).1 with hf | ⟨st', -, h, -⟩
      · exact hf
      · cases h
    obtain ⟨i0, i1, i2⟩ := ih
    simp only [addN_mk] at i0 i1 i2 ⊢
    have hl : loopFeed body μ p s.flat = addN k (loopFeed body μ p' s'.flat) :=
      loopFeed_cont hf (hd _ _ _ _ _ hp hf)
    refine ⟨by omega, fun hst => ?_, fun hst => ?_⟩
    · rw [hl]; exact (i1 hst).addN k
    · obtain ⟨g1, g2, g3⟩ := i2 hst
      refine ⟨by omega, g2, ?_⟩
      rw [hl, ← addN_addN]
      exact g3.addN k

/-- A pass that runs a parser of its own: `mk a n` is the state while that parser is in state
`a` after `n` bytes, `fin` what follows its completion. -/
theorem tsub_pass {σ τ} {body : σ × Log → Src → Pass (σ × Log)} {inv : σ → Prop}
    {feedA : τ × Log → Src → Fed (τ × Log)}
    {invA : τ → Prop} (mk : τ → Nat → σ) (fin : τ → Nat → Nat → σ)
    (hbody : ∀ a n L s, invA a → body (mk a n, L) s = match feedA (a, L) s with
      | (st, y, s', k) =>
        if st.completedOk then (none, (fin y.1 (n + k) s'.pos, y.2), s', k)
        else (some st, (mk y.1 (n + k), y.2), s', k))
    (a : τ) (n : Nat) (L : Log) (s : Src) (ha : invA a)
    (hA : TStep feedA invA (a, L) s)
    (hinv : ∀ st a' L' s' k, feedA (a, L) s = (st, (a', L'), s', k) → st.isStall = true → invA a' →
      inv (mk a' (n + k)))
    (hfin : ∀ a' L' s' k, feedA (a, L) s = (.okCompleted, (a', L'), s', k) →
      inv (fin a' (n + k) s'.pos)) :
    TPass body inv (mk a n, L) s := by
  intro r p' s' k h
  rw [hbody a n L s ha] at h
  rcases hr : feedA (a, L) s with ⟨st1, ⟨a1, L1⟩, s1, k1⟩
  obtain ⟨hle, h1, h2⟩ := hA _ _ _ _ hr
  rw [hr] at h
  simp only at h
  by_cases hc : st1.completedOk
  · rw [if_pos hc] at h
    simp only [Prod.mk.injEq] at h
    obtain ⟨rfl, rfl, rfl, rfl⟩ := h
    have hst1 : st1 = .okCompleted := completedOk_iff.mp hc
    subst hst1
    refine ⟨hle, fun _ => ⟨?_, fun _ => hfin _ _ _ _ hr⟩, fun st hst => (nomatch hst)⟩
    rw [hbody a n _ _ ha]
    rcases h1 rfl with h1 | ⟨e1, e2, -⟩
    · rw [h1]; exact .inl rfl
    · rw [e1] at e2; cases e2
  · rw [if_neg hc] at h
    simp only [Prod.mk.injEq] at h
    obtain ⟨rfl, rfl, rfl, rfl⟩ := h
    refine ⟨hle, fun hst => ⟨?_, fun h => (nomatch h)⟩, fun st hst hstall => ?_⟩
    · rw [hbody a n _ _ ha]
      rcases h1 (hst _ rfl) with h1 | ⟨e1, e2, e3⟩
      · rw [h1]; simp only; rw [if_neg hc]; exact .inl rfl
      · rcases hq : feedA (a, L) s.flat with ⟨st2, y2, s2, k2⟩
        rw [hq] at e1 e2 e3
        simp only at e1 e2 e3
        subst e1
        simp only
        rw [if_neg hc]
        exact .inr ⟨_, rfl, rfl, e2, e3⟩
    · cases hst
      obtain ⟨g1, g2, g3⟩ := h2 hstall
      refine ⟨g1, hinv _ _ _ _ _ hr hstall g2, ?_⟩
      rw [hbody a n _ _ ha, hbody a1 _ _ _ g2]
      rcases hq : feedA (a1, L1) s1.flat with ⟨st2, a2, s2, k2⟩
      rw [hq, addN_mk] at g3
      rcases g3 with g3 | ⟨e1, e2, e3⟩
      · rw [g3]
        simp only [Nat.add_assoc]
        by_cases hc2 : st2.completedOk
        · simp only [hc2]; exact .inl rfl
        · simp only [hc2]; exact .inl rfl
      · rcases hw : feedA (a, L) s.flat with ⟨st3, y3, s3, k3⟩
        rw [hw] at e1 e2 e3
        simp only at e1 e2 e3
        subst e1
        have hc2 : ¬ st3.completedOk = true := by
          intro hx
          rw [completedOk_iff.mp hx] at e2; cases e2
        simp only [if_neg hc2]
        exact .inr ⟨_, rfl, rfl, e2, e3⟩

/-- A pass that reads nothing. -/
theorem ttau_pass {σ} {body : σ × Log → Src → Pass (σ × Log)} {inv : σ → Prop} {x x' : σ × Log}
    {r : Option Status}
    (hbody : ∀ s, body x s = (r, x', s, 0)) (hr : ∀ st, r = some st → st.isStall = false)
    (hp : r = none → inv x'.1) (s : Src) : TPass body inv x s :=
  TPass.of_passOk (tau_pass hbody hr hp s)

/-- The caller's loop agrees with one call on everything. -/
theorem drive_agree {σ} {feed : σ × Log → Src → Fed (σ × Log)} {inv : σ → Prop}
    (h : ∀ x s, inv x.1 → TStep feed inv x s) {x : σ × Log} (hx : inv x.1) (s : Src) (fuel : Nat)
    (hf : s.stalls < fuel) {st : Status} {x' : σ × Log} {s' : Src} {k : Nat}
    (hd : drive feed fuel x s = (st, x', s', k)) :
    st.isStall = false ∧ FAgree (feed x (allAtOnce s.bytes s.pos)) (st, x', s'.flat, k) := by
  induction fuel generalizing x s st x' s' k with
  | zero => omega
  | succ f ih =>
    unfold drive at hd
    rcases hfe : feed x s with ⟨st1, x1, s1, k1⟩
    have hs := (h x s hx st1 x1 s1 k1 hfe).2
    rw [hfe] at hd
    simp only at hd
    rw [← flat_eq]
    cases hst : st1.isStall
    · rw [hst] at hd
      simp only [Bool.false_eq_true, if_false, Prod.mk.injEq] at hd
      obtain ⟨rfl, rfl, rfl, rfl⟩ := hd
      exact ⟨hst, hs.1 hst⟩
    · obtain ⟨hlt, hinv, he⟩ := hs.2 hst
      rw [hst] at hd
      simp only [if_true] at hd
      rcases hd2 : drive feed f x1 s1 with ⟨st2, x2, s2, k2⟩
      rw [hd2] at hd
      simp only [Prod.mk.injEq] at hd
      obtain ⟨rfl, rfl, rfl, rfl⟩ := hd
      obtain ⟨i1, i2⟩ := ih hinv s1 (by omega) hd2
      refine ⟨i1, he.trans ?_⟩
      rw [← flat_eq] at i2
      exact i2.addN k1

/-! ### What is shown of every element parser -/

theorem Cb.Proper.call {cb : Cb} (h : cb.Proper) (q : Bool) (L : Log) (e : Ev) :
    (cb.call q L e).1.isStall = false ∧ (cb.call q L e).1 ≠ .diverged := by
  unfold Cb.call
  cases q
  · exact ⟨(h L e).1, (h L e).2.1⟩
  · exact ⟨rfl, by simp⟩

/-- An element parser that does not depend on how data arrives, reports what it reads, and ends. -/
structure EP.Good (E : EP) (inv : E.σ → Prop) : Prop where
  init : ∀ m mx p, E.init m mx = .ok p → inv p ∧ E.count p = 0 ∧ E.size p = m.size
  initErr : ∀ m mx e, E.init m mx = .error e →
    e.isStall = false ∧ e ≠ .diverged ∧ e ≠ .okCompleted
  seek : ∀ a m p, E.seek a m = some p → inv p ∧ E.count p = 0
  step : ∀ q p L s, inv p → TStep (E.feed q) inv (p, L) s
  adv : ∀ q p L s st p' L' s' k, inv p → E.feed q (p, L) s = (st, (p', L'), s', k) →
    Advance s s' k ∧ E.count p' = E.count p + k ∧ E.size p' = E.size p ∧ st ≠ .diverged
  cached : ∀ q p L s p' L' s' k, inv p → E.feed q (p, L) s = (.okCompleted, (p', L'), s', k) →
    E.cached p' ≠ none → 0 < E.count p'

/-- An element parser that, when it completes an element of known size, has read that many
bytes. -/
def EP.Exact (E : EP) (inv : E.σ → Prop) : Prop :=
  ∀ q p L s p' L' s' k, inv p → E.feed q (p, L) s = (.okCompleted, (p', L'), s', k) →
    E.count p + s.bytes.length < 2 ^ 64 → E.size p ≠ kUnknownElementSize → E.size p < 2 ^ 64 →
    E.count p' = E.size p

/-! ### Scalars -/

def LAgree {τ} (r r' : Fed τ) : Prop := r = r' ∨ (r.1 = r'.1 ∧ r.1.isParsingError = true)

/-- What is needed of a parser without calls; `I size n t`: parser `t` of an element of `size`
bytes after `n` bytes. -/
structure LeafOk {τ} (ini : Nat → Except Status τ) (fd : τ → Src → Fed τ) (I : Nat → Nat → τ → Prop) :
    Prop where
  init : ∀ z t, ini z = .ok t → I z 0 t
  initErr : ∀ z e, ini z = .error e → e.isStall = false ∧ e ≠ .diverged ∧ e ≠ .okCompleted
  step : ∀ z n t s st t' s' k, I z n t → fd t s = (st, t', s', k) → s'.stalls ≤ s.stalls ∧
    (st.isStall = false → LAgree (fd t s.flat) (st, t', s'.flat, k)) ∧
    (st.isStall = true → s'.stalls < s.stalls ∧ I z (n + k) t' ∧
      LAgree (fd t s.flat) (addN k (fd t' s'.flat)))
  adv : ∀ z n t s st t' s' k, I z n t → fd t s = (st, t', s', k) → Adv st s s' k

/-- The same for a parser with `StepOk`. -/
theorem LeafOk.of_step {τ} {ini : Nat → Except Status τ} {fd : τ → Src → Fed τ}
    {I : Nat → Nat → τ → Prop} {J : τ → Prop}
    (init : ∀ z t, ini z = .ok t → I z 0 t)
    (initErr : ∀ z e, ini z = .error e → e.isStall = false ∧ e ≠ .diverged ∧ e ≠ .okCompleted)
    (hJ : ∀ z n t, I z n t → J t)
    (hs : ∀ t s, J t → StepOk fd J t s)
    (hI : ∀ z n t s st t' s' k, I z n t → fd t s = (st, t', s', k) → st.isStall = true → J t' →
      I z (n + k) t')
    (adv : ∀ z n t s st t' s' k, I z n t → fd t s = (st, t', s', k) → Adv st s s' k) :
    LeafOk ini fd I := by
  refine ⟨init, initErr, ?_, adv⟩
  intro z n t s st t' s' k hi h
  obtain ⟨h0, h1, h2⟩ := hs t s (hJ _ _ _ hi) _ _ _ _ h
  exact ⟨h0, fun hst => .inl (h1 hst), fun hst => ⟨(h2 hst).1,
    hI _ _ _ _ _ _ _ _ hi h hst (h2 hst).2.1, .inl (h2 hst).2.2⟩⟩

theorem Adv.not_diverged {st : Status} {s s' : Src} {k : Nat} (h : Adv st s s' k) :
    st ≠ .diverged := by
  rcases h.plain with h | h | h | h <;> rintro rfl <;> simp [Status.isParsingError, Status.code] at h

theorem leaf_good {τ} {ini : Nat → Except Status τ} {fd : τ → Src → Fed τ} {val : τ → Val}
    {I : Nat → Nat → τ → Prop} (h : LeafOk ini fd I) :
    (leafEP ini fd val).Good (fun x => I x.size x.n x.t) where
  init m mx p he := by
    simp only [leafEP] at he
    split at he
    · next t ht =>
      cases he
      exact ⟨h.init _ _ ht, rfl, rfl⟩
    · cases he
  initErr m mx e he := by
    simp only [leafEP] at he
    split at he
    · cases he
    · next e' ht =>
      cases he
      exact h.initErr _ _ ht
  seek a m p he := nomatch he
  step q p L s hi := by
    obtain ⟨size, t, n⟩ := p
    have hfd : ∀ (t : τ) n L s, (leafEP ini fd val).feed q (⟨size, t, n⟩, L) s =
        ((fd t s).1, (⟨size, (fd t s).2.1, n + (fd t s).2.2.2⟩, L), (fd t s).2.2.1,
          (fd t s).2.2.2) := fun _ _ _ _ => rfl
    intro st x' s' k he
    rw [hfd] at he
    rcases hr : fd t s with ⟨st1, t1, s1, k1⟩
    obtain ⟨h0, h1, h2⟩ := h.step _ _ _ _ _ _ _ _ hi hr
    rw [hr] at he
    simp only [Prod.mk.injEq] at he
    obtain ⟨rfl, rfl, rfl, rfl⟩ := he
    refine ⟨h0, fun hst => ?_, fun hst => ⟨(h2 hst).1, (h2 hst).2.1, ?_⟩⟩
    · rw [hfd]
      rcases h1 hst with h1 | ⟨e1, e2⟩
      · rw [h1]; exact .inl rfl
      · exact .inr ⟨e1, e2, rfl⟩
    · rw [hfd, hfd]
      rcases (h2 hst).2.2 with h1 | ⟨e1, e2⟩
      · rw [h1]
        rcases fd t1 s1.flat with ⟨st2, t2, s2, k2⟩
        simp only [addN_mk, Nat.add_assoc]
        exact .inl rfl
      · exact .inr ⟨e1, e2, rfl⟩
  adv q p L s st p' L' s' k hi he := by
    obtain ⟨size, t, n⟩ := p
    rcases hr : fd t s with ⟨st1, t1, s1, k1⟩
    simp only [leafEP, hr, Prod.mk.injEq] at he
    obtain ⟨rfl, ⟨rfl, rfl⟩, rfl, rfl⟩ := he
    have := h.adv _ _ _ _ _ _ _ _ hi hr
    exact ⟨this.adv, rfl, rfl, this.not_diverged⟩
  cached q p L s p' L' s' k hi he hc := absurd rfl hc

theorem leaf_exact {τ} {ini : Nat → Except Status τ} {fd : τ → Src → Fed τ} {val : τ → Val}
    {I : Nat → Nat → τ → Prop}
    (hd : ∀ z n t s t' s' k, I z n t → fd t s = (.okCompleted, t', s', k) → n + k = z) :
    (leafEP ini fd val).Exact (fun x => I x.size x.n x.t) := by
  intro q p L s p' L' s' k hi he _ _ _
  obtain ⟨size, t, n⟩ := p
  rcases hr : fd t s with ⟨st1, t1, s1, k1⟩
  simp only [leafEP, hr, Prod.mk.injEq] at he
  obtain ⟨rfl, ⟨rfl, rfl⟩, rfl, rfl⟩ := he
  exact hd _ _ _ _ _ _ _ hi hr

end Verif.Web
