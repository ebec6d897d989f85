/-
`DocumentParser` and `WebmParser`: agreement with one call on everything, progress, consumption.
-/
import Verif.Lemmas.WebmTreeMaster
import Verif.Model.WebmDoc

namespace Verif.Web
open Verif Verif.Spec

/-- `sub_pass` for a sub-parser any of whose results may end the state. -/
theorem sub_pass' {σ τ} {body : σ → Src → Pass σ} {inv : σ → Prop} {feedA : τ → Src → Fed τ}
    {invA : τ → Prop} (mk : τ → Nat → σ) (out : Status → τ → Nat → Nat → Option Status × σ)
    (hbody : ∀ a n s, invA a → body (mk a n) s = match feedA a s with
      | (st, a', s', k) => ((out st a' (n + k) s'.pos).1, (out st a' (n + k) s'.pos).2, s', k))
    (hstall : ∀ st a n pos, st.isStall = true → out st a n pos = (some st, mk a n))
    (hret : ∀ st a n pos st', st.isStall = false → (out st a n pos).1 = some st' →
      st'.isStall = false)
    (hA : ∀ a s, invA a → StepOk feedA invA a s)
    (hinv : ∀ a n, invA a → inv (mk a n)) (a : τ) (n : Nat) (s : Src) (ha : invA a)
    (hfin : ∀ st a' s' k, feedA a s = (st, a', s', k) → (out st a' (n + k) s'.pos).1 = none →
      inv (out st a' (n + k) s'.pos).2) :
    PassOk body inv (mk a n) s := by
  intro r p' s' k h
  rw [hbody a n s ha] at h
  rcases hr : feedA a s with ⟨st1, a1, s1, k1⟩
  obtain ⟨hle, h1, h2⟩ := hA a s ha _ _ _ _ hr
  rw [hr] at h
  simp only [Prod.mk.injEq] at h
  obtain ⟨rfl, rfl, rfl, rfl⟩ := h
  refine ⟨hle, fun hns => ?_, fun st hst hstl => ?_⟩
  · cases hs : st1.isStall with
    | true =>
      have := hns st1 (by rw [hstall _ _ _ _ hs])
      rw [hs] at this; cases this
    | false =>
      refine ⟨?_, fun hn => hfin _ _ _ _ hr hn⟩
      rw [hbody a n _ ha, h1 hs]
      simp only [flat_pos]
  · have hs : st1.isStall = true := by
      cases hs : st1.isStall with
      | true => rfl
      | false => rw [hret _ _ _ _ _ hs hst] at hstl; cases hstl
    obtain ⟨f1, f2, f3⟩ := h2 hs
    rw [hstall _ _ _ _ hs]
    refine ⟨f1, hinv _ _ f2, ?_⟩
    rw [hbody a n _ ha, f3, hbody a1 _ _ f2]
    rcases hq : feedA a1 s1.flat with ⟨st2, a2, s2, k2⟩
    simp only [addN_mk, addP_mk, Nat.add_assoc]

section
variable {kid : Nat → Kid} {I : ∀ id, (kid id).E.σ → Prop}

/-- What holds of a document parser between passes. -/
structure Doc.Inv (I : ∀ id, (kid id).E.σ → Prop) (d : Doc kid) : Prop where
  idle : d.state = .begin → d.idp = {}
  idp : d.state = .readId → d.idp.Inv
  szp : d.state = .begin ∨ d.state = .readId ∨ d.state = .readSize → SzOk d.szp
  body : d.state = .body → d.child.Inv I

theorem Doc.fresh_inv : ({} : Doc kid).Inv I :=
  ⟨fun _ => rfl, fun h => (nomatch h), fun _ => .fresh, fun h => (nomatch h)⟩

theorem Doc.seeked_inv (d : Doc kid) : d.seeked.Inv I :=
  ⟨fun _ => rfl, fun h => (nomatch h), fun _ => .fresh, fun h => (nomatch h)⟩

/-- `InitAfterSeek` on the deduced ancestors never asserts. -/
def AncOk (kid : Nat → Kid) (root : Nat → Bool) (anc : Nat → Option (List Nat)) : Prop :=
  ∀ m : Meta, root m.id = false → ∀ p, anc m.id = some p →
    ∃ a rest, p = a :: rest ∧ (kid a).E.seek rest m ≠ none

theorem Doc.rank_body {d : Doc kid} (hs : d.state = .body) :
    d.rank = if d.child.count > 0 then 40 else 20 := by
  unfold Doc.rank; rw [hs]

theorem Doc.rank_fresh {d : Doc kid} (hs : d.state = .body) (hc : d.child.count = 0) {n : Nat}
    (hn : 20 < n) : d.rank < n := by
  rw [Doc.rank_body hs, if_neg (by omega)]
  exact hn

/-- What the silent states do. -/
structure Doc.Silent (I : ∀ id, (kid id).E.σ → Prop) (d : Doc kid) (y : Option Status × Doc kid) :
    Prop where
  inv : y.1 = none → y.2.Inv I
  status : ∀ st, y.1 = some st → st.isStall = false ∧ st ≠ .diverged ∧ st ≠ .okCompleted
  rank : y.1 = none → y.2.rank < d.rank

theorem Doc.other_silent {d : Doc kid} (hs : d.state = .validating) :
    Doc.Silent I d d.validateOther := by
  have hr : d.rank = 26 := by unfold Doc.rank; rw [hs]
  unfold Doc.validateOther
  split
  · exact ⟨fun h => (nomatch h), fun st h => by cases h; simp [Status.isStall], fun h => (nomatch h)⟩
  · refine ⟨fun _ => ?_, fun st h => (nomatch h), fun _ => by rw [hr]; simp [Doc.rank]⟩
    constructor <;> simp

theorem Doc.validate_silent (hk : ∀ id, (kid id).E.Good (I id)) {root anc}
    (ha : AncOk kid root anc) {d : Doc kid} (hs : d.state = .validating) :
    Doc.Silent I d (d.validate root anc) := by
  have hr : d.rank = 26 := by unfold Doc.rank; rw [hs]
  unfold Doc.validate
  split
  · refine ⟨fun _ => ?_, fun st h => (nomatch h), fun _ => by rw [hr]; simp [Doc.rank]⟩
    constructor <;> simp
  · next hroot =>
    split
    · split
      · exact Doc.other_silent hs
      · next h =>
        obtain ⟨a, rest, h1, -⟩ := ha d.cm (by simpa using hroot) _ h
        cases h1
      · next a rest h =>
        obtain ⟨a', rest', h1, h2⟩ := ha d.cm (by simpa using hroot) _ h
        cases h1
        split
        · next hx => exact absurd hx h2
        · next c hc =>
          obtain ⟨h3, h4⟩ := (hk a).seek _ _ _ hc
          refine ⟨fun _ => ?_, fun st h => (nomatch h), fun _ => ?_⟩
          · constructor <;> simp
            exact h3
          · rw [hr]
            have : (ChildSt.kid (kid := kid) a c).count = 0 := h4
            exact Doc.rank_fresh rfl this (by omega)
    · exact Doc.other_silent hs

theorem Doc.initChild_silent (hk : ∀ id, (kid id).E.Good (I id)) {d : Doc kid}
    (hs : d.state = .initing) : Doc.Silent I d d.initChild := by
  have hr : d.rank = 24 := by unfold Doc.rank; rw [hs]
  unfold Doc.initChild
  split
  · split
    · next c hc =>
      obtain ⟨h1, h2, -⟩ := skipEP_good.init _ _ _ hc
      refine ⟨fun _ => ?_, fun st h => (nomatch h), fun _ => ?_⟩
      · constructor <;> simp
        exact h1
      · rw [hr]
        have : (ChildSt.skip (kid := kid) c).count = 0 := h2
        exact Doc.rank_fresh rfl this (by omega)
    · next e he =>
      exact ⟨fun h => (nomatch h), fun st h => by
        cases h; exact skipEP_good.initErr _ _ _ he,
        fun h => (nomatch h)⟩
  · split
    · next c hc =>
      obtain ⟨h1, h2, -⟩ := (hk _).init _ _ _ hc
      refine ⟨fun _ => ?_, fun st h => (nomatch h), fun _ => ?_⟩
      · constructor <;> simp
        exact h1
      · rw [hr]
        have : (ChildSt.kid (kid := kid) d.cm.id c).count = 0 := h2
        exact Doc.rank_fresh rfl this (by omega)
    · next e he =>
      exact ⟨fun h => (nomatch h), fun st h => by
        cases h; exact (hk _).initErr _ _ _ he,
        fun h => (nomatch h)⟩

theorem Doc.nextChild_inv (d : Doc kid) (pos : Nat) : (d.nextChild pos).Inv I := by
  unfold Doc.nextChild
  split
  · constructor <;> simp [Doc.prepare]
  · constructor <;> simp [Doc.prepare]
    · exact fun _ h => (nomatch h)
    · exact .fresh

theorem Doc.body_pass (hk : ∀ id, (kid id).E.Good (I id)) {cb : Cb} (hcb : cb.Proper) {root anc}
    (ha : AncOk kid root anc) (x : Doc kid × Log) (s : Src) (hi : x.1.Inv I) :
    TPass (Doc.body cb root anc) (Doc.Inv I) x s := by
  obtain ⟨d, L⟩ := x
  simp only at hi
  cases hs : d.state with
  | begin =>
    refine TPass.of_passOk (fun r x' s' k h => ?_)
    have hb : ∀ s, Doc.body cb root anc (d, L) s = (none, ({ d with
        cm := { d.cm with headerSize := 0, position := s.pos }, state := .readId }, L), s, 0) := by
      intro s; unfold Doc.body; simp only [hs]
    rw [hb] at h
    simp only [Prod.mk.injEq] at h
    obtain ⟨rfl, rfl, rfl, rfl⟩ := h
    refine ⟨Nat.le_refl _, fun _ => ⟨by rw [hb]; rfl, fun _ => ?_⟩, fun st h => (nomatch h)⟩
    constructor <;> simp
    · rw [hi.idle hs]; exact fun _ h => (nomatch h)
    · exact hi.szp (.inl hs)
  | readId =>
    have h := sub_pass' (body := Doc.body cb root anc) (inv := fun x => x.1.Inv I) (feedA := IdP.feed)
      (invA := IdP.Inv)
      (fun a n => ({ d with
        idp := a, state := .readId
        cm := { d.cm with headerSize := d.cm.headerSize + n } }, L))
      (fun st a n pos =>
        if st.completedOk then (none, ({ d with
          idp := a, state := .readSize
          cm := { d.cm with headerSize := d.cm.headerSize + n } }, L))
        else if st = .endOfFile ∧ pos = d.cm.position then (none, ({ d with
          idp := a, state := .ended
          cm := { d.cm with headerSize := d.cm.headerSize + n } }, L))
        else (some st, ({ d with
          idp := a, state := .readId
          cm := { d.cm with headerSize := d.cm.headerSize + n } }, L)))
      ?_ ?_ ?_ IdP.feed_step ?_ d.idp 0 s (hi.idp hs) ?_
    · have : ({ d with
        idp := d.idp, state := DState.readId
        cm := { d.cm with headerSize := d.cm.headerSize + 0 } } : Doc kid) = d := by
        rw [← hs]; rfl
      rw [this] at h
      exact TPass.of_passOk h
    · intro a n s ha
      simp only [Doc.body, Doc.readId, Nat.add_assoc]
      rcases IdP.feed a s with ⟨st1, a1, s1, k1⟩
      simp only
      split
      · rfl
      · split <;> rfl
    · intro st a n pos hst
      rw [if_neg (fun h => by rw [completedOk_iff.mp h] at hst; cases hst),
        if_neg (fun h => by rw [h.1] at hst; cases hst)]
    · intro st a n pos st' hst h
      split at h
      · cases h
      · split at h
        · cases h
        · cases h; exact hst
    · intro a n ha
      constructor <;> simp
      · exact ha
      · exact hi.szp (.inr (.inl hs))
    · intro st a' s' k _ _
      dsimp only
      split
      · constructor <;> simp
        exact hi.szp (.inr (.inl hs))
      · split
        · constructor <;> simp
        · next h1 h2 h3 => simp only [if_neg h2, if_neg h3] at h1; cases h1
  | readSize =>
    have h := sub_pass (body := Doc.body cb root anc) (inv := fun x => x.1.Inv I) (feedA := SizeP.feed)
      (invA := SzOk)
      (fun a n => ({ d with
        szp := a, state := .readSize
        cm := { d.cm with headerSize := d.cm.headerSize + n } }, L))
      (fun a n _ => ({ d with
        szp := a, state := .validating
        cm := { d.cm with headerSize := d.cm.headerSize + n, id := d.idp.id, size := SizeP.size a } }, L))
      ?_ SizeP.feed_step' ?_ d.szp 0 s (hi.szp (.inr (.inr hs))) ?_
    · have : ({ d with
        szp := d.szp, state := DState.readSize
        cm := { d.cm with headerSize := d.cm.headerSize + 0 } } : Doc kid) = d := by
        rw [← hs]; rfl
      rw [this] at h
      exact TPass.of_passOk h
    · intro a n s ha
      simp only [Doc.body, Doc.readSize, Nat.add_assoc]
    · intro a n ha
      constructor <;> simp
      exact ha
    · intro a' s' k hfd
      constructor <;> simp
  | validating =>
    have hv := Doc.validate_silent hk ha hs
    exact ttau_pass (fun s => by unfold Doc.body; simp only [hs]; rfl) (fun st h => (hv.status st h).1)
      hv.inv s
  | action =>
    refine call_pass hcb (q := d.skip) (e := .element d.cm)
      (next := fun b => { d with skip := b, state := .initing })
      (bad := fun b => { d with skip := b })
      (fun s => by unfold Doc.body; simp only [hs]) (fun b => ?_) s
    constructor <;> simp
  | initing =>
    have hv := Doc.initChild_silent hk hs
    exact ttau_pass (fun s => by unfold Doc.body; simp only [hs]; rfl) (fun st h => (hv.status st h).1)
      hv.inv s
  | body =>
    have hb := hi.body hs
    have h := tsub_pass (body := Doc.body cb root anc) (inv := Doc.Inv I)
      (feedA := ChildSt.feed' d.skip)
      (invA := fun c => c.Inv I ∧ c.starts = d.child.starts)
      (fun c _ => { d with child := c, state := .body })
      (fun c _ pos => Doc.nextChild { d with child := c, state := .body } pos)
      ?_ d.child 0 L s ⟨hb, rfl⟩ (ChildSt.step hk _ _ _ _ _ ⟨hb, rfl⟩) ?_ ?_
    · have he : ({ d with child := d.child, state := DState.body } : Doc kid) = d := by
        rw [← hs]
      rw [he] at h
      exact h
    · intro c n L s hc
      simp only [Doc.body]
      rfl
    · intro st a' L' s' k hf hst hI
      constructor <;> simp
      exact hI.1
    · intro a' L' s' k hf
      exact Doc.nextChild_inv _ _
  | ended =>
    exact ttau_pass (r := some .okCompleted) (x' := (d, L))
      (fun s => by unfold Doc.body; simp only [hs])
      (fun st h => by cases h; rfl) (fun h => (nomatch h)) s

theorem Doc.body_facts (hk : ∀ id, (kid id).E.Good (I id)) {cb : Cb} (hcb : cb.Proper) {root anc}
    (ha : AncOk kid root anc) {x : Doc kid × Log} {s : Src} (hi : x.1.Inv I) {r x' s' k}
    (h : Doc.body cb root anc x s = (r, x', s', k)) :
    Advance s s' k ∧ r ≠ some .diverged ∧
      (r = some .okCompleted → x.1.state = .ended ∧ x' = x) ∧
      (r = none → x'.1.Inv I ∧ Doc.measure x' s'.bytes.length < Doc.measure x s.bytes.length) := by
  have hinv : r = none → x'.1.Inv I := fun hr =>
    ((Doc.body_pass hk hcb ha x s hi _ _ _ _ h).2.1 (fun st h => by rw [hr] at h; cases h)).2 hr
  obtain ⟨d, L⟩ := x
  simp only at hi
  have htau : ∀ {y : Option Status × Doc kid} (_ : (y.1, (y.2, L), s, 0) = (r, x', s', k))
      (_ : Doc.Silent I d y),
      Advance s s' k ∧ r ≠ some .diverged ∧ (r = some .okCompleted → d.state = .ended ∧ x' = (d, L)) ∧
      (r = none → x'.1.Inv I ∧ Doc.measure x' s'.bytes.length < Doc.measure (d, L) s.bytes.length) := by
    intro y h hn
    simp only [Prod.mk.injEq] at h
    obtain ⟨rfl, rfl, rfl, rfl⟩ := h
    refine ⟨Advance.refl _, fun h => (hn.status _ h).2.1 rfl, fun h => absurd rfl (hn.status _ h).2.2,
      fun hr => ⟨hinv hr, ?_⟩⟩
    simp only [Doc.measure]
    have := hn.rank hr
    omega
  unfold Doc.body at h
  cases hs : d.state with
  | begin =>
    simp only [hs] at h
    have hr : d.rank = 60 := by unfold Doc.rank; rw [hs]
    simp only [Prod.mk.injEq] at h
    obtain ⟨rfl, rfl, rfl, rfl⟩ := h
    refine ⟨Advance.refl _, by simp, fun h => (nomatch h), fun _ => ⟨hinv rfl, ?_⟩⟩
    simp only [Doc.measure]; rw [hr]; simp only [Doc.rank]; omega
  | readId =>
    simp only [hs] at h
    unfold Doc.readId at h
    rcases hq : d.idp.feed s with ⟨st1, a1, s1, k1⟩
    have hadv := IdP.feed_adv _ _ hq
    have hl := hadv.adv.length
    simp only [hq] at h
    have hr : d.rank = 10 := by unfold Doc.rank; rw [hs]
    split at h
    · simp only [Prod.mk.injEq] at h
      obtain ⟨rfl, rfl, rfl, rfl⟩ := h
      refine ⟨hadv.adv, by simp, fun h => (nomatch h), fun _ => ⟨hinv rfl, ?_⟩⟩
      simp only [Doc.measure]; rw [hr]; simp only [Doc.rank]; omega
    · next hc =>
      split at h
      · simp only [Prod.mk.injEq] at h
        obtain ⟨rfl, rfl, rfl, rfl⟩ := h
        refine ⟨hadv.adv, by simp, fun h => (nomatch h), fun _ => ⟨hinv rfl, ?_⟩⟩
        simp only [Doc.measure]; rw [hr]; simp only [Doc.rank]; omega
      · simp only [Prod.mk.injEq] at h
        obtain ⟨rfl, rfl, rfl, rfl⟩ := h
        refine ⟨hadv.adv, fun h => hadv.not_diverged (Option.some.inj h), fun h => ?_, fun h => (nomatch h)⟩
        rw [Option.some.inj h] at hc; exact absurd rfl hc
  | readSize =>
    simp only [hs] at h
    unfold Doc.readSize at h
    rcases hq : SizeP.feed d.szp s with ⟨st1, a1, s1, k1⟩
    have hadv := SizeP.feed_adv _ _ hq
    have hl := hadv.adv.length
    simp only [hq] at h
    have hr : d.rank = 8 := by unfold Doc.rank; rw [hs]
    split at h
    · next hc =>
      have h1 := (SizeP.feed_cnt (hi.szp (.inr (.inr hs))) hq).1 (completedOk_iff.mp hc)
      simp only [Prod.mk.injEq] at h
      obtain ⟨rfl, rfl, rfl, rfl⟩ := h
      refine ⟨hadv.adv, by simp, fun h => (nomatch h), fun _ => ⟨hinv rfl, ?_⟩⟩
      simp only [Doc.measure]; rw [hr]; simp only [Doc.rank]; omega
    · next hc =>
      simp only [Prod.mk.injEq] at h
      obtain ⟨rfl, rfl, rfl, rfl⟩ := h
      refine ⟨hadv.adv, fun h => hadv.not_diverged (Option.some.inj h), fun h => ?_, fun h => (nomatch h)⟩
      rw [Option.some.inj h] at hc; exact absurd rfl hc
  | validating =>
    simp only [hs] at h
    exact hs ▸ htau h (Doc.validate_silent hk ha hs)
  | action =>
    simp only [hs] at h
    have hr : d.rank = 25 := by unfold Doc.rank; rw [hs]
    split at h
    · simp only [Prod.mk.injEq] at h
      obtain ⟨rfl, rfl, rfl, rfl⟩ := h
      refine ⟨Advance.refl _, by simp, fun h => (nomatch h), fun _ => ⟨hinv rfl, ?_⟩⟩
      simp only [Doc.measure]; rw [hr]; simp only [Doc.rank]; omega
    · next hc =>
      simp only [Prod.mk.injEq] at h
      obtain ⟨rfl, rfl, rfl, rfl⟩ := h
      refine ⟨Advance.refl _, fun h => (hcb.call _ _ _).2 (Option.some.inj h), fun h => ?_, fun h => (nomatch h)⟩
      rw [Option.some.inj h] at hc; exact absurd rfl hc
  | initing =>
    simp only [hs] at h
    exact hs ▸ htau h (Doc.initChild_silent hk hs)
  | body =>
    simp only [hs] at h
    have hr := Doc.rank_body hs
    rcases hq : d.child.feed d.skip L s with ⟨st1, ⟨c1, L1⟩, s1, k1⟩
    obtain ⟨a1, a2, a3, a4⟩ := ChildSt.adv hk (hi.body hs) hq
    have hl := a1.length
    simp only [hq] at h
    split at h
    · next hc =>
      simp only [Prod.mk.injEq] at h
      obtain ⟨rfl, rfl, rfl, rfl⟩ := h
      refine ⟨a1, by simp, fun h => (nomatch h), fun _ => ⟨hinv rfl, ?_⟩⟩
      simp only [Doc.measure]
      rw [hr]
      unfold Doc.nextChild
      cases hcd : c1.cached with
      | none =>
        simp only [Doc.prepare, Doc.rank]
        split <;> omega
      | some z =>
        have := a4 (completedOk_iff.mp hc) (by rw [hcd]; simp)
        simp only [Doc.prepare, Doc.rank]
        by_cases h0 : d.child.count > 0
        · rw [if_pos h0]; omega
        · rw [if_neg h0]; omega
    · next hc =>
      simp only [Prod.mk.injEq] at h
      obtain ⟨rfl, rfl, rfl, rfl⟩ := h
      refine ⟨a1, fun h => a3 (Option.some.inj h), fun h => ?_, fun h => (nomatch h)⟩
      rw [Option.some.inj h] at hc; exact absurd rfl hc
  | ended =>
    simp only [hs] at h
    simp only [Prod.mk.injEq] at h
    obtain ⟨rfl, rfl, rfl, rfl⟩ := h
    exact ⟨Advance.refl _, by simp, fun _ => ⟨rfl, rfl⟩, fun h => (nomatch h)⟩

theorem Doc.decreasing (hk : ∀ id, (kid id).E.Good (I id)) {cb : Cb} (hcb : cb.Proper) {root anc}
    (ha : AncOk kid root anc) :
    Decreasing (Doc.body (kid := kid) cb root anc) Doc.measure (fun x => x.1.Inv I) :=
  fun _ _ _ _ _ hi h => ((Doc.body_facts hk hcb ha hi h).2.2.2 rfl).2

theorem Doc.feed_tstep (hk : ∀ id, (kid id).E.Good (I id)) {cb : Cb} (hcb : cb.Proper) {root anc}
    (ha : AncOk kid root anc) (x : Doc kid × Log) (s : Src) (hi : x.1.Inv I) :
    TStep (Doc.feed cb root anc) (Doc.Inv I) x s :=
  loopFeed_tstep (Doc.decreasing hk hcb ha) (fun x s hx => Doc.body_pass hk hcb ha x s hx) x s hi

theorem Doc.feed_facts (hk : ∀ id, (kid id).E.Good (I id)) {cb : Cb} (hcb : cb.Proper) {root anc}
    (ha : AncOk kid root anc) {x : Doc kid × Log} {s : Src} (hi : x.1.Inv I) {st x' s' k}
    (h : Doc.feed cb root anc x s = (st, x', s', k)) :
    Advance s s' k ∧ st ≠ .diverged ∧ (st = .okCompleted → x'.1.state = .ended) := by
  have key := loopFeed_induct (body := Doc.body cb root anc) (μ := Doc.measure)
    (inv := fun x => x.1.Inv I) (Doc.decreasing hk hcb ha)
    (P := fun _ s r => Advance s r.2.2.1 r.2.2.2 ∧ r.1 ≠ .diverged ∧
      (r.1 = .okCompleted → r.2.1.1.state = .ended)) ?_ ?_ ?_ x s hi
  · change loopFeed _ _ _ _ = _ at h
    rw [h] at key
    exact key
  · intro p s st p' s' k hi h
    obtain ⟨b1, b2, b3, -⟩ := Doc.body_facts hk hcb ha hi h
    refine ⟨b1, fun h => b2 (by simp only at h; rw [h]), fun h => ?_⟩
    obtain ⟨c1, c2⟩ := b3 (by simp only at h; rw [h])
    simp only [c2]
    exact c1
  · intro p s p' s' k hi h
    exact ((Doc.body_facts hk hcb ha hi h).2.2.2 rfl).1
  · intro p s p' s' k r hi h ih
    obtain ⟨b1, -⟩ := Doc.body_facts hk hcb ha hi h
    exact ⟨b1.trans ih.1, ih.2⟩

/-! ### `WebmParser` -/

/-- What holds of the parser while it has not failed. -/
def WebmP.Inv (I : ∀ id, (kid id).E.σ → Prop) (p : WebmP kid) : Prop :=
  p.doc.Inv I ∧ p.status.isParsingError = false

theorem WebmP.fresh_inv : ({} : WebmP kid).Inv I := ⟨Doc.fresh_inv, rfl⟩

theorem WebmP.didSeek_inv (p : WebmP kid) : p.didSeek.Inv I := ⟨Doc.seeked_inv _, rfl⟩

theorem WebmP.feed_tstep (hk : ∀ id, (kid id).E.Good (I id)) {cb : Cb} (hcb : cb.Proper) {root anc}
    (ha : AncOk kid root anc) (x : WebmP kid × Log) (s : Src) (hi : x.1.Inv I) :
    TStep (WebmP.feedWith cb root anc) (WebmP.Inv I) x s := by
  obtain ⟨⟨d, z⟩, L⟩ := x
  obtain ⟨h1, h2⟩ := hi
  simp only at h1 h2
  have hb : ∀ d z L s, z.isParsingError = false → WebmP.feedWith (kid := kid) cb root anc (⟨d, z⟩, L) s =
      match Doc.feed cb root anc (d, L) s with
      | (st, y, s', k) => (st, ({ doc := y.1, status := st }, y.2), s', k) := by
    intro d z L s hz
    unfold WebmP.feedWith
    simp only [hz]
    rfl
  intro st x' s' k h
  rw [hb _ _ _ _ h2] at h
  rcases hr : Doc.feed cb root anc (d, L) s with ⟨st1, ⟨d1, L1⟩, s1, k1⟩
  obtain ⟨g0, g1, g2⟩ := Doc.feed_tstep hk hcb ha (d, L) s h1 _ _ _ _ hr
  rw [hr] at h
  simp only [Prod.mk.injEq] at h
  obtain ⟨rfl, rfl, rfl, rfl⟩ := h
  refine ⟨g0, fun hst => ?_, fun hst => ?_⟩
  · rw [hb _ _ _ _ h2]
    rcases g1 hst with g1 | ⟨e1, e2, e3⟩
    · rw [g1]; exact .inl rfl
    · exact .inr ⟨e1, e2, e3⟩
  · obtain ⟨f1, f2, f3⟩ := g2 hst
    have hz : st1.isParsingError = false := by
      cases hx : st1.isParsingError with
      | false => rfl
      | true => rw [(Status.parsing_facts hx).1] at hst; cases hst
    refine ⟨f1, ⟨f2, hz⟩, ?_⟩
    rw [hb _ _ _ _ h2, hb _ _ _ _ hz]
    rcases f3 with f3 | ⟨e1, e2, e3⟩
    · rw [f3]; exact .inl rfl
    · exact .inr ⟨e1, e2, e3⟩

theorem WebmP.feed_facts (hk : ∀ id, (kid id).E.Good (I id)) {cb : Cb} (hcb : cb.Proper) {root anc}
    (ha : AncOk kid root anc) {x : WebmP kid × Log} {s : Src} (hi : x.1.Inv I) {st x' s' k}
    (h : WebmP.feedWith cb root anc x s = (st, x', s', k)) : Advance s s' k ∧ st ≠ .diverged := by
  obtain ⟨⟨d, z⟩, L⟩ := x
  obtain ⟨h1, h2⟩ := hi
  unfold WebmP.feedWith at h
  simp only at h1 h2 h
  simp only [h2] at h
  rcases hr : Doc.feed cb root anc (d, L) s with ⟨st1, ⟨d1, L1⟩, s1, k1⟩
  obtain ⟨g0, g1, -⟩ := Doc.feed_facts hk hcb ha h1 hr
  simp only [hr] at h
  simp only [Bool.false_eq_true, if_false, Prod.mk.injEq] at h
  obtain ⟨rfl, rfl, rfl, rfl⟩ := h
  exact ⟨g0, g1⟩

end

/-! ### Seeking in a grammar -/

mutual
/-- Whether the grammar has a path of masters `anc` to an element `id`. -/
def Gram.path : Gram → List Nat → Nat → Bool
  | .leaf _, _, _ => false
  | .master _ ks, [], id => ks.has id
  | .master _ ks, a :: rest, id => ks.path a rest id
/-- The same below one child. -/
def Kids.path : Kids → Nat → List Nat → Nat → Bool
  | .nil, _, _, _ => false
  | .cons i _ _ g ks, a, rest, id => if a = i then g.path rest id else ks.path a rest id
end

theorem Kids.has_of_path : ∀ (ks : Kids) (a : Nat) (rest : List Nat) (id : Nat),
    ks.path a rest id = true → ks.has a = true
  | .nil, _, _, _, h => by simp [Kids.path] at h
  | .cons i _ _ g ks, a, rest, id, h => by
    rw [Kids.path] at h
    rw [Kids.has]
    split at h
    · next hx => simp [hx]
    · rw [Kids.has_of_path ks a rest id h]; simp

/-- `InitAfterSeek` does not assert. -/
def EP.Seeks (E : EP) (anc : List Nat) (m : Meta) : Prop := E.seek anc m ≠ none

mutual
theorem Gram.seek_of_path (cb : Cb) : ∀ (g : Gram) (anc : List Nat) (m : Meta),
    g.path anc m.id = true → (g.parser cb).Seeks anc m
  | .leaf _, _, _, h => by simp [Gram.path] at h
  | .master w ks, [], m, h => by
    rw [Gram.path] at h
    rw [Gram.parser]
    show MSt.seek w ks.has [] m ≠ none
    unfold MSt.seek
    simp [h]
  | .master w ks, a :: rest, m, h => by
    rw [Gram.path] at h
    rw [Gram.parser]
    show MSt.seek w ks.has (a :: rest) m ≠ none
    have h1 := Kids.has_of_path ks a rest m.id h
    have h2 := Kids.seek_of_path cb ks a rest m h
    unfold MSt.seek
    simp only [h1, if_true]
    split
    · simp
    · next hx => exact absurd hx h2
theorem Kids.seek_of_path (cb : Cb) : ∀ (ks : Kids) (a : Nat) (rest : List Nat) (m : Meta),
    ks.path a rest m.id = true → (ks.find cb a).E.Seeks rest m
  | .nil, _, _, _, h => by simp [Kids.path] at h
  | .cons i _ _ g ks, a, rest, m, h => by
    rw [Kids.path] at h
    rw [Kids.find]
    split at h
    · next hx =>
      subst hx
      have := Gram.seek_of_path cb g rest m h
      rw [if_pos rfl]
      exact this
    · next hx =>
      have := Kids.seek_of_path cb ks a rest m h
      rw [if_neg hx]
      exact this
end

end Verif.Web
