/-
The readers of Info, Tracks, Chapters, Tags and the seek head on two readers of the same file: once the element is
there, it does not matter whether what follows it is there.
-/
import Verif.Lemmas.ArrivingPrims

namespace Verif.Par
open Verif

variable {r R : Rdr}

/-- `walk_same` for a step that depends on the reader. -/
theorem walk_both {σ : Type} (h : r.Ext R) {stop : Nat} (hs : stop ≤ r.data.length) {step : Rdr → Nat → Hdr → σ → Res σ}
    (hsafe : ∀ q : Rdr, q.Fails → ∀ p d s, Safe (step q p d s))
    (hin : ∀ p d s, d.pos + d.size ≤ stop → Same (step r p d s) (step R p d s)) (pos : Nat) (st : σ) :
    Same (walk r stop (step r) pos st) (walk R stop (step R) pos st) :=
  walk_same h hs hin (hsafe r h.fails) (hsafe R h.big) _ _ _ (Nat.le_refl _)

/-- What every step inside the range keeps holds at the end. -/
theorem walk_keeps_in {σ : Type} {r : Rdr} {stop : Nat} {step : Nat → Hdr → σ → Res σ} {P : σ → Prop}
    (hs : ∀ p h s s', P s → h.pos + h.size ≤ stop → step p h s = .ok s' → P s') :
    ∀ (n pos : Nat) (st st' : σ), stop - pos ≤ n → P st → walk r stop step pos st = .ok st' → P st' := by
  intro n
  induction n with
  | zero =>
    intro pos st st' hn hP hw
    rw [walk_unfold, if_neg (by omega)] at hw
    split at hw
    · cases hw; exact hP
    · cases hw
  | succ n ih =>
    intro pos st st' hn hP hw
    rw [walk_unfold] at hw
    split at hw
    · split at hw
      · cases hw
      · cases hw
      · rename_i h hp
        have := parseElementHeader_pos hp
        split at hw
        · cases hw
        · cases hw
        · rename_i s1 h1
          split at hw
          · cases hw
          · exact ih _ _ _ (by omega) (hs _ _ _ _ hP (by omega) h1) hw
    · split at hw
      · cases hw; exact hP
      · cases hw

/-- One step of comparing a reading routine with itself. -/
macro "same_step" h:term ", " hp:term : tactic => `(tactic| first
  | with_reducible exact Same.same _
  | with_reducible exact Same.of_eq (uintFrom_ext $h $hp)
  | with_reducible exact Same.of_eq (uintAt_ext $h $hp)
  | with_reducible exact Same.of_eq (unserializeFloat_ext $h $hp)
  | with_reducible exact Same.of_eq (unserializeInt_ext $h $hp)
  | with_reducible exact Same.of_eq (unserializeUInt_ext $h $hp)
  | with_reducible exact Same.of_eq (unserializeString_ext $h $hp)
  | with_reducible exact Same.of_eq (binaryAt_ext $h $hp)
  | (with_reducible refine Same.bind ?_ fun _ _ _ => ?_)
  | (with_reducible refine Same.ite (fun _ => ?_) (fun _ => ?_)))

theorem infoParse_same (h : r.Ext R) {start size : Nat} (hs : start + size ≤ r.data.length) :
    Same (infoParse r start size) (infoParse R start size) := by
  unfold infoParse
  refine Same.bind (walk_both h hs (step := infoStep) (fun q hq p d s => ?_) (fun p d s hd => ?_) _ _) fun i _ _ => .same _
  · unfold infoStep
    repeat' safe_step hq
  · unfold infoStep
    repeat' same_step h, (Nat.le_trans hd hs)

/-! ### Tracks -/

theorem chromaAt_ext (h : r.Ext R) {d : Hdr} (hp : d.pos + d.size ≤ r.data.length) (b : Bool) (c : Option ReadChroma) :
    chromaAt r d b c = chromaAt R d b c := by
  unfold chromaAt
  rw [unserializeFloat_ext h hp]

theorem luminanceAt_ext (h : r.Ext R) {d : Hdr} (hp : d.pos + d.size ≤ r.data.length) (m : Int) :
    luminanceAt r d m = luminanceAt R d m := by
  unfold luminanceAt
  rw [unserializeFloat_ext h hp]

theorem masteringParse_same (h : r.Ext R) {start size : Nat} (hs : start + size ≤ r.data.length) :
    masteringParse r start size = masteringParse R start size := by
  unfold masteringParse
  refine Same.orErr (walk_both h hs (step := masteringStep) (fun q hq p d s => ?_) (fun p d s hd => ?_) _ _)
  · unfold masteringStep
    repeat' first | with_reducible exact chromaAt_safe hq _ _ _ | with_reducible exact luminanceAt_safe hq _ _ | safe_step hq
  · unfold masteringStep
    repeat' first
      | with_reducible exact Same.of_eq (chromaAt_ext h (Nat.le_trans hd hs) _ _)
      | with_reducible exact Same.of_eq (luminanceAt_ext h (Nat.le_trans hd hs) _)
      | same_step h, (Nat.le_trans hd hs)

theorem colourParse_same (h : r.Ext R) {start size : Nat} (hs : start + size ≤ r.data.length) :
    colourParse r start size = colourParse R start size := by
  unfold colourParse
  refine Same.orErr (walk_both h hs (step := colourStep) (fun q hq p d s => ?_) (fun p d s hd => ?_) _ _)
  · unfold colourStep
    repeat' first | exact masteringParse_safe hq _ _ | safe_step hq
  · unfold colourStep
    repeat' first
      | with_reducible exact Same.of_eq (masteringParse_same h (Nat.le_trans hd hs))
      | same_step h, (Nat.le_trans hd hs)

theorem projectionParse_same (h : r.Ext R) {start size : Nat} (hs : start + size ≤ r.data.length) :
    projectionParse r start size = projectionParse R start size := by
  unfold projectionParse
  refine Same.orErr (walk_both h hs (step := projectionStep) (fun q hq p d s => ?_) (fun p d s hd => ?_) _ _)
  · unfold projectionStep
    repeat' safe_step hq
  · unfold projectionStep
    repeat' same_step h, (Nat.le_trans hd hs)

theorem videoParse_same (h : r.Ext R) {start size : Nat} (hs : start + size ≤ r.data.length) :
    Same (videoParse r start size) (videoParse R start size) := by
  unfold videoParse
  refine walk_both h hs (step := videoStep) (fun q hq p d s => ?_) (fun p d s hd => ?_) _ _
  · unfold videoStep
    repeat' first | exact colourParse_safe hq _ _ | exact projectionParse_safe hq _ _ | safe_step hq
    split
    · exact Safe.ok _
    · repeat' safe_step hq
    · rename_i e; exact absurd e (unserializeString_safe _ _ _)
  · unfold videoStep
    repeat' first
      | with_reducible exact Same.of_eq (colourParse_same h (Nat.le_trans hd hs))
      | with_reducible exact Same.of_eq (projectionParse_same h (Nat.le_trans hd hs))
      | same_step h, (Nat.le_trans hd hs)
    rw [unserializeString_ext h (Nat.le_trans hd hs)]
    exact .same _

theorem audioParse_same (h : r.Ext R) {start size : Nat} (hs : start + size ≤ r.data.length) :
    Same (audioParse r start size) (audioParse R start size) := by
  unfold audioParse
  refine walk_both h hs (step := audioStep) (fun q hq p d s => ?_) (fun p d s hd => ?_) _ _
  · unfold audioStep
    repeat' safe_step hq
  · unfold audioStep
    repeat' same_step h, (Nat.le_trans hd hs)

theorem uidLoop_ext (h : r.Ext R) : ∀ (n u p : Nat), p + n ≤ r.data.length → uidLoop r u p n = uidLoop R u p n
  | 0, _, _, _ => rfl
  | n + 1, u, p, hp => by
    unfold uidLoop
    rw [h.byte (by omega)]
    split
    · rfl
    · exact uidLoop_ext h n _ _ (by omega)

/-- A track without what it says about encodings. -/
def ReadTrack.plain (t : ReadTrack) : ReadTrack := { t with encodings := [] }

theorem plain_any {ts Ts : List ReadTrack} (h : ts.map ReadTrack.plain = Ts.map ReadTrack.plain) (f : ReadTrackInfo → Bool) :
    (ts.any fun t => f t.info) = Ts.any fun t => f t.info := by
  have e : ∀ l : List ReadTrack, (l.any fun t => f t.info) = (l.map ReadTrack.plain).any fun t => f t.info := by
    intro l
    rw [List.any_map]
    rfl
  rw [e, e Ts, h]

/-- If the computation succeeds, `P` holds of the outcome. -/
def KeepsBare {α : Type} (P : α → Prop) (x : Res α) : Prop := ∀ a, x = .ok a → P a

theorem KeepsBare.ok {α : Type} {P : α → Prop} {a : α} (h : P a) : KeepsBare P (.ok a) := fun _ e => by cases e; exact h

theorem KeepsBare.bind {α β : Type} {P : β → Prop} {x : Res α} {f : α → Res β} (h : ∀ a, KeepsBare P (f a)) : KeepsBare P (x >>= f) := by
  intro b hb
  rw [Res.bind_eq_ok] at hb
  obtain ⟨a, -, ha⟩ := hb
  exact h a b ha

theorem KeepsBare.ite {α : Type} {P : α → Prop} {p : Prop} [Decidable p] {x y : Res α} (hx : KeepsBare P x) (hy : KeepsBare P y) :
    KeepsBare P (if p then x else y) := by
  split
  · exact hx
  · exact hy

theorem entryStep_range {stop p : Nat} {d : Hdr} {s s' : EntryVars}
    (hs : ∀ x, s.v = some x ∨ s.a = some x → x.1 + x.2 ≤ stop) (hd : d.pos + d.size ≤ stop)
    (h : entryStep r p d s = .ok s') : ∀ x, s'.v = some x ∨ s'.a = some x → x.1 + x.2 ≤ stop := by
  refine (?_ : KeepsBare (fun s' : EntryVars => ∀ x, s'.v = some x ∨ s'.a = some x → x.1 + x.2 ≤ stop) (entryStep r p d s)) s' h
  unfold entryStep
  refine KeepsBare.ite (KeepsBare.ok ?_) (KeepsBare.ite (KeepsBare.ok ?_) ?_)
  · rintro x (e | e)
    · simp only [Option.some.injEq] at e; subst e; exact hd
    · exact hs x (.inr e)
  · rintro x (e | e)
    · exact hs x (.inl e)
    · simp only [Option.some.injEq] at e; subst e; exact hd
  · repeat' first
      | with_reducible exact KeepsBare.ok hs
      | (with_reducible refine KeepsBare.ite ?_ ?_)
      | (with_reducible refine KeepsBare.bind fun _ => ?_)

theorem entryEncodings_ok {r : Rdr} (hr : r.Fails) (x : Option (Nat × Nat)) : ∃ es, entryEncodings r x = .ok es := by
  have := entryEncodings_safe hr x
  cases hx : entryEncodings r x with
  | ok es => exact ⟨es, rfl⟩
  | ub => exact absurd hx this
  | err c =>
    exfalso
    unfold entryEncodings at hx
    split at hx
    · cases hx
    · unfold encodingsParse at hx
      repeat' split at hx
      all_goals cases hx

/-- One entry of Tracks: up to encodings, the same track, or an error in both cases. -/
theorem entryParse_like (h : r.Ext R) {start size : Nat} (hs : start + size ≤ r.data.length) {ts Ts : List ReadTrack}
    (hts : ts.map ReadTrack.plain = Ts.map ReadTrack.plain) :
    (∃ c C, entryParse r ts start size = .err c ∧ entryParse R Ts start size = .err C) ∨
      ∃ t T, entryParse r ts start size = .ok t ∧ entryParse R Ts start size = .ok T ∧ t.plain = T.plain := by
  have hsame : Same (walk r (start + size) (entryStep r) start {}) (walk R (start + size) (entryStep R) start {}) := by
    refine walk_both h hs (step := entryStep) (fun q hq p d s => ?_) (fun p d s hd => ?_) _ _
    · unfold entryStep
      repeat' first | exact uidLoop_safe _ _ _ _ | safe_step hq
    · unfold entryStep
      repeat' first
        | with_reducible exact Same.of_eq (uidLoop_ext h _ _ _ (Nat.le_trans hd hs))
        | same_step h, (Nat.le_trans hd hs)
  unfold entryParse
  cases hw : walk r (start + size) (entryStep r) start {} with
  | ub =>
    refine absurd hw (walk_safe (fun p d s => ?_) _ _ _ (Nat.le_refl _))
    unfold entryStep
    repeat' first | exact uidLoop_safe _ _ _ _ | safe_step h.small
  | err c =>
    rw [hw] at hsame
    obtain ⟨d, hd⟩ := hsame.err
    rw [hd]
    exact .inl ⟨_, _, rfl, rfl⟩
  | ok s =>
    rw [hsame.ok.1 hw]
    have hr : ∀ x, s.v = some x ∨ s.a = some x → x.1 + x.2 ≤ start + size :=
      walk_keeps_in (P := fun s : EntryVars => ∀ x, s.v = some x ∨ s.a = some x → x.1 + x.2 ≤ start + size)
        (fun p d s s' hP hd hx => entryStep_range hP hd hx) _ _ _ _ (Nat.le_refl _) (by rintro x (e | e) <;> cases e) hw
    simp only [Res.bind_ok]
    unfold entryEnd
    rw [plain_any hts (fun i => i.number == s.info.number)]
    by_cases h1 : s.info.number ≤ 0
    · rw [Res.refuse_pos h1]; exact .inl ⟨_, _, rfl, rfl⟩
    rw [Res.refuse_neg h1]
    by_cases h2 : (Ts.any fun t => t.info.number == s.info.number) = true
    · rw [Res.refuse_pos h2]; exact .inl ⟨_, _, rfl, rfl⟩
    rw [Res.refuse_neg h2]
    by_cases h3 : s.info.type ≤ 0
    · rw [Res.refuse_pos h3]; exact .inl ⟨_, _, rfl, rfl⟩
    rw [Res.refuse_neg h3]
    simp only [Res.bind_ok]
    split
    · split
      · rename_i st sz hv ha
        have hsv := videoParse_same h (start := st) (size := sz) (Nat.le_trans (hr (st, sz) (.inl hv)) hs)
        cases hx : videoParse r st sz with
        | ub => exact absurd hx (videoParse_safe h.fails _ _)
        | err c =>
          rw [hx] at hsv
          obtain ⟨d, hd⟩ := hsv.err
          rw [hd]
          exact .inl ⟨_, _, rfl, rfl⟩
        | ok v =>
          rw [hsv.ok.1 hx]
          simp only [Res.bind_ok]
          obtain ⟨es, he⟩ := entryEncodings_ok h.small s.e
          obtain ⟨Es, hE⟩ := entryEncodings_ok h.big s.e
          rw [he, hE]
          exact .inr ⟨_, _, rfl, rfl, rfl⟩
      · exact .inl ⟨_, _, rfl, rfl⟩
    · split
      · split
        · rename_i st sz hv ha
          have hsv := audioParse_same h (start := st) (size := sz) (Nat.le_trans (hr (st, sz) (.inr hv)) hs)
          cases hx : audioParse r st sz with
          | ub => exact absurd hx (audioParse_safe h.fails _ _)
          | err c =>
            rw [hx] at hsv
            obtain ⟨d, hd⟩ := hsv.err
            rw [hd]
            exact .inl ⟨_, _, rfl, rfl⟩
          | ok v =>
            rw [hsv.ok.1 hx]
            simp only [Res.bind_ok]
            obtain ⟨es, he⟩ := entryEncodings_ok h.small s.e
            obtain ⟨Es, hE⟩ := entryEncodings_ok h.big s.e
            rw [he, hE]
            exact .inr ⟨_, _, rfl, rfl, rfl⟩
        · exact .inl ⟨_, _, rfl, rfl⟩
      · generalize hx : (do
          Res.refuse s.a.isSome E_FILE_FORMAT_INVALID
          Res.refuse s.v.isSome E_FILE_FORMAT_INVALID
          Res.refuse (s.info.type = 0x21 ∧ s.e.isSome) E_FILE_FORMAT_INVALID
          Res.ok ({ info := { s.info with lacing := decide (s.lacing > 0) }.copy } : ReadTrack) : Res ReadTrack) = x
        cases x with
        | ok t => exact .inr ⟨_, _, rfl, rfl, rfl⟩
        | err c => exact .inl ⟨_, _, rfl, rfl⟩
        | ub =>
          refine absurd hx ?_
          show Safe _
          repeat' safe_step h.small

/-- Tracks: up to encodings, the same, or an error in both cases. -/
theorem tracksParse_like (h : r.Ext R) {start size : Nat} (hs : start + size ≤ r.data.length) :
    (∃ c C, tracksParse r start size = .err c ∧ tracksParse R start size = .err C) ∨
      ∃ ts Ts, tracksParse r start size = .ok ts ∧ tracksParse R start size = .ok Ts ∧
        ts.map ReadTrack.plain = Ts.map ReadTrack.plain := by
  have hsame : Same (walk r (start + size) tracksCount start 0) (walk R (start + size) tracksCount start 0) :=
    walk_both h hs (step := fun _ => tracksCount) (fun q hq p d s => Safe.ok _) (fun p d s hd => .same _) _ _
  unfold tracksParse
  cases hw : walk r (start + size) tracksCount start 0 with
  | ub => exact absurd hw (walk_safe (fun p h s => Safe.ok _) _ _ _ (Nat.le_refl _))
  | err c =>
    rw [hw] at hsame
    obtain ⟨d, hd⟩ := hsame.err
    rw [hd]
    exact .inl ⟨_, _, rfl, rfl⟩
  | ok n =>
    have hW := hsame.ok.1 hw
    rw [hW]
    simp only [Res.bind_ok]
    split
    · exact .inr ⟨_, _, rfl, rfl, rfl⟩
    · refine walk_same_again h hs (P := fun (a b : List ReadTrack) => a.map ReadTrack.plain = b.map ReadTrack.plain)
        (fun p d s S hP hd => ?_) _ _ _ _ _ _ (Nat.le_refl _) rfl hW
      unfold tracksStep
      by_cases h0 : d.size = 0
      · rw [if_pos h0, if_pos h0]; exact .inr ⟨_, _, rfl, rfl, hP⟩
      rw [if_neg h0, if_neg h0, Res.assert_pos hd]
      simp only [Res.bind_ok]
      by_cases hi : d.id = Mux.kMkvTrackEntry
      · rw [if_pos hi, if_pos hi]
        rcases entryParse_like h (start := d.pos) (size := d.size) (Nat.le_trans hd hs) hP with ⟨c, C, e, E⟩ | ⟨t, T, e, E, ht⟩
        · rw [e, E]; exact .inl ⟨_, _, rfl, rfl⟩
        · rw [e, E]
          refine .inr ⟨_, _, rfl, rfl, ?_⟩
          rw [List.map_append, List.map_append, hP]
          simp only [List.map_cons, List.map_nil, ht]
      · rw [if_neg hi, if_neg hi]; exact .inr ⟨_, _, rfl, rfl, hP⟩

/-! ### Chapters and tags -/

theorem displayParse_same (h : r.Ext R) {start size : Nat} (hs : start + size ≤ r.data.length) :
    Same (displayParse r start size) (displayParse R start size) := by
  unfold displayParse
  refine walk_both h hs (step := displayStep) (fun q hq p d s => ?_) (fun p d s hd => ?_) _ _
  · unfold displayStep
    repeat' safe_step hq
  · unfold displayStep
    repeat' same_step h, (Nat.le_trans hd hs)

theorem atomParse_same (h : r.Ext R) {start size : Nat} (hs : start + size ≤ r.data.length) :
    Same (atomParse r start size) (atomParse R start size) := by
  unfold atomParse
  refine walk_both h hs (step := atomStep) (fun q hq p d s => ?_) (fun p d s hd => ?_) _ _
  · unfold atomStep
    repeat' first | exact displayParse_safe hq _ _ | safe_step hq
    split
    · exact Safe.ok _
    · repeat' safe_step hq
    · rename_i e; exact absurd e (unserializeString_safe _ _ _)
  · unfold atomStep
    repeat' first
      | with_reducible exact displayParse_same h (Nat.le_trans hd hs)
      | same_step h, (Nat.le_trans hd hs)
    rw [unserializeString_ext h (Nat.le_trans hd hs)]
    exact .same _

theorem editionParse_safe' {r : Rdr} (hr : r.Fails) (start size : Nat) : Safe (editionParse r start size) := by
  unfold editionParse
  refine walk_safe (fun p h s => ?_) _ _ _ (Nat.le_refl _)
  unfold editionStep
  repeat' first | exact atomParse_safe hr _ _ | safe_step hr

theorem editionParse_same (h : r.Ext R) {start size : Nat} (hs : start + size ≤ r.data.length) :
    Same (editionParse r start size) (editionParse R start size) := by
  unfold editionParse
  refine walk_both h hs (step := editionStep) (fun q hq p d s => ?_) (fun p d s hd => ?_) _ _
  · unfold editionStep
    repeat' first | exact atomParse_safe hq _ _ | safe_step hq
  · unfold editionStep
    repeat' first
      | with_reducible exact atomParse_same h (Nat.le_trans hd hs)
      | same_step h, (Nat.le_trans hd hs)

theorem chaptersParse_same (h : r.Ext R) {start size : Nat} (hs : start + size ≤ r.data.length) :
    Same (chaptersParse r start size) (chaptersParse R start size) := by
  unfold chaptersParse
  refine walk_both h hs (step := chaptersStep) (fun q hq p d s => ?_) (fun p d s hd => ?_) _ _
  · unfold chaptersStep
    repeat' first | exact editionParse_safe' hq _ _ | safe_step hq
  · unfold chaptersStep
    repeat' first
      | with_reducible exact editionParse_same h (Nat.le_trans hd hs)
      | same_step h, (Nat.le_trans hd hs)

theorem simpleTagParse_safe' {r : Rdr} (hr : r.Fails) (start size : Nat) : Safe (simpleTagParse r start size) := by
  unfold simpleTagParse
  refine walk_safe (fun p h s => ?_) _ _ _ (Nat.le_refl _)
  unfold simpleTagStep
  repeat' safe_step hr

theorem tagParse_safe' {r : Rdr} (hr : r.Fails) (start size : Nat) : Safe (tagParse r start size) := by
  unfold tagParse
  refine walk_safe (fun p h s => ?_) _ _ _ (Nat.le_refl _)
  unfold tagStep
  repeat' first | exact simpleTagParse_safe' hr _ _ | safe_step hr

theorem simpleTagParse_same (h : r.Ext R) {start size : Nat} (hs : start + size ≤ r.data.length) :
    Same (simpleTagParse r start size) (simpleTagParse R start size) := by
  unfold simpleTagParse
  refine walk_both h hs (step := simpleTagStep) (fun q hq p d s => ?_) (fun p d s hd => ?_) _ _
  · unfold simpleTagStep
    repeat' safe_step hq
  · unfold simpleTagStep
    repeat' same_step h, (Nat.le_trans hd hs)

theorem tagParse_same (h : r.Ext R) {start size : Nat} (hs : start + size ≤ r.data.length) :
    Same (tagParse r start size) (tagParse R start size) := by
  unfold tagParse
  refine walk_both h hs (step := tagStep) (fun q hq p d s => ?_) (fun p d s hd => ?_) _ _
  · unfold tagStep
    repeat' first | exact simpleTagParse_safe' hq _ _ | safe_step hq
  · unfold tagStep
    repeat' first
      | with_reducible exact simpleTagParse_same h (Nat.le_trans hd hs)
      | same_step h, (Nat.le_trans hd hs)

theorem tagsParse_same (h : r.Ext R) {start size : Nat} (hs : start + size ≤ r.data.length) :
    Same (tagsParse r start size) (tagsParse R start size) := by
  unfold tagsParse
  refine walk_both h hs (step := tagsStep) (fun q hq p d s => ?_) (fun p d s hd => ?_) _ _
  · unfold tagsStep
    repeat' first | exact tagParse_safe' hq _ _ | safe_step hq
  · unfold tagsStep
    repeat' first
      | with_reducible exact tagParse_same h (Nat.le_trans hd hs)
      | same_step h, (Nat.le_trans hd hs)

/-! ### The seek head -/

theorem orFalse_readID {β : Type} (h : r.Ext R) (p : Nat) {k K : Nat × Nat → Res (Option β)} (hk : ∀ x, k x = K x)
    (hlong : ∀ v n, r.data.length < p + n → K (v, n) = .ok none) : orFalse (readID r p) k = orFalse (readID R p) K := by
  have : k = K := funext hk
  subst this
  rcases readID_any h p with e | ⟨⟨c, e⟩, hl⟩
  · rw [e]
  · rw [e]
    unfold orFalse
    simp only
    cases hR : readID R p with
    | ok x => exact (hlong _ _ (hl x.1 x.2 hR)).symm
    | err c => rfl
    | ub => exact absurd hR (readID_safe _ _)

theorem orFalse_readUInt {β : Type} (h : r.Ext R) (p : Nat) {k K : Nat × Nat → Res (Option β)} (hk : ∀ x, k x = K x)
    (hlong : ∀ v n, r.data.length < p + n → K (v, n) = .ok none) : orFalse (readUInt r p) k = orFalse (readUInt R p) K := by
  have : k = K := funext hk
  subst this
  rcases readUInt_any h p with e | ⟨⟨c, e⟩, hl⟩
  · rw [e]
  · rw [e]
    unfold orFalse
    simp only
    cases hR : readUInt R p with
    | ok x => exact (hlong _ _ (hl x.1 x.2 hR)).symm
    | err c => rfl
    | ub => exact absurd hR (readUInt_safe _ _)

theorem ite_congr' {α : Type} {p : Prop} [Decidable p] {x X y Y : α} (hx : p → x = X) (hy : ¬ p → y = Y) :
    (if p then x else y) = if p then X else Y := by
  split
  · exact hx ‹_›
  · exact hy ‹_›

theorem second_same {α : Type} {p q : Prop} [Decidable p] [Decidable q] {x y : α} (h : q) :
    (if p then x else if q then x else y) = x := by
  by_cases hp : p
  · rw [if_pos hp]
  · rw [if_neg hp, if_pos h]

theorem seekParseEntry_ext (h : r.Ext R) {start size : Nat} (hs : start + size ≤ r.data.length) :
    seekParseEntry r start size = seekParseEntry R start size := by
  unfold seekParseEntry
  dsimp only
  refine ite_congr' (fun _ => rfl) fun _ => ?_
  refine orFalse_readID h _ (fun ⟨v1, n1⟩ => ?_) (fun v n hn => ?_)
  case refine_2 =>
    exact second_same (by omega)
  dsimp only
  refine ite_congr' (fun _ => rfl) fun _ => ite_congr' (fun _ => rfl) fun _ => ?_
  refine orFalse_readUInt h _ (fun ⟨v2, n2⟩ => ?_) (fun v n hn => ?_)
  case refine_2 =>
    exact second_same (by omega)
  dsimp only
  refine ite_congr' (fun _ => rfl) fun _ => ite_congr' (fun _ => rfl) fun _ => ite_congr' (fun _ => rfl) fun _ => ?_
  refine orFalse_readID h _ (fun ⟨v3, n3⟩ => ?_) (fun v n hn => ?_)
  case refine_2 =>
    exact second_same (by omega)
  dsimp only
  refine ite_congr' (fun _ => rfl) fun _ => ite_congr' (fun _ => rfl) fun _ => ?_
  refine orFalse_readID h _ (fun ⟨v4, n4⟩ => ?_) (fun v n hn => ?_)
  case refine_2 =>
    exact second_same (by omega)
  dsimp only
  refine ite_congr' (fun _ => rfl) fun _ => ite_congr' (fun _ => rfl) fun _ => ?_
  refine orFalse_readUInt h _ (fun ⟨v5, n5⟩ => ?_) (fun v n hn => ?_)
  case refine_2 =>
    exact second_same (by omega)
  dsimp only
  refine ite_congr' (fun _ => rfl) fun _ => ite_congr' (fun _ => rfl) fun _ => ite_congr' (fun _ => rfl) fun _ => ?_
  have e := unserializeUInt_ext h (p := start + n1 + n2 + v2 + n4 + n5) (n := v5) (by omega)
  rw [e]

theorem seekHeadParse_same (h : r.Ext R) {start size : Nat} (hs : start + size ≤ r.data.length) :
    Same (seekHeadParse r start size) (seekHeadParse R start size) := by
  unfold seekHeadParse
  refine Same.bind (walk_both h hs (step := fun _ _ h n => seekCount h n) (fun q hq p d s => ?_) (fun p d s hd => .same _) _ _)
    fun _ _ _ => walk_both h hs (step := seekStep) (fun q hq p d s => ?_) (fun p d s hd => ?_) _ _
  · unfold seekCount
    repeat' safe_step hq
  · unfold seekStep
    simp only
    refine Safe.ite (fun _ => ?_) fun _ => Safe.ite (fun _ => Safe.ok _) fun _ => Safe.ok _
    have : Safe (seekParseEntry q d.pos d.size) := by
      unfold seekParseEntry
      simp only
      repeat' first
        | exact readID_safe _ _ | exact readUInt_safe _ _ | exact unserializeUInt_safe hq _ _
        | (refine orFalse_safe ?_ fun _ => ?_) | safe_step hq
    split
    · exact Safe.err _
    · rename_i e; exact absurd e this
    · exact Safe.ok _
    · exact Safe.ok _
  · unfold seekStep
    simp only
    rw [seekParseEntry_ext h (Nat.le_trans hd hs)]
    exact .same _

end Verif.Par
