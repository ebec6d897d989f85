/-
No input leads mkvparser's readers of headers into undefined behaviour, provided the reader answers a
request beyond the data with an error.
-/
import Verif.Model.ParserSegment
import Verif.Lemmas.Walk

namespace Verif.Par
open Verif

/-- The computation does not end in undefined behaviour. -/
def Safe {α : Type} (x : Res α) : Prop := x ≠ .ub

theorem Safe.ok {α : Type} (a : α) : Safe (Res.ok a) := by intro h; cases h
theorem Safe.err {α : Type} (c : Int) : Safe (Res.err c : Res α) := by intro h; cases h

theorem Safe.bind {α β : Type} {x : Res α} {f : α → Res β} (hx : Safe x) (hf : ∀ a, x = .ok a → Safe (f a)) :
    Safe (x >>= f) := by
  cases x with
  | ok a => exact hf a rfl
  | err c => exact Safe.err c
  | ub => exact absurd rfl hx

theorem Safe.refuse {p : Prop} [Decidable p] {c : Int} : Safe (Res.refuse p c) := by
  unfold Res.refuse; split
  · exact Safe.err _
  · exact Safe.ok _

theorem Safe.assert {p : Prop} [Decidable p] (h : p) : Safe (Res.assert p) := by
  rw [Res.assert_pos h]; exact Safe.ok _

theorem Safe.orErr {α : Type} {x : Res α} {c : Int} (h : Safe x) : Safe (x.orErr c) := by
  cases x with
  | ok a => exact Safe.ok _
  | err c => exact Safe.err _
  | ub => exact absurd rfl h

theorem Safe.map {α β : Type} {x : Res α} {f : α → β} (h : Safe x) : Safe (x.map f) := by
  cases x with
  | ok a => exact Safe.ok _
  | err c => exact Safe.err _
  | ub => exact absurd rfl h

theorem Safe.ite {α : Type} {p : Prop} [Decidable p] {x y : Res α} (hx : p → Safe x) (hy : ¬ p → Safe y) :
    Safe (if p then x else y) := by
  split
  · exact hx ‹_›
  · exact hy ‹_›

/-! ### Primitives -/

theorem readUIntLoop_safe (r : Rdr) : ∀ (n acc p : Nat), Safe (readUIntLoop r acc p n)
  | 0, _, _ => Safe.ok _
  | n + 1, acc, p => by
    unfold readUIntLoop
    split
    · split <;> exact Safe.err _
    · exact readUIntLoop_safe r n _ _

theorem readIDLoop_safe (r : Rdr) : ∀ (n acc p : Nat), Safe (readIDLoop r acc p n)
  | 0, _, _ => Safe.ok _
  | n + 1, acc, p => by
    unfold readIDLoop
    split
    · split <;> exact Safe.err _
    · exact readIDLoop_safe r n _ _

theorem readUInt_safe (r : Rdr) (pos : Int) : Safe (readUInt r pos) := by
  unfold readUInt
  split
  · exact Safe.err _
  split
  · split <;> exact Safe.err _
  split
  · exact Safe.err _
  simp only
  split
  · exact Safe.ok _
  · exact Safe.err _
  · rename_i h; exact absurd h (readUIntLoop_safe _ _ _ _)

theorem readID_safe (r : Rdr) (pos : Int) : Safe (readID r pos) := by
  unfold readID
  split
  · exact Safe.err _
  split
  · split <;> exact Safe.err _
  split
  · exact Safe.err _
  split
  · exact Safe.err _
  split
  · exact Safe.ok _
  · exact Safe.err _
  · rename_i h; exact absurd h (readIDLoop_safe _ _ _ _)

theorem getUIntLength_safe (r : Rdr) (pos : Int) : Safe (getUIntLength r pos) := by
  unfold getUIntLength
  repeat' split
  all_goals first | exact Safe.ok _ | exact Safe.err _

/-- The reader answers a request beyond its data with an error. -/
def Rdr.Fails (r : Rdr) : Prop := r.short < 0

theorem unserializeUIntLoop_safe {r : Rdr} (hr : r.Fails) : ∀ (n acc p : Nat), Safe (unserializeUIntLoop r acc p n)
  | 0, _, _ => Safe.ok _
  | n + 1, acc, p => by
    unfold unserializeUIntLoop
    split
    · rename_i status hb
      have : status = r.short := by
        unfold Rdr.byte at hb
        split at hb
        · cases hb
        · exact (Except.error.inj hb).symm
      rw [if_pos (by rw [this]; exact hr)]
      exact Safe.err _
    · exact unserializeUIntLoop_safe hr n _ _

theorem byte_error {r : Rdr} {p : Nat} {s : Int} (h : r.byte p = .error s) : s = r.short := by
  unfold Rdr.byte at h
  split at h
  · cases h
  · exact (Except.error.inj h).symm

theorem read_error {r : Rdr} {p n : Nat} {s : Int} (h : r.read p n = .error s) : s = r.short := by
  unfold Rdr.read at h
  split at h
  · cases h
  · exact (Except.error.inj h).symm

theorem unserializeUInt_safe {r : Rdr} (hr : r.Fails) (pos size : Int) : Safe (unserializeUInt r pos size) := by
  unfold unserializeUInt
  split
  · exact Safe.err _
  split
  · exact Safe.ok _
  · exact Safe.err _
  · rename_i h; exact absurd h (unserializeUIntLoop_safe hr _ _ _)

theorem unserializeInt_safe {r : Rdr} (hr : r.Fails) (pos size : Int) : Safe (unserializeInt r pos size) := by
  unfold unserializeInt
  split
  · exact Safe.err _
  split
  · rename_i s hb
    rw [if_pos (by rw [byte_error hb]; exact hr)]
    exact Safe.err _
  · simp only
    split
    · exact Safe.ok _
    · exact Safe.err _
    · rename_i h; exact absurd h (unserializeUIntLoop_safe hr _ _ _)

theorem unserializeFloat_safe {r : Rdr} (hr : r.Fails) (pos size : Int) : Safe (unserializeFloat r pos size) := by
  unfold unserializeFloat
  split
  · exact Safe.err _
  split
  · rename_i s hb
    rw [if_pos (by rw [read_error hb]; exact hr)]
    exact Safe.err _
  · simp only
    repeat' split
    all_goals first | exact Safe.ok _ | exact Safe.err _

theorem unserializeString_safe (r : Rdr) (pos : Nat) (size : Int) : Safe (unserializeString r pos size) := by
  unfold unserializeString
  repeat' split
  all_goals first | exact Safe.ok _ | exact Safe.err _

theorem parseElementHeader_safe (r : Rdr) (pos stop : Int) : Safe (parseElementHeader r pos stop) := by
  unfold parseElementHeader
  split
  · exact Safe.err _
  split
  · exact Safe.err _
  · rename_i h; exact absurd h (readID_safe _ _)
  simp only
  split
  · exact Safe.err _
  split
  · exact Safe.err _
  · rename_i h; exact absurd h (readUInt_safe _ _)
  repeat' split
  all_goals first | exact Safe.ok _ | exact Safe.err _

/-! ### Walking over elements -/

theorem walk_safe {σ : Type} {r : Rdr} {stop : Nat} {step : Nat → Hdr → σ → Res σ}
    (hs : ∀ p h s, Safe (step p h s)) : ∀ (n pos : Nat) (st : σ), stop - pos ≤ n → Safe (walk r stop step pos st) := by
  intro n
  induction n with
  | zero =>
    intro pos st hn
    rw [walk_unfold, if_neg (by omega)]
    split
    · exact Safe.ok _
    · exact Safe.err _
  | succ n ih =>
    intro pos st hn
    rw [walk_unfold]
    split
    · split
      · exact Safe.err _
      · rename_i h; exact absurd h (parseElementHeader_safe _ _ _)
      · rename_i h hp
        have := parseElementHeader_pos hp
        split
        · exact Safe.err _
        · rename_i h; exact absurd h (hs _ _ _)
        · split
          · exact Safe.err _
          · exact ih _ _ (by omega)
    · split
      · exact Safe.ok _
      · exact Safe.err _

/-- What every step keeps holds at the end. -/
theorem walk_keeps {σ : Type} {r : Rdr} {stop : Nat} {step : Nat → Hdr → σ → Res σ} {P : σ → Prop}
    (hs : ∀ p h s s', P s → step p h s = .ok s' → P s') :
    ∀ (n pos : Nat) (st st' : σ), stop - pos ≤ n → P st → walk r stop step pos st = .ok st' → P st' := by
  intro n
  induction n with
  | zero =>
    intro pos st st' hn hP hw
    rw [walk_unfold, if_neg (by omega)] at hw
    split at hw
    · cases hw; exact hP
    · cases hw
  | succ n ih =>
    intro pos st st' hn hP hw
    rw [walk_unfold] at hw
    split at hw
    · split at hw
      · cases hw
      · cases hw
      · rename_i h hp
        have := parseElementHeader_pos hp
        split at hw
        · cases hw
        · cases hw
        · rename_i s1 h1
          split at hw
          · cases hw
          · exact ih _ _ _ (by omega) (hs _ _ _ _ hP h1) hw
    · split at hw
      · cases hw; exact hP
      · cases hw

/-- The timecode scale that is read is at least 1. -/
theorem infoParse_scale {r : Rdr} {start size : Nat} {i : ReadInfo} (h : infoParse r start size = .ok i) :
    1 ≤ i.timecodeScale := by
  have key : ∀ i', walk r (start + size) (infoStep r) start {} = .ok i' → 1 ≤ i'.timecodeScale := by
    intro i' hw
    refine walk_keeps (P := fun i : ReadInfo => 1 ≤ i.timecodeScale) ?_ _ _ _ _ (Nat.le_refl _) (by decide) hw
    intro p h s s' hP hx
    unfold infoStep at hx
    split at hx
    · rw [Res.bind_eq_ok] at hx
      obtain ⟨v, hv, hx⟩ := hx
      cases hx
      unfold uintFrom at hv
      simp only [Res.bind_eq_ok, Res.refuse_eq_ok] at hv
      obtain ⟨v', -, _, hle, hv⟩ := hv
      cases hv
      simp only
      omega
    all_goals (repeat' (split at hx))
    all_goals (try simp only [Res.bind_eq_ok, Res.refuse_eq_ok] at hx)
    · obtain ⟨_, -, _, -, hx⟩ := hx
      cases hx
      exact hP
    · obtain ⟨_, -, hx⟩ := hx
      cases hx
      exact hP
    · obtain ⟨_, -, hx⟩ := hx
      cases hx
      exact hP
    · obtain ⟨_, -, hx⟩ := hx
      cases hx
      exact hP
    · cases hx
      exact hP
  unfold infoParse at h
  rw [Res.bind_eq_ok] at h
  obtain ⟨i', hw, h⟩ := h
  have := key i' hw
  split at h
  · cases h; exact this
  · simp only [Res.bind_eq_ok, Res.refuse_eq_ok] at h
    obtain ⟨_, -, h⟩ := h
    cases h
    exact this

/-- The second of two loops over the same elements: all of them end before `stop`. -/
theorem walk_safe_again {σ τ : Type} {r : Rdr} {stop : Nat} {count : Nat → Hdr → τ → Res τ}
    {step : Nat → Hdr → σ → Res σ} (hs : ∀ p h s, h.pos + h.size ≤ stop → Safe (step p h s)) :
    ∀ (n pos : Nat) (st : σ) (ct ct' : τ), stop - pos ≤ n → walk r stop count pos ct = .ok ct' →
      Safe (walk r stop step pos st) := by
  intro n
  induction n with
  | zero =>
    intro pos st ct ct' hn _
    rw [walk_unfold, if_neg (by omega)]
    split
    · exact Safe.ok _
    · exact Safe.err _
  | succ n ih =>
    intro pos st ct ct' hn hc
    rw [walk_unfold] at hc ⊢
    split
    · rw [if_pos ‹_›] at hc
      split
      · exact Safe.err _
      · rename_i h; exact absurd h (parseElementHeader_safe _ _ _)
      · rename_i h hp
        rw [hp] at hc
        simp only at hc
        have := parseElementHeader_pos hp
        split at hc
        · cases hc
        · cases hc
        · split at hc
          · cases hc
          · have hin : h.pos + h.size ≤ stop := by omega
            split
            · exact Safe.err _
            · rename_i e; exact absurd e (hs _ _ _ hin)
            · rw [if_neg (by omega)]
              exact ih _ _ _ _ (by omega) hc
    · split
      · exact Safe.ok _
      · exact Safe.err _

/-- The loop of `walkKeep` does not end in undefined behaviour. -/
theorem walkKeep_safe {σ : Type} {r : Rdr} {stop : Nat} {step : Nat → Hdr → σ → Turn σ}
    (hs : ∀ p h s, step p h s ≠ .ub) : ∀ (n pos : Nat) (st : σ), stop - pos ≤ n → walkKeep r stop step pos st ≠ .ub := by
  intro n
  induction n with
  | zero =>
    intro pos st hn
    rw [walkKeep.eq_1, if_neg (by omega)]
    split <;> simp
  | succ n ih =>
    intro pos st hn
    rw [walkKeep.eq_1]
    split
    · split
      · simp
      · rename_i h; exact absurd h (parseElementHeader_safe _ _ _)
      · rename_i h hp
        have := parseElementHeader_pos hp
        split
        · simp
        · rename_i h; exact absurd h (hs _ _ _)
        · split
          · simp
          · exact ih _ _ (by omega)
    · split <;> simp

theorem uintAt_safe {r : Rdr} (hr : r.Fails) (h : Hdr) : Safe (uintAt r h) := by
  unfold uintAt
  split
  · exact Safe.ok _
  · exact Safe.ok _
  · rename_i e; exact absurd e (unserializeUInt_safe hr _ _)

theorem uintFrom_safe {r : Rdr} (hr : r.Fails) (n : Int) (h : Hdr) : Safe (uintFrom n r h) :=
  Safe.bind (uintAt_safe hr h) fun _ _ => Safe.bind Safe.refuse fun _ _ => Safe.ok _

theorem binaryAt_safe (r : Rdr) (h : Hdr) (c : Int) : Safe (binaryAt r h c) := by
  unfold binaryAt
  repeat' split
  all_goals first | exact Safe.ok _ | exact Safe.err _

/-- One step of taking a reading routine apart. -/
macro "safe_step" hr:term : tactic => `(tactic| first
  | with_reducible exact Safe.ok _
  | with_reducible exact Safe.err _
  | with_reducible exact uintFrom_safe $hr _ _
  | with_reducible exact uintAt_safe $hr _
  | with_reducible exact unserializeFloat_safe $hr _ _
  | with_reducible exact unserializeInt_safe $hr _ _
  | with_reducible exact unserializeUInt_safe $hr _ _
  | with_reducible exact unserializeString_safe _ _ _
  | with_reducible exact binaryAt_safe _ _ _
  | with_reducible exact Safe.refuse
  | with_reducible assumption
  | with_reducible refine Safe.orErr ?_
  | with_reducible refine Safe.map ?_
  | (with_reducible refine Safe.bind ?_ fun _ _ => ?_)
  | (with_reducible refine Safe.ite (fun _ => ?_) (fun _ => ?_)))

/-! ### Info, Tracks, Chapters, Tags, SeekHead -/

theorem infoParse_safe {r : Rdr} (hr : r.Fails) (start size : Nat) : Safe (infoParse r start size) := by
  unfold infoParse
  refine Safe.bind (walk_safe (fun p h s => ?_) _ _ _ (Nat.le_refl _)) fun i _ => ?_
  · unfold infoStep
    repeat' safe_step hr
  · split
    · exact Safe.ok _
    · repeat' safe_step hr

theorem chromaAt_safe {r : Rdr} (hr : r.Fails) (h : Hdr) (b : Bool) (c : Option ReadChroma) :
    Safe (chromaAt r h b c) := by
  unfold chromaAt
  repeat' safe_step hr

theorem luminanceAt_safe {r : Rdr} (hr : r.Fails) (h : Hdr) (m : Int) : Safe (luminanceAt r h m) := by
  unfold luminanceAt
  repeat' safe_step hr

theorem masteringParse_safe {r : Rdr} (hr : r.Fails) (start size : Nat) : Safe (masteringParse r start size) := by
  unfold masteringParse
  refine Safe.orErr (walk_safe (fun p h s => ?_) _ _ _ (Nat.le_refl _))
  unfold masteringStep
  repeat' first | with_reducible exact chromaAt_safe hr _ _ _ | with_reducible exact luminanceAt_safe hr _ _ | safe_step hr

theorem colourParse_safe {r : Rdr} (hr : r.Fails) (start size : Nat) : Safe (colourParse r start size) := by
  unfold colourParse
  refine Safe.orErr (walk_safe (fun p h s => ?_) _ _ _ (Nat.le_refl _))
  unfold colourStep
  repeat' first | exact masteringParse_safe hr _ _ | safe_step hr

theorem projectionParse_safe {r : Rdr} (hr : r.Fails) (start size : Nat) : Safe (projectionParse r start size) := by
  unfold projectionParse
  refine Safe.orErr (walk_safe (fun p h s => ?_) _ _ _ (Nat.le_refl _))
  unfold projectionStep
  repeat' safe_step hr

theorem videoParse_safe {r : Rdr} (hr : r.Fails) (start size : Nat) : Safe (videoParse r start size) := by
  unfold videoParse
  refine walk_safe (fun p h s => ?_) _ _ _ (Nat.le_refl _)
  unfold videoStep
  repeat' first | exact colourParse_safe hr _ _ | exact projectionParse_safe hr _ _ | safe_step hr
  split
  · exact Safe.ok _
  · repeat' safe_step hr
  · rename_i e; exact absurd e (unserializeString_safe _ _ _)

theorem audioParse_safe {r : Rdr} (hr : r.Fails) (start size : Nat) : Safe (audioParse r start size) := by
  unfold audioParse
  refine walk_safe (fun p h s => ?_) _ _ _ (Nat.le_refl _)
  unfold audioStep
  repeat' safe_step hr

theorem Turn.of_safe {α σ : Type} {st : σ} {x : Res α} {k : α → Turn σ} (hx : Safe x) (hk : ∀ a, k a ≠ .ub) :
    Turn.of st x k ≠ .ub := by
  unfold Turn.of
  split
  · exact hk _
  · simp
  · exact absurd rfl hx

theorem compressionParse_safe {r : Rdr} (hr : r.Fails) (start size : Nat) : Safe (compressionParse r start size) := by
  unfold compressionParse
  have := walkKeep_safe (r := r) (stop := start + size) (step := compressionStep r) (fun p h s => by
    unfold compressionStep
    split
    · exact Turn.of_safe (uintFrom_safe hr _ _) (fun _ => by simp)
    · repeat' split
      all_goals simp) _ start ({}, false) (Nat.le_refl _)
  repeat' split
  all_goals first | exact Safe.ok _ | exact Safe.err _ | skip
  rename_i e
  exact absurd e this

theorem aesParse_safe {r : Rdr} (hr : r.Fails) (start size mode : Nat) : Safe (aesParse r start size mode) := by
  unfold aesParse
  refine walk_safe (fun p h s => ?_) _ _ _ (Nat.le_refl _)
  unfold aesStep
  repeat' safe_step hr

theorem encryptionData_safe (r : Rdr) (h : Hdr) (set : Option Bytes → ReadEncryption) : encryptionData r h set ≠ .ub := by
  unfold encryptionData
  repeat' split
  all_goals simp

theorem encryptionParse_safe {r : Rdr} (hr : r.Fails) (start size : Nat) : Safe (encryptionParse r start size) := by
  unfold encryptionParse
  have := walkKeep_safe (r := r) (stop := start + size) (step := encryptionStep r) (fun p h s => by
    unfold encryptionStep
    repeat' split
    all_goals first
      | exact encryptionData_safe _ _ _
      | exact Turn.of_safe (uintAt_safe hr _) (fun _ => by first | simp; done | (split <;> simp))
      | exact Turn.of_safe (aesParse_safe hr _ _ _) (fun _ => by simp)
      | simp) _ start {} (Nat.le_refl _)
  repeat' split
  all_goals first | exact Safe.ok _ | exact Safe.err _ | skip
  rename_i e
  exact absurd e this

theorem encodingParse_safe {r : Rdr} (hr : r.Fails) (start size : Nat) : Safe (encodingParse r start size) := by
  unfold encodingParse
  refine Safe.bind (walk_safe (fun p h s => Safe.ok _) _ _ _ (Nat.le_refl _)) fun _ _ => Safe.bind Safe.refuse fun _ _ =>
    walk_safe (fun p h s => ?_) _ _ _ (Nat.le_refl _)
  unfold encodingStep
  repeat' first | exact compressionParse_safe hr _ _ | exact encryptionParse_safe hr _ _ | safe_step hr

theorem encodingsParse_safe {r : Rdr} (hr : r.Fails) (start size : Nat) : Safe (encodingsParse r start size) := by
  unfold encodingsParse
  split
  · rename_i e
    exact absurd e (walk_safe (fun p h s => Safe.ok _) _ _ _ (Nat.le_refl _))
  · exact Safe.ok _
  · split
    · exact Safe.ok _
    · have := walkKeep_safe (r := r) (stop := start + size) (step := encodingsStep r) (fun p h s => by
        unfold encodingsStep
        split
        · split
          · simp
          · simp
          · rename_i e; exact absurd e (encodingParse_safe hr _ _)
        · simp) _ start [] (Nat.le_refl _)
      split
      · exact Safe.ok _
      · exact Safe.ok _
      · rename_i e; exact absurd e this

theorem uidLoop_safe (r : Rdr) : ∀ (n u p : Nat), Safe (uidLoop r u p n)
  | 0, _, _ => Safe.ok _
  | n + 1, u, p => by
    unfold uidLoop
    split
    · exact Safe.err _
    · exact uidLoop_safe r n _ _

theorem entryEncodings_safe {r : Rdr} (hr : r.Fails) (x : Option (Nat × Nat)) : Safe (entryEncodings r x) := by
  unfold entryEncodings
  split
  · exact Safe.ok _
  · exact encodingsParse_safe hr _ _

theorem entryParse_safe {r : Rdr} (hr : r.Fails) (ts : List ReadTrack) (start size : Nat) :
    Safe (entryParse r ts start size) := by
  unfold entryParse
  refine Safe.bind (walk_safe (fun p h s => ?_) _ _ _ (Nat.le_refl _)) fun s _ => ?_
  · unfold entryStep
    repeat' first | exact uidLoop_safe _ _ _ _ | safe_step hr
  · unfold entryEnd
    refine Safe.bind Safe.refuse fun _ _ => Safe.bind Safe.refuse fun _ _ => Safe.bind Safe.refuse fun _ _ => ?_
    simp only
    refine Safe.ite (fun _ => ?_) fun _ => Safe.ite (fun _ => ?_) fun _ => ?_
    · split
      · repeat' first | exact videoParse_safe hr _ _ | exact entryEncodings_safe hr _ | safe_step hr
      · exact Safe.err _
    · split
      · repeat' first | exact audioParse_safe hr _ _ | exact entryEncodings_safe hr _ | safe_step hr
      · exact Safe.err _
    · repeat' safe_step hr

theorem tracksParse_safe {r : Rdr} (hr : r.Fails) (start size : Nat) : Safe (tracksParse r start size) := by
  unfold tracksParse
  refine Safe.bind (walk_safe (fun p h s => Safe.ok _) _ _ _ (Nat.le_refl _)) fun n hn => Safe.ite (fun _ => Safe.ok _) fun _ => ?_
  refine walk_safe_again (fun p h s hin => ?_) _ _ _ _ _ (Nat.le_refl _) hn
  unfold tracksStep
  refine Safe.ite (fun _ => Safe.ok _) fun _ => Safe.bind (Safe.assert hin) fun _ _ => ?_
  repeat' first | exact entryParse_safe hr _ _ _ | safe_step hr

theorem displayParse_safe {r : Rdr} (hr : r.Fails) (start size : Nat) : Safe (displayParse r start size) := by
  unfold displayParse
  refine walk_safe (fun p h s => ?_) _ _ _ (Nat.le_refl _)
  unfold displayStep
  repeat' safe_step hr

theorem atomParse_safe {r : Rdr} (hr : r.Fails) (start size : Nat) : Safe (atomParse r start size) := by
  unfold atomParse
  refine walk_safe (fun p h s => ?_) _ _ _ (Nat.le_refl _)
  unfold atomStep
  repeat' first | exact displayParse_safe hr _ _ | safe_step hr
  split
  · exact Safe.ok _
  · repeat' safe_step hr
  · rename_i e; exact absurd e (unserializeString_safe _ _ _)

theorem chaptersParse_safe {r : Rdr} (hr : r.Fails) (start size : Nat) : Safe (chaptersParse r start size) := by
  unfold chaptersParse
  refine walk_safe (fun p h s => ?_) _ _ _ (Nat.le_refl _)
  unfold chaptersStep
  refine Safe.ite (fun _ => Safe.ok _) fun _ => Safe.ite (fun _ => Safe.bind ?_ fun _ _ => Safe.ok _) fun _ => Safe.ok _
  unfold editionParse
  refine walk_safe (fun p h s => ?_) _ _ _ (Nat.le_refl _)
  unfold editionStep
  repeat' first | exact atomParse_safe hr _ _ | safe_step hr

theorem tagsParse_safe {r : Rdr} (hr : r.Fails) (start size : Nat) : Safe (tagsParse r start size) := by
  unfold tagsParse
  refine walk_safe (fun p h s => ?_) _ _ _ (Nat.le_refl _)
  unfold tagsStep
  refine Safe.ite (fun _ => Safe.ok _) fun _ => Safe.ite (fun _ => Safe.bind ?_ fun _ _ => Safe.ok _) fun _ => Safe.ok _
  unfold tagParse
  refine walk_safe (fun p h s => ?_) _ _ _ (Nat.le_refl _)
  unfold tagStep
  refine Safe.ite (fun _ => Safe.ok _) fun _ => Safe.ite (fun _ => Safe.bind ?_ fun _ _ => Safe.ok _) fun _ => Safe.ok _
  unfold simpleTagParse
  refine walk_safe (fun p h s => ?_) _ _ _ (Nat.le_refl _)
  unfold simpleTagStep
  repeat' safe_step hr

theorem orFalse_safe {α β : Type} {x : Res α} {k : α → Res (Option β)} (hx : Safe x) (hk : ∀ a, Safe (k a)) :
    Safe (orFalse x k) := by
  unfold orFalse
  split
  · exact hk _
  · exact Safe.ok _
  · exact absurd rfl hx

theorem seekHeadParse_safe {r : Rdr} (hr : r.Fails) (start size : Nat) : Safe (seekHeadParse r start size) := by
  unfold seekHeadParse
  refine Safe.bind (walk_safe (fun p h s => ?_) _ _ _ (Nat.le_refl _)) fun _ _ =>
    walk_safe (fun p h s => ?_) _ _ _ (Nat.le_refl _)
  · unfold seekCount
    repeat' safe_step hr
  · unfold seekStep
    simp only
    refine Safe.ite (fun _ => ?_) fun _ => Safe.ite (fun _ => Safe.ok _) fun _ => Safe.ok _
    have : Safe (seekParseEntry r h.pos h.size) := by
      unfold seekParseEntry
      simp only
      repeat' first
        | exact readID_safe _ _ | exact readUInt_safe _ _ | exact unserializeUInt_safe hr _ _
        | (refine orFalse_safe ?_ fun _ => ?_) | safe_step hr
    split
    · exact Safe.err _
    · rename_i e; exact absurd e this
    · exact Safe.ok _
    · exact Safe.ok _

/-! ### The EBML header -/

theorem scanByte_safe (r : Rdr) : ∀ (n p : Nat), Safe (scanByte r p n)
  | 0, _ => Safe.ok _
  | n + 1, p => by
    unfold scanByte
    split
    · split <;> exact Safe.err _
    · split
      · exact Safe.ok _
      · exact scanByte_safe r n _

theorem positiveUInt_safe {r : Rdr} (hr : r.Fails) (pos size : Nat) : Safe (positiveUInt r pos size) := by
  unfold positiveUInt
  split
  · exact Safe.err _
  · rename_i e; exact absurd e (unserializeUInt_safe hr _ _)
  · repeat' safe_step hr

theorem ebmlHeadParse_safe {r : Rdr} (hr : r.Fails) : Safe (ebmlHeadParse r) := by
  unfold ebmlHeadParse
  split
  · exact Safe.err _
  · rename_i e; exact absurd e (scanByte_safe _ _ _)
  split
  · repeat' safe_step hr
  · rename_i e; exact absurd e (readID_safe _ _)
  refine Safe.ite (fun _ => Safe.err _) fun _ => ?_
  unfold ebmlHeadSize
  split
  · exact Safe.err _
  · rename_i e; exact absurd e (getUIntLength_safe _ _)
  refine Safe.ite (fun _ => Safe.err _) fun _ => Safe.ite (fun _ => Safe.err _) fun _ => Safe.ite (fun _ => Safe.err _)
    fun _ => Safe.ite (fun _ => Safe.ok _) fun _ => ?_
  split
  · exact Safe.err _
  · rename_i e; exact absurd e (readUInt_safe _ _)
  unfold ebmlHeadPayload
  refine Safe.ite (fun _ => Safe.err _) fun _ => Safe.ite (fun _ => Safe.ok _) fun _ => ?_
  split
  · exact Safe.err _
  · rename_i e
    refine absurd e (walk_safe (fun p h s => ?_) _ _ _ (Nat.le_refl _))
    unfold ebmlHeadStep
    repeat' first | exact positiveUInt_safe hr _ _ | safe_step hr
  · repeat' safe_step hr

end Verif.Par
