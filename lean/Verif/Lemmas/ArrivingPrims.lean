/-
Two readers of the same file, one of which has only the beginning of it: what the primitive readers of mkvparser make
of that.
-/
import Verif.Lemmas.ParserSafe
import Verif.Lemmas.AnyFile

namespace Verif.Par
open Verif

/-- `R` has what `r` has, and more. -/
structure Rdr.Ext (r R : Rdr) : Prop where
  data : r.data <+: R.data
  short : R.short = r.short
  total : R.total = r.total
  sane : R.total < 0 ∨ (R.data.length : Int) ≤ R.total
  fails : r.short < 0

/-- The same outcome, or an error in both cases. -/
inductive Same {α : Type} : Res α → Res α → Prop where
  | same (x : Res α) : Same x x
  | errs (c d : Int) : Same (.err c) (.err d)

theorem Same.of_eq {α : Type} {x y : Res α} (h : x = y) : Same x y := h ▸ .same x

theorem Same.bind {α β : Type} {x X : Res α} {f F : α → Res β} (h : Same x X)
    (hf : ∀ a, x = .ok a → X = .ok a → Same (f a) (F a)) : Same (x >>= f) (X >>= F) := by
  cases h with
  | errs c d => exact .errs c d
  | same =>
    cases x with
    | ok a => exact hf a rfl rfl
    | err c => exact .same _
    | ub => exact .same _

theorem Same.orErr {α : Type} {x X : Res α} {c : Int} (h : Same x X) : x.orErr c = X.orErr c := by
  cases h <;> rfl

theorem Same.ok {α : Type} {x X : Res α} (h : Same x X) {a : α} : x = .ok a ↔ X = .ok a := by
  cases h with
  | same => exact Iff.rfl
  | errs c d => exact ⟨fun e => (by cases e), fun e => (by cases e)⟩

theorem Same.err {α : Type} {c : Int} {X : Res α} (h : Same (.err c) X) : ∃ d, X = .err d := by
  cases h with
  | same => exact ⟨_, rfl⟩
  | errs c d => exact ⟨_, rfl⟩

theorem Same.ite {α : Type} {p : Prop} [Decidable p] {x X y Y : Res α} (hx : p → Same x X) (hy : ¬ p → Same y Y) :
    Same (if p then x else y) (if p then X else Y) := by
  split
  · exact hx ‹_›
  · exact hy ‹_›

variable {r R : Rdr}

theorem Rdr.Ext.len (h : r.Ext R) : r.data.length ≤ R.data.length := h.data.length_le

theorem Rdr.Ext.big (h : r.Ext R) : R.Fails := by unfold Rdr.Fails; rw [h.short]; exact h.fails

theorem Rdr.Ext.small (h : r.Ext R) : r.Fails := h.fails

theorem Rdr.Ext.less (h : r.Ext R) : r.total < 0 ∨ (r.data.length : Int) ≤ r.total := by
  have := h.len
  have := h.sane
  rw [← h.total]
  omega

theorem Rdr.Ext.byte (h : r.Ext R) {p : Nat} (hp : p < r.data.length) : r.byte p = R.byte p := by
  obtain ⟨t, ht⟩ := h.data
  unfold Rdr.byte
  rw [← ht, List.getElem?_append_left hp]
  have : r.data[p]? = some r.data[p] := List.getElem?_eq_getElem hp
  rw [this]

theorem byte_beyond {p : Nat} (hp : r.data.length ≤ p) : r.byte p = .error r.short := by
  unfold Rdr.byte
  rw [List.getElem?_eq_none hp]

theorem Rdr.Ext.slice (h : r.Ext R) {p n : Nat} (hp : p + n ≤ r.data.length) :
    Verif.slice r.data p n = Verif.slice R.data p n := by
  obtain ⟨t, ht⟩ := h.data
  unfold Verif.slice
  rw [← ht, List.drop_append_of_le_length (by omega), List.take_append_of_le_length (by rw [List.length_drop]; omega)]

theorem Rdr.Ext.read (h : r.Ext R) {p n : Nat} (hp : p + n ≤ r.data.length) : r.read p n = R.read p n := by
  have := h.len
  unfold Rdr.read
  rw [if_pos (Or.inr hp), if_pos (Or.inr (by omega)), h.slice hp]

/-! ### Reading numbers that are there -/

theorem readUIntLoop_ext (h : r.Ext R) : ∀ (n acc p : Nat), p + n ≤ r.data.length →
    readUIntLoop r acc p n = readUIntLoop R acc p n
  | 0, _, _, _ => rfl
  | n + 1, acc, p, hp => by
    unfold readUIntLoop
    rw [h.byte (by omega)]
    split
    · rfl
    · exact readUIntLoop_ext h n _ _ (by omega)

theorem readIDLoop_ext (h : r.Ext R) : ∀ (n acc p : Nat), p + n ≤ r.data.length →
    readIDLoop r acc p n = readIDLoop R acc p n
  | 0, _, _, _ => rfl
  | n + 1, acc, p, hp => by
    unfold readIDLoop
    rw [h.byte (by omega)]
    split
    · rfl
    · exact readIDLoop_ext h n _ _ (by omega)

theorem unserializeUIntLoop_ext (h : r.Ext R) : ∀ (n acc p : Nat), p + n ≤ r.data.length →
    unserializeUIntLoop r acc p n = unserializeUIntLoop R acc p n
  | 0, _, _, _ => rfl
  | n + 1, acc, p, hp => by
    unfold unserializeUIntLoop
    rw [h.byte (by omega)]
    split
    · rfl
    · exact unserializeUIntLoop_ext h n _ _ (by omega)

theorem unserializeUInt_ext (h : r.Ext R) {p n : Nat} (hp : p + n ≤ r.data.length) :
    unserializeUInt r p n = unserializeUInt R p n := by
  unfold unserializeUInt
  rw [unserializeUIntLoop_ext h _ _ _ (by omega)]

theorem unserializeInt_ext (h : r.Ext R) {p n : Nat} (hp : p + n ≤ r.data.length) :
    unserializeInt r p n = unserializeInt R p n := by
  unfold unserializeInt
  split
  · rfl
  · rw [h.byte (by omega)]
    split
    · rw [unserializeUIntLoop_ext h _ _ _ (by omega)]
    · simp only
      rw [unserializeUIntLoop_ext h _ _ _ (by omega)]

theorem unserializeFloat_ext (h : r.Ext R) {p n : Nat} (hp : p + n ≤ r.data.length) :
    unserializeFloat r p n = unserializeFloat R p n := by
  unfold unserializeFloat
  split
  · rfl
  · rw [h.read (by omega)]

theorem unserializeString_ext (h : r.Ext R) {p n : Nat} (hp : p + n ≤ r.data.length) :
    unserializeString r p n = unserializeString R p n := by
  unfold unserializeString
  split
  · rfl
  · rw [h.read (by omega)]

theorem uintAt_ext (h : r.Ext R) {d : Hdr} (hp : d.pos + d.size ≤ r.data.length) : uintAt r d = uintAt R d := by
  unfold uintAt
  rw [unserializeUInt_ext h hp]

theorem uintFrom_ext (h : r.Ext R) {least : Int} {d : Hdr} (hp : d.pos + d.size ≤ r.data.length) :
    uintFrom least r d = uintFrom least R d := by
  unfold uintFrom
  rw [uintAt_ext h hp]

theorem binaryAt_ext (h : r.Ext R) {c : Int} {d : Hdr} (hp : d.pos + d.size ≤ r.data.length) :
    binaryAt r d c = binaryAt R d c := by
  unfold binaryAt
  rw [h.read hp]

/-! ### Reading numbers of which only the beginning may be there -/

/-- The length a first byte announces. -/
def announced (b : UInt8) : Nat := (markerLoop b 0x80 1 8).2

theorem announced_pos (b : UInt8) : 1 ≤ announced b := by
  revert b
  exact forall_byte (by decide +kernel)

theorem idBit_announced {b : UInt8} {n : Nat} (h : idBitLoop b 0 4 = some n) : announced b = n + 1 := by
  have key : ∀ b : UInt8, (idBitLoop b 0 4).all fun n => announced b = n + 1 := forall_byte (by decide +kernel)
  have := key b
  rw [h] at this
  simpa using this

theorem readUInt_first {p v n : Nat} (h : readUInt r p = .ok (v, n)) :
    ∃ b, r.byte p = .ok b ∧ b ≠ 0 ∧ n = announced b := by
  unfold readUInt at h
  rw [if_neg (by omega)] at h
  simp only [Int.toNat_natCast] at h
  split at h
  · split at h <;> cases h
  · rename_i b hb
    split at h
    · cases h
    · split at h
      · simp only [Res.ok.injEq, Prod.mk.injEq] at h
        exact ⟨b, hb, ‹_›, h.2.symm⟩
      · cases h
      · cases h

theorem readID_first {p v n : Nat} (h : readID r p = .ok (v, n)) :
    ∃ b, r.byte p = .ok b ∧ b ≠ 0 ∧ n = announced b := by
  unfold readID at h
  rw [if_neg (by omega)] at h
  simp only [Int.toNat_natCast] at h
  split at h
  · split at h <;> cases h
  · rename_i b hb
    split at h
    · cases h
    · split at h
      · cases h
      · rename_i k hk
        split at h
        · simp only [Res.ok.injEq, Prod.mk.injEq] at h
          exact ⟨b, hb, ‹_›, by rw [idBit_announced hk, h.2]⟩
        · cases h
        · cases h

theorem readUInt_ext (h : r.Ext R) {p : Nat} {b : UInt8} (hb : r.byte p = .ok b) (hp : p + announced b ≤ r.data.length) :
    readUInt r p = readUInt R p := by
  have hp1 := announced_pos b
  have hB : R.byte p = .ok b := by rw [← h.byte (by omega), hb]
  unfold readUInt
  simp only [Int.toNat_natCast]
  rw [hb, hB]
  simp only
  split
  · rfl
  split
  · rfl
  · rw [readUIntLoop_ext h _ _ _ (by unfold announced at hp hp1; omega)]

theorem readID_ext (h : r.Ext R) {p : Nat} {b : UInt8} (hb : r.byte p = .ok b) (hp : p + announced b ≤ r.data.length) :
    readID r p = readID R p := by
  have hp1 := announced_pos b
  have hB : R.byte p = .ok b := by rw [← h.byte (by omega), hb]
  unfold readID
  simp only [Int.toNat_natCast]
  rw [hb, hB]
  simp only
  split
  · rfl
  split
  · rfl
  · split
    · rfl
    · rename_i k hk
      rw [readIDLoop_ext h _ _ _ (by rw [idBit_announced hk] at hp; omega)]

theorem readUIntLoop_short : ∀ (n acc p : Nat), r.data.length < p + n → p ≤ r.data.length →
    ∃ c, readUIntLoop r acc p n = .err c
  | 0, _, _, h, h' => by omega
  | n + 1, acc, p, h, h' => by
    unfold readUIntLoop
    split
    · split <;> exact ⟨_, rfl⟩
    · rename_i b hb
      have hlt : p < r.data.length := by
        rcases Nat.lt_or_ge p r.data.length with hc | hc
        · exact hc
        · rw [byte_beyond hc] at hb; cases hb
      exact readUIntLoop_short n _ _ (by omega) (by omega)

theorem readIDLoop_short : ∀ (n acc p : Nat), r.data.length < p + n → p ≤ r.data.length →
    ∃ c, readIDLoop r acc p n = .err c
  | 0, _, _, h, h' => by omega
  | n + 1, acc, p, h, h' => by
    unfold readIDLoop
    split
    · split <;> exact ⟨_, rfl⟩
    · rename_i b hb
      have hlt : p < r.data.length := by
        rcases Nat.lt_or_ge p r.data.length with hc | hc
        · exact hc
        · rw [byte_beyond hc] at hb; cases hb
      exact readIDLoop_short n _ _ (by omega) (by omega)

/-- Reading a number: the outcome is the same, or the number does not end within the data. -/
theorem readUInt_any (h : r.Ext R) (p : Nat) : readUInt r p = readUInt R p ∨
    ((∃ c, readUInt r p = .err c) ∧ ∀ v n, readUInt R p = .ok (v, n) → r.data.length < p + n) := by
  rcases Nat.lt_or_ge p r.data.length with hp | hp
  · obtain ⟨b, hb⟩ : ∃ b, r.byte p = .ok b := ⟨r.data[p], by unfold Rdr.byte; rw [List.getElem?_eq_getElem hp]⟩
    rcases Nat.lt_or_ge r.data.length (p + announced b) with hl | hl
    · refine .inr ⟨?_, fun v n hR => ?_⟩
      · unfold readUInt
        rw [if_neg (by omega)]
        simp only [Int.toNat_natCast]
        rw [hb]
        simp only
        split
        · exact ⟨_, rfl⟩
        · obtain ⟨c, hc⟩ := readUIntLoop_short (r := r) ((markerLoop b 128 1 8).2 - 1) (b &&& ~~~(markerLoop b 128 1 8).1).toNat
            (p + 1) (by have := announced_pos b; unfold announced at hl this; omega) (by omega)
          rw [hc]
          exact ⟨_, rfl⟩
      · obtain ⟨b', hb', -, e⟩ := readUInt_first hR
        rw [← h.byte hp, hb] at hb'
        cases hb'
        rw [e]
        exact hl
    · exact .inl (readUInt_ext h hb hl)
  · refine .inr ⟨?_, fun v n hR => ?_⟩
    · unfold readUInt
      rw [if_neg (by omega)]
      simp only [Int.toNat_natCast]
      rw [byte_beyond hp]
      simp only
      split <;> exact ⟨_, rfl⟩
    · obtain ⟨b', hb', -, e⟩ := readUInt_first hR
      have := announced_pos b'
      omega

/-- The same for IDs. -/
theorem readID_any (h : r.Ext R) (p : Nat) : readID r p = readID R p ∨
    ((∃ c, readID r p = .err c) ∧ ∀ v n, readID R p = .ok (v, n) → r.data.length < p + n) := by
  rcases Nat.lt_or_ge p r.data.length with hp | hp
  · obtain ⟨b, hb⟩ : ∃ b, r.byte p = .ok b := ⟨r.data[p], by unfold Rdr.byte; rw [List.getElem?_eq_getElem hp]⟩
    rcases Nat.lt_or_ge r.data.length (p + announced b) with hl | hl
    · refine .inr ⟨?_, fun v n hR => ?_⟩
      · unfold readID
        rw [if_neg (by omega)]
        simp only [Int.toNat_natCast]
        rw [hb]
        simp only
        split
        · exact ⟨_, rfl⟩
        · split
          · exact ⟨_, rfl⟩
          · rename_i k hk
            obtain ⟨c, hc⟩ := readIDLoop_short (r := r) k b.toNat (p + 1) (by rw [idBit_announced hk] at hl; omega) (by omega)
            rw [hc]
            exact ⟨_, rfl⟩
      · obtain ⟨b', hb', -, e⟩ := readID_first hR
        rw [← h.byte hp, hb] at hb'
        cases hb'
        rw [e]
        exact hl
    · exact .inl (readID_ext h hb hl)
  · refine .inr ⟨?_, fun v n hR => ?_⟩
    · unfold readID
      rw [if_neg (by omega)]
      simp only [Int.toNat_natCast]
      rw [byte_beyond hp]
      simp only
      split <;> exact ⟨_, rfl⟩
    · obtain ⟨b', hb', -, e⟩ := readID_first hR
      have := announced_pos b'
      omega

/-- The header of an element inside a range that is there. -/
theorem parseElementHeader_ext (h : r.Ext R) {stop : Nat} (hs : stop ≤ r.data.length) (pos : Nat) :
    parseElementHeader r pos stop = parseElementHeader R pos stop := by
  unfold parseElementHeader
  split
  · rfl
  rcases readID_any h pos with e | ⟨⟨c, e⟩, hlong⟩
  · rw [e]
    split
    · rfl
    · rfl
    rename_i id n hid
    simp only
    split
    · rfl
    rename_i hlt
    have hcast : (pos : Int) + (n : Int) = ((pos + n : Nat) : Int) := by omega
    rw [hcast]
    rcases readUInt_any h (pos + n) with e' | ⟨⟨c, e'⟩, hlong⟩
    · rw [e']
    · rw [e']
      simp only
      cases hR : readUInt R ((pos + n : Nat) : Int) with
      | err c => rfl
      | ub => exact absurd hR (readUInt_safe _ _)
      | ok x =>
        obtain ⟨v, m⟩ := x
        have := hlong v m hR
        simp only
        split
        · rfl
        · rw [if_pos (by omega)]
  · rw [e]
    simp only
    cases hR : readID R pos with
    | err c => rfl
    | ub => exact absurd hR (readID_safe _ _)
    | ok x =>
      obtain ⟨v, m⟩ := x
      have := hlong v m hR
      simp only
      rw [if_pos (by omega)]

/-! ### Walking over elements -/

/-- A loop over elements in a range that is there. -/
theorem walk_same {σ : Type} (h : r.Ext R) {stop : Nat} (hs : stop ≤ r.data.length) {step Step : Nat → Hdr → σ → Res σ}
    (hin : ∀ p d s, d.pos + d.size ≤ stop → Same (step p d s) (Step p d s))
    (hsafe : ∀ p d s, Safe (step p d s)) (hSafe : ∀ p d s, Safe (Step p d s)) :
    ∀ (n pos : Nat) (st : σ), stop - pos ≤ n → Same (walk r stop step pos st) (walk R stop Step pos st) := by
  intro n
  induction n with
  | zero =>
    intro pos st hn
    have hn' : ¬ pos < stop := by omega
    rw [walk_unfold, walk_unfold (r := R), if_neg hn', if_neg hn']
    exact .same _
  | succ n ih =>
    intro pos st hn
    rw [walk_unfold, walk_unfold (r := R)]
    split
    · rw [parseElementHeader_ext h hs]
      cases hp : parseElementHeader R pos stop with
      | err c => exact .same _
      | ub => exact .same _
      | ok d =>
        have := parseElementHeader_pos hp
        simp only
        by_cases hd : d.pos + d.size ≤ stop
        · cases hx : step pos d st with
          | ub => exact absurd hx (hsafe _ _ _)
          | err c =>
            cases hX : Step pos d st with
            | ub => exact absurd hX (hSafe _ _ _)
            | err C => exact .errs _ _
            | ok s' => have := hin pos d st hd; rw [hx, hX] at this; cases this
          | ok s' =>
            have := (hin pos d st hd).ok.1 hx
            rw [this]
            simp only
            rw [if_neg (by omega), if_neg (by omega)]
            exact ih _ _ (by omega)
        · cases hx : step pos d st with
          | ub => exact absurd hx (hsafe _ _ _)
          | err c =>
            cases hX : Step pos d st with
            | ub => exact absurd hX (hSafe _ _ _)
            | err C => exact .errs _ _
            | ok s' => simp only; rw [if_pos (by omega)]; exact .errs _ _
          | ok s' =>
            simp only
            rw [if_pos (by omega)]
            cases hX : Step pos d st with
            | ub => exact absurd hX (hSafe _ _ _)
            | err C => exact .errs _ _
            | ok s' => simp only; rw [if_pos (by omega)]; exact .errs _ _
    · exact .same _

/-- The second of two loops over the same elements. -/
theorem walk_same_again {σ τ : Type} (h : r.Ext R) {stop : Nat} (hs : stop ≤ r.data.length) {count : Nat → Hdr → τ → Res τ}
    {step Step : Nat → Hdr → σ → Res σ} {P : σ → σ → Prop}
    (hin : ∀ p d s S, P s S → d.pos + d.size ≤ stop → ((∃ c C, step p d s = .err c ∧ Step p d S = .err C) ∨
      ∃ s' S', step p d s = .ok s' ∧ Step p d S = .ok S' ∧ P s' S')) :
    ∀ (n pos : Nat) (st St : σ) (ct ct' : τ), stop - pos ≤ n → P st St → walk R stop count pos ct = .ok ct' →
      ((∃ c C, walk r stop step pos st = .err c ∧ walk R stop Step pos St = .err C) ∨
        ∃ s' S', walk r stop step pos st = .ok s' ∧ walk R stop Step pos St = .ok S' ∧ P s' S') := by
  intro n
  induction n with
  | zero =>
    intro pos st St ct ct' hn hP hc
    have hn' : ¬ pos < stop := by omega
    rw [walk_unfold, walk_unfold (r := R), if_neg hn', if_neg hn']
    split
    · exact .inr ⟨_, _, rfl, rfl, hP⟩
    · exact .inl ⟨_, _, rfl, rfl⟩
  | succ n ih =>
    intro pos st St ct ct' hn hP hc
    rw [walk_unfold] at hc
    rw [walk_unfold, walk_unfold (r := R)]
    split
    · rw [if_pos ‹_›] at hc
      rw [parseElementHeader_ext h hs]
      cases hp : parseElementHeader R pos stop with
      | err c => exact .inl ⟨_, _, rfl, rfl⟩
      | ub => exact absurd hp (parseElementHeader_safe _ _ _)
      | ok d =>
        rw [hp] at hc
        have := parseElementHeader_pos hp
        simp only at hc ⊢
        split at hc
        · cases hc
        · cases hc
        split at hc
        · cases hc
        rename_i hd
        rcases hin pos d st St hP (by omega) with ⟨c, C, e, E⟩ | ⟨s', S', e, E, hP'⟩
        · rw [e, E]
          exact .inl ⟨_, _, rfl, rfl⟩
        · rw [e, E]
          simp only
          rw [if_neg hd, if_neg hd]
          exact ih _ _ _ _ _ (by omega) hP' hc
    · split
      · exact .inr ⟨_, _, rfl, rfl, hP⟩
      · exact .inl ⟨_, _, rfl, rfl⟩

end Verif.Par
