/-
Lemmas about the WebVTT model: numbers, times, settings and the timings line.
-/
import Verif.Spec.WebVtt

namespace Verif.Vtt
open Verif Spec

/-- `s` is what the line holds from position `i` on. -/
def Sfx (line : Bytes) (i : Nat) (s : Bytes) : Prop := i ≤ line.length ∧ line.drop i = s

theorem Sfx.start (line : Bytes) : Sfx line 0 line := ⟨Nat.zero_le _, rfl⟩

theorem Sfx.of_le {line : Bytes} {i : Nat} (h : i ≤ line.length) : Sfx line i (line.drop i) :=
  ⟨h, rfl⟩

theorem Sfx.length {line : Bytes} {i : Nat} {s : Bytes} (h : Sfx line i s) :
    i + s.length = line.length := by
  rw [← h.2, List.length_drop]; have := h.1; omega

theorem Sfx.drop {line : Bytes} {i : Nat} {a s : Bytes} (h : Sfx line i (a ++ s)) :
    Sfx line (i + a.length) s := by
  have := h.length
  simp only [List.length_append] at this
  refine ⟨by omega, ?_⟩
  rw [← List.drop_drop, h.2, List.drop_left]

theorem Sfx.tail {line : Bytes} {i : Nat} {c : UInt8} {s : Bytes} (h : Sfx line i (c :: s)) :
    Sfx line (i + 1) s := Sfx.drop (a := [c]) h

theorem Sfx.lt {line : Bytes} {i : Nat} {c : UInt8} {s : Bytes} (h : Sfx line i (c :: s)) :
    i < line.length := by have := h.length; simp at this; omega

theorem Sfx.get {line : Bytes} {i : Nat} {c : UInt8} {s : Bytes} (h : Sfx line i (c :: s)) :
    line[i]'h.lt = c := by
  have h2 := h.2
  rw [List.drop_eq_getElem_cons h.lt] at h2
  exact (List.cons.inj h2).1

theorem Sfx.nil {line : Bytes} {i : Nat} (h : Sfx line i []) : i = line.length := by
  have := h.length; simpa using this

theorem charAt_cons {line : Bytes} {i : Nat} {c : UInt8} {s : Bytes} (h : Sfx line i (c :: s)) :
    charAt line i = .ok c := by
  unfold charAt; rw [dif_pos h.lt, h.get]

theorem charAt_nil {line : Bytes} {i : Nat} (h : Sfx line i []) : charAt line i = .ok 0 := by
  unfold charAt; rw [dif_neg (by have := h.nil; omega), if_pos h.nil]

theorem charAt_head {line : Bytes} {i : Nat} {s : Bytes} (h : Sfx line i s) :
    charAt line i = .ok (s.headD 0) := by
  cases s with
  | nil => exact charAt_nil h
  | cons c s => exact charAt_cons h

/-! ### Numbers -/

theorem isDigit_iff (c : UInt8) : isDigit c = true ↔ 48 ≤ c.toNat ∧ c.toNat ≤ 57 := by
  simp [isDigit]

theorem dec_lt : ∀ (s : Bytes), (∀ c ∈ s, 48 ≤ c.toNat ∧ c.toNat ≤ 57) → dec s < 10 ^ s.length
  | [], _ => by simp [dec]
  | c :: r, h => by
    have h1 := dec_lt r (fun d hd => h d (by simp [hd]))
    have h2 := h c (by simp)
    simp only [dec, List.length_cons, Nat.pow_succ]
    have : (c.toNat - 48) * 10 ^ r.length ≤ 9 * 10 ^ r.length := Nat.mul_le_mul_right _ (by omega)
    omega

theorem num_step (r x P : Nat) : (r * 10 + x) * P = r * (P * 10) + x * P := by
  rw [Nat.add_mul, Nat.mul_assoc, Nat.mul_comm 10 P]

theorem numLoop_stop {line : Bytes} {i : Nat} {s : Bytes} (r : Nat) (h : Sfx line i s)
    (hs : ∀ c t, s = c :: t → isDigit c = false) : numLoop line i r = .ok (r, i) := by
  rw [numLoop]
  cases s with
  | nil => rw [dif_neg (by have := h.nil; omega), if_pos h.nil]
  | cons c t =>
    rw [dif_pos h.lt]
    simp only [h.get, hs c t rfl]
    rfl

theorem numLoop_digits {line : Bytes} {s : Bytes} (hs : ∀ c t, s = c :: t → isDigit c = false) :
    ∀ (ds : Bytes) (i r : Nat), Sfx line i (ds ++ s) →
      (∀ c ∈ ds, 48 ≤ c.toNat ∧ c.toNat ≤ 57) → r ≤ intMax →
      numLoop line i r =
        if r * 10 ^ ds.length + dec ds ≤ intMax then
          .ok (r * 10 ^ ds.length + dec ds, i + ds.length)
        else .err (-1)
  | [], i, r, h, _, hr => by
    rw [numLoop_stop r h hs]
    simp [dec, hr]
  | c :: t, i, r, h, hd, hr => by
    have hc := hd c (by simp)
    have hlt : i < line.length := Sfx.lt (c := c) (s := t ++ s) h
    have hget : line[i] = c := Sfx.get (c := c) (s := t ++ s) h
    have hdt : ∀ c ∈ t, 48 ≤ c.toNat ∧ c.toNat ≤ 57 := fun d hd' => hd d (by simp [hd'])
    rw [numLoop, dif_pos hlt]
    simp only [hget, (isDigit_iff c).mpr hc, if_true]
    have hp : 0 < 10 ^ t.length := Nat.pow_pos (by decide)
    have hval : r * 10 ^ (c :: t).length + dec (c :: t) =
        (r * 10 + (c.toNat - 48)) * 10 ^ t.length + dec t := by
      rw [num_step]; simp only [List.length_cons, Nat.pow_succ, dec]; omega
    rw [hval]
    have hbig : r * 10 + (c.toNat - 48) > intMax →
        ¬ (r * 10 + (c.toNat - 48)) * 10 ^ t.length + dec t ≤ intMax := by
      intro hb hle
      have := Nat.mul_le_mul_left (r * 10 + (c.toNat - 48)) hp
      omega
    by_cases h1 : r > intMax / 10
    · rw [if_pos h1, if_neg (hbig (by simp only [intMax] at h1 ⊢; omega))]
    · rw [if_neg h1]
      by_cases h2 : r * 10 > intMax - (c.toNat - 48)
      · rw [if_pos h2, if_neg (hbig (by simp only [intMax] at h2 ⊢; omega))]
      · rw [if_neg h2, numLoop_digits hs t (i + 1) _ (Sfx.tail (c := c) (s := t ++ s) h) hdt
          (by simp only [intMax] at h2 ⊢; omega)]
        simp only [List.length_cons]
        rw [show i + 1 + t.length = i + (t.length + 1) from by omega]

/-- What is not a digit comes next. -/
def NoDigit (s : Bytes) : Prop := ∀ c t, s = c :: t → ¬ (48 ≤ c.toNat ∧ c.toNat ≤ 57)

theorem NoDigit.isDigit {s : Bytes} (h : NoDigit s) : ∀ c t, s = c :: t → isDigit c = false := by
  intro c t e
  cases hd : Vtt.isDigit c with
  | false => rfl
  | true => exact absurd ((isDigit_iff c).mp hd) (h c t e)

theorem parseNumber_digits {line ds s : Bytes} {i : Nat} (h : Sfx line i (ds ++ s))
    (hd : Digits ds) (hs : NoDigit s) :
    parseNumber line i =
      if dec ds ≤ intMax then .ok (dec ds, i + ds.length) else .err (-1) := by
  obtain ⟨hne, hdig⟩ := hd
  cases ds with
  | nil => exact absurd rfl hne
  | cons c t =>
    have hlt : i < line.length := Sfx.lt (c := c) (s := t ++ s) h
    unfold parseNumber
    rw [Res.refuse_neg (by omega), Res.bind_ok, charAt_cons (c := c) (s := t ++ s) h, Res.bind_ok,
      Res.refuse_neg (by rw [(isDigit_iff c).mpr (hdig c (by simp))]; simp), Res.bind_ok,
      numLoop_digits hs.isDigit (c :: t) i 0 h hdig (by simp [intMax])]
    simp only [Nat.zero_mul, Nat.zero_add]

theorem parseNumber_none {line s : Bytes} {i : Nat} (h : Sfx line i s) (hs : NoDigit s) :
    parseNumber line i = .err (-1) := by
  unfold parseNumber
  cases s with
  | nil => rw [Res.refuse_pos (by have := h.nil; omega)]; rfl
  | cons c t =>
    rw [Res.refuse_neg (by have := h.lt; omega), Res.bind_ok, charAt_cons h, Res.bind_ok,
      Res.refuse_pos (hs.isDigit c t rfl)]
    rfl

theorem parseNumber_outside {line : Bytes} {i : Nat} (h : line.length ≤ i) :
    parseNumber line i = .err (-1) := by
  unfold parseNumber; rw [Res.refuse_pos h]; rfl

/-- Any text begins with some digits, perhaps none. -/
theorem digits_split : ∀ s : Bytes, ∃ ds t, s = ds ++ t ∧
    (∀ c ∈ ds, 48 ≤ c.toNat ∧ c.toNat ≤ 57) ∧ NoDigit t
  | [] => ⟨[], [], rfl, by simp, by intro c t h; simp at h⟩
  | c :: s => by
    by_cases hc : 48 ≤ c.toNat ∧ c.toNat ≤ 57
    · obtain ⟨ds, t, h1, h2, h3⟩ := digits_split s
      refine ⟨c :: ds, t, by simp [h1], ?_, h3⟩
      intro d hd
      rcases List.mem_cons.mp hd with rfl | hd
      · exact hc
      · exact h2 d hd
    · exact ⟨[], c :: s, rfl, by simp, by intro d t h; cases h; exact hc⟩

/-- Whatever is read as a number is a string of digits in the line. -/
theorem parseNumber_inv {line : Bytes} {i v j : Nat} (h : parseNumber line i = .ok (v, j)) :
    ∃ ds s, Sfx line i (ds ++ s) ∧ Digits ds ∧ NoDigit s ∧ v = dec ds ∧ dec ds ≤ intMax ∧
      j = i + ds.length := by
  by_cases hlt : i < line.length
  · obtain ⟨ds, t, h1, h2, h3⟩ := digits_split (line.drop i)
    have hsf : Sfx line i (ds ++ t) := ⟨Nat.le_of_lt hlt, h1⟩
    by_cases hne : ds = []
    · subst hne
      rw [parseNumber_none (s := t) hsf h3] at h; cases h
    · rw [parseNumber_digits hsf ⟨hne, h2⟩ h3] at h
      split at h
      · rename_i hle
        cases h
        exact ⟨ds, t, hsf, ⟨hne, h2⟩, h3, rfl, hle, rfl⟩
      · cases h
  · rw [parseNumber_outside (by omega)] at h; cases h

theorem parseNumber_not_ub (line : Bytes) (i : Nat) : parseNumber line i ≠ .ub := by
  by_cases hlt : i < line.length
  · obtain ⟨ds, t, h1, h2, h3⟩ := digits_split (line.drop i)
    have hsf : Sfx line i (ds ++ t) := ⟨Nat.le_of_lt hlt, h1⟩
    by_cases hne : ds = []
    · subst hne
      rw [parseNumber_none (s := t) hsf h3]; simp
    · rw [parseNumber_digits hsf ⟨hne, h2⟩ h3]
      split <;> simp
  · rw [parseNumber_outside (by omega)]; simp

/-! ### Blanks -/

/-- What is not a blank comes next. -/
def NoBlank (s : Bytes) : Prop := ∀ c t, s = c :: t → ¬ (c = 0x20 ∨ c = 0x09)

theorem skipWs_blank {line s : Bytes} (hs : NoBlank s) : ∀ (b : Bytes) (i : Nat),
    Sfx line i (b ++ s) → Blank b → skipWs line i = .ok (i + b.length)
  | [], i, h, _ => by
    rw [skipWs]
    cases s with
    | nil => rw [dif_neg (by have := Sfx.nil h; omega), if_pos (Sfx.nil h)]; rfl
    | cons c t =>
      have hlt : i < line.length := Sfx.lt (c := c) (s := t) h
      have hget : line[i] = c := Sfx.get (c := c) (s := t) h
      rw [dif_pos hlt]
      simp only [hget, if_neg (hs c t rfl)]
      rfl
  | c :: b, i, h, hb => by
    have hlt : i < line.length := Sfx.lt (c := c) (s := b ++ s) h
    have hget : line[i] = c := Sfx.get (c := c) (s := b ++ s) h
    rw [skipWs, dif_pos hlt]
    simp only [hget, if_pos (hb c (by simp))]
    rw [skipWs_blank hs b (i + 1) (Sfx.tail (c := c) (s := b ++ s) h)
      (fun d hd => hb d (by simp [hd]))]
    simp only [List.length_cons]
    rw [show i + 1 + b.length = i + (b.length + 1) from by omega]

theorem blank_split : ∀ s : Bytes, ∃ b t, s = b ++ t ∧ Blank b ∧ NoBlank t
  | [] => ⟨[], [], rfl, by simp [Blank], by intro c t h; simp at h⟩
  | c :: s => by
    by_cases hc : c = 0x20 ∨ c = 0x09
    · obtain ⟨ds, t, h1, h2, h3⟩ := blank_split s
      refine ⟨c :: ds, t, by simp [h1], ?_, h3⟩
      intro d hd
      rcases List.mem_cons.mp hd with rfl | hd
      · exact hc
      · exact h2 d hd
    · exact ⟨[], c :: s, rfl, by simp [Blank], by intro d t h; cases h; exact hc⟩

theorem skipWs_total {line : Bytes} {i : Nat} (h : i ≤ line.length) :
    ∃ b s, Sfx line i (b ++ s) ∧ Blank b ∧ NoBlank s ∧ skipWs line i = .ok (i + b.length) := by
  obtain ⟨b, t, h1, h2, h3⟩ := blank_split (line.drop i)
  have hsf : Sfx line i (b ++ t) := ⟨h, h1⟩
  exact ⟨b, t, hsf, h2, h3, skipWs_blank h3 b i hsf h2⟩

/-! ### Times -/

theorem noDigit_colon (s : Bytes) : NoDigit (0x3A :: s) := by
  intro c t h; cases h; decide

theorem noDigit_dot (s : Bytes) : NoDigit (0x2E :: s) := by
  intro c t h; cases h; decide

/-- The character after a time: nothing, NUL or a blank. -/
def Stop (s : Bytes) : Prop := s.headD 0 = 0 ∨ s.headD 0 = 0x20 ∨ s.headD 0 = 0x09

theorem Stop.noDigit {s : Bytes} (h : Stop s) : NoDigit s := by
  intro c t e; subst e
  rcases h with h | h | h <;> (simp at h; subst h; decide)

theorem digits_noColon {ds : Bytes} (h : Digits ds) (s : Bytes) : (ds ++ s).headD 0 ≠ 0x3A := by
  obtain ⟨hne, hd⟩ := h
  cases ds with
  | nil => exact absurd rfl hne
  | cons c t =>
    intro e
    simp at e
    subst e
    have := hd 0x3A (by simp)
    revert this; decide

/-- The fields a clock is read into. -/
def Clock.fields : Clock → Int × Int × Int
  | .sec s => ((dec s / 60 / 60 : Nat), (dec s / 60 % 60 : Nat), (dec s % 60 : Nat))
  | .minSec m s => (0, (dec m : Nat), (dec s : Nat))
  | .hourMinSec h m s => ((dec h : Nat), (dec m : Nat), (dec s : Nat))

theorem sub_div_mul (n : Nat) : n - n / 60 * 60 = n % 60 := by omega

theorem sub_div_mul_int (n : Nat) :
    ((n / 60 : Nat) : Int) - ((n / 60 / 60 : Nat) : Int) * 60 = ((n / 60 % 60 : Nat) : Int) := by
  omega

theorem parseClock_ok {line s : Bytes} {i : Nat} {w : Clock} (h : Sfx line i (w.text ++ s))
    (hw : w.Legal) (hs : NoDigit s) (hc : s.headD 0 ≠ 0x3A) :
    parseClock line i =
      .ok ((Clock.fields w).1, (Clock.fields w).2.1, (Clock.fields w).2.2, i + w.text.length) := by
  unfold parseClock
  cases w with
  | sec d =>
    obtain ⟨hd, hle⟩ := hw
    rw [parseNumber_digits (ds := d) (s := s) h hd hs, if_pos (show dec d ≤ intMax from hle), Res.bind_ok]
    simp only
    rw [charAt_head (i := i + d.length) (Sfx.drop h), Res.bind_ok, if_neg hc]
    simp only [Clock.fields, Clock.text, sub_div_mul, sub_div_mul_int]
  | minSec m d =>
    obtain ⟨hm, hd, hlm, hld⟩ := hw
    have h0 : Sfx line i (m ++ (0x3A :: (d ++ s))) := by simpa [Clock.text] using h
    have h1 := Sfx.drop h0
    have h2 := Sfx.tail h1
    have h3 := Sfx.drop h2
    rw [parseNumber_digits h0 hm (noDigit_colon _), if_pos (by simp only [intMax]; omega),
      Res.bind_ok]
    simp only
    rw [charAt_cons h1, Res.bind_ok, if_pos rfl,
      parseNumber_digits h2 hd hs, if_pos (by simp only [intMax]; omega), Res.bind_ok]
    simp only
    rw [Res.refuse_neg (by omega), Res.bind_ok, charAt_head h3, Res.bind_ok, if_neg hc,
      Res.refuse_neg (by omega), Res.bind_ok]
    simp only [Clock.fields, Clock.text, List.length_append, List.length_cons, List.length_nil]
    rw [show i + m.length + 1 + d.length = i + (m.length + (0 + 1) + d.length) from by omega]
  | hourMinSec hh m d =>
    obtain ⟨hh1, hm, hd, hlh, hlm, hld⟩ := hw
    have h0 : Sfx line i (hh ++ (0x3A :: (m ++ (0x3A :: (d ++ s))))) := by
      simpa [Clock.text] using h
    have h1 := Sfx.drop h0
    have h2 := Sfx.tail h1
    have h3 := Sfx.drop h2
    have h4 := Sfx.tail h3
    rw [parseNumber_digits h0 hh1 (noDigit_colon _), if_pos (show dec hh ≤ intMax from hlh), Res.bind_ok]
    simp only
    rw [charAt_cons h1, Res.bind_ok, if_pos rfl,
      parseNumber_digits h2 hm (noDigit_colon _), if_pos (by simp only [intMax]; omega),
      Res.bind_ok]
    simp only
    rw [Res.refuse_neg (by omega), Res.bind_ok, charAt_cons h3, Res.bind_ok, if_pos rfl,
      parseNumber_digits h4 hd hs, if_pos (by simp only [intMax]; omega), Res.bind_ok]
    simp only
    rw [Res.refuse_neg (by omega), Res.bind_ok]
    simp only [Clock.fields, Clock.text, List.length_append, List.length_cons, List.length_nil]
    rw [show i + hh.length + 1 + m.length + 1 + d.length =
      i + (hh.length + (0 + 1) + m.length + (0 + 1) + d.length) from by omega]

/-- Milliseconds as the parser counts them. -/
def readMs (v : Nat) : Nat := if v < 10 then v * 100 else if v < 100 then v * 10 else v

def fracText : Option Bytes → Bytes
  | none => []
  | some f => 0x2E :: f

def readFrac : Option Bytes → Nat
  | none => 0
  | some f => readMs (dec f)

theorem parseFraction_ok {line s : Bytes} {i : Nat} {f : Option Bytes}
    (h : Sfx line i (fracText f ++ s)) (hf : ∀ g, f = some g → Digits g ∧ dec g < 1000)
    (hs : NoDigit s) (hd : f = none → s.headD 0 ≠ 0x2E) :
    parseFraction line i = .ok ((readFrac f : Nat), i + (fracText f).length) := by
  unfold parseFraction
  cases f with
  | none =>
    rw [charAt_head (s := s) h, Res.bind_ok, if_neg (hd rfl)]
    rfl
  | some g =>
    obtain ⟨hg, hlt⟩ := hf g rfl
    have h1 : Sfx line (i + 1) (g ++ s) := Sfx.tail h
    rw [charAt_cons (c := 0x2E) (s := g ++ s) h, Res.bind_ok, if_pos rfl, parseNumber_digits h1 hg hs,
      if_pos (by simp only [intMax]; omega), Res.bind_ok]
    simp only
    rw [Res.refuse_neg (by omega), Res.bind_ok]
    simp only [readFrac, readMs, fracText, List.length_cons]
    rw [show i + 1 + g.length = i + (g.length + 1) from by omega]
    split
    · rfl
    · split <;> rfl

/-- The time a stamp is read as. -/
def readStamp (w : Stamp) : Time :=
  ⟨(Clock.fields w.clock).1, (Clock.fields w.clock).2.1, (Clock.fields w.clock).2.2,
    (readFrac w.frac : Nat)⟩

theorem stamp_text (w : Stamp) : w.text = w.clock.text ++ fracText w.frac := by
  unfold Stamp.text
  cases w.frac <;> simp [fracText]

theorem clock_head {w : Clock} (hw : w.Legal) (s : Bytes) : ∃ c t, w.text ++ s = c :: t ∧
    48 ≤ c.toNat ∧ c.toNat ≤ 57 := by
  have key : ∀ (d r : Bytes), Digits d → ∃ c t, d ++ r = c :: t ∧ 48 ≤ c.toNat ∧ c.toNat ≤ 57 := by
    intro d r hd
    cases d with
    | nil => exact absurd rfl hd.1
    | cons c t => exact ⟨c, t ++ r, rfl, hd.2 c (by simp)⟩
  cases w with
  | sec d => exact key d s hw.1
  | minSec m d => simpa [Clock.text] using key m (0x3A :: (d ++ s)) hw.1
  | hourMinSec h m d => simpa [Clock.text] using key h (0x3A :: (m ++ 0x3A :: (d ++ s))) hw.1

theorem digit_noBlank {s : Bytes} (h : ∃ c t, s = c :: t ∧ 48 ≤ c.toNat ∧ c.toNat ≤ 57) :
    NoBlank s := by
  obtain ⟨c, t, rfl, h1, h2⟩ := h
  intro d u e
  cases e
  rintro (rfl | rfl) <;> revert h1 <;> decide

theorem fracText_head {f : Option Bytes} {s : Bytes} (hs : Stop s) :
    NoDigit (fracText f ++ s) ∧ (fracText f ++ s).headD 0 ≠ 0x3A := by
  cases f with
  | none =>
    refine ⟨hs.noDigit, ?_⟩
    intro e
    have e' : s.headD 0 = 0x3A := e
    rcases hs with h | h | h <;> (rw [h] at e'; revert e'; decide)
  | some g => exact ⟨noDigit_dot _, by simp [fracText]⟩

theorem parseTime_ok {line b s : Bytes} {i : Nat} {w : Stamp}
    (h : Sfx line i (b ++ (w.text ++ s))) (hb : Blank b) (hw : w.Legal) (hs : Stop s) :
    parseTime line i = .ok (readStamp w, i + b.length + w.text.length) := by
  rw [stamp_text, List.append_assoc] at h
  have hne : i < line.length := by
    obtain ⟨c, t, e, -⟩ := clock_head hw.1 (fracText w.frac ++ s)
    have := h.length
    rw [e] at this
    simp at this; omega
  unfold parseTime
  have h1 := Sfx.drop h
  have h2 := Sfx.drop h1
  have h3 := Sfx.drop h2
  rw [Res.refuse_neg (by omega), Res.bind_ok,
    skipWs_blank (digit_noBlank (clock_head hw.1 _)) b i h hb, Res.bind_ok,
    parseClock_ok h1 hw.1 (fracText_head hs).1 (fracText_head hs).2, Res.bind_ok]
  simp only
  rw [parseFraction_ok h2 hw.2 hs.noDigit (fun _ e => by
    rcases hs with h | h | h <;> (rw [h] at e; revert e; decide)), Res.bind_ok]
  simp only
  rw [charAt_head h3, Res.bind_ok, Res.refuse_neg (by
    rintro ⟨a, b, c⟩
    rcases hs with h | h | h
    · exact a h
    · exact b h
    · exact c h), Res.bind_ok, stamp_text]
  simp only [readStamp, List.length_append]
  rw [show i + b.length + w.clock.text.length + (fracText w.frac).length =
    i + b.length + (w.clock.text.length + (fracText w.frac).length) from by omega]

/-! ### The time read is the time written -/

theorem clock_normal {w : Clock} (hw : w.Legal) :
    0 ≤ (Clock.fields w).1 ∧ (Clock.fields w).1 ≤ 2147483647 ∧
    0 ≤ (Clock.fields w).2.1 ∧ (Clock.fields w).2.1 < 60 ∧
    0 ≤ (Clock.fields w).2.2 ∧ (Clock.fields w).2.2 < 60 ∧
    3600 * (Clock.fields w).1 + 60 * (Clock.fields w).2.1 + (Clock.fields w).2.2 = w.seconds := by
  cases w with
  | sec d =>
    obtain ⟨-, hle⟩ := hw
    simp only [Clock.fields, Clock.seconds]
    generalize dec d = n at hle ⊢
    omega
  | minSec m d =>
    obtain ⟨-, -, h1, h2⟩ := hw
    simp only [Clock.fields, Clock.seconds]
    omega
  | hourMinSec h m d =>
    obtain ⟨-, -, -, h1, h2, h3⟩ := hw
    simp only [Clock.fields, Clock.seconds]
    omega

theorem readMs_lt {v : Nat} (h : v < 1000) : readMs v < 1000 := by
  unfold readMs; split
  · omega
  · split <;> omega

/-- Without leading zeros the fraction is read as it is written. -/
theorem readMs_frac {f : Bytes} (hd : Digits f) (hlt : dec f < 1000)
    (hz : f.head? ≠ some 0x30 ∨ dec f = 0) : readMs (dec f) = dec f * 1000 / 10 ^ f.length := by
  rcases hz with hz | hz
  · cases f with
    | nil => exact absurd rfl hd.1
    | cons c t =>
      have hc := hd.2 c (by simp)
      have hc0 : c.toNat ≠ 48 := by
        intro e
        apply hz
        have : c = 0x30 := by
          apply UInt8.toNat_inj.mp; rw [e]; rfl
        simp [this]
      have hlow : 10 ^ t.length ≤ dec (c :: t) := by
        simp only [dec]
        have : 1 * 10 ^ t.length ≤ (c.toNat - 48) * 10 ^ t.length :=
          Nat.mul_le_mul_right _ (by omega)
        omega
      have hhigh := dec_lt (c :: t) hd.2
      match t, hlow, hhigh with
      | [], hlow, hhigh =>
        simp only [List.length_cons, List.length_nil] at hlow hhigh ⊢
        generalize dec [c] = n at *
        unfold readMs
        rw [if_pos (by omega)]; omega
      | [a], hlow, hhigh =>
        simp only [List.length_cons, List.length_nil] at hlow hhigh ⊢
        generalize dec [c, a] = n at *
        unfold readMs
        rw [if_neg (by omega), if_pos (by omega)]; omega
      | [a, b], hlow, hhigh =>
        simp only [List.length_cons, List.length_nil] at hlow hhigh ⊢
        generalize dec [c, a, b] = n at *
        unfold readMs
        rw [if_neg (by omega), if_neg (by omega)]; omega
      | a :: b :: d :: u, hlow, hhigh =>
        exfalso
        simp only [List.length_cons] at hlow
        have h1 : 1 ≤ 10 ^ u.length := Nat.pow_pos (by decide)
        have : 10 ^ (u.length + 1 + 1 + 1) = 10 ^ u.length * 1000 := by
          simp only [Nat.pow_succ, Nat.mul_assoc]
        omega
  · rw [hz]; simp [readMs]

theorem readStamp_denotes {w : Stamp} (hw : w.Legal) :
    Normal (readStamp w) ∧ InInt (readStamp w) ∧
      (w.NoLeadingZero → millisOf (readStamp w) = w.millis) := by
  obtain ⟨h1, h2, h3, h4, h5, h6, h7⟩ := clock_normal hw.1
  have hms : readFrac w.frac < 1000 := by
    cases hf : w.frac with
    | none => simp [readFrac]
    | some f => exact readMs_lt (hw.2 f hf).2
  refine ⟨?_, ?_, ?_⟩
  · simp only [Normal, readStamp]; omega
  · simp only [InInt, readStamp]; intro f hf; omega
  · intro hz
    have hfr : readFrac w.frac = w.fracMs := by
      unfold Stamp.fracMs
      cases hf : w.frac with
      | none => rfl
      | some f => exact readMs_frac (hw.2 f hf).1 (hw.2 f hf).2 (hz f hf)
    simp only [millisOf, readStamp, Stamp.millis, hfr]
    omega

/-! ### What is accepted as a time -/

theorem parseClock_inv {line : Bytes} {i : Nat} {x : Int × Int × Int × Nat}
    (h : parseClock line i = .ok x) :
    ∃ (w : Clock) (s : Bytes), Sfx line i (w.text ++ s) ∧ w.Legal ∧ NoDigit s ∧
      x = ((Clock.fields w).1, (Clock.fields w).2.1, (Clock.fields w).2.2, i + w.text.length) := by
  unfold parseClock at h
  obtain ⟨⟨a, j⟩, h1, h⟩ := Res.bind_eq_ok.mp h
  obtain ⟨ds, s, hs, hd, hn, rfl, hle, rfl⟩ := parseNumber_inv h1
  simp only at h
  have hs1 := Sfx.drop hs
  rw [charAt_head hs1, Res.bind_ok] at h
  by_cases hc : s.headD 0 = 0x3A
  · rw [if_pos hc] at h
    obtain ⟨s', rfl⟩ : ∃ s', s = 0x3A :: s' := by
      cases s with
      | nil => simp at hc
      | cons c t => simp at hc; exact ⟨t, by rw [hc]⟩
    obtain ⟨⟨b, j2⟩, h2, h⟩ := Res.bind_eq_ok.mp h
    obtain ⟨ds2, s2, hs2, hd2, hn2, rfl, hle2, rfl⟩ := parseNumber_inv h2
    have e2 : s' = ds2 ++ s2 := by
      have := (Sfx.tail hs1).2; rw [← this]; exact hs2.2
    subst e2
    simp only at h
    by_cases hb : dec ds2 ≥ 60
    · rw [Res.refuse_pos hb] at h; cases h
    rw [Res.refuse_neg hb, Res.bind_ok] at h
    have hs3 := Sfx.drop hs2
    rw [charAt_head hs3, Res.bind_ok] at h
    by_cases hc2 : s2.headD 0 = 0x3A
    · rw [if_pos hc2] at h
      obtain ⟨s', rfl⟩ : ∃ s', s2 = 0x3A :: s' := by
        cases s2 with
        | nil => simp at hc2
        | cons c t => simp at hc2; exact ⟨t, by rw [hc2]⟩
      obtain ⟨⟨b, j3⟩, h3, h⟩ := Res.bind_eq_ok.mp h
      obtain ⟨ds3, s3, hs4, hd3, hn3, rfl, hle3, rfl⟩ := parseNumber_inv h3
      have e3 : s' = ds3 ++ s3 := by
        have := (Sfx.tail hs3).2; rw [← this]; exact hs4.2
      subst e3
      simp only at h
      by_cases hb3 : dec ds3 ≥ 60
      · rw [Res.refuse_pos hb3] at h; cases h
      rw [Res.refuse_neg hb3, Res.bind_ok] at h
      cases h
      refine ⟨.hourMinSec ds ds2 ds3, s3, by simpa [Clock.text] using hs,
        ⟨hd, hd2, hd3, hle, by omega, by omega⟩, hn3, ?_⟩
      simp only [Clock.fields, Clock.text, List.length_append, List.length_cons, List.length_nil]
      rw [show i + ds.length + 1 + ds2.length + 1 + ds3.length =
        i + (ds.length + (0 + 1) + ds2.length + (0 + 1) + ds3.length) from by omega]
    · rw [if_neg hc2] at h
      by_cases hb3 : dec ds ≥ 60
      · rw [Res.refuse_pos hb3] at h; cases h
      rw [Res.refuse_neg hb3, Res.bind_ok] at h
      cases h
      refine ⟨.minSec ds ds2, s2, by simpa [Clock.text] using hs,
        ⟨hd, hd2, by omega, by omega⟩, hn2, ?_⟩
      simp only [Clock.fields, Clock.text, List.length_append, List.length_cons, List.length_nil]
      rw [show i + ds.length + 1 + ds2.length =
        i + (ds.length + (0 + 1) + ds2.length) from by omega]
  · rw [if_neg hc] at h
    cases h
    refine ⟨.sec ds, s, hs, ⟨hd, hle⟩, hn, ?_⟩
    simp only [Clock.fields, Clock.text, sub_div_mul, sub_div_mul_int]

theorem parseFraction_inv {line s : Bytes} {i : Nat} {x : Int × Nat} (hs : Sfx line i s)
    (h : parseFraction line i = .ok x) :
    ∃ (f : Option Bytes) (t : Bytes), s = fracText f ++ t ∧
      (∀ g, f = some g → Digits g ∧ dec g < 1000) ∧
      x = (((readFrac f : Nat) : Int), i + (fracText f).length) := by
  unfold parseFraction at h
  rw [charAt_head hs, Res.bind_ok] at h
  by_cases hc : s.headD 0 = 0x2E
  · rw [if_pos hc] at h
    obtain ⟨s', rfl⟩ : ∃ s', s = 0x2E :: s' := by
      cases s with
      | nil => simp at hc
      | cons c t => simp at hc; exact ⟨t, by rw [hc]⟩
    obtain ⟨⟨b, j2⟩, h2, h⟩ := Res.bind_eq_ok.mp h
    obtain ⟨ds2, s2, hs2, hd2, hn2, rfl, hle2, rfl⟩ := parseNumber_inv h2
    have e2 : s' = ds2 ++ s2 := by
      have := (Sfx.tail hs).2; rw [← this]; exact hs2.2
    subst e2
    simp only at h
    by_cases hb : dec ds2 ≥ 1000
    · rw [Res.refuse_pos hb] at h; cases h
    rw [Res.refuse_neg hb, Res.bind_ok] at h
    refine ⟨some ds2, s2, by simp [fracText], fun g hg => by cases hg; exact ⟨hd2, by omega⟩, ?_⟩
    have hx := Res.ok.inj h
    rw [← hx]
    simp only [readFrac, readMs, fracText, List.length_cons]
    rw [show i + 1 + ds2.length = i + (ds2.length + 1) from by omega]
    split
    · rfl
    · split <;> rfl
  · rw [if_neg hc] at h
    cases h
    exact ⟨none, s, rfl, fun g hg => by (nomatch hg), rfl⟩

theorem parseTime_inv {line : Bytes} {i j : Nat} {t : Time} (h : parseTime line i = .ok (t, j)) :
    ∃ (b : Bytes) (w : Stamp) (s : Bytes), Sfx line i (b ++ (w.text ++ s)) ∧ Blank b ∧ w.Legal ∧
      Stop s ∧ t = readStamp w ∧ j = i + b.length + w.text.length := by
  unfold parseTime at h
  by_cases hi : i ≥ line.length
  · rw [Res.refuse_pos hi] at h; cases h
  rw [Res.refuse_neg hi, Res.bind_ok] at h
  obtain ⟨b, s, hs, hb, hnb, hw⟩ := skipWs_total (line := line) (i := i) (by omega)
  rw [hw, Res.bind_ok] at h
  obtain ⟨x, hx, h⟩ := Res.bind_eq_ok.mp h
  obtain ⟨w, s1, hs1, hwl, hn1, rfl⟩ := parseClock_inv hx
  simp only at h
  have e1 : s = w.text ++ s1 := by have := (Sfx.drop hs).2; rw [← this]; exact hs1.2
  obtain ⟨y, hy, h⟩ := Res.bind_eq_ok.mp h
  obtain ⟨f, s2, e2, hf, rfl⟩ := parseFraction_inv (Sfx.drop hs1) hy
  simp only at h
  have hs2 : Sfx line (i + b.length + w.text.length) (fracText f ++ s2) := e2 ▸ Sfx.drop hs1
  rw [charAt_head (Sfx.drop hs2), Res.bind_ok] at h
  by_cases hc : s2.headD 0 ≠ 0 ∧ s2.headD 0 ≠ 0x20 ∧ s2.headD 0 ≠ 0x09
  · rw [Res.refuse_pos hc] at h; cases h
  rw [Res.refuse_neg hc, Res.bind_ok] at h
  cases h
  refine ⟨b, ⟨w, f⟩, s2, ?_, hb, ⟨hwl, hf⟩, ?_, rfl, ?_⟩
  · rw [stamp_text]; simp only [List.append_assoc]; rw [← e2, ← e1]; exact hs
  · unfold Stop
    by_cases a : s2.headD 0 = 0
    · exact Or.inl a
    · by_cases b : s2.headD 0 = 0x20
      · exact Or.inr (Or.inl b)
      · by_cases d : s2.headD 0 = 0x09
        · exact Or.inr (Or.inr d)
        · exact absurd ⟨a, b, d⟩ hc
  · rw [stamp_text]; simp only [List.length_append]; omega

end Verif.Vtt
