/-
The text of a cue: written by the demuxer as the parser wants it.
-/
import Verif.Model.VttDemux
import Verif.Spec.VttMux
import Verif.Lemmas.WebVttCue
import Verif.Lemmas.WebVttArith
import Verif.Props.WebVtt

namespace Verif.Vtt
open Verif Verif.Par Verif.Vtt.Spec

/-! ### Numbers -/

theorem dec_append : ∀ (a b : Bytes), dec (a ++ b) = dec a * 10 ^ b.length + dec b
  | [], b => by simp [dec]
  | c :: a, b => by
    rw [List.cons_append, dec, dec, dec_append a b, List.length_append, Nat.pow_add, Nat.add_mul, Nat.mul_assoc, Nat.add_assoc]

theorem digit_toNat {n : Nat} (h : n < 10) : (UInt8.ofNat (48 + n)).toNat = 48 + n := by
  rw [UInt8.toNat_ofNat']
  omega

theorem decimal_spec (n : Nat) : Digits (decimal n) ∧ dec (decimal n) = n ∧ (0 < n → (decimal n).head? ≠ some 0x30) := by
  induction n using Nat.strongRecOn with
  | ind n ih =>
    rw [decimal.eq_def]
    by_cases h : n < 10
    · rw [if_pos h]
      have := digit_toNat h
      refine ⟨⟨by simp, ?_⟩, ?_, ?_⟩
      · intro c hc
        rw [List.mem_singleton] at hc
        subst hc
        omega
      · simp only [dec, List.length_nil, Nat.pow_zero, Nat.mul_one, Nat.add_zero]
        omega
      · intro h0 he
        simp only [List.head?_cons, Option.some.injEq] at he
        rw [he] at this
        have h48 : (0x30 : UInt8).toNat = 48 := rfl
        omega
    · rw [if_neg h]
      obtain ⟨h1, h2, h3⟩ := ih (n / 10) (by omega)
      have := digit_toNat (n := n % 10) (by omega)
      refine ⟨⟨by simp, ?_⟩, ?_, ?_⟩
      · intro c hc
        rw [List.mem_append, List.mem_singleton] at hc
        rcases hc with hc | rfl
        · exact h1.2 c hc
        · omega
      · rw [dec_append, h2]
        simp only [dec, List.length_cons, List.length_nil, Nat.pow_zero, Nat.mul_one, Nat.add_zero, Nat.zero_add, Nat.pow_one]
        omega
      · intro _
        obtain ⟨c, t, hct⟩ := List.exists_cons_of_ne_nil h1.1
        have := h3 (by omega)
        rw [hct] at this ⊢
        exact this

theorem decimal_length_le : ∀ (k n : Nat), n < 10 ^ (k + 1) → (decimal n).length ≤ k + 1
  | 0, n, h => by
    rw [decimal.eq_def, if_pos (by simpa using h)]
    simp
  | k + 1, n, h => by
    rw [decimal.eq_def]
    by_cases hn : n < 10
    · rw [if_pos hn]; simp
    · rw [if_neg hn, List.length_append]
      have := decimal_length_le k (n / 10) (by rw [Nat.pow_succ] at h; omega)
      simp only [List.length_singleton]
      omega

theorem decimal_length_gt : ∀ (k n : Nat), 10 ^ k ≤ n → k < (decimal n).length
  | 0, n, h => List.length_pos_iff.mpr (decimal_spec n).1.1
  | k + 1, n, h => by
    rw [Nat.pow_succ] at h
    have hp : 1 ≤ 10 ^ k := Nat.pow_pos (by decide)
    rw [decimal.eq_def, if_neg (by omega), List.length_append]
    have := decimal_length_gt k (n / 10) (by omega)
    simp only [List.length_singleton]
    omega

theorem dec_zeros : ∀ (k : Nat) (s : Bytes), dec (List.replicate k 0x30 ++ s) = dec s
  | 0, s => rfl
  | k + 1, s => by
    rw [List.replicate_succ, List.cons_append, dec, dec_zeros k s]
    have h48 : (0x30 : UInt8).toNat = 48 := rfl
    rw [h48]
    simp

theorem padded_spec (w : Nat) {x : Int} (h : 0 ≤ x) : Digits (padded w x) ∧ (dec (padded w x) : Int) = x := by
  unfold padded
  simp only
  rw [if_neg (by omega)]
  obtain ⟨h1, h2, -⟩ := decimal_spec x.natAbs
  refine ⟨⟨?_, ?_⟩, ?_⟩
  · intro e
    rw [List.append_eq_nil_iff] at e
    exact h1.1 e.2
  · intro c hc
    rw [List.mem_append, List.mem_replicate] at hc
    rcases hc with ⟨-, rfl⟩ | hc
    · decide
    · exact h1.2 c hc
  · rw [dec_zeros, h2]
    omega

theorem padded_length {w k : Nat} {x : Int} (h : 0 ≤ x) (hk : x < 10 ^ (k + 1)) (hwk : w ≤ k + 1) : (padded w x).length ≤ k + 1 := by
  unfold padded
  simp only
  rw [if_neg (by omega), List.length_append, List.length_replicate]
  have hc : ((10 ^ (k + 1) : Nat) : Int) = (10 : Int) ^ (k + 1) := by push_cast; rfl
  have := decimal_length_le k x.natAbs (by omega)
  omega

theorem padded_lead {x : Int} (h : x = 0 ∨ 100 ≤ x) : (padded 3 x).head? ≠ some 0x30 ∨ dec (padded 3 x) = 0 := by
  rcases h with rfl | h
  · right
    have := (padded_spec 3 (x := 0) (by decide)).2
    omega
  · left
    have hl := decimal_length_gt 2 x.natAbs (by omega)
    unfold padded
    simp only
    rw [if_neg (by omega), show 3 - (decimal x.natAbs).length = 0 by omega]
    exact (decimal_spec x.natAbs).2.2 (by omega)

theorem padded_three {x : Int} (h0 : 0 ≤ x) (h : x < 1000) : (padded 3 x).length = 3 := by
  have h1 := decimal_length_le 2 x.natAbs (by omega)
  unfold padded
  simp only
  rw [if_neg (by omega), List.length_append, List.length_replicate]
  omega

/-! ### Times -/

/-- A time as it is written. -/
def stampOf (t : Time) : Stamp where
  clock := if t.hours > 0 then .hourMinSec (padded 2 t.hours) (padded 2 t.minutes) (padded 2 t.seconds)
    else .minSec (padded 2 t.minutes) (padded 2 t.seconds)
  frac := some (padded 3 t.milliseconds)

theorem cueTime_eq {t : Time} (h : Normal t) : cueTime (millisOf t * 1000000) = (stampOf t).text := by
  obtain ⟨h1, h2, h3, h4, h5, h6, h7⟩ := h
  have e0 : (millisOf t * 1000000).tdiv 1000000 = millisOf t := by
    rw [Int.tdiv_eq_ediv_of_nonneg (by unfold millisOf; omega)]
    omega
  have e1 : (millisOf t).tdiv 1000 = 3600 * t.hours + 60 * t.minutes + t.seconds := by
    rw [Int.tdiv_eq_ediv_of_nonneg (by unfold millisOf; omega)]
    unfold millisOf
    omega
  have e2 : (3600 * t.hours + 60 * t.minutes + t.seconds).tdiv 60 = 60 * t.hours + t.minutes := by
    rw [Int.tdiv_eq_ediv_of_nonneg (by omega)]
    omega
  have e3 : (60 * t.hours + t.minutes).tdiv 60 = t.hours := by
    rw [Int.tdiv_eq_ediv_of_nonneg (by omega)]
    omega
  unfold cueTime
  simp only
  rw [e0, e1, e2, e3, show 60 * t.hours + t.minutes - 60 * t.hours = t.minutes by omega,
    show 3600 * t.hours + 60 * t.minutes + t.seconds - 60 * (60 * t.hours + t.minutes) = t.seconds by omega,
    show millisOf t - (3600 * t.hours + 60 * t.minutes + t.seconds) * 1000 = t.milliseconds by unfold millisOf; omega]
  unfold stampOf Stamp.text
  simp only
  by_cases hh : t.hours > 0
  · rw [if_pos hh, if_pos hh]
    simp [Clock.text]
  · rw [if_neg hh, if_neg hh]
    simp [Clock.text]

theorem stampOf_legal {t : Time} (h : Normal t) (hh : t.hours ≤ 2147483647) : (stampOf t).Legal := by
  obtain ⟨h1, h2, h3, h4, h5, h6, h7⟩ := h
  obtain ⟨a1, a2⟩ := padded_spec 2 h1
  obtain ⟨b1, b2⟩ := padded_spec 2 h2
  obtain ⟨c1, c2⟩ := padded_spec 2 h4
  obtain ⟨d1, d2⟩ := padded_spec 3 h6
  unfold stampOf Stamp.Legal
  refine ⟨?_, ?_⟩
  · simp only
    by_cases hh : t.hours > 0
    · rw [if_pos hh]
      exact ⟨a1, b1, c1, by omega, by omega, by omega⟩
    · rw [if_neg hh]
      exact ⟨b1, c1, by omega, by omega⟩
  · intro f hf
    cases hf
    exact ⟨d1, by omega⟩

theorem stampOf_lead {t : Time} (h : PlainMs t) : (stampOf t).NoLeadingZero := by
  intro f hf
  cases hf
  exact padded_lead h

theorem stampOf_millis {t : Time} (h : Normal t) : ((stampOf t).millis : Int) = millisOf t := by
  obtain ⟨h1, h2, h3, h4, h5, h6, h7⟩ := h
  obtain ⟨a1, a2⟩ := padded_spec 2 h1
  obtain ⟨b1, b2⟩ := padded_spec 2 h2
  obtain ⟨c1, c2⟩ := padded_spec 2 h4
  obtain ⟨d1, d2⟩ := padded_spec 3 h6
  have hl := padded_three h6 h7
  unfold stampOf Stamp.millis Stamp.fracMs millisOf
  simp only
  rw [hl]
  by_cases hh : t.hours > 0
  · rw [if_pos hh, Clock.seconds]
    omega
  · rw [if_neg hh, Clock.seconds]
    omega

/-- A time is determined by what it stands for. -/
theorem normal_ext {a b : Time} (ha : Normal a) (hb : Normal b) (h : millisOf a = millisOf b) : a = b := by
  obtain ⟨h1, h2, h3, h4, h5, h6, h7⟩ := ha
  obtain ⟨k1, k2, k3, k4, k5, k6, k7⟩ := hb
  unfold millisOf at h
  obtain ⟨a1, a2, a3, a4⟩ := a
  obtain ⟨b1, b2, b3, b4⟩ := b
  simp only at *
  have e1 : a1 = b1 := by omega
  have e2 : a2 = b2 := by omega
  have e3 : a3 = b3 := by omega
  have e4 : a4 = b4 := by omega
  rw [e1, e2, e3, e4]

theorem readStamp_of {t : Time} (h : Normal t) (hh : t.hours ≤ 2147483647) (hp : PlainMs t) : readStamp (stampOf t) = t := by
  obtain ⟨a1, -, a3⟩ := readStamp_denotes (stampOf_legal h hh)
  exact normal_ext a1 h ((a3 (stampOf_lead hp)).trans (stampOf_millis h))

theorem stampOf_length {t : Time} (h : Normal t) (hh : t.hours ≤ 2147483647) : (stampOf t).text.length ≤ 20 := by
  obtain ⟨h1, h2, h3, h4, h5, h6, h7⟩ := h
  have a := padded_length (w := 2) (k := 9) h1 (by omega) (by decide)
  have b := padded_length (w := 2) (k := 1) h2 (by omega) (by decide)
  have c := padded_length (w := 2) (k := 1) h4 (by omega) (by decide)
  have d := padded_three h6 h7
  unfold stampOf Stamp.text
  simp only
  by_cases hh : t.hours > 0
  · rw [if_pos hh]
    simp only [Clock.text, List.length_append, List.length_singleton]
    omega
  · rw [if_neg hh]
    simp only [Clock.text, List.length_append, List.length_singleton]
    omega

/-- The bytes of a time: digits, colons and a full stop. -/
theorem stamp_plain {w : Stamp} (h : w.Legal) : ∀ c ∈ w.text, 46 ≤ c.toNat ∧ c.toNat ≤ 58 := by
  have dig : ∀ {s : Bytes}, Digits s → ∀ c ∈ s, 46 ≤ c.toNat ∧ c.toNat ≤ 58 := by
    intro s hs c hc
    have := hs.2 c hc
    omega
  have col : 46 ≤ (0x3A : UInt8).toNat ∧ (0x3A : UInt8).toNat ≤ 58 := by decide
  have dot : 46 ≤ (0x2E : UInt8).toNat ∧ (0x2E : UInt8).toNat ≤ 58 := by decide
  obtain ⟨hc, hf⟩ := h
  intro c hm
  unfold Stamp.text at hm
  rw [List.mem_append] at hm
  rcases hm with hm | hm
  · cases hcl : w.clock with
    | sec s =>
      rw [hcl] at hc hm
      exact dig hc.1 c hm
    | minSec m s =>
      rw [hcl] at hc hm
      simp only [Clock.text, List.mem_append, List.mem_singleton] at hm
      rcases hm with (hm | rfl) | hm
      · exact dig hc.1 c hm
      · exact col
      · exact dig hc.2.1 c hm
    | hourMinSec x m s =>
      rw [hcl] at hc hm
      simp only [Clock.text, List.mem_append, List.mem_singleton] at hm
      rcases hm with (((hm | rfl) | hm) | rfl) | hm
      · exact dig hc.1 c hm
      · exact col
      · exact dig hc.2.1 c hm
      · exact col
      · exact dig hc.2.2.1 c hm
  · cases hfr : w.frac with
    | none => rw [hfr] at hm; cases hm
    | some f =>
      rw [hfr] at hm
      simp only [List.mem_append, List.mem_singleton] at hm
      rcases hm with rfl | hm
      · exact dot
      · exact dig (hf f hfr).1 c hm

/-! ### Cues as they are written -/

/-- The cue's lines, with this many blank lines before. -/
def asWritten (blanks : Nat) (c : Cue) : Written where
  blanks := blanks
  ident := if c.identifier = [] then none else some c.identifier
  timings := { b1 := [], start := stampOf c.start, b2 := [0x20], b3 := [0x20], stop := stampOf c.stop,
               settings := c.settings.map fun g => ([0x20], g), b4 := [] }
  payload := c.payload

theorem settingsText_mem : ∀ {gs : List Setting} {b : UInt8}, b ∈ settingsText (gs.map fun g => ([0x20], g)) →
    b = 0x20 ∨ b = 0x3A ∨ ∃ g ∈ gs, b ∈ g.name ∨ b ∈ g.value
  | [], b, h => by cases h
  | g :: gs, b, h => by
    simp only [List.map_cons, settingsText, settingText, List.mem_append, List.mem_singleton] at h
    rcases h with (((h | h) | h) | h) | h
    · exact .inl h
    · exact .inr (.inr ⟨g, by simp, .inl h⟩)
    · exact .inr (.inl h)
    · exact .inr (.inr ⟨g, by simp, .inr h⟩)
    · rcases settingsText_mem h with h | h | ⟨x, hx, h⟩
      · exact .inl h
      · exact .inr (.inl h)
      · exact .inr (.inr ⟨x, by simp [hx], h⟩)

theorem settingsText_sum : ∀ (gs : List Setting), (settingsText (gs.map fun g => ([0x20], g))).length =
    (gs.map fun g => g.name.length + g.value.length + 2).sum
  | [] => rfl
  | g :: gs => by
    simp only [List.map_cons, settingsText, settingText, List.length_append, List.length_singleton, List.sum_cons, settingsText_sum gs]
    omega

theorem asWritten_legal (n : Nat) {c : Cue} (hp : Proper c) (hk : Keepable c) : (asWritten n c).Legal := by
  have l1 := stampOf_legal hp.start.1 hp.start.2
  have l2 := stampOf_legal hp.stop.1 hp.stop.2
  refine ⟨⟨by simp [asWritten, Blank], by simp [asWritten, Blank], by simp [asWritten, Blank], by simp [asWritten, Blank], l1, l2,
    stampOf_lead hk.start, stampOf_lead hk.stop, ?_⟩, ⟨?_, ?_⟩, ?_, hp.payload.1, hp.payload.2⟩
  · intro g hg
    obtain ⟨x, hx, rfl⟩ := List.mem_map.mp hg
    obtain ⟨h1, -, h2, -⟩ := hp.settings x hx
    exact ⟨by simp [Blank], by simp, h1, h2⟩
  · have ok : ∀ c : UInt8, 32 ≤ c.toNat ∧ c.toNat ≤ 62 → c ≠ 0x0A ∧ c ≠ 0x0D ∧ c ≠ 0xFE ∧ c ≠ 0xFF :=
      fun c hc => ⟨fun e => by rw [e] at hc; revert hc; decide, fun e => by rw [e] at hc; revert hc; decide,
        fun e => by rw [e] at hc; revert hc; decide, fun e => by rw [e] at hc; revert hc; decide⟩
    intro b hb
    simp only [asWritten, Timings.text, List.nil_append, List.append_nil, List.mem_append, List.mem_singleton] at hb
    rcases hb with ((((hb | rfl) | hb) | rfl) | hb) | hb
    · have := stamp_plain l1 b hb
      exact ok b (by omega)
    · decide
    · simp only [arrow, List.mem_cons, List.not_mem_nil, or_false] at hb
      rcases hb with rfl | rfl | rfl <;> decide
    · decide
    · have := stamp_plain l2 b hb
      exact ok b (by omega)
    · rcases settingsText_mem hb with rfl | rfl | ⟨g, hg, hb⟩
      · decide
      · decide
      · obtain ⟨-, h1, -, h2⟩ := hp.settings g hg
        rcases hb with hb | hb
        · exact h1.1 b hb
        · exact h2.1 b hb
  · have e1 := stampOf_length hp.start.1 hp.start.2
    have e2 := stampOf_length hp.stop.1 hp.stop.2
    have e3 := hk.settings
    simp only [asWritten, Timings.text, List.nil_append, List.append_nil, List.length_append, settingsText_sum,
      arrow, List.length_cons, List.length_nil, maxLine]
    omega
  · intro i hi
    unfold asWritten at hi
    simp only at hi
    by_cases h : c.identifier = []
    · rw [if_pos h] at hi; cases hi
    · rw [if_neg h] at hi
      cases hi
      exact ⟨h, hp.ident.1, hp.ident.2⟩

theorem asWritten_read (n : Nat) {c : Cue} (hp : Proper c) (hk : Keepable c) : readCue (asWritten n c) = c := by
  unfold readCue asWritten
  simp only
  rw [readStamp_of hp.start.1 hp.start.2 hk.start, readStamp_of hp.stop.1 hp.stop.2 hk.stop, List.map_map]
  have : (Prod.snd ∘ fun g : Setting => (([0x20] : Bytes), g)) = id := rfl
  rw [this, List.map_id]
  by_cases h : c.identifier = []
  · rw [if_pos h, ← h]
    cases c
    simp only at h
    subst h
    rfl
  · rw [if_neg h]
    rfl

/-- The lines of a cue, each ended by LF. -/
def lfLines (ls : List Bytes) : Bytes := fileOf (ls.map fun l => (l, .lf)) []

theorem lfLines_cons (l : Bytes) (ls : List Bytes) : lfLines (l :: ls) = l ++ 0x0A :: lfLines ls := by
  simp [lfLines, fileOf, Ending.bytes]

theorem lfLines_append : ∀ (a b : List Bytes), lfLines (a ++ b) = lfLines a ++ lfLines b
  | [], b => rfl
  | l :: a, b => by simp [lfLines_cons, lfLines_append a b]

theorem unambiguous_lf : ∀ (ls : List Bytes), Unambiguous (ls.map fun l => (l, .lf))
  | [] => trivial
  | [_] => trivial
  | a :: b :: r => ⟨by simp, unambiguous_lf (b :: r)⟩

/-- The text of a cue in the demuxer's output. -/
def cueText (c : Cue) : Bytes := lfLines (asWritten 1 c).lines

theorem asWritten_lines (n : Nat) (c : Cue) : (asWritten n c).lines = List.replicate n [] ++ (asWritten 0 c).lines := by
  simp [Written.lines, asWritten]

theorem lines_readable {w : Written} (h : w.Legal) : ∀ l ∈ w.lines, Readable l := by
  intro l hl
  obtain ⟨-, h2, h3, -, h5⟩ := h
  simp only [Written.lines, List.mem_append, List.mem_singleton, List.mem_replicate, Option.mem_toList] at hl
  rcases hl with ((hz | hz) | hz) | hz
  · rw [hz.2]; exact ⟨by simp, by simp [maxLine]⟩
  · exact (h3 _ hz).2.1
  · rw [hz]; exact h2
  · exact (h5 _ hz).2

/-! ### Reading the output -/

theorem cues_read : ∀ (cs : List Cue) {c : Cue} {p : Parser}, (∀ x ∈ c :: cs, Proper x ∧ Keepable x) →
    Before p (((asWritten 0 c).lines ++ cs.flatMap fun x => (asWritten 1 x).lines).map fun l => (l, .lf)) →
    Props.cueResults (cs.length + 2) p = .ok c :: cs.map .ok ++ [.err 1]
  | cs, c, p, hall, h => by
    obtain ⟨hp, hk⟩ := hall c (by simp)
    have hl := asWritten_legal 0 hp hk
    have hr := asWritten_read 0 hp hk
    rw [Props.cueResults]
    cases cs with
    | nil =>
      rw [List.flatMap_nil, List.append_nil] at h
      obtain ⟨q, h1, h2⟩ := parse_before_eof hl h (by rw [List.map_map]; simp [Function.comp_def])
      obtain ⟨q', h3, -⟩ := parse_end h2 (by simp)
      rw [h1, hr]
      simp [Props.cueResults, h3]
    | cons d ds =>
      have hsplit : (asWritten 0 c).lines ++ (d :: ds).flatMap (fun x => (asWritten 1 x).lines) =
          ((asWritten 0 c).lines ++ [[]]) ++ ((asWritten 0 d).lines ++ ds.flatMap fun x => (asWritten 1 x).lines) := by
        rw [List.flatMap_cons, asWritten_lines 1 d]
        simp [List.append_assoc]
      rw [hsplit, List.map_append] at h
      obtain ⟨q, h1, h2⟩ := parse_before hl h (by rw [List.map_map]; simp [Function.comp_def])
      have := cues_read ds (fun x hx => hall x (by simp [hx])) h2
      rw [h1, hr]
      simp only
      rw [List.length_cons, show ds.length + 1 + 1 = ds.length + 2 from rfl, this]
      rfl

theorem header_lf : "WEBVTT\n".toUTF8.toList = kWebVtt ++ [0x0A] := by decide +kernel

theorem flatMap_cueText : ∀ cs : List Cue, cs.flatMap cueText = lfLines (cs.flatMap fun x => (asWritten 1 x).lines)
  | [] => rfl
  | c :: cs => by rw [List.flatMap_cons, List.flatMap_cons, lfLines_append, flatMap_cueText cs, cueText]

/-- A file of the demuxer reads as the cues that went into it. -/
theorem output_read {cs : List Cue} (hall : ∀ x ∈ cs, Proper x ∧ Keepable x) :
    (Parser.init { rest := "WEBVTT\n".toUTF8.toList ++ cs.flatMap cueText }).1 = 0 ∧
    Props.cueResults (cs.length + 1) (Parser.init { rest := "WEBVTT\n".toUTF8.toList ++ cs.flatMap cueText }).2 =
      cs.map .ok ++ [.err 1] := by
  rw [header_lf]
  cases cs with
  | nil => exact ⟨by decide +kernel, by decide +kernel⟩
  | cons c cs =>
    have hread : ∀ x ∈ ((asWritten 0 c).lines ++ cs.flatMap fun x => (asWritten 1 x).lines).map (fun l => (l, Ending.lf)), Readable x.1 := by
      intro x hx
      obtain ⟨l, hl, rfl⟩ := List.mem_map.mp hx
      rw [List.mem_append, List.mem_flatMap] at hl
      rcases hl with hl | ⟨y, hy, hl⟩
      · obtain ⟨hp, hk⟩ := hall c (by simp)
        exact lines_readable (asWritten_legal 0 hp hk) l hl
      · obtain ⟨hp, hk⟩ := hall y (by simp [hy])
        exact lines_readable (asWritten_legal 1 hp hk) l hl
    obtain ⟨q, h1, h2⟩ := init_ok (p := { rest := kWebVtt ++ [0x0A] ++ (c :: cs).flatMap cueText }) (b := []) (rest := [])
      (e1 := .lf) (e2 := .lf) (.inl rfl) (.inl rfl)
      (r := ((asWritten 0 c).lines ++ cs.flatMap fun x => (asWritten 1 x).lines).map fun l => (l, .lf))
      (by
        show kWebVtt ++ [0x0A] ++ (c :: cs).flatMap cueText = _
        rw [flatMap_cueText, List.flatMap_cons, asWritten_lines 1 c]
        simp [lfLines, fileOf, Ending.bytes, List.append_assoc])
      (by
        have := unambiguous_lf ((kWebVtt) :: [] :: ((asWritten 0 c).lines ++ cs.flatMap fun x => (asWritten 1 x).lines))
        simpa using this)
      ⟨by simp, by simp [maxLine]⟩ hread rfl
    rw [h1]
    exact ⟨rfl, cues_read cs hall h2⟩

end Verif.Vtt
