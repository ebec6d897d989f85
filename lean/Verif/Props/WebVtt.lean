/-
WebVTT: what a user of the subtitle parser relies on.
-/
import Verif.Lemmas.WebVttCue
import Verif.Lemmas.WebVttArith

namespace Verif.Props
open Verif Verif.Vtt Verif.Vtt.Spec

/-- The results of the first `n` calls of `Parse`. -/
def cueResults : Nat → Parser → List (Res Cue)
  | 0, _ => []
  | n + 1, p => p.parse.1 :: cueResults n p.parse.2

/-- The results of the first `n` calls of `GetLine`: status and line. -/
def lineResults : Nat → Parser → List (Int × Bytes)
  | 0, _ => []
  | n + 1, p => (p.getLine.1, p.getLine.2.1) :: lineResults n p.getLine.2.2

/-! ### C35: lines do not depend on how they end -/

/-- Reading a text line by line gives its lines, whichever way each of them ends, and then the
end of the stream. -/
theorem C35_lines (ls : List (Bytes × Ending)) (hr : ∀ x ∈ ls, Readable x.1)
    (hu : Unambiguous ls) (more : Nat) :
    lineResults (ls.length + more) { rest := fileOf ls [] } =
      ls.map (fun x => (0, x.1)) ++ List.replicate more (1, []) := by
  have gen : ∀ (ls : List (Bytes × Ending)) (p : Parser), Before p ls →
      lineResults (ls.length + more) p =
        ls.map (fun x => (0, x.1)) ++ List.replicate more (1, []) := by
    intro ls
    induction ls with
    | nil =>
      intro p hp
      simp only [List.length_nil, Nat.zero_add, List.map_nil, List.nil_append]
      have hg := getLine_eof hp.1 hp.2.2.2
      clear hr hu
      induction more with
      | zero => rfl
      | succ m ih => rw [lineResults, hg, List.replicate_succ]; simp only; rw [ih]
    | cons x ls ih =>
      obtain ⟨l, e⟩ := x
      intro p hp
      obtain ⟨p', h1, h2⟩ := getLine_before hp
      rw [show ((l, e) :: ls).length + more = (ls.length + more) + 1 from by
        simp only [List.length_cons]; omega, lineResults, h1]
      simp only
      rw [ih p' h2]
      rfl
  exact gen ls _ ⟨rfl, hu, hr, rfl⟩

/-- `Init` gives the same answer for two files that differ only in how their lines end, whatever
the lines are. -/
theorem C35_init (a b : List (Bytes × Ending)) (last : Bytes)
    (hl : a.map Prod.fst = b.map Prod.fst) (hp : ∀ x ∈ a, Plain x.1) (hlast : Plain last)
    (ha : Unambiguous a) (hb : Unambiguous b) :
    (Parser.init { rest := fileOf a last }).1 = (Parser.init { rest := fileOf b last }).1 := by
  obtain ⟨st, p', q', h1, h2, -⟩ := init_same
    (p := { rest := fileOf a last }) (q := { rest := fileOf b last })
    ⟨a, b, last, rfl, rfl, hl, hp, hlast, ha, hb, rfl, rfl⟩
  rw [h1, h2]

/-- After `Init` has accepted them, all calls of `Parse` give the same results for two files
that differ only in how their lines end. -/
theorem C35_cues (a b : List (Bytes × Ending)) (last : Bytes)
    (hl : a.map Prod.fst = b.map Prod.fst) (hp : ∀ x ∈ a, Plain x.1) (hlast : Plain last)
    (ha : Unambiguous a) (hb : Unambiguous b)
    (hi : (Parser.init { rest := fileOf a last }).1 = 0) (n : Nat) :
    cueResults n (Parser.init { rest := fileOf a last }).2 =
      cueResults n (Parser.init { rest := fileOf b last }).2 := by
  obtain ⟨st, p', q', h1, h2, h3⟩ := init_same
    (p := { rest := fileOf a last }) (q := { rest := fileOf b last })
    ⟨a, b, last, rfl, rfl, hl, hp, hlast, ha, hb, rfl, rfl⟩
  rw [h1] at hi
  have hs := h3 hi
  rw [h1, h2]
  clear h1 h2 h3 hi
  show cueResults n p' = cueResults n q'
  induction n generalizing p' q' with
  | zero => rfl
  | succ n ih =>
    obtain ⟨r, p2, q2, g1, g2, g3⟩ := parse_same hs
    rw [cueResults, cueResults, g1, g2]
    simp only
    rw [ih p2 q2 g3]

/-- The hypotheses are met: two lines, a blank one among them, in two different styles. -/
example : Unambiguous [([0x41], .cr), ([], .crlf), ([0x42, 0x43], .lf)] ∧
    (∀ x ∈ [(([0x41] : Bytes), Ending.cr), ([], .crlf), ([0x42, 0x43], .lf)], Readable x.1) ∧
    lineResults 4 { rest := fileOf [([0x41], .cr), ([], .crlf), ([0x42, 0x43], .lf)] [] } =
      [(0, [0x41]), (0, []), (0, [0x42, 0x43]), (1, [])] := by
  refine ⟨by simp [Unambiguous], ?_, by decide +kernel⟩
  intro x hx
  simp only [List.mem_cons, List.not_mem_nil, or_false] at hx
  rcases hx with rfl | rfl | rfl <;> exact ⟨by decide, by decide⟩

/-! ### C36: numbers -/

/-- A string of digits, followed by anything that is not a digit, is read as the number it
denotes if an `int` can hold that number, and refused otherwise; exactly the digits are
consumed. -/
theorem C36_number (before digits after : Bytes) (hd : Digits digits)
    (ha : ∀ c r, after = c :: r → ¬ (48 ≤ c.toNat ∧ c.toNat ≤ 57)) :
    parseNumber (before ++ digits ++ after) before.length =
      if dec digits ≤ 2147483647 then .ok (dec digits, before.length + digits.length)
      else .err (-1) :=
  parseNumber_digits (s := after) ⟨by simp, by rw [List.append_assoc, List.drop_left]⟩ hd ha

/-- Text that does not begin with a digit is not a number. -/
theorem C36_not_a_number (before after : Bytes)
    (ha : ∀ c r, after = c :: r → ¬ (48 ≤ c.toNat ∧ c.toNat ≤ 57)) :
    parseNumber (before ++ after) before.length = .err (-1) :=
  parseNumber_none (s := after) ⟨by simp, by rw [List.drop_left]⟩ ha

/-- A position outside the line is refused, and no position makes the function overflow an `int`
or look outside the line. -/
theorem C36_no_overflow (line : Bytes) (i : Nat) :
    parseNumber line i ≠ .ub ∧ (line.length ≤ i → parseNumber line i = .err (-1)) ∧
      ∀ v j, parseNumber line i = .ok (v, j) → v ≤ 2147483647 ∧ i < j ∧ j ≤ line.length := by
  refine ⟨parseNumber_not_ub line i, parseNumber_outside, ?_⟩
  intro v j h
  obtain ⟨ds, s, hs, hd, -, rfl, hle, rfl⟩ := parseNumber_inv h
  have hl := hs.length
  simp only [List.length_append] at hl
  have : 0 < ds.length := List.length_pos_iff.mpr hd.1
  exact ⟨hle, by omega, by omega⟩

example : parseNumber "x2147483647:".toUTF8.toList 1 = .ok (2147483647, 11) ∧
    parseNumber "x2147483648:".toUTF8.toList 1 = .err (-1) ∧
    parseNumber "0000000000000007".toUTF8.toList 0 = .ok (7, 16) ∧
    Digits "2147483648".toUTF8.toList := by
  refine ⟨by decide +kernel, by decide +kernel, by decide +kernel, by decide +kernel, ?_⟩
  decide +kernel

/-! ### C37: time stamps -/

/-- A legal time stamp whose fraction has no leading zero is read as the time it denotes, with
all fields in their usual ranges; the blanks before it and the stamp itself are consumed.

Full statement: this for every legal stamp, also with leading zeros in the fraction.  It is
false (`C37_leading_zero`). -/
theorem C37_stamp_partial (before blanks after : Bytes) (w : Stamp) (hb : Blank blanks)
    (hw : w.Legal) (hz : w.NoLeadingZero)
    (ha : after = [] ∨ after.head? = some 0 ∨ after.head? = some 0x20 ∨ after.head? = some 0x09) :
    ∃ t, parseTime (before ++ blanks ++ w.text ++ after) before.length =
        .ok (t, before.length + blanks.length + w.text.length) ∧
      Normal t ∧ InInt t ∧ millisOf t = w.millis ∧ t.presentation = w.millis := by
  have hs : Stop after := by
    cases after with
    | nil => exact Or.inl rfl
    | cons c r => simpa [Stop] using ha
  obtain ⟨h1, h2, h3⟩ := readStamp_denotes hw
  refine ⟨readStamp w, parseTime_ok (s := after) ?_ hb hw hs, h1, h2, h3 hz,
    (presentation_eq _).trans (h3 hz)⟩
  refine ⟨by simp, ?_⟩
  simp only [List.append_assoc]
  rw [List.drop_left]

/-- Whatever is accepted as a time is a legal stamp, at that place in the line, ended by a blank,
a NUL or the end of the line; and unless its fraction has a leading zero, the time read is the
time written. -/
theorem C37_accepted (line : Bytes) (i j : Nat) (t : Time) (h : parseTime line i = .ok (t, j)) :
    ∃ (blanks : Bytes) (w : Stamp) (after : Bytes),
      line.drop i = blanks ++ w.text ++ after ∧ Blank blanks ∧ w.Legal ∧
      (after = [] ∨ after.head? = some 0 ∨ after.head? = some 0x20 ∨ after.head? = some 0x09) ∧
      j = i + blanks.length + w.text.length ∧ Normal t ∧ InInt t ∧
      (w.NoLeadingZero → millisOf t = w.millis) := by
  obtain ⟨b, w, s, hs, hb, hw, hstop, rfl, rfl⟩ := parseTime_inv h
  obtain ⟨h1, h2, h3⟩ := readStamp_denotes hw
  refine ⟨b, w, s, by rw [hs.2, List.append_assoc], hb, hw, ?_, rfl, h1, h2, h3⟩
  cases s with
  | nil => exact Or.inl rfl
  | cons c r => simpa [Stop] using hstop

/-- The stamp `00:00:01.005` of WebVTT's own three-digit form is read as 1500 milliseconds, not
1005. -/
theorem C37_leading_zero :
    let w : Stamp := ⟨.hourMinSec [0x30, 0x30] [0x30, 0x30] [0x30, 0x31], some [0x30, 0x30, 0x35]⟩
    w.Legal ∧ w.millis = 1005 ∧ ∃ t, parseTime w.text 0 = .ok (t, 12) ∧ t.presentation = 1500 := by
  refine ⟨⟨?_, ?_⟩, by decide +kernel, ⟨⟨0, 0, 1, 500⟩, by decide +kernel, by decide +kernel⟩⟩
  · refine ⟨⟨by decide, by decide⟩, ⟨by decide, by decide⟩, ⟨by decide, by decide⟩, ?_, ?_, ?_⟩ <;>
      decide
  · intro f hf; cases hf; exact ⟨⟨by decide, by decide⟩, by decide⟩

/-- A stamp that meets the hypotheses: `01:02:03.450`. -/
example : (⟨.hourMinSec [0x30, 0x31] [0x30, 0x32] [0x30, 0x33], some [0x34, 0x35, 0x30]⟩ : Stamp).Legal ∧
    (⟨.hourMinSec [0x30, 0x31] [0x30, 0x32] [0x30, 0x33], some [0x34, 0x35, 0x30]⟩ : Stamp).NoLeadingZero ∧
    (⟨.hourMinSec [0x30, 0x31] [0x30, 0x32] [0x30, 0x33], some [0x34, 0x35, 0x30]⟩ : Stamp).millis =
      3723450 := by
  refine ⟨⟨?_, ?_⟩, ?_, by decide +kernel⟩
  · refine ⟨⟨by decide, by decide⟩, ⟨by decide, by decide⟩, ⟨by decide, by decide⟩, ?_, ?_, ?_⟩ <;>
      decide
  · intro f hf; cases hf; exact ⟨⟨by decide, by decide⟩, by decide⟩
  · intro f hf; cases hf; exact Or.inl (by decide)

/-! ### C38: arithmetic on times -/

/-- Setting a time from a number of milliseconds below 24 days, 20:31:24 gives the time that
stands for that number.

Full statement: for every number of milliseconds whose hours fit an `int`.  It is false
(`C38_large_ub`). -/
theorem C38_round_trip_partial (d : Int) (h0 : 0 ≤ d) (h1 : d < 2147484000) :
    ∃ t, Time.ofPresentation d = .ok t ∧ Normal t ∧ InInt t ∧ millisOf t = d ∧
      t.presentation = d := by
  refine ⟨_, ofPresentation_small h0 h1, ?_, ?_, ?_, ?_⟩
  · simp only [Normal]; omega
  · simp only [InInt]; intro f hf; omega
  · simp only [millisOf]; omega
  · rw [presentation_eq]; simp only [millisOf]; omega

/-- Beyond that the computation overflows an `int`, although a `Time` could hold the result. -/
theorem C38_large_ub (d : Int) (h0 : 2147484000 ≤ d) (h1 : d < 2147483648000) :
    Time.ofPresentation d = .ub ∧ ∃ t, Normal t ∧ InInt t ∧ millisOf t = d := by
  refine ⟨ofPresentation_large h0 h1,
    ⟨d / 1000 / 60 / 60, d / 1000 / 60 % 60, d / 1000 % 60, d % 1000⟩, ?_, ?_, ?_⟩
  · simp only [Normal]; omega
  · simp only [InInt]; intro f hf; omega
  · simp only [millisOf]; omega

/-- A negative number sets the time to zero. -/
theorem C38_negative (d : Int) (h : d < 0) : Time.ofPresentation d = .ok ⟨0, 0, 0, 0⟩ := by
  unfold Time.ofPresentation; rw [if_pos h]

/-- Comparing times compares the milliseconds they stand for. -/
theorem C38_order (a b : Time) (ha : Normal a) (hb : Normal b) :
    (a.lt b = true ↔ millisOf a < millisOf b) ∧ (a.gt b = true ↔ millisOf a > millisOf b) ∧
    (a.le b = true ↔ millisOf a ≤ millisOf b) ∧ (a.ge b = true ↔ millisOf a ≥ millisOf b) ∧
    (a.eq b = true ↔ millisOf a = millisOf b) := by
  have h1 := lt_iff ha hb
  have h2 := lt_iff hb ha
  refine ⟨h1, h2, ?_, ?_, eq_iff ha hb⟩
  · unfold Time.le Time.gt
    cases h : b.lt a with
    | true => have := h2.mp h; simp; omega
    | false => rw [h] at h2; simp at h2 ⊢; omega
  · unfold Time.ge
    cases h : a.lt b with
    | true => have := h1.mp h; simp; omega
    | false => rw [h] at h1; simp at h1 ⊢; omega

/-- Adding or subtracting a duration moves the time by that duration, and stops at zero, as long
as the result is below 24 days, 20:31:24.

Full statement: as long as a `Time` can hold the result; false for the reason given above. -/
theorem C38_add_partial (t : Time) (d : Int) (ht : Normal t) (hi : InInt t)
    (hd : -9000000000000000000 ≤ d) (h1 : millisOf t + d < 2147484000) :
    (∃ u, t.add d = .ok u ∧ Normal u ∧ millisOf u = max 0 (millisOf t + d)) ∧
    (∃ u, t.subDuration (-d) = .ok u ∧ Normal u ∧ millisOf u = max 0 (millisOf t + d)) := by
  have hh := hi t.hours (Or.inl rfl)
  have hm : 0 ≤ millisOf t ∧ millisOf t < 7730941136400000 := by
    obtain ⟨a1, a2, a3, a4, a5, a6, a7⟩ := ht
    unfold millisOf; omega
  have key : ∃ u, t.add d = .ok u ∧ Normal u ∧ millisOf u = max 0 (millisOf t + d) := by
    unfold Time.add
    rw [presentation_eq, i64, if_neg (by omega), Res.bind_ok]
    by_cases hn : millisOf t + d < 0
    · exact ⟨_, C38_negative _ hn, by simp [Normal], by simp only [millisOf] at hn ⊢; omega⟩
    · obtain ⟨u, h2, h3, -, h4, -⟩ := C38_round_trip_partial (millisOf t + d) (by omega) h1
      exact ⟨u, h2, h3, by omega⟩
  refine ⟨key, ?_⟩
  unfold Time.subDuration
  rw [Int.neg_neg, i64, if_neg (by omega), Res.bind_ok]
  exact key

/-- The difference of two times is the difference of the milliseconds they stand for; it cannot
overflow. -/
theorem C38_difference (a b : Time) (ha : InInt a) (hb : InInt b) :
    a.sub b = millisOf a - millisOf b ∧ i64 (a.sub b) = .ok (a.sub b) ∧
    i64 a.presentation = .ok a.presentation := by
  have bound : ∀ t : Time, InInt t → -8000000000000000 ≤ millisOf t ∧
      millisOf t ≤ 8000000000000000 := by
    intro t ht
    have h1 := ht t.hours (by simp)
    have h2 := ht t.minutes (by simp)
    have h3 := ht t.seconds (by simp)
    have h4 := ht t.milliseconds (by simp)
    unfold millisOf; omega
  have h1 := bound a ha
  have h2 := bound b hb
  have he : a.sub b = millisOf a - millisOf b := by
    unfold Time.sub; rw [presentation_eq, presentation_eq]
  refine ⟨he, ?_, ?_⟩
  · rw [he, i64, if_neg (by omega)]
  · rw [presentation_eq, i64, if_neg (by omega)]

example : Normal ⟨25, 59, 58, 999⟩ ∧ InInt ⟨25, 59, 58, 999⟩ ∧
    (⟨25, 59, 58, 999⟩ : Time).add 2 = .ok ⟨25, 59, 59, 1⟩ ∧
    (⟨25, 59, 58, 999⟩ : Time).add (-93598999) = .ok ⟨0, 0, 0, 0⟩ := by
  refine ⟨by simp [Normal], ?_, by decide +kernel, by decide +kernel⟩
  intro f hf
  simp only at hf
  omega

/-! ### C50: a file of cues is read back -/

/-- A file that starts with `WEBVTT` (perhaps after a byte order mark, perhaps followed by a blank
and other text) and a blank line, and goes on with legal cues each followed by a blank line, is
accepted; the cues are read back one by one with identifier, times, settings and payload, however
the lines end, and after them the end of the stream is reported. -/
theorem C50_cues (mark title : Bytes) (cues : List Written) (trailing : Nat)
    (ends : List (Bytes × Ending))
    (hmark : mark = [] ∨ mark = [0xEF, 0xBB, 0xBF])
    (htitle : title = [] ∨ title.head? = some 0x20 ∨ title.head? = some 0x09)
    (hread : Readable title) (hcues : ∀ w ∈ cues, w.Legal)
    (hends : ends.map Prod.fst = (mark ++ "WEBVTT".toUTF8.toList ++ title) :: [] ::
      (cues.flatMap (fun w => w.lines ++ [[]]) ++ List.replicate trailing []))
    (hu : Unambiguous ends) :
    (Parser.init { rest := fileOf ends [] }).1 = 0 ∧
    ∃ read : List Cue,
      cueResults (cues.length + 1) (Parser.init { rest := fileOf ends [] }).2 =
        read.map Res.ok ++ [.err 1] ∧
      read.length = cues.length ∧
      ∀ (k : Nat) (hk : k < read.length) (hk' : k < cues.length), (cues[k]).Is read[k] := by
  have hid : "WEBVTT".toUTF8.toList = kWebVtt := by decide +kernel
  rw [hid] at hends
  rcases ends with _ | ⟨⟨x, e1⟩, _ | ⟨⟨y, e2⟩, r⟩⟩
  · simp at hends
  · simp at hends
  simp only [List.map_cons, List.cons.injEq] at hends
  obtain ⟨rfl, rfl, hm⟩ := hends
  have hrr : ∀ z ∈ r, Readable z.1 := by
    intro z hz
    have : z.1 ∈ r.map Prod.fst := List.mem_map_of_mem hz
    rw [hm, List.mem_append, List.mem_flatMap] at this
    have hblank : Readable [] := ⟨by simp, by simp [maxLine]⟩
    rcases this with ⟨w, hw, hz⟩ | hz
    · obtain ⟨-, h2, h3, -, h5⟩ := hcues w hw
      simp only [Written.lines, List.mem_append, List.mem_singleton, List.mem_replicate,
        Option.mem_toList] at hz
      rcases hz with (((hz | hz) | hz) | hz) | hz
      · rw [hz.2]; exact hblank
      · exact (h3 _ hz).2.1
      · rw [hz]; exact h2
      · exact (h5 _ hz).2
      · rw [hz]; exact hblank
    · rw [(List.mem_replicate.mp hz).2]; exact hblank
  obtain ⟨p', h1, h2⟩ := init_ok (p := { rest := fileOf ((mark ++ kWebVtt ++ title, e1) :: ([], e2) :: r) [] })
    (b := mark) (rest := title) hmark (by
      rcases htitle with h | h | h
      · exact Or.inl h
      · cases title with
        | nil => simp at h
        | cons c t => exact Or.inr (Or.inl (by simpa using h))
      · cases title with
        | nil => simp at h
        | cons c t => exact Or.inr (Or.inr (by simpa using h))) rfl hu hread hrr rfl
  rw [h1]
  refine ⟨rfl, cues.map readCue, ?_, by simp, ?_⟩
  · clear h1 hu hrr
    simp only
    induction cues generalizing p' r with
    | nil =>
      simp only [List.flatMap_nil, List.nil_append] at hm
      obtain ⟨q, g1, g2⟩ := parse_end h2 (by
        intro x hx
        have : x.1 ∈ r.map Prod.fst := List.mem_map_of_mem hx
        rw [hm] at this
        exact (List.mem_replicate.mp this).2)
      simp [cueResults, g1]
    | cons w ws ih =>
      rw [List.flatMap_cons, List.append_assoc] at hm
      obtain ⟨x, y, rfl, hx, hy⟩ := map_split hm
      obtain ⟨q, g1, g2⟩ := parse_before (hcues w (by simp)) h2 hx
      have := ih (fun v hv => hcues v (by simp [hv])) y hy q g2
      rw [List.length_cons, cueResults, g1]
      simp only
      rw [this]
      rfl
  · intro k hk hk'
    rw [List.getElem_map]
    exact readCue_is (hcues _ (List.getElem_mem hk'))

/-- A cue that ends with the file, without a blank line after it, is read in the same way. -/
theorem C50_last_cue (w : Written) (hw : w.Legal) (ends : List (Bytes × Ending))
    (hends : ends.map Prod.fst = w.lines) (hu : Unambiguous ends) :
    ∃ c, cueResults 2 { rest := fileOf ends [] } = [.ok c, .err 1] ∧ w.Is c := by
  have hrr : ∀ z ∈ ends, Readable z.1 := by
    intro z hz
    have : z.1 ∈ ends.map Prod.fst := List.mem_map_of_mem hz
    have hblank : Readable [] := ⟨by simp, by simp [maxLine]⟩
    rw [hends] at this
    obtain ⟨-, h2, h3, -, h5⟩ := hw
    simp only [Written.lines, List.mem_append, List.mem_singleton, List.mem_replicate,
      Option.mem_toList] at this
    rcases this with ((hz | hz) | hz) | hz
    · rw [hz.2]; exact hblank
    · exact (h3 _ hz).2.1
    · rw [hz]; exact h2
    · exact (h5 _ hz).2
  obtain ⟨p', h1, h2⟩ := parse_before_eof (p := { rest := fileOf ends [] }) hw ⟨rfl, hu, hrr, rfl⟩ hends
  obtain ⟨q, g1, -⟩ := parse_end h2 (by simp)
  exact ⟨readCue w, by simp [cueResults, h1, g1], readCue_is hw⟩

/-- A cue with an identifier, a setting and two lines of payload. -/
def demoCue : Written :=
  { blanks := 1
    ident := some [0x61]
    timings :=
      { b1 := [], start := ⟨.minSec [0x30, 0x31] [0x30, 0x32], some [0x35, 0x30, 0x30]⟩, b2 := [0x20],
        b3 := [0x20, 0x09], stop := ⟨.sec [0x39, 0x39], none⟩,
        settings := [([0x20], ⟨[0x4C], [0x35, 0x25]⟩)], b4 := [0x20] }
    payload := [[0x68, 0x69], [0x79, 0x6F]] }

theorem demoCue_legal : demoCue.Legal := by
  refine ⟨⟨by simp [Blank, demoCue], by simp [Blank, demoCue], by simp [Blank, demoCue],
    by simp [Blank, demoCue], ?_, ?_, ?_, ?_, ?_⟩, ⟨by decide, by decide⟩, ?_, by decide, ?_⟩
  · exact ⟨⟨⟨by decide, by decide⟩, ⟨by decide, by decide⟩, by decide, by decide⟩,
      fun f hf => by cases hf; exact ⟨⟨by decide, by decide⟩, by decide⟩⟩
  · exact ⟨⟨⟨by decide, by decide⟩, by decide⟩, fun f hf => by cases hf⟩
  · intro f hf; cases hf; exact Or.inl (by decide)
  · intro f hf; cases hf
  · intro g hg
    simp only [demoCue, List.mem_singleton] at hg
    subst hg
    exact ⟨by simp [Blank], by decide, ⟨by decide, by decide⟩, ⟨by decide, by decide⟩⟩
  · intro i hi
    cases hi
    refine ⟨by decide, ⟨by decide, by decide⟩, ?_⟩
    rintro ⟨a, b, e⟩
    have := congrArg List.length e
    simp [arrow] at this
    omega
  · intro l hl
    simp only [demoCue, List.mem_cons, List.not_mem_nil, or_false] at hl
    rcases hl with rfl | rfl <;> exact ⟨by decide, by decide, by decide⟩

example : cueResults 2 { rest := fileOf (demoCue.lines.map (fun l => (l, .crlf))) [] } =
    [.ok ⟨[0x61], ⟨0, 1, 2, 500⟩, ⟨0, 1, 39, 0⟩, [⟨[0x4C], [0x35, 0x25]⟩],
      [[0x68, 0x69], [0x79, 0x6F]]⟩, .err 1] := by decide +kernel

/-! ### C51: no input makes the parser look outside a line -/

/-- Whatever the stream holds, and even if it ends in an error, parsing a cue neither looks
outside a line nor overflows. -/
theorem C51_no_ub (p : Parser) : p.parse.1 ≠ .ub := by
  unfold Parser.parse
  rcases p.timingsLine with ⟨e, ⟨i, l, a⟩, p1⟩
  simp only
  split
  · simp
  · cases h : parseTimingsLine l a with
    | ub => exact absurd h (parseTimingsLine_not_ub l a)
    | err c => simp
    | ok x =>
      simp only
      rcases p1.payloadLoop [] with ⟨e2, pl, p2⟩
      simp only
      split
      · simp
      · split <;> simp

end Verif.Props
