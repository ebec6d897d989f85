/-
Lemmas about escaping and the PTS field.
-/
import Verif.Model.Pes
import Verif.Spec.M2ts

namespace Verif.Pes
open Verif.Spec

/-! ### Start codes -/

/-- Scan for a start code, having just seen `z` zeros. -/
def scan : Nat → Bytes → Bool
  | _, [] => true
  | z, b :: bs => if b = 0 then scan (z + 1) bs else if b = 1 ∧ 2 ≤ z then false else scan 0 bs

theorem scan_bad (s t : Bytes) (z : Nat) : scan z (s ++ 0 :: 0 :: 1 :: t) = false := by
  induction s generalizing z with
  | nil => simp [scan]
  | cons b s ih =>
    rw [List.cons_append, scan]
    split
    · exact ih _
    · split
      · rfl
      · exact ih _

theorem not_hasStartCode_of_scan {z : Nat} {bs : Bytes} (h : scan z bs = true) :
    ¬ HasStartCode bs := by
  rintro ⟨s, t, rfl⟩
  rw [show s ++ [0, 0, 1] ++ t = s ++ 0 :: 0 :: 1 :: t by simp, scan_bad] at h
  cases h

/-- Zeros seen at the end of a byte string. -/
def tailZeros : Nat → Bytes → Nat
  | z, [] => z
  | z, b :: bs => if b = 0 then tailZeros (z + 1) bs else tailZeros 0 bs

theorem scan_append (z : Nat) (a b : Bytes) :
    scan z (a ++ b) = (scan z a && scan (tailZeros z a) b) := by
  induction a generalizing z with
  | nil => simp [scan, tailZeros]
  | cons x a ih =>
    rw [List.cons_append, scan, scan, tailZeros]
    by_cases h0 : x = 0
    · rw [if_pos h0, if_pos h0, if_pos h0, ih]
    · rw [if_neg h0, if_neg h0, if_neg h0]
      by_cases h1 : x = 1 ∧ 2 ≤ z
      · rw [if_pos h1, if_pos h1]; rfl
      · rw [if_neg h1, if_neg h1, ih]

theorem scan_escapeLoop (z : Nat) (bs : Bytes) : scan z (escapeLoop z bs) = true := by
  induction bs generalizing z with
  | nil => rfl
  | cons b bs ih =>
    rw [escapeLoop]
    by_cases h0 : b = 0
    · rw [if_pos h0, scan, if_pos h0, ih]
    · rw [if_neg h0]
      by_cases h1 : z ≥ 2 ∧ (b = 1 ∨ b = 3)
      · rw [if_pos h1, scan, if_neg (by decide), if_neg (by simp), scan, if_neg h0,
          if_neg (by omega), ih]
      · rw [if_neg h1, scan, if_neg h0, if_neg (fun hh => h1 ⟨hh.2, Or.inl hh.1⟩), ih]

theorem scan_mono {z z' : Nat} {bs : Bytes} (hz : z' ≤ z) (h : scan z bs = true) :
    scan z' bs = true := by
  induction bs generalizing z z' with
  | nil => rfl
  | cons b bs ih =>
    rw [scan] at h ⊢
    split
    · rename_i h0
      rw [if_pos h0] at h
      exact ih (by omega) h
    · rename_i h0
      rw [if_neg h0] at h
      split
      · rename_i h1
        rw [if_pos ⟨h1.1, by omega⟩] at h
        exact h
      · split at h
        · cases h
        · exact h

theorem scan_escapeLoop_two (z z' : Nat) (bs : Bytes) (hz : 2 ≤ z) :
    scan z' (escapeLoop z bs) = true := by
  induction bs generalizing z z' with
  | nil => rfl
  | cons b bs ih =>
    rw [escapeLoop]
    by_cases h0 : b = 0
    · rw [if_pos h0, scan, if_pos h0]
      exact ih _ _ (by omega)
    · rw [if_neg h0]
      by_cases h1 : z ≥ 2 ∧ (b = 1 ∨ b = 3)
      · rw [if_pos h1, scan, if_neg (by decide), if_neg (by simp), scan, if_neg h0,
          if_neg (by omega), scan_escapeLoop]
      · rw [if_neg h1, scan, if_neg h0, if_neg (fun hh => h1 ⟨hz, Or.inl hh.1⟩), scan_escapeLoop]

/-- An escaped payload makes no start code with the zeros before it, unless it begins with
`01` or `00 01`. -/
theorem scan_escape_after (z : Nat) (bs : Bytes) (h1 : ¬ [1] <+: bs) (h2 : ¬ [0, 1] <+: bs) :
    scan z (escapeLoop 0 bs) = true := by
  cases bs with
  | nil => rfl
  | cons b bs =>
    have hb1 : b ≠ 1 := by rintro rfl; exact h1 ⟨bs, rfl⟩
    rw [escapeLoop]
    by_cases h0 : b = 0
    · subst h0
      rw [if_pos rfl, scan, if_pos rfl]
      cases bs with
      | nil => rfl
      | cons c bs =>
        have hc1 : c ≠ 1 := by rintro rfl; exact h2 ⟨bs, rfl⟩
        rw [escapeLoop]
        by_cases hc : c = 0
        · rw [if_pos hc, scan, if_pos hc]
          exact scan_escapeLoop_two _ _ _ (by omega)
        · rw [if_neg hc, if_neg (by omega), scan, if_neg hc, if_neg (fun h => hc1 h.1),
            scan_escapeLoop]
    · rw [if_neg h0, if_neg (by omega), scan, if_neg h0, if_neg (fun h => hb1 h.1),
        scan_escapeLoop]

theorem tailZeros_append (z : Nat) (a b : Bytes) :
    tailZeros z (a ++ b) = tailZeros (tailZeros z a) b := by
  induction a generalizing z with
  | nil => rfl
  | cons x a ih =>
    rw [List.cons_append, tailZeros, tailZeros]
    split <;> exact ih _

/-! ### Escape and unescape -/

/-- No run of three zeros before `01` or `03`, having just seen `z` zeros. -/
def shortRuns : Nat → Bytes → Bool
  | _, [] => true
  | z, b :: bs =>
    if b = 0 then shortRuns (z + 1) bs
    else if (b = 1 ∨ b = 3) ∧ 3 ≤ z then false else shortRuns 0 bs

theorem shortRuns_bad (s t : Bytes) (z : Nat) (c : UInt8) (hc : c = 1 ∨ c = 3) :
    shortRuns z (s ++ 0 :: 0 :: 0 :: c :: t) = false := by
  induction s generalizing z with
  | nil =>
    have : ¬ c = 0 := by rintro rfl; simp at hc
    simp [shortRuns, hc, this]
  | cons b s ih =>
    rw [List.cons_append, shortRuns]
    split
    · exact ih _
    · split
      · rfl
      · exact ih _

theorem shortRuns_of_not (z : Nat) (bs : Bytes)
    (h : ¬ LongRun (List.replicate (min z 3) 0 ++ bs)) : shortRuns z bs = true := by
  induction bs generalizing z with
  | nil => rfl
  | cons b bs ih =>
    rw [shortRuns]
    by_cases h0 : b = 0
    · rw [if_pos h0]
      apply ih
      intro hl
      apply h
      subst h0
      have e : List.replicate (min z 3) (0 : UInt8) ++ 0 :: bs =
          List.replicate (min z 3 + 1) 0 ++ bs := by
        rw [List.replicate_succ', List.append_assoc]; rfl
      rw [e]
      have e2 : min z 3 + 1 = (min z 3 + 1 - min (z + 1) 3) + min (z + 1) 3 := by omega
      rw [e2, ← List.replicate_append_replicate, List.append_assoc]
      rcases hl with hl | hl
      · exact Or.inl (hl.trans (List.suffix_append _ _).isInfix)
      · exact Or.inr (hl.trans (List.suffix_append _ _).isInfix)
    · rw [if_neg h0]
      by_cases h1 : (b = 1 ∨ b = 3) ∧ 3 ≤ z
      · exfalso
        apply h
        rw [show min z 3 = 3 by omega]
        rcases h1.1 with rfl | rfl
        · exact Or.inl ⟨[], bs, rfl⟩
        · exact Or.inr ⟨[], bs, rfl⟩
      · rw [if_neg h1]
        apply ih
        intro hl
        apply h
        have : bs <:+: List.replicate (min z 3) 0 ++ b :: bs :=
          (List.suffix_append_of_suffix (List.suffix_cons b bs)).isInfix
        rw [show min 0 3 = 0 by rfl] at hl
        rcases hl with hl | hl
        · exact Or.inl (List.IsInfix.trans hl this)
        · exact Or.inr (List.IsInfix.trans hl this)

theorem shortRuns_iff (bs : Bytes) : shortRuns 0 bs = true ↔ ¬ LongRun bs := by
  constructor
  · intro h hl
    rcases hl with ⟨s, t, rfl⟩ | ⟨s, t, rfl⟩
    · rw [show s ++ [0, 0, 0, 1] ++ t = s ++ 0 :: 0 :: 0 :: 1 :: t by simp,
        shortRuns_bad _ _ _ _ (Or.inl rfl)] at h
      cases h
    · rw [show s ++ [0, 0, 0, 3] ++ t = s ++ 0 :: 0 :: 0 :: 3 :: t by simp,
        shortRuns_bad _ _ _ _ (Or.inr rfl)] at h
      cases h
  · intro h
    exact shortRuns_of_not 0 bs h

theorem unescapeLoop_zero (z : Nat) (bs : Bytes) : unescapeLoop z 0 bs = .ok ([], 0) := by
  cases bs <;> rfl

theorem unescapeLoop_cons (z n : Nat) (b : UInt8) (bs : Bytes) :
    unescapeLoop z (n + 1) (b :: bs) =
      if b = 0 then (unescapeLoop (z + 1) n bs).bind fun r => .ok (b :: r.1, r.2 + 1)
      else if b = 3 ∧ z = 2 then
        (unescapeLoop 0 (n + 1) bs).bind fun r => .ok (r.1, r.2 + 1)
      else (unescapeLoop 0 n bs).bind fun r => .ok (b :: r.1, r.2 + 1) := rfl

theorem unescape_escape (z : Nat) (p rest : Bytes) (h : shortRuns z p = true) :
    unescapeLoop z p.length (escapeLoop z p ++ rest) = .ok (p, (escapeLoop z p).length) := by
  induction p generalizing z with
  | nil => exact unescapeLoop_zero _ _
  | cons b p ih =>
    rw [shortRuns] at h
    rw [escapeLoop, List.length_cons]
    by_cases h0 : b = 0
    · rw [if_pos h0] at h
      rw [if_pos h0, List.cons_append, unescapeLoop_cons, if_pos h0, ih _ h]
      rfl
    · rw [if_neg h0] at h ⊢
      have hz3 : ¬ ((b = 1 ∨ b = 3) ∧ 3 ≤ z) := by
        intro hh; rw [if_pos hh] at h; cases h
      rw [if_neg hz3] at h
      by_cases h1 : z ≥ 2 ∧ (b = 1 ∨ b = 3)
      · have hz : z = 2 := by
          false_or_by_contra
          rename_i hz
          exact hz3 ⟨h1.2, by omega⟩
        rw [if_pos h1, List.cons_append, List.cons_append, unescapeLoop_cons, if_neg (by decide),
          if_pos ⟨rfl, hz⟩, unescapeLoop_cons, if_neg h0, if_neg (by omega), ih _ h]
        rfl
      · rw [if_neg h1, List.cons_append, unescapeLoop_cons, if_neg h0,
          if_neg (fun hh => h1 ⟨by omega, Or.inr hh.1⟩), ih _ h]
        rfl

theorem unescape_shifted (p rest : Bytes) :
    unescapeLoop 0 p.length (3 :: escapeLoop 0 p ++ rest) ≠ .ok (p, (escapeLoop 0 p).length + 1) := by
  induction p with
  | nil => rw [List.length_nil, unescapeLoop_zero]; simp [escapeLoop]
  | cons b p ih =>
    rw [List.length_cons, List.cons_append, unescapeLoop_cons, if_neg (by decide),
      if_neg (by omega)]
    intro h
    obtain ⟨⟨out, n⟩, h1, h2⟩ := Res.bind_eq_ok.mp h
    simp only [Res.ok.injEq, Prod.mk.injEq, List.cons.injEq] at h2
    obtain ⟨⟨rfl, rfl⟩, h3⟩ := h2
    rw [escapeLoop, if_neg (by decide), if_neg (by omega)] at h1 h3
    apply ih
    rw [h1]
    simp at h3 ⊢
    exact h3

theorem unescape_escape_conv (z : Nat) (p rest : Bytes)
    (h : unescapeLoop z p.length (escapeLoop z p ++ rest) = .ok (p, (escapeLoop z p).length)) :
    shortRuns z p = true := by
  induction p generalizing z with
  | nil => rfl
  | cons b p ih =>
    rw [shortRuns]
    rw [escapeLoop, List.length_cons] at h
    by_cases h0 : b = 0
    · rw [if_pos h0, List.cons_append, unescapeLoop_cons, if_pos h0] at h
      obtain ⟨⟨out, n⟩, h1, h2⟩ := Res.bind_eq_ok.mp h
      simp only [Res.ok.injEq, Prod.mk.injEq, List.cons.injEq, true_and, List.length_cons,
        Nat.add_right_cancel_iff] at h2
      rw [if_pos h0]
      exact ih _ (by rw [h1, h2.1, h2.2])
    · rw [if_neg h0] at h ⊢
      by_cases h1 : z ≥ 2 ∧ (b = 1 ∨ b = 3)
      · rw [if_pos h1, List.cons_append, List.cons_append, unescapeLoop_cons,
          if_neg (by decide)] at h
        by_cases hz : z = 2
        · rw [if_pos ⟨rfl, hz⟩, unescapeLoop_cons, if_neg h0, if_neg (by omega)] at h
          obtain ⟨⟨out, n⟩, h2, h3⟩ := Res.bind_eq_ok.mp h
          obtain ⟨⟨out', n'⟩, h4, h5⟩ := Res.bind_eq_ok.mp h2
          simp only [Res.ok.injEq, Prod.mk.injEq, List.length_cons] at h3 h5
          obtain ⟨rfl, rfl⟩ := h5
          obtain ⟨h6, h7⟩ := h3
          simp only [List.cons.injEq, true_and] at h6
          rw [if_neg (by omega)]
          exact ih _ (by rw [h4, h6, show n' = (escapeLoop 0 p).length by omega])
        · exfalso
          rw [if_neg (fun hh => hz hh.2)] at h
          obtain ⟨⟨out, n⟩, h2, h3⟩ := Res.bind_eq_ok.mp h
          simp only [Res.ok.injEq, Prod.mk.injEq, List.cons.injEq, List.length_cons] at h3
          obtain ⟨⟨rfl, rfl⟩, h4⟩ := h3
          apply unescape_shifted out rest
          rw [List.cons_append, h2]
          simp only [Res.ok.injEq, Prod.mk.injEq, true_and]
          omega
      · rw [if_neg h1, List.cons_append, unescapeLoop_cons, if_neg h0,
          if_neg (fun hh => h1 ⟨by omega, Or.inr hh.1⟩)] at h
        obtain ⟨⟨out, n⟩, h2, h3⟩ := Res.bind_eq_ok.mp h
        simp only [Res.ok.injEq, Prod.mk.injEq, List.cons.injEq, true_and, List.length_cons,
          Nat.add_right_cancel_iff] at h3
        rw [if_neg (fun hh => h1 ⟨by omega, hh.1⟩)]
        exact ih _ (by rw [h2, h3.1, h3.2])

theorem escapeLoop_length_ge (z : Nat) (p : Bytes) : p.length ≤ (escapeLoop z p).length := by
  induction p generalizing z with
  | nil => simp
  | cons b p ih =>
    rw [escapeLoop]
    split
    · have := ih (z + 1); simp only [List.length_cons]; omega
    · have := ih 0
      split <;> (simp only [List.length_cons]; omega)

/-! ### The PTS field -/

theorem two_or_one (x : Nat) : (2 * x) ||| 1 = 2 * x + 1 := by
  have := Nat.shiftLeft_add_eq_or_of_lt (i := 1) (b := 1) (by omega) x
  rw [Nat.shiftLeft_eq] at this
  rw [show 2 * x = x * 2 ^ 1 by omega, this]

theorem shl8_or' (a b : Nat) (h : b < 256) : (a <<< 8) ||| b = a * 256 + b := by
  rw [← Nat.shiftLeft_add_eq_or_of_lt (i := 8) (by omega), Nat.shiftLeft_eq]

/-- The 40 bits in terms of the three fields of the PTS. -/
theorem ptsBits_eq (a b c : Nat) (ha : a < 8) (hb : b < 2 ^ 15) (hc : c < 2 ^ 15) :
    ptsBits ((a * 2 ^ 30 + b * 2 ^ 15 + c : Nat) : Int) =
      ((((2 * (c % 128) + 1) * 256 + (c / 128 ||| b / 128)) * 256 + (2 * (b % 128) + 1)) * 256 +
        b / 128) * 256 + (0x20 + 2 * a + 1) := by
  have hu : toU64 ((a * 2 ^ 30 + b * 2 ^ 15 + c : Nat) : Int) = a * 2 ^ 30 + b * 2 ^ 15 + c := by
    unfold toU64; omega
  have e1 : ((a * 2 ^ 30 + b * 2 ^ 15 + c) >>> 30) &&& 0x7 = a := by
    rw [show 0x7 = 2 ^ 3 - 1 by rfl, Nat.and_two_pow_sub_one_eq_mod, Nat.shiftRight_eq_div_pow]
    omega
  have e2 : ((a * 2 ^ 30 + b * 2 ^ 15 + c) >>> 15) &&& 0x7FFF = b := by
    rw [show 0x7FFF = 2 ^ 15 - 1 by rfl, Nat.and_two_pow_sub_one_eq_mod, Nat.shiftRight_eq_div_pow]
    omega
  have e3 : (a * 2 ^ 30 + b * 2 ^ 15 + c) &&& 0x7FFF = c := by
    rw [show 0x7FFF = 2 ^ 15 - 1 by rfl, Nat.and_two_pow_sub_one_eq_mod]
    omega
  have ec : ∀ x, x < 2 ^ 15 → (x >>> 7) &&& 0xff = x / 128 := by
    intro x hx
    rw [show 0xff = 2 ^ 8 - 1 by rfl, Nat.and_two_pow_sub_one_eq_mod, Nat.shiftRight_eq_div_pow]
    omega
  have ec' : (c <<< 1) &&& 0xff = 2 * (c % 128) := by
    rw [show 0xff = 2 ^ 8 - 1 by rfl, Nat.and_two_pow_sub_one_eq_mod, Nat.shiftLeft_eq]
    omega
  have hor : ∀ X, X <<< 8 ||| b <<< 1 = (X ||| b / 128) * 256 + 2 * (b % 128) := by
    intro X
    have : b <<< 1 = (b / 128) <<< 8 ||| 2 * (b % 128) := by
      rw [shl8_or' _ _ (by omega), Nat.shiftLeft_eq]; omega
    rw [this, ← Nat.or_assoc, ← Nat.shiftLeft_or_distrib, shl8_or' _ _ (by omega)]
  have hor2 : ∀ X, (X * 256 + c / 128) ||| b / 128 = X * 256 + (c / 128 ||| b / 128) := by
    intro X
    have h1 : c / 128 ||| b / 128 < 2 ^ 8 := Nat.or_lt_two_pow (by omega) (by omega)
    rw [← shl8_or' X (c / 128) (by omega), Nat.or_assoc, shl8_or' _ _ h1]
  have hlast : ∀ X, (X <<< 8 ||| 1 <<< 5) ||| a <<< 1 ||| 1 = X * 256 + (0x20 + 2 * a + 1) := by
    intro X
    have h2 : ∀ a < 8, ((1 <<< 5) ||| a <<< 1) ||| 1 = 0x20 + 2 * a + 1 := by decide
    rw [Nat.or_assoc (X <<< 8), Nat.or_assoc (X <<< 8), h2 a ha, shl8_or' _ _ (by omega)]
  unfold ptsBits
  simp only [hu, e1, e2, e3, ec c hc, ec b hb, ec', Nat.zero_or, two_or_one]
  rw [shl8_or' _ (c / 128) (by omega), hor, hor2]
  rw [show ∀ X, (X * 256 + 2 * (b % 128)) ||| 1 = X * 256 + (2 * (b % 128) + 1) by
    intro X
    rw [show X * 256 + 2 * (b % 128) = 2 * (X * 128 + b % 128) by omega, two_or_one]; omega]
  rw [shl8_or' _ (b / 128) (by omega), hlast]

theorem ptsBytes_eq (a b c : Nat) (ha : a < 8) (hb : b < 2 ^ 15) (hc : c < 2 ^ 15) :
    ptsBytes ((a * 2 ^ 30 + b * 2 ^ 15 + c : Nat) : Int) =
      [UInt8.ofNat (0x20 + 2 * a + 1), UInt8.ofNat (b / 128), UInt8.ofNat (2 * (b % 128) + 1),
       UInt8.ofNat (c / 128 ||| b / 128), UInt8.ofNat (2 * (c % 128) + 1)] := by
  have hm : ∀ x, x &&& 0xff = x % 256 := fun x => by
    rw [show 0xff = 2 ^ 8 - 1 by rfl, Nat.and_two_pow_sub_one_eq_mod]
  have h1 : c / 128 ||| b / 128 < 2 ^ 8 := Nat.or_lt_two_pow (by omega) (by omega)
  unfold ptsBytes
  simp only [ptsBits_eq a b c ha hb hc, hm, Nat.shiftRight_eq_div_pow]
  generalize c / 128 ||| b / 128 = m at *
  have h2 : b / 128 < 256 := by omega
  generalize b / 128 = b1 at *
  have h3 : 2 * (b % 128) + 1 < 256 := by omega
  generalize 2 * (b % 128) + 1 = b2 at *
  have h4 : 2 * (c % 128) + 1 < 256 := by omega
  generalize 2 * (c % 128) + 1 = b4 at *
  have h5 : 0x20 + 2 * a + 1 < 256 := by omega
  generalize 0x20 + 2 * a + 1 = b0 at *
  refine congr (congrArg List.cons ?_) (congr (congrArg List.cons ?_) (congr (congrArg List.cons ?_)
    (congr (congrArg List.cons ?_) (congr (congrArg List.cons ?_) rfl)))) <;>
  (congr 1; omega)

theorem and_fffe (b : Nat) (hb : b < 2 ^ 15) : (2 * b + 1) &&& 0xFFFE = 2 * b := by
  have h1 : (2 * b + 1) &&& 0xFFFE = (2 * b + 1) / 2 * 2 &&& (2 ^ 15 - 1) * 2 := by
    rw [show (2 * b + 1) / 2 = b by omega]
    apply Nat.eq_of_testBit_eq
    intro i
    rw [Nat.testBit_and, Nat.testBit_and]
    cases i with
    | zero => simp
    | succ i =>
      simp only [Nat.testBit_succ]
      rw [show (2 * b + 1) / 2 = b by omega, show b * 2 / 2 = b by omega,
        show 0xFFFE / 2 = (2 ^ 15 - 1) * 2 / 2 from Nat.eq_of_beq_eq_true rfl]
  have h2 := Nat.shiftLeft_and_distrib (a := b) (b := 2 ^ 15 - 1) (i := 1)
  rw [Nat.shiftLeft_eq, Nat.shiftLeft_eq, Nat.shiftLeft_eq, Nat.and_two_pow_sub_one_eq_mod] at h2
  rw [h1, show (2 * b + 1) / 2 = b by omega]
  rw [Nat.pow_one] at h2
  rw [← h2]
  omega

theorem readPts_eq (a b c m : Nat) (ha : a < 8) (hb : b < 2 ^ 15) (hm : m < 256) :
    readPts (UInt8.ofNat (0x20 + 2 * a + 1)) (UInt8.ofNat (b / 128))
      (UInt8.ofNat (2 * (b % 128) + 1)) (UInt8.ofNat m) (UInt8.ofNat (2 * (c % 128) + 1)) =
    toU64 (toI32 (((a % 4) * 2 ^ 30 + b * 2 ^ 15 + (m * 128 + c % 128) : Nat) : Int)) := by
  have t : ∀ x, x < 256 → (UInt8.ofNat x).toNat = x := fun x hx => by
    simp; omega
  have r : ∀ x y, x < 256 → y < 256 →
      readUint16 (UInt8.ofNat x) (UInt8.ofNat y) = x * 256 + y := fun x y hx hy => by
    unfold readUint16
    rw [t _ hx, t _ hy, shl8_or' _ _ hy]
  unfold readPts
  simp only
  rw [r _ _ (by omega) (by omega), r _ _ (by omega) (by omega), t _ (by omega)]
  have e0 : ((0x20 + 2 * a + 1) &&& 0xe) <<< 29 = a * 2 ^ 30 := by
    have : ∀ a < 8, ((0x20 + 2 * a + 1) &&& 0xe) <<< 29 = a * 2 ^ 30 := by decide +kernel
    exact this a ha
  have e1 : ((b / 128 * 256 + (2 * (b % 128) + 1)) &&& 0xFFFE) <<< 14 = b * 2 ^ 15 := by
    have : (b / 128 * 256 + (2 * (b % 128) + 1)) &&& 0xFFFE = 2 * b := by
      have h2 : b / 128 * 256 + (2 * (b % 128) + 1) = 2 * b + 1 := by omega
      rw [h2, and_fffe b hb]
    rw [this, Nat.shiftLeft_eq]; omega
  have e2 : (m * 256 + (2 * (c % 128) + 1)) >>> 1 = m * 128 + c % 128 := by
    rw [Nat.shiftRight_eq_div_pow]; omega
  rw [e0, e1, e2]
  have hlow : m * 128 + c % 128 < 2 ^ 15 := by omega
  generalize m * 128 + c % 128 = lo at *
  have e3 : a * 2 ^ 30 ||| b * 2 ^ 15 = a * 2 ^ 30 + b * 2 ^ 15 := by
    have := Nat.shiftLeft_add_eq_or_of_lt (i := 30) (b := b * 2 ^ 15) (by omega) a
    rw [Nat.shiftLeft_eq] at this; exact this.symm
  have e4 : (a * 2 ^ 30 + b * 2 ^ 15) ||| lo = a * 2 ^ 30 + b * 2 ^ 15 + lo := by
    have := Nat.shiftLeft_add_eq_or_of_lt (i := 15) (b := lo) (by omega) (a * 2 ^ 15 + b)
    rw [Nat.shiftLeft_eq, Nat.add_mul, Nat.mul_assoc, ← Nat.pow_add] at this
    exact this.symm
  have e5 : (a * 2 ^ 30 + b * 2 ^ 15 + lo) % 2 ^ 32 = a % 4 * 2 ^ 30 + b * 2 ^ 15 + lo := by
    omega
  rw [e3, e4, e5]

end Verif.Pes
