/-
C82: times in nanoseconds and in ticks of 1/90000 s.
-/
import Verif.Lemmas.Ticks

namespace Verif.Props
open Verif Verif.Ticks

private theorem odd_nonneg {f : Nat → Nat} {x : Int} (h : 0 ≤ x) : odd f x = (f x.toNat : Int) := by
  unfold odd
  rw [if_neg (by omega), show x.natAbs = x.toNat by omega]

private theorem odd_mono {f : Nat → Nat} (hf : ∀ m n, m ≤ n → f m ≤ f n) {x y : Int} (h : x ≤ y) : odd f x ≤ odd f y := by
  unfold odd
  by_cases hx : x < 0
  · by_cases hy : y < 0
    · rw [if_pos hx, if_pos hy]
      have := hf y.natAbs x.natAbs (by omega)
      omega
    · rw [if_pos hx, if_neg hy]
      omega
  · rw [if_neg hx, if_neg (by omega)]
    have := hf x.natAbs y.natAbs (by omega)
    omega

/-- **C82, order.** A later time never gets an earlier number, in either direction and for all times. -/
theorem C82_order {x y : Int} (h : x ≤ y) :
    nanosecondsTo90KhzTicks x ≤ nanosecondsTo90KhzTicks y ∧ khz90TicksToNanoseconds x ≤ khz90TicksToNanoseconds y :=
  ⟨odd_mono (fun _ _ => scaled_mono (by decide)) h,
   odd_mono (fun _ _ => scaled_mono (by decide)) h⟩

private theorem lower {x o t : Nat} (ho : 0 < o) (h : t * o ≤ x + o) : t ≤ x / o + 1 := by
  have := Nat.div_le_div_right (c := o) h
  rwa [Nat.mul_div_cancel _ ho, Nat.add_div_right _ ho] at this

private theorem upper {x o t : Nat} (ho : 0 < o) (h : x < t * o) : x / o < t := (Nat.div_lt_iff_lt_mul ho).mpr h

/-- **C82, ticks.** A time in nanoseconds is `ns * 9 / 100000` ticks of 1/90000 s.  For every time the conversion gives that number,
rounded down, or one of its neighbours. -/
theorem C82_ticks {ns : Int} (h0 : 0 ≤ ns) (h : ns < 2 ^ 63) :
    ns * 9 / 100000 - 1 ≤ nanosecondsTo90KhzTicks ns ∧ nanosecondsTo90KhzTicks ns ≤ ns * 9 / 100000 + 1 := by
  obtain ⟨n, rfl⟩ : ∃ n : Nat, ns = n := ⟨ns.toNat, by omega⟩
  have e : nanosecondsTo90KhzTicks n = (scaled 1000000000 90000 n : Nat) := odd_nonneg h0
  rw [e]
  rcases Nat.eq_zero_or_pos n with rfl | hn
  · rw [scaled_zero (by decide)]
    decide
  obtain ⟨x, hx, h1, h2⟩ := scaled_err (c := 1000000000) (d := 90000) hn (by decide) (by decide) (by decide)
  rw [hx]
  have ho : 0 < one := Nat.lt_of_lt_of_le (by decide) one_big
  have hn63 : n < 2 ^ 63 := by omega
  have hA : n * one ≤ 2 ^ 63 * one := Nat.mul_le_mul_right _ (by omega)
  have hd : n * 90000 * one = 90000 * (n * one) := by rw [Nat.mul_right_comm, Nat.mul_comm]
  rw [hd] at h1 h2
  have hf1 : n * 9 / 100000 * 100000 ≤ n * 9 := Nat.div_mul_le_self _ _
  have hf2 : n * 9 < (n * 9 / 100000 + 1) * 100000 := by omega
  generalize hF : n * 9 / 100000 = F at hf1 hf2
  have g1 : F * 100000 * one ≤ n * 9 * one := Nat.mul_le_mul_right _ hf1
  have g2 : n * 9 * one ≤ (F + 1) * 100000 * one := Nat.mul_le_mul_right _ (by omega)
  have r1 : n * 9 * one = 9 * (n * one) := by rw [Nat.mul_right_comm, Nat.mul_comm]
  have r2 : F * 100000 * one = 100000 * (F * one) := by rw [Nat.mul_right_comm, Nat.mul_comm]
  have r3 : (F + 1) * 100000 * one = 100000 * (F * one) + 100000 * one := by
    rw [Nat.add_mul, Nat.add_mul, r2, Nat.one_mul]
  have r4 : (F + 2) * one = F * one + 2 * one := Nat.add_mul _ _ _
  have u : x / one < F + 2 := by
    refine upper ho ?_
    rw [r4]
    rw [r1] at g1 g2
    rw [r3] at g2
    clear hx r1 r2 r3 r4 g1 hd hF hf1 hf2 h2 e
    generalize n * one = A at *
    generalize F * one = B at *
    generalize one = o at *
    omega
  have l : F ≤ x / one + 1 := by
    refine lower ho ?_
    rw [r1] at g1
    rw [r2] at g1
    clear hx r1 r2 r3 r4 g2 hd hF hf1 hf2 h1 e
    generalize n * one = A at *
    generalize F * one = B at *
    generalize one = o at *
    omega
  omega

/-- **C82, nanoseconds.** A number of ticks is `ticks * 100000 / 9` nanoseconds.  For numbers below 2³⁶ (a PES packet holds 33
bits) the conversion gives that number, rounded down, or one of its neighbours. -/
theorem C82_nanoseconds {t : Int} (h0 : 0 ≤ t) (h : t < 2 ^ 36) :
    t * 100000 / 9 - 1 ≤ khz90TicksToNanoseconds t ∧ khz90TicksToNanoseconds t ≤ t * 100000 / 9 + 1 := by
  obtain ⟨n, rfl⟩ : ∃ n : Nat, t = n := ⟨t.toNat, by omega⟩
  have e : khz90TicksToNanoseconds n = (scaled 90000 1000000000 n : Nat) := odd_nonneg h0
  rw [e]
  rcases Nat.eq_zero_or_pos n with rfl | hn
  · rw [scaled_zero (by decide)]
    decide
  obtain ⟨x, hx, h1, h2⟩ := scaled_err (c := 90000) (d := 1000000000) hn (by decide) (by decide) (by decide)
  rw [hx]
  have ho : 0 < one := Nat.lt_of_lt_of_le (by decide) one_big
  have hA : n * one ≤ 2 ^ 36 * one := Nat.mul_le_mul_right _ (by omega)
  have hd : n * 1000000000 * one = 1000000000 * (n * one) := by rw [Nat.mul_right_comm, Nat.mul_comm]
  rw [hd] at h1 h2
  have hf1 : n * 100000 / 9 * 9 ≤ n * 100000 := Nat.div_mul_le_self _ _
  have hf2 : n * 100000 < (n * 100000 / 9 + 1) * 9 := by omega
  generalize hF : n * 100000 / 9 = F at hf1 hf2
  have g1 : F * 9 * one ≤ n * 100000 * one := Nat.mul_le_mul_right _ hf1
  have g2 : n * 100000 * one ≤ (F + 1) * 9 * one := Nat.mul_le_mul_right _ (by omega)
  have r1 : n * 100000 * one = 100000 * (n * one) := by rw [Nat.mul_right_comm, Nat.mul_comm]
  have r2 : F * 9 * one = 9 * (F * one) := by rw [Nat.mul_right_comm, Nat.mul_comm]
  have r3 : (F + 1) * 9 * one = 9 * (F * one) + 9 * one := by
    rw [Nat.add_mul, Nat.add_mul, r2, Nat.one_mul]
  have r4 : (F + 2) * one = F * one + 2 * one := Nat.add_mul _ _ _
  have u : x / one < F + 2 := by
    refine upper ho ?_
    rw [r4]
    rw [r1] at g1 g2
    rw [r3] at g2
    clear hx r1 r2 r3 r4 g1 hd hF hf1 hf2 h2 e
    generalize n * one = A at *
    generalize F * one = B at *
    generalize one = o at *
    omega
  have l : F ≤ x / one + 1 := by
    refine lower ho ?_
    rw [r1] at g1
    rw [r2] at g1
    clear hx r1 r2 r3 r4 g2 hd hF hf1 hf2 h1 e
    generalize n * one = A at *
    generalize F * one = B at *
    generalize one = o at *
    omega
  omega

/-- **C82, there and back.** A time below 2⁴⁹ ns (six days) that has been turned into ticks and back is at most 22224 ns, two
ticks, away from what it was. -/
theorem C82_back {ns : Int} (h0 : 0 ≤ ns) (h : ns < 2 ^ 49) :
    (khz90TicksToNanoseconds (nanosecondsTo90KhzTicks ns) - ns).natAbs ≤ 22224 := by
  obtain ⟨h1, h2⟩ := C82_ticks h0 (by omega)
  have hnn : 0 ≤ nanosecondsTo90KhzTicks ns := by
    have := (C82_order h0).1
    rwa [show nanosecondsTo90KhzTicks 0 = 0 by decide +kernel] at this
  obtain ⟨h3, h4⟩ := C82_nanoseconds hnn (by omega)
  omega

/-- **C82, rounding.** The rounding used is that of IEEE 754: of the multiples of a step, the one that is nearest, and of two that are
equally near the even one.  This determines it. -/
theorem C82_rounding {a b : Nat} (hb : 0 < b) (n : Nat) :
    nearest a b = n ↔ (2 * (n * b) ≤ 2 * a + b ∧ 2 * a ≤ 2 * (n * b) + b) ∧
      (2 * (n * b) = 2 * a + b ∨ 2 * a = 2 * (n * b) + b → n % 2 = 0) := by
  have hq := Nat.div_add_mod a b
  have hr := Nat.mod_lt a hb
  have key : ∀ m : Nat, 2 * (m * b) ≤ 2 * a + b → 2 * a ≤ 2 * (m * b) + b → m = a / b ∧ 2 * (a % b) ≤ b ∨ m = a / b + 1 ∧ b ≤ 2 * (a % b) := by
    intro m h1 h2
    rw [Nat.mul_comm] at hq
    have l : m < a / b + 2 := by
      refine Nat.lt_of_mul_lt_mul_right (a := b) ?_
      rw [Nat.add_mul]
      omega
    have u : a / b < m + 1 := by
      refine Nat.lt_of_mul_lt_mul_right (a := b) ?_
      rw [Nat.add_mul]
      omega
    rcases (by omega : m = a / b ∨ m = a / b + 1) with rfl | rfl
    · exact .inl ⟨rfl, by omega⟩
    · rw [Nat.add_mul] at h1 h2
      exact .inr ⟨rfl, by omega⟩
  rw [Nat.mul_comm] at hq
  have hq1 : (a / b + 1) * b = a / b * b + b := by rw [Nat.add_mul, Nat.one_mul]
  constructor
  · rintro rfl
    refine ⟨nearest_err hb, ?_⟩
    unfold nearest
    split
    · intro h
      rename_i hc
      omega
    · intro h
      rename_i hc
      rw [hq1] at h
      omega
  · rintro ⟨⟨h1, h2⟩, h3⟩
    unfold nearest
    rcases key n h1 h2 with ⟨rfl, h⟩ | ⟨rfl, h⟩
    · rw [if_pos (by omega)]
    · rw [hq1] at h3
      rw [if_neg (by omega)]

/-- Two whole numbers that are not doubles, halfway between two that are: one is rounded down, one up. -/
example : ofNat (2 ^ 53 + 1) = 2 ^ 53 * one ∧ ofNat (2 ^ 53 + 3) = (2 ^ 53 + 4) * one ∧ nearest 5 2 = 2 ∧ nearest 7 2 = 4 := by
  decide +kernel

/-- Without the margin it is false: with the timecode scale of a millisecond, 9 ms are 810 ticks, and are written as 809; other times
are written one too late.  Back and forth again, a number of ticks may lose one. -/
theorem C82_not_exact :
    nanosecondsTo90KhzTicks 9000000 = 809 ∧ (9000000 * 9 / 100000 : Int) = 810 ∧
    nanosecondsTo90KhzTicks 7294136316933333 = 7294136316933333 * 9 / 100000 + 1 ∧
    nanosecondsTo90KhzTicks (khz90TicksToNanoseconds 1) = 0 := by decide +kernel

/-- Times as they occur: 1 s, and 33 ms less than an hour. -/
example : nanosecondsTo90KhzTicks 1000000000 = 90000 ∧ nanosecondsTo90KhzTicks 3599967000000 = 323997030 ∧
    khz90TicksToNanoseconds 90000 = 1000000000 ∧ nanosecondsTo90KhzTicks (-1000000000) = -90000 := by decide +kernel

end Verif.Props
