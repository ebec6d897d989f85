/-
Lemmas about the WebVTT model: arithmetic on times.
-/
import Verif.Spec.WebVtt

namespace Verif.Vtt
open Verif Spec

theorem presentation_eq (t : Time) : t.presentation = millisOf t := by
  unfold Time.presentation millisOf; omega

theorem toI32_small {v : Int} (h0 : 0 ≤ v) (h1 : v ≤ 2147483647) : toI32 v = v := by
  unfold toI32
  rw [show (2 : Int) ^ 31 = 2147483648 from by decide, show (2 : Int) ^ 32 = 4294967296 from by decide]
  omega

theorem ofPresentation_small {d : Int} (h0 : 0 ≤ d) (h1 : d < 2147484000) :
    Time.ofPresentation d =
      .ok ⟨d / 1000 / 60 / 60, d / 1000 / 60 % 60, d / 1000 % 60, d % 1000⟩ := by
  unfold Time.ofPresentation
  rw [if_neg (by omega), toI32_small (by omega) (by omega)]
  simp only
  rw [i32, if_neg (by omega), Res.bind_ok, toI32_small (by omega) (by omega)]
  simp only [Int.tdiv_eq_ediv_of_nonneg (show (0 : Int) ≤ d / 1000 by omega),
    Int.tdiv_eq_ediv_of_nonneg (show (0 : Int) ≤ d / 1000 / 60 by omega)]
  congr 2 <;> omega

theorem ofPresentation_large {d : Int} (h0 : 2147484000 ≤ d) (h1 : d < 2147483648000) :
    Time.ofPresentation d = .ub := by
  unfold Time.ofPresentation
  rw [if_neg (by omega), toI32_small (by omega) (by omega)]
  simp only
  rw [i32, if_pos (by omega)]
  rfl

theorem lt_iff {a b : Time} (ha : Normal a) (hb : Normal b) :
    a.lt b = true ↔ millisOf a < millisOf b := by
  obtain ⟨a1, a2, a3, a4, a5, a6, a7⟩ := ha
  obtain ⟨b1, b2, b3, b4, b5, b6, b7⟩ := hb
  unfold Time.lt millisOf
  by_cases h1 : a.hours < b.hours
  · rw [if_pos h1]; simp; omega
  rw [if_neg h1]
  by_cases h2 : a.hours > b.hours
  · rw [if_pos h2]; simp; omega
  rw [if_neg h2]
  by_cases h3 : a.minutes < b.minutes
  · rw [if_pos h3]; simp; omega
  rw [if_neg h3]
  by_cases h4 : a.minutes > b.minutes
  · rw [if_pos h4]; simp; omega
  rw [if_neg h4]
  by_cases h5 : a.seconds < b.seconds
  · rw [if_pos h5]; simp; omega
  rw [if_neg h5]
  by_cases h6 : a.seconds > b.seconds
  · rw [if_pos h6]; simp; omega
  rw [if_neg h6]
  simp only [decide_eq_true_eq]; omega

theorem eq_iff {a b : Time} (ha : Normal a) (hb : Normal b) :
    a.eq b = true ↔ millisOf a = millisOf b := by
  obtain ⟨a1, a2, a3, a4, a5, a6, a7⟩ := ha
  obtain ⟨b1, b2, b3, b4, b5, b6, b7⟩ := hb
  unfold Time.eq millisOf
  by_cases h1 : a.hours ≠ b.hours
  · rw [if_pos h1]; simp; omega
  rw [if_neg h1]
  by_cases h2 : a.minutes ≠ b.minutes
  · rw [if_pos h2]; simp; omega
  rw [if_neg h2]
  by_cases h3 : a.seconds ≠ b.seconds
  · rw [if_pos h3]; simp; omega
  rw [if_neg h3]
  simp only [decide_eq_true_eq]; omega

end Verif.Vtt
