/-
Rounding to doubles.
-/
import Verif.Model.Ticks

namespace Verif.Ticks
open Verif

/-! ### The nearest whole number -/

theorem nearest_cases (a b : Nat) : nearest a b = a / b ∧ 2 * (a % b) ≤ b ∨ nearest a b = a / b + 1 ∧ b ≤ 2 * (a % b) := by
  unfold nearest
  split
  · exact .inl ⟨rfl, by omega⟩
  · exact .inr ⟨rfl, by omega⟩

theorem nearest_le {a b m : Nat} (hb : 0 < b) (h : a ≤ m * b) : nearest a b ≤ m := by
  have hq : a / b ≤ m := by
    have := Nat.div_le_div_right (c := b) h
    rwa [Nat.mul_div_cancel _ hb] at this
  rcases nearest_cases a b with ⟨e, -⟩ | ⟨e, hr⟩
  · omega
  · rcases Nat.lt_or_ge (a / b) m with h1 | h1
    · omega
    · have h2 := Nat.div_add_mod a b
      have h3 : b * m ≤ b * (a / b) := Nat.mul_le_mul_left _ h1
      rw [Nat.mul_comm m b] at h
      omega

theorem le_nearest {a b m : Nat} (hb : 0 < b) (h : m * b ≤ a) : m ≤ nearest a b := by
  have := (Nat.le_div_iff_mul_le hb).mpr h
  rcases nearest_cases a b with ⟨e, -⟩ | ⟨e, -⟩ <;> omega

theorem nearest_mono {a a' : Nat} (b : Nat) (h : a ≤ a') : nearest a b ≤ nearest a' b := by
  have hq := Nat.div_le_div_right (c := b) h
  rcases Nat.lt_or_ge (a / b) (a' / b) with h1 | h1
  · rcases nearest_cases a b with ⟨e, -⟩ | ⟨e, -⟩ <;> rcases nearest_cases a' b with ⟨e', -⟩ | ⟨e', -⟩ <;> omega
  · have he : a / b = a' / b := by omega
    have h2 := Nat.div_add_mod a b
    have h3 := Nat.div_add_mod a' b
    rw [he] at h2
    unfold nearest
    rw [he]
    split
    · split <;> omega
    · rw [if_neg (by omega)]
      omega

theorem nearest_err {a b : Nat} (hb : 0 < b) : 2 * (nearest a b * b) ≤ 2 * a + b ∧ 2 * a ≤ 2 * (nearest a b * b) + b := by
  have h2 := Nat.div_add_mod a b
  have h3 := Nat.mod_lt a hb
  rcases nearest_cases a b with ⟨e, hr⟩ | ⟨e, hr⟩
  · rw [e, Nat.mul_comm (a / b) b]
    omega
  · rw [e, Nat.add_mul, Nat.mul_comm (a / b) b]
    omega

/-! ### The nearest double -/

theorem ulp_pos (x : Nat) : 0 < ulp x := Nat.two_pow_pos _

theorem round_err {a b : Nat} (hb : 0 < b) (h : 2 ^ 52 * b ≤ a) :
    2 ^ 53 * (round a b * b) ≤ (2 ^ 53 + 1) * a ∧ (2 ^ 53 - 1) * a ≤ 2 ^ 53 * (round a b * b) := by
  have hx : 2 ^ 52 ≤ a / b := (Nat.le_div_iff_mul_le hb).mpr h
  have hl : 52 ≤ (a / b).log2 := (Nat.le_log2 (by omega)).mpr hx
  have hu : 2 ^ 52 * ulp (a / b) ≤ a / b := by
    unfold ulp
    rw [← Nat.pow_add, show 52 + ((a / b).log2 - 52) = (a / b).log2 by omega]
    exact Nat.log2_self_le (by omega)
  have hu' : 2 ^ 52 * (b * ulp (a / b)) ≤ a := by
    calc 2 ^ 52 * (b * ulp (a / b)) = b * (2 ^ 52 * ulp (a / b)) := by ac_rfl
      _ ≤ b * (a / b) := Nat.mul_le_mul_left _ hu
      _ ≤ a := Nat.mul_div_le _ _
  obtain ⟨e1, e2⟩ := nearest_err (a := a) (Nat.mul_pos hb (ulp_pos (a / b)))
  have hr : round a b * b = nearest a (b * ulp (a / b)) * (b * ulp (a / b)) := by
    unfold round
    ac_rfl
  rw [hr]
  generalize nearest a (b * ulp (a / b)) * (b * ulp (a / b)) = x at *
  generalize b * ulp (a / b) = y at *
  omega

theorem round_le {a b : Nat} (hb : 0 < b) : round a b ≤ 2 ^ ((a / b).log2 + 1) := by
  have hlt : a < 2 ^ ((a / b).log2 + 1) * b := (Nat.div_lt_iff_lt_mul hb).mp Nat.lt_log2_self
  unfold round ulp
  generalize (a / b).log2 = l at *
  have hs : 2 ^ (l + 1) = 2 ^ (l + 1 - (l - 52)) * 2 ^ (l - 52) := by
    rw [← Nat.pow_add]
    congr 1
    omega
  rw [hs] at hlt ⊢
  refine Nat.mul_le_mul_right _ (nearest_le (Nat.mul_pos hb (Nat.two_pow_pos _)) ?_)
  rw [Nat.mul_comm b, ← Nat.mul_assoc]
  omega

theorem le_round {a b : Nat} (hb : 0 < b) (h : a / b ≠ 0) : 2 ^ (a / b).log2 ≤ round a b := by
  have hle : 2 ^ (a / b).log2 * b ≤ a := (Nat.le_div_iff_mul_le hb).mp (Nat.log2_self_le h)
  unfold round ulp
  generalize (a / b).log2 = l at *
  have hs : 2 ^ l = 2 ^ (l - (l - 52)) * 2 ^ (l - 52) := by
    rw [← Nat.pow_add]
    congr 1
    omega
  rw [hs] at hle ⊢
  refine Nat.mul_le_mul_right _ (le_nearest (Nat.mul_pos hb (Nat.two_pow_pos _)) ?_)
  rw [Nat.mul_comm b, ← Nat.mul_assoc]
  exact hle

theorem round_mono {a a' b : Nat} (hb : 0 < b) (h : a ≤ a') : round a b ≤ round a' b := by
  have hq := Nat.div_le_div_right (c := b) h
  by_cases h0 : a / b = 0
  · have hz : ulp (a / b) = 1 := by rw [h0]; decide
    by_cases h0' : a' / b = 0
    · unfold round
      rw [h0, h0']
      exact Nat.mul_le_mul_right _ (nearest_mono _ h)
    · have h1 : round a b ≤ 1 := by
        unfold round
        rw [hz, Nat.mul_one, Nat.mul_one]
        have : a < b := by
          rcases Nat.div_eq_zero_iff.mp h0 with h | h <;> omega
        exact nearest_le hb (by omega)
      exact Nat.le_trans h1 (Nat.le_trans (Nat.two_pow_pos _) (le_round hb h0'))
  · have h0' : a' / b ≠ 0 := fun e => h0 (Nat.le_zero.mp (e ▸ hq))
    have hl : (a / b).log2 ≤ (a' / b).log2 := (Nat.le_log2 h0').mpr (Nat.le_trans (Nat.log2_self_le h0) hq)
    rcases Nat.lt_or_ge (a / b).log2 (a' / b).log2 with h1 | h1
    · exact Nat.le_trans (round_le hb) (Nat.le_trans (Nat.pow_le_pow_right (by decide) h1) (le_round hb h0'))
    · have he : (a / b).log2 = (a' / b).log2 := by omega
      unfold round ulp
      rw [he]
      exact Nat.mul_le_mul_right _ (nearest_mono _ h)

/-! ### Scaling a number -/

/-- `n / c * d`, with a rounding after each step, and truncated. -/
def scaled (c d n : Nat) : Nat := toNat (mul (div (ofNat n) c) d)

theorem scaled_mono {c d m n : Nat} (hc : 0 < c) (h : m ≤ n) : scaled c d m ≤ scaled c d n :=
  Nat.div_le_div_right (round_mono (by decide) (Nat.mul_le_mul_right _
    (round_mono hc (round_mono (by decide) (Nat.mul_le_mul_right _ h)))))

theorem round_zero {b : Nat} (hb : 0 < b) : round 0 b = 0 := by
  unfold round nearest
  have h0 : 0 / b = 0 := Nat.zero_div b
  rw [h0, show ulp 0 = 1 by decide, Nat.mul_one, Nat.mul_one, h0, Nat.zero_mod, if_pos (.inl (by omega))]

theorem scaled_zero {c : Nat} (hc : 0 < c) (d : Nat) : scaled c d 0 = 0 := by
  unfold scaled ofNat div mul toNat
  rw [Nat.zero_mul, round_zero (by decide), round_zero hc, Nat.zero_mul, round_zero (by decide), Nat.zero_div]

theorem one_big : 2 ^ 200 ≤ one := by
  unfold one
  exact Nat.pow_le_pow_right (by decide) (by decide)

theorem chain_le {p q x y z n o c d : Nat} (h1 : p * z ≤ q * (n * o)) (h2 : p * (y * c) ≤ q * z) (h3 : p * x ≤ q * (y * d)) :
    p * p * p * (x * c) ≤ q * q * q * (n * d * o) :=
  calc p * p * p * (x * c) = p * p * c * (p * x) := by ac_rfl
    _ ≤ p * p * c * (q * (y * d)) := Nat.mul_le_mul_left _ h3
    _ = p * q * d * (p * (y * c)) := by ac_rfl
    _ ≤ p * q * d * (q * z) := Nat.mul_le_mul_left _ h2
    _ = q * q * d * (p * z) := by ac_rfl
    _ ≤ q * q * d * (q * (n * o)) := Nat.mul_le_mul_left _ h1
    _ = q * q * q * (n * d * o) := by ac_rfl

theorem chain_ge {p q x y z n o c d : Nat} (h1 : q * (n * o) ≤ p * z) (h2 : q * z ≤ p * (y * c)) (h3 : q * (y * d) ≤ p * x) :
    q * q * q * (n * d * o) ≤ p * p * p * (x * c) :=
  calc q * q * q * (n * d * o) = q * q * d * (q * (n * o)) := by ac_rfl
    _ ≤ q * q * d * (p * z) := Nat.mul_le_mul_left _ h1
    _ = p * q * d * (q * z) := by ac_rfl
    _ ≤ p * q * d * (p * (y * c)) := Nat.mul_le_mul_left _ h2
    _ = p * p * c * (q * (y * d)) := by ac_rfl
    _ ≤ p * p * c * (p * x) := Nat.mul_le_mul_left _ h3
    _ = p * p * p * (x * c) := by ac_rfl

/-- The error of three roundings. -/
theorem scaled_err {c d n : Nat} (hn : 0 < n) (hc : 0 < c) (hc' : c ≤ 2 ^ 40) (hd : 0 < d) :
    ∃ x, scaled c d n = x / one ∧ 2 ^ 159 * (x * c) ≤ (2 ^ 53 + 1) ^ 3 * (n * d * one) ∧
      (2 ^ 53 - 1) ^ 3 * (n * d * one) ≤ 2 ^ 159 * (x * c) := by
  have h1 := one_big
  have hno : one ≤ n * one := Nat.le_mul_of_pos_left _ hn
  obtain ⟨a1, a2⟩ := round_err (a := n * one) (b := 1) (by decide) (by omega)
  obtain ⟨b1, b2⟩ := round_err (a := ofNat n) (b := c) hc (by
    have : ofNat n = round (n * one) 1 := rfl
    rw [this]
    have : 2 ^ 52 * c ≤ 2 ^ 92 := by omega
    omega)
  have b1' : 2 ^ 53 * (div (ofNat n) c * c) ≤ (2 ^ 53 + 1) * ofNat n := b1
  have b2' : (2 ^ 53 - 1) * ofNat n ≤ 2 ^ 53 * (div (ofNat n) c * c) := b2
  have ho : ofNat n = round (n * one) 1 := rfl
  rw [← ho, Nat.mul_one] at a1 a2
  have hd1 : div (ofNat n) c ≤ div (ofNat n) c * d := Nat.le_mul_of_pos_right _ hd
  have hbig : 2 ^ 52 ≤ div (ofNat n) c := by
    rcases Nat.lt_or_ge (div (ofNat n) c) (2 ^ 52) with h | h
    · have h2 : div (ofNat n) c * c ≤ 2 ^ 52 * 2 ^ 40 := Nat.mul_le_mul (by omega) hc'
      omega
    · exact h
  obtain ⟨c1, c2⟩ := round_err (a := div (ofNat n) c * d) (b := 1) (by decide) (by omega)
  have hm : mul (div (ofNat n) c) d = round (div (ofNat n) c * d) 1 := rfl
  rw [← hm, Nat.mul_one] at c1 c2
  refine ⟨mul (div (ofNat n) c) d, rfl, ?_, ?_⟩
  · have := chain_le a1 b1' c1
    rwa [show 2 ^ 53 * 2 ^ 53 * 2 ^ 53 = 2 ^ 159 by decide,
      show (2 ^ 53 + 1) * (2 ^ 53 + 1) * (2 ^ 53 + 1) = (2 ^ 53 + 1) ^ 3 by decide] at this
  · have := chain_ge a2 b2' c2
    rwa [show 2 ^ 53 * 2 ^ 53 * 2 ^ 53 = 2 ^ 159 by decide,
      show (2 ^ 53 - 1) * (2 ^ 53 - 1) * (2 ^ 53 - 1) = (2 ^ 53 - 1) ^ 3 by decide] at this

end Verif.Ticks
