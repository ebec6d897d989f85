/-
Lemmas about the arithmetic of the duration at finalisation.
-/
import Verif.Model.MuxerDuration
import Verif.Lemmas.Ticks
import Verif.Spec.Duration

namespace Verif.Ticks
open Verif

theorem nearest_scale {a b k : Nat} (hk : 0 < k) : nearest (a * k) (b * k) = nearest a b := by
  unfold nearest
  rw [Nat.mul_mod_mul_right, Nat.mul_div_mul_right _ _ hk]
  have h1 : (2 * (a % b * k) < b * k) ↔ 2 * (a % b) < b := by
    rw [← Nat.mul_assoc]; exact Nat.mul_lt_mul_right hk
  have h2 : (2 * (a % b * k) = b * k) ↔ 2 * (a % b) = b := by
    rw [← Nat.mul_assoc]; exact Nat.mul_left_inj (by omega)
  simp only [h1, h2]

theorem round_scale {a b k : Nat} (hk : 0 < k) : round (a * k) (b * k) = round a b := by
  unfold round
  rw [Nat.mul_div_mul_right _ _ hk, Nat.mul_right_comm, nearest_scale hk]

theorem nearest_exact {m k : Nat} (hk : 0 < k) : nearest (m * k) k = m := by
  unfold nearest
  rw [Nat.mul_mod_left, Nat.mul_div_cancel _ hk]
  rw [if_pos (.inl (by omega))]

theorem round_exact {n : Nat} (h : n < 2 ^ 53) (e : Nat) : round (n * 2 ^ e) 1 = n * 2 ^ e := by
  rcases Nat.eq_zero_or_pos n with rfl | hn
  · rw [Nat.zero_mul]; exact round_zero (by decide)
  unfold round
  rw [Nat.div_one, Nat.one_mul]
  have hl : (n * 2 ^ e).log2 < 53 + e := by
    refine (Nat.log2_lt (Nat.ne_of_gt (Nat.mul_pos hn (Nat.two_pow_pos _)))).mpr ?_
    rw [Nat.pow_add]
    exact Nat.mul_lt_mul_of_pos_right h (Nat.two_pow_pos _)
  obtain ⟨k, hk⟩ : ∃ k, n * 2 ^ e = k * ulp (n * 2 ^ e) := by
    refine ⟨n * 2 ^ (e - ((n * 2 ^ e).log2 - 52)), ?_⟩
    unfold ulp
    rw [Nat.mul_assoc, ← Nat.pow_add, show e - ((n * 2 ^ e).log2 - 52) + ((n * 2 ^ e).log2 - 52) = e by omega]
  have := nearest_exact (m := k) (ulp_pos (n * 2 ^ e))
  rw [← hk] at this
  rw [this, ← hk]

/-- Whole numbers below 2^53 are doubles. -/
theorem ofNat_exact {n : Nat} (h : n < 2 ^ 53) : ofNat n = n * one := round_exact h 1074

theorem quot_whole {x c : Nat} (hc : c < 2 ^ 53) : quot x (ofNat c) = round x c := by
  unfold quot
  rw [ofNat_exact hc]
  exact round_scale (Nat.two_pow_pos _)

/-- The double `x` is `n / c` up to `k` roundings. -/
def About (k : Nat) (x n c : Nat) : Prop :=
  (2 ^ 53) ^ k * (x * c) ≤ (2 ^ 53 + 1) ^ k * (n * one) ∧ (2 ^ 53 - 1) ^ k * (n * one) ≤ (2 ^ 53) ^ k * (x * c)

theorem round_zero_about (b : Nat) (hb : 0 < b) (a : Nat) (ha : a = 0) :
    2 ^ 53 * (round a b * b) ≤ (2 ^ 53 + 1) * a ∧ (2 ^ 53 - 1) * a ≤ 2 ^ 53 * (round a b * b) := by
  subst ha
  rw [round_zero hb]
  omega

theorem ofNat_about (n : Nat) : About 1 (ofNat n) n 1 := by
  unfold About
  rw [Nat.pow_one, Nat.pow_one, Nat.pow_one]
  unfold ofNat
  rcases Nat.eq_zero_or_pos n with rfl | hn
  · rw [Nat.zero_mul]
    exact round_zero_about 1 (by decide) 0 rfl
  have h1 := one_big
  have hno : one ≤ n * one := Nat.le_mul_of_pos_left _ hn
  refine round_err (by decide) ?_
  rw [Nat.mul_one]
  exact Nat.le_trans (Nat.le_trans (by decide) h1) hno

theorem About.sum {k x y m n c : Nat} (hx : About k x m c) (hy : About k y n c) : About k (x + y) (m + n) c := by
  unfold About at *
  generalize (2 ^ 53) ^ k = p at *
  generalize (2 ^ 53 + 1) ^ k = q at *
  generalize (2 ^ 53 - 1) ^ k = r at *
  simp only [Nat.add_mul, Nat.mul_add]
  omega

theorem step_le {p q P Q x y n o b c : Nat} (h1 : P * (y * b) ≤ Q * x) (h2 : p * (x * c) ≤ q * (n * o)) :
    p * P * (y * (b * c)) ≤ q * Q * (n * o) :=
  calc p * P * (y * (b * c)) = p * c * (P * (y * b)) := by ac_rfl
    _ ≤ p * c * (Q * x) := Nat.mul_le_mul_left _ h1
    _ = Q * (p * (x * c)) := by ac_rfl
    _ ≤ Q * (q * (n * o)) := Nat.mul_le_mul_left _ h2
    _ = q * Q * (n * o) := by ac_rfl

theorem step_ge {p r P R x y n o b c : Nat} (h1 : R * x ≤ P * (y * b)) (h2 : r * (n * o) ≤ p * (x * c)) :
    r * R * (n * o) ≤ p * P * (y * (b * c)) :=
  calc r * R * (n * o) = R * (r * (n * o)) := by ac_rfl
    _ ≤ R * (p * (x * c)) := Nat.mul_le_mul_left _ h2
    _ = p * c * (R * x) := by ac_rfl
    _ ≤ p * c * (P * (y * b)) := Nat.mul_le_mul_left _ h1
    _ = p * P * (y * (b * c)) := by ac_rfl

theorem About.round {k x n c b : Nat} (h : About k x n c) (hb : 0 < b) (hx : x = 0 ∨ 2 ^ 52 * b ≤ x) :
    About (k + 1) (Ticks.round x b) n (b * c) := by
  have hr : 2 ^ 53 * (Ticks.round x b * b) ≤ (2 ^ 53 + 1) * x ∧ (2 ^ 53 - 1) * x ≤ 2 ^ 53 * (Ticks.round x b * b) := by
    rcases hx with hx | hx
    · exact round_zero_about b hb x hx
    · exact round_err hb hx
  unfold About at *
  rw [Nat.pow_succ (2 ^ 53), Nat.pow_succ (2 ^ 53 + 1), Nat.pow_succ (2 ^ 53 - 1)]
  exact ⟨step_le hr.1 h.1, step_ge hr.2 h.2⟩

/-- The duration without an estimate. -/
theorem duration_about {t d c : Nat} (h : 0 < t + d) (hc : 0 < c) (hc' : c < 2 ^ 53) :
    About 3 (quot (add (ofNat t) (ofNat d)) (ofNat c)) (t + d) c := by
  rw [quot_whole hc']
  unfold add
  have h1 := (ofNat_about t).sum (ofNat_about d)
  have hbig : (2 ^ 53 - 1) * one ≤ 2 ^ 53 * (ofNat t + ofNat d) := by
    have := h1.2
    simp only [Nat.pow_one, Nat.mul_one] at this
    refine Nat.le_trans (Nat.mul_le_mul_left _ (Nat.le_mul_of_pos_left one h)) this
  have hone : 2 ^ 106 * 4 ≤ one := Nat.le_trans (by decide) one_big
  have hb1 : 2 ^ 106 ≤ ofNat t + ofNat d := by
    generalize one = o at *
    omega
  have h2 := h1.round (b := 1) (by decide) (.inr (by omega))
  rw [Nat.mul_one] at h2
  have hb2 : 2 ^ 105 ≤ round (ofNat t + ofNat d) 1 := by
    have := (round_err (a := ofNat t + ofNat d) (b := 1) (by decide) (by omega)).2
    omega
  have h3 := h2.round (b := c) hc (.inr (by omega))
  rwa [Nat.mul_one] at h3


/-! ### Conversion to `float` -/

theorem floatStep_spec {x : Nat} (hx : 0 < x) : x < 2 ^ (floatStep x + 24) ∧ 925 ≤ floatStep x ∧
    (floatStep x = 925 ∨ 2 ^ 23 * 2 ^ floatStep x ≤ x) := by
  have h1 : x < 2 ^ (x.log2 + 1) := Nat.lt_log2_self
  have h2 : 2 ^ x.log2 ≤ x := Nat.log2_self_le (by omega)
  unfold floatStep
  refine ⟨Nat.lt_of_lt_of_le h1 (Nat.pow_le_pow_right (by decide) (by omega)), by omega, ?_⟩
  by_cases h : x.log2 - 23 ≤ 925
  · exact .inl (by omega)
  · refine .inr ?_
    rw [← Nat.pow_add]
    exact Nat.le_trans (Nat.pow_le_pow_right (by decide) (by omega)) h2

private theorem units_of_bits {k m : Nat} (hk : k ≤ 252) (hm : m ≤ 2 ^ 24) (h0 : k = 0 ∨ 2 ^ 23 ≤ m) :
    Spec.floatUnits (UInt32.ofNat (k * 2 ^ 23 + m)) = (m * 2 ^ k : Nat) := by
  unfold Spec.floatUnits
  have e : (UInt32.ofNat (k * 2 ^ 23 + m)).toNat = k * 2 ^ 23 + m := by
    rw [UInt32.toNat_ofNat', Nat.mod_eq_of_lt]
    show _ < 4294967296
    omega
  rw [e, if_pos (by omega)]
  congr 1
  rcases Nat.lt_or_ge m (2 ^ 23) with h1 | h1
  · have : k = 0 := by omega
    subst this
    rw [if_pos (by omega)]
    omega
  · rcases Nat.lt_or_ge m (2 ^ 24) with h2 | h2
    · rw [show (k * 2 ^ 23 + m) / 2 ^ 23 % 2 ^ 8 = k + 1 by omega, if_neg (by omega),
        show (k * 2 ^ 23 + m) % 2 ^ 23 = m - 2 ^ 23 by omega, show 2 ^ 23 + (m - 2 ^ 23) = m by omega]
      rfl
    · have : m = 2 ^ 24 := by omega
      subst this
      rw [show (k * 2 ^ 23 + 2 ^ 24) / 2 ^ 23 % 2 ^ 8 = k + 2 by omega, if_neg (by omega),
        show (k * 2 ^ 23 + 2 ^ 24) % 2 ^ 23 = 0 by omega, show k + 2 - 1 = k + 1 from rfl, Nat.pow_succ 2 k]
      omega

/-- The float is the number up to one part in 2^24. -/
theorem floatBits_spec {x : Nat} (hx : x < 2 ^ (1074 + 127)) (hn : 2 ^ (925 + 23) ≤ x) :
    ∃ U : Nat, floatBits x < 255 * 2 ^ 23 ∧ Spec.floatUnits (UInt32.ofNat (floatBits x)) = U ∧ 0 < U ∧
      2 ^ 24 * (U * 2 ^ 925) ≤ (2 ^ 24 + 1) * x ∧ (2 ^ 24 - 1) * x ≤ 2 ^ 24 * (U * 2 ^ 925) := by
  have hpos : 0 < x := Nat.lt_of_lt_of_le (Nat.two_pow_pos _) hn
  obtain ⟨h1, h2, h3⟩ := floatStep_spec hpos
  have h4 : 2 ^ 23 * 2 ^ floatStep x ≤ x := by
    rcases h3 with h3 | h3
    · rw [h3, ← Nat.pow_add, Nat.add_comm]; exact hn
    · exact h3
  have hle : floatStep x - 925 ≤ 252 := by
    have : 2 ^ (23 + floatStep x) < 2 ^ (1074 + 127) := by rw [Nat.pow_add]; exact Nat.lt_of_le_of_lt h4 hx
    have := (Nat.pow_lt_pow_iff_right (by decide : 1 < 2)).mp this
    omega
  have hp := Nat.two_pow_pos (floatStep x)
  have m1 : 2 ^ 23 ≤ nearest x (2 ^ floatStep x) := le_nearest hp h4
  have m2 : nearest x (2 ^ floatStep x) ≤ 2 ^ 24 := nearest_le hp (by
    rw [← Nat.pow_add, Nat.add_comm]; exact Nat.le_of_lt h1)
  obtain ⟨e1, e2⟩ := nearest_err (a := x) hp
  refine ⟨nearest x (2 ^ floatStep x) * 2 ^ (floatStep x - 925), ?_, units_of_bits hle m2 (.inr m1), ?_, ?_⟩
  · unfold floatBits
    omega
  · exact Nat.mul_pos (by omega) (Nat.two_pow_pos _)
  · rw [Nat.mul_assoc, ← Nat.pow_add, show floatStep x - 925 + 925 = floatStep x by omega]
    generalize nearest x (2 ^ floatStep x) * 2 ^ floatStep x = M at *
    generalize 2 ^ floatStep x = P at *
    clear hx hn h1 h2 h3 hle m1 m2
    omega

private theorem factor_le {A B X Y p q : Nat} (hA : 0 < A) (h : A * X ≤ B * Y) (hn : p * B ≤ q * A) : p * X ≤ q * Y := by
  refine Nat.le_of_mul_le_mul_left ?_ hA
  calc A * (p * X) = p * (A * X) := by ac_rfl
    _ ≤ p * (B * Y) := Nat.mul_le_mul_left _ h
    _ = p * B * Y := by ac_rfl
    _ ≤ q * A * Y := Nat.mul_le_mul_right _ hn
    _ = A * (q * Y) := by ac_rfl

private theorem factor_ge {A B X Y p q : Nat} (hB : 0 < B) (h : B * Y ≤ A * X) (hn : q * A ≤ p * B) : q * Y ≤ p * X := by
  refine Nat.le_of_mul_le_mul_left ?_ hB
  calc B * (q * Y) = q * (B * Y) := by ac_rfl
    _ ≤ q * (A * X) := Nat.mul_le_mul_left _ h
    _ = q * A * X := by ac_rfl
    _ ≤ p * B * X := Nat.mul_le_mul_right _ hn
    _ = B * (p * X) := by ac_rfl

private theorem both_le {p P q Q x u c n o w : Nat} (h1 : p * (u * w) ≤ q * x) (h2 : P * (x * c) ≤ Q * (n * (o * w))) (hw : 0 < w) :
    p * P * (u * c) ≤ q * Q * (n * o) := by
  refine Nat.le_of_mul_le_mul_right ?_ hw
  calc p * P * (u * c) * w = P * c * (p * (u * w)) := by ac_rfl
    _ ≤ P * c * (q * x) := Nat.mul_le_mul_left _ h1
    _ = q * (P * (x * c)) := by ac_rfl
    _ ≤ q * (Q * (n * (o * w))) := Nat.mul_le_mul_left _ h2
    _ = q * Q * (n * o) * w := by ac_rfl

private theorem both_ge {p P q Q x u c n o w : Nat} (h1 : q * x ≤ p * (u * w)) (h2 : Q * (n * (o * w)) ≤ P * (x * c)) (hw : 0 < w) :
    q * Q * (n * o) ≤ p * P * (u * c) := by
  refine Nat.le_of_mul_le_mul_right ?_ hw
  calc q * Q * (n * o) * w = q * (Q * (n * (o * w))) := by ac_rfl
    _ ≤ q * (P * (x * c)) := Nat.mul_le_mul_left _ h2
    _ = P * c * (q * x) := by ac_rfl
    _ ≤ P * c * (p * (u * w)) := Nat.mul_le_mul_left _ h1
    _ = p * P * (u * c) * w := by ac_rfl

private theorem cast_le {U c N : Nat} (h : 2 ^ 23 * (U * c) ≤ (2 ^ 23 + 1) * N) :
    2 ^ 23 * ((U : Int) * c) ≤ (2 ^ 23 + 1) * (N : Nat) := by
  rw [← Int.natCast_mul U c]
  omega

private theorem cast_ge {U c N : Nat} (h : (2 ^ 23 - 1) * N ≤ 2 ^ 23 * (U * c)) :
    (2 ^ 23 - 1) * ((N : Nat) : Int) ≤ 2 ^ 23 * ((U : Int) * c) := by
  rw [← Int.natCast_mul U c]
  omega

theorem one_split : one = 2 ^ 149 * 2 ^ 925 := by
  unfold one
  rw [← Nat.pow_add]

/-- The float is the quotient up to one part in 2^23. -/
theorem About.float {x n c : Nat} (h : About 3 x n c) (hn : 0 < n) (hn' : n < 2 ^ 66) (hc : 0 < c) (hc' : c < 2 ^ 53) :
    0 < x ∧ Spec.IsAbout (floatBits x) n c := by
  obtain ⟨a1, a2⟩ := h
  have ho : 0 < one := Nat.two_pow_pos _
  have b1 : 2 ^ (925 + 23) ≤ x := by
    have h1 : one ≤ n * one := Nat.le_mul_of_pos_left _ hn
    have h2 : x * c ≤ x * 2 ^ 53 := Nat.mul_le_mul_left _ (Nat.le_of_lt hc')
    have h3 : one ≤ 2 ^ 60 * x := by
      generalize n * one = N at *
      generalize x * c = X at *
      generalize one = o at *
      omega
    have h4 : one = 2 ^ 126 * 2 ^ (925 + 23) := by
      unfold one
      rw [← Nat.pow_add]
    rw [h4] at h3
    generalize 2 ^ (925 + 23) = w at *
    omega
  have b2 : x < 2 ^ (1074 + 127) := by
    have h1 : n * one < 2 ^ 66 * one := Nat.mul_lt_mul_of_pos_right hn' ho
    have h2 : x ≤ x * c := Nat.le_mul_of_pos_right _ hc
    rw [show (2 : Nat) ^ (1074 + 127) = one * 2 ^ 127 by unfold one; rw [← Nat.pow_add]]
    generalize n * one = N at *
    generalize x * c = X at *
    generalize one = o at *
    omega
  obtain ⟨U, u1, u2, u3, u4, u5⟩ := floatBits_spec b2 b1
  have hpos : 0 < x := Nat.lt_of_lt_of_le (Nat.two_pow_pos _) b1
  refine ⟨hpos, u1, by rw [u2]; omega, ?_, ?_⟩
  · have key := both_le (p := 2 ^ 24) (q := 2 ^ 24 + 1) (P := (2 ^ 53) ^ 3) (Q := (2 ^ 53 + 1) ^ 3) (o := 2 ^ 149) u4
      (by rw [← one_split]; exact a1) (Nat.two_pow_pos 925)
    have := factor_le (p := 2 ^ 23) (q := 2 ^ 23 + 1) (by decide) key (by decide)
    rw [u2]
    exact cast_le this
  · have key := both_ge (p := 2 ^ 24) (q := 2 ^ 24 - 1) (P := (2 ^ 53) ^ 3) (Q := (2 ^ 53 - 1) ^ 3) (o := 2 ^ 149) u5
      (by rw [← one_split]; exact a2) (Nat.two_pow_pos 925)
    have := factor_ge (p := 2 ^ 23) (q := 2 ^ 23 - 1) (by decide) key (by decide)
    rw [u2]
    exact cast_ge this

end Verif.Ticks
