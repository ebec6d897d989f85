/-
`WriteVoidElement`.
-/
import Verif.Lemmas.Scalars

namespace Verif.Mux
open Verif Spec

theorem coded_of_bounds {e c : Nat} (h1 : 1 ≤ c) (h8 : c ≤ 8) (hfit : e + 1 < 2 ^ (7 * c) ∨ c = 8)
    (hlow : 1 < c → 2 ^ (7 * (c - 1)) ≤ e + 1) : getCodedUIntSize e = c := by
  rw [getCodedUIntSize_eq]; exact sizeWidth_of_bounds h1 h8 hfit hlow

theorem kMkvVoid_size : getUIntSize kMkvVoid = 1 := by decide

theorem subU64_of_le {a b : Nat} (h : b ≤ a) (ha : a < 2 ^ 64) : subU64 a b = a - b := by
  unfold subU64 toU64
  omega

/-- Sizes for which `WriteVoidElement` succeeds. -/
theorem voidOk_coded {n : Nat} (h2 : 2 ≤ n) (hmax : n ≤ 2 ^ 31 + 5)
    (hgap : ∀ w, 1 ≤ w → w ≤ 4 → ¬ (2 ^ (7 * w) ≤ n ∧ n ≤ 2 ^ (7 * w) + w)) :
    getCodedUIntSize (n - 1) ≤ n - 1 ∧
    getCodedUIntSize (n - 1 - getCodedUIntSize (n - 1)) = getCodedUIntSize (n - 1) := by
  have hb := getCodedUIntSize_bounds (n - 1)
  have hlo := getCodedUIntSize_low (n - 1)
  have hhi := getCodedUIntSize_high (n - 1)
  have g1 := hgap 1 (by decide) (by decide)
  have g2 := hgap 2 (by decide) (by decide)
  have g3 := hgap 3 (by decide) (by decide)
  have g4 := hgap 4 (by decide) (by decide)
  generalize hc : getCodedUIntSize (n - 1) = c at *
  have h5 : c ≤ 5 := by
    rcases Nat.lt_or_ge c 6 with h | h
    · omega
    · have := hlo (by omega)
      have h35 : 2 ^ (7 * 5) ≤ 2 ^ (7 * (c - 1)) := Nat.pow_le_pow_right (by decide) (by omega)
      omega
  have : c = 1 ∨ c = 2 ∨ c = 3 ∨ c = 4 ∨ c = 5 := by omega
  rcases this with rfl | rfl | rfl | rfl | rfl <;> simp only [Nat.reduceMul, Nat.reduceSub, Nat.reducePow, Nat.reduceLT, Nat.reduceEqDiff, or_false, forall_const] at * <;>
    exact ⟨by omega, coded_of_bounds (by decide) (by decide) (by left; simp only [Nat.reduceMul, Nat.reducePow]; omega)
      (by intro _; simp only [Nat.reduceMul, Nat.reduceSub, Nat.reducePow]; omega)⟩

/-- The body of a Void element. -/
def voidBody (e : Nat) : W Unit := do
  writeID kMkvVoid
  writeUInt e
  voidFill (toI32 e).toNat

theorem writeVoidElement_run (n : Nat) (s : Sink) :
    writeVoidElement n s =
      let e := subU64 (subU64 n 1) (getCodedUIntSize (subU64 n 1))
      let v := (ebmlMasterElementSize kMkvVoid e + e) % 2 ^ 64
      if v ≠ n then (.err 0, s)
      else match voidBody e s with
        | (.ok _, s') => if (s'.pos : Int) - s.pos ≠ toI64 v then (.err 0, s') else (.ok v, s')
        | (.err c, s') => (.err c, s')
        | (.ub, s') => (.ub, s') := by
  unfold writeVoidElement voidBody
  simp only
  generalize subU64 (subU64 n 1) (getCodedUIntSize (subU64 n 1)) = e
  generalize (ebmlMasterElementSize kMkvVoid e + e) % 2 ^ 64 = v
  generalize (toI32 e).toNat = f
  generalize toI64 v = t
  generalize writeID kMkvVoid = w1
  generalize writeUInt e = w2
  generalize voidFill f = w3
  by_cases hv : v ≠ n
  · rw [if_pos hv, if_pos hv]; rfl
  · rw [if_neg hv, if_neg hv]
    rw [W.bind_of_ok (show Sink.position s = (.ok s.pos, s) from rfl)]
    rcases h1 : w1 s with ⟨r1, s1⟩
    cases r1 with
    | err c => rw [W.bind_of_err h1, W.bind_of_err h1]
    | ub => rw [W.bind_of_ub h1, W.bind_of_ub h1]
    | ok a =>
      rw [W.bind_of_ok h1, W.bind_of_ok h1]
      rcases h2 : w2 s1 with ⟨r2, s2⟩
      cases r2 with
      | err c => rw [W.bind_of_err h2, W.bind_of_err h2]
      | ub => rw [W.bind_of_ub h2, W.bind_of_ub h2]
      | ok a =>
        rw [W.bind_of_ok h2, W.bind_of_ok h2]
        rcases h3 : w3 s2 with ⟨r3, s3⟩
        cases r3 with
        | err c => rw [W.bind_of_err h3]
        | ub => rw [W.bind_of_ub h3]
        | ok a =>
          rw [W.bind_of_ok h3, W.bind_of_ok (show Sink.position s3 = (.ok s3.pos, s3) from rfl)]
          simp only
          by_cases hp : (s3.pos : Int) - s.pos ≠ t
          · rw [if_pos hp, if_pos hp]; rfl
          · rw [if_neg hp, if_neg hp]; rfl

theorem voidBody_emits {e : Nat} (h : e + 1 < 2 ^ 56) :
    Emits (voidBody e) () (beBytes 1 kMkvVoid ++ (vint (sizeWidth e) e ++
      List.replicate (toI32 e).toNat 0)) := by
  have h1 := writeID_emits (id := kMkvVoid) (by decide)
  rw [byteWidth_eq (by decide), kMkvVoid_size] at h1
  exact h1.bind ((writeUInt_emits h).bind (voidFill_emits _))

theorem toI64_small {n : Nat} (h : n < 2 ^ 63) : toI64 n = n := by unfold toI64; omega

/-- A successful body advances the cursor by the bytes it wrote. -/
theorem voidBody_ok {e : Nat} {s s' : Sink} (hs : s.AtEnd) (h : voidBody e s = (.ok (), s')) :
    e + 1 < 2 ^ 56 ∧ s'.pos = s.pos + (1 + sizeWidth e + (toI32 e).toNat) := by
  by_cases he : e + 1 < 2 ^ 56
  · obtain ⟨-, h1, h2, -⟩ := (voidBody_emits he).success hs h
    have h3 := congrArg List.length h1
    simp only [List.length_append, beBytes_length, Par.vint_length, List.length_replicate] at h3
    refine ⟨he, ?_⟩
    unfold Sink.AtEnd at hs h2
    omega
  · exfalso
    unfold voidBody at h
    rcases h1 : writeID kMkvVoid s with ⟨r1, s1⟩
    cases r1 with
    | err c => rw [W.bind_of_err h1] at h; cases h
    | ub => rw [W.bind_of_ub h1] at h; cases h
    | ok a =>
      rw [W.bind_of_ok h1, W.bind_of_err (writeUInt_refuses (show 2 ^ 56 ≤ e + 1 by omega) s1)] at h
      cases h

theorem writeVoidElement_emits {n : Nat} (h2 : 2 ≤ n) (hmax : n ≤ 2 ^ 31 + 5)
    (hgap : ∀ w, 1 ≤ w → w ≤ 4 → ¬ (2 ^ (7 * w) ≤ n ∧ n ≤ 2 ^ (7 * w) + w)) :
    ∃ e, (element kMkvVoid (List.replicate e 0)).length = n ∧
      Emits (writeVoidElement n) n (element kMkvVoid (List.replicate e 0)) := by
  obtain ⟨hle, hcoded⟩ := voidOk_coded h2 hmax hgap
  have hb := getCodedUIntSize_bounds (n - 1)
  have e1 : subU64 n 1 = n - 1 := subU64_of_le (by omega) (by omega)
  have e2 : subU64 (n - 1) (getCodedUIntSize (n - 1)) = n - 1 - getCodedUIntSize (n - 1) :=
    subU64_of_le hle (by omega)
  have hlow : n - 1 - getCodedUIntSize (n - 1) < 2 ^ 31 := by
    rcases Nat.lt_or_ge (n - 1) (2 ^ 31 - 1) with h | h
    · omega
    · have hhi := getCodedUIntSize_high (n - 1)
      have : 5 ≤ getCodedUIntSize (n - 1) := by
        rcases Nat.lt_or_ge (getCodedUIntSize (n - 1)) 5 with h5 | h5
        · have : 2 ^ (7 * getCodedUIntSize (n - 1)) ≤ 2 ^ (7 * 4) :=
            Nat.pow_le_pow_right (by decide) (by omega)
          omega
        · exact h5
      omega
  generalize he : n - 1 - getCodedUIntSize (n - 1) = e at *
  refine ⟨e, ?_, ?_⟩
  · rw [element_length _ (by decide), List.length_replicate, kMkvVoid_size, hcoded]; omega
  · have hbody := voidBody_emits (show e + 1 < 2 ^ 56 by omega)
    rw [show (toI32 e).toNat = e by unfold toI32; omega] at hbody
    have hel : element kMkvVoid (List.replicate e 0) =
        beBytes 1 kMkvVoid ++ (vint (sizeWidth e) e ++ List.replicate e 0) := by
      unfold element
      rw [byteWidth_eq (by decide), kMkvVoid_size, List.length_replicate, List.append_assoc]
    have hv : (ebmlMasterElementSize kMkvVoid e + e) % 2 ^ 64 = n := by
      unfold ebmlMasterElementSize
      rw [hcoded, kMkvVoid_size, Nat.mod_eq_of_lt (by omega)]; omega
    have hlen : (beBytes 1 kMkvVoid ++ (vint (sizeWidth e) e ++ List.replicate e 0)).length = n := by
      simp only [List.length_append, beBytes_length, Par.vint_length, List.length_replicate]
      rw [← getCodedUIntSize_eq, hcoded]; omega
    rw [hel]
    obtain ⟨k, hk⟩ := hbody
    refine ⟨k, fun s hs => ⟨fun hok => ?_, fun hbad => ?_⟩⟩
    · rw [writeVoidElement_run]
      simp only [e1, e2, hv, (hk s hs).1 hok]
      rw [if_neg (by simp), if_neg]
      · simp only [Sink.put, hlen, toI64_small (show n < 2 ^ 63 by omega)]
        omega
    · obtain ⟨c, s', h1, h2⟩ := (hk s hs).2 hbad
      refine ⟨c, s', ?_, h2⟩
      rw [writeVoidElement_run]
      simp only [e1, e2, hv, h1]
      rw [if_neg (by simp)]

theorem void_sub_zero : subU64 (subU64 0 1) (getCodedUIntSize (subU64 0 1)) = 2 ^ 64 - 9 := by
  have h1 : subU64 0 1 = 18446744073709551615 := by unfold subU64 toU64; omega
  have h2 : getCodedUIntSize 18446744073709551615 = 8 := by simp [getCodedUIntSize]
  rw [h1, h2]; unfold subU64 toU64; omega

theorem void_sub_one : subU64 (subU64 1 1) (getCodedUIntSize (subU64 1 1)) = 2 ^ 64 - 1 := by
  have h1 : subU64 1 1 = 0 := by unfold subU64 toU64; omega
  have h2 : getCodedUIntSize 0 = 1 := by simp [getCodedUIntSize]
  rw [h1, h2]; unfold subU64 toU64; omega

/-- The sizes outside the gaps, from the widths. -/
theorem void_gap {n c w : Nat} (hb : 1 ≤ c) (h5 : c ≤ 5) (h2n : c < n)
    (hhi : n - 1 + 1 < 2 ^ (7 * c) ∨ c = 8) (hlo2 : 1 < c → 2 ^ (7 * (c - 1)) ≤ n - 1 - c + 1)
    (hw1 : 1 ≤ w) : ¬ (2 ^ (7 * w) ≤ n ∧ n ≤ 2 ^ (7 * w) + w) := by
  rintro ⟨g1, g2⟩
  have hn : n < 2 ^ (7 * c) := by omega
  have hwc : w < c := by
    rcases Nat.lt_or_ge w c with h | h
    · exact h
    · have := Nat.pow_le_pow_right (n := 2) (by decide) (show 7 * c ≤ 7 * w by omega); omega
  have hle : 2 ^ (7 * w) ≤ 2 ^ (7 * (c - 1)) := Nat.pow_le_pow_right (by decide) (by omega)
  have h1 := hlo2 (by omega)
  omega

theorem void_arith {n : Nat} (h2 : 2 ≤ n) (h64 : n < 2 ^ 64) {c : Nat}
    (hc : getCodedUIntSize (n - 1) = c) (hle : c ≤ n - 1)
    (hcoded : getCodedUIntSize (n - 1 - c) = c) (hsmall : n - 1 - c < 2 ^ 31) :
    n ≤ 2 ^ 31 + 5 ∧ ∀ w, 1 ≤ w → w ≤ 4 → ¬ (2 ^ (7 * w) ≤ n ∧ n ≤ 2 ^ (7 * w) + w) := by
  have hb := getCodedUIntSize_bounds (n - 1)
  have hhi := getCodedUIntSize_high (n - 1)
  have hlo2 := getCodedUIntSize_low (n - 1 - c)
  rw [hc] at hb hhi
  rw [hcoded] at hlo2
  have h5 : c ≤ 5 := by
    rcases Nat.lt_or_ge c 6 with h6 | h6
    · omega
    · have h2 : 2 ^ (7 * 5) ≤ 2 ^ (7 * (c - 1)) := Nat.pow_le_pow_right (by decide) (by omega)
      have := hlo2 (by omega)
      omega
  exact ⟨by omega, fun w h1 _ => void_gap hb.1 h5 (by omega) hhi hlo2 h1⟩

theorem coded_le {m : Nat} (h : 1 ≤ m) : getCodedUIntSize m ≤ m := by
  have hb := getCodedUIntSize_bounds m
  rcases Nat.lt_or_ge 1 (getCodedUIntSize m) with h1 | h1
  · have h2 : 2 ^ 7 ≤ 2 ^ (7 * (getCodedUIntSize m - 1)) :=
      Nat.pow_le_pow_right (by decide) (by omega)
    have := getCodedUIntSize_low m h1
    omega
  · omega

theorem toI32_toNat {e : Nat} (h : (toI32 e).toNat = e) : e < 2 ^ 31 := by
  unfold toI32 at h; omega

theorem writeVoidElement_ok {n : Nat} {s s' : Sink} {a : Nat} (hs : s.AtEnd)
    (hw : writeVoidElement n s = (.ok a, s')) : ∃ e, e = subU64 (subU64 n 1) (getCodedUIntSize (subU64 n 1)) ∧
      e + 1 < 2 ^ 56 ∧ (ebmlMasterElementSize kMkvVoid e + e) % 2 ^ 64 = n ∧
      ((1 + getCodedUIntSize e + (toI32 e).toNat : Nat) : Int) = toI64 n := by
  rw [writeVoidElement_run] at hw
  simp only at hw
  generalize he : subU64 (subU64 n 1) (getCodedUIntSize (subU64 n 1)) = e at *
  refine ⟨e, rfl, ?_⟩
  generalize hv : (ebmlMasterElementSize kMkvVoid e + e) % 2 ^ 64 = v at *
  by_cases hne : v ≠ n
  · rw [if_pos hne] at hw; cases hw
  · rw [if_neg hne] at hw
    simp only [ne_eq, Decidable.not_not] at hne
    rcases hr : voidBody e s with ⟨r, s1⟩
    cases r with
    | err c => rw [hr] at hw; cases hw
    | ub => rw [hr] at hw; cases hw
    | ok u =>
      obtain ⟨h1, h2⟩ := voidBody_ok hs hr
      rw [hr] at hw
      simp only at hw
      by_cases hp : (s1.pos : Int) - s.pos ≠ toI64 v
      · rw [if_pos hp] at hw; cases hw
      · simp only [ne_eq, Decidable.not_not] at hp
        refine ⟨h1, hne, ?_⟩
        rw [← hne, ← hp, h2, getCodedUIntSize_eq]
        push_cast; omega

theorem writeVoidElement_never {n : Nat} (h64 : n < 2 ^ 64)
    (h : ¬ (2 ≤ n ∧ n ≤ 2 ^ 31 + 5 ∧
      ∀ w, 1 ≤ w → w ≤ 4 → ¬ (2 ^ (7 * w) ≤ n ∧ n ≤ 2 ^ (7 * w) + w)))
    {s s' : Sink} {a : Nat} (hs : s.AtEnd) : writeVoidElement n s ≠ (.ok a, s') := by
  intro hw
  obtain ⟨e, he, h1, h2, h3⟩ := writeVoidElement_ok hs hw
  clear hw
  have hn0 : n ≠ 0 := by
    intro h0
    rw [h0, void_sub_zero] at he; omega
  have hn1 : n ≠ 1 := by
    intro h0
    rw [h0, void_sub_one] at he; omega
  have hn2 : 2 ≤ n := by omega
  have e1 : subU64 n 1 = n - 1 := subU64_of_le (by omega) h64
  have hle := coded_le (show 1 ≤ n - 1 by omega)
  have hb := getCodedUIntSize_bounds (n - 1)
  have hb2 := getCodedUIntSize_bounds e
  rw [e1, subU64_of_le hle (by omega)] at he
  unfold ebmlMasterElementSize at h2
  rw [kMkvVoid_size, Nat.mod_eq_of_lt (by omega)] at h2
  rw [toI64_small (by omega)] at h3
  have hcoded : getCodedUIntSize e = getCodedUIntSize (n - 1) := by omega
  have hsm := toI32_toNat (e := e) (by omega)
  rw [he] at hcoded hsm
  exact h ⟨hn2, void_arith hn2 h64 rfl hle hcoded hsm⟩

end Verif.Mux
