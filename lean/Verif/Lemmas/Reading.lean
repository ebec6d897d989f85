/-
Walking over the trees of `Spec.Headers`: tools.
-/
import Verif.Spec.Reading
import Verif.Lemmas.MuxerHeaders
import Verif.Lemmas.HeaderTools

namespace Verif.Par
open Verif Verif.Spec Verif.Mux

/-- The loop over elements goes over `t` from state `a` to state `b`. -/
def Reads {σ : Type} (r : Rdr) (step : Nat → Hdr → σ → Res σ) (t : Tree) (a b : σ) : Prop :=
  ∀ pos stop, At r.data pos t.bytes → pos + t.bytes.length ≤ stop → stop ≤ llongMax →
    walk r stop step pos a = walk r stop step (pos + t.bytes.length) b

variable {σ : Type} {r : Rdr} {step : Nat → Hdr → σ → Res σ} {a b c : σ}

theorem Reads.nil : Reads r step .nil a a := by
  intro pos stop _ _ _
  simp

theorem Reads.append {t u : Tree} (h1 : Reads r step t a b) (h2 : Reads r step u b c) :
    Reads r step (t.append u) a c := by
  intro pos stop ha hs hm
  rw [Tree.append_bytes] at ha hs ⊢
  rw [List.length_append] at hs ⊢
  obtain ⟨ha1, ha2⟩ := at_append.mp ha
  rw [h1 pos stop ha1 (by omega) hm, h2 _ stop ha2 (by omega) hm, Nat.add_assoc]

theorem Reads.seqNil : Reads r step (seq []) a a := Reads.nil

theorem Reads.cons {t : Tree} {ts : List Tree} (h1 : Reads r step t a b) (h2 : Reads r step (seq ts) b c) :
    Reads r step (seq (t :: ts)) a c := h1.append h2

/-- The whole loop. -/
theorem Reads.run {t : Tree} (h : Reads r step t a b) {pos : Nat} (ha : At r.data pos t.bytes)
    (hm : pos + t.bytes.length ≤ llongMax) : walk r (pos + t.bytes.length) step pos a = .ok b := by
  rw [h pos _ ha (Nat.le_refl _) hm]
  exact walk_end rfl

theorem Reads.plain {n id : Nat} (hid : IsId n id) {v : Bytes} (hv : v.length + 1 < 2 ^ 56)
    (h : ∀ p q, At r.data q v → q + v.length ≤ llongMax → step p ⟨q, id, v.length⟩ a = .ok b) :
    Reads r step (plain id v) a b := by
  intro pos stop ha hs hm
  rw [plain_bytes] at ha hs ⊢
  refine walk_step hid ha hv hs hm fun q hq hat => h pos q hat ?_
  have := element_length_id hid v
  omega

theorem Reads.group {n id : Nat} (hid : IsId n id) {t : Tree} (hv : t.bytes.length + 1 < 2 ^ 56)
    (h : ∀ p q, At r.data q t.bytes → q + t.bytes.length ≤ llongMax → step p ⟨q, id, t.bytes.length⟩ a = .ok b) :
    Reads r step (group id t) a b := by
  intro pos stop ha hs hm
  rw [group_bytes] at ha hs ⊢
  refine walk_step hid ha hv hs hm fun q hq hat => h pos q hat ?_
  have := element_length_id hid t.bytes
  omega

theorem number_small (v : UInt64) : (beBytes (byteWidth v.toNat) v.toNat).length ≤ 8 :=
  uintField_small _ (u64_lt v)

theorem Reads.number {n id : Nat} (hid : IsId n id) {v : UInt64}
    (h : ∀ p q, At r.data q (beBytes (byteWidth v.toNat) v.toNat) →
      step p ⟨q, id, (beBytes (byteWidth v.toNat) v.toNat).length⟩ a = .ok b) :
    Reads r step (number id v) a b :=
  Reads.plain hid (by have := number_small v; omega) fun p q hq _ => h p q hq

theorem Reads.numberIf {n id : Nat} (hid : IsId n id) {v : UInt64} (h0 : v = 0 → a = b)
    (h : v ≠ 0 → ∀ p q, At r.data q (beBytes (byteWidth v.toNat) v.toNat) →
      step p ⟨q, id, (beBytes (byteWidth v.toNat) v.toNat).length⟩ a = .ok b) :
    Reads r step (numberIf id v) a b := by
  unfold Spec.numberIf
  split
  · rename_i hv; rw [h0 hv]; exact Reads.nil
  · rename_i hv; exact Reads.number hid (h hv)

theorem Reads.float {n id : Nat} (hid : IsId n id) {v : UInt32}
    (h : ∀ p q, At r.data q (beBytes 4 v.toNat) → step p ⟨q, id, 4⟩ a = .ok b) :
    Reads r step (float id v) a b := by
  refine Reads.plain hid (by simp) fun p q hq _ => ?_
  rw [beBytes_length]
  exact h p q hq

theorem Reads.text {n id : Nat} (hid : IsId n id) {v : Option Bytes} (hf : (text id v).Fits)
    (h0 : v = none → a = b)
    (h : ∀ s, v = some s → s.length < 2 ^ 32 → ∀ p q, At r.data q s → step p ⟨q, id, s.length⟩ a = .ok b) :
    Reads r step (text id v) a b := by
  cases v with
  | none => rw [h0 rfl]; exact Reads.nil
  | some s =>
    have hf : s.length < 2 ^ 32 := by simpa [Spec.text] using hf
    exact Reads.plain hid (by omega) fun p q hq _ => h s rfl hf p q hq

/-! ### Values -/

theorem uintAt_ok {v : UInt64} {q id : Nat} (h : At r.data q (beBytes (byteWidth v.toNat) v.toNat)) :
    uintAt r ⟨q, id, (beBytes (byteWidth v.toNat) v.toNat).length⟩ = .ok (toI64 v.toNat) := by
  have h64 := u64_lt v
  have hb := getUIntSize_bounds v.toNat
  have hf := getUIntSize_fits h64
  rw [← byteWidth_eq h64] at hb hf
  have hl := h.le (by intro h0; have := congrArg List.length h0; simp at this; omega)
  have h2 := h.slice_eq (beBytes_length _ _)
  unfold uintAt
  simp only
  rw [beBytes_length] at hl ⊢
  rw [unserializeUInt_ok hb.1 hb.2 hl, h2, beVal_beBytes, Nat.mod_eq_of_lt hf]

theorem toU64_toI64 (v : UInt64) : toU64 (toI64 v.toNat) = v.toNat := by
  have := u64_lt v
  unfold toU64 toI64
  rw [Nat.mod_eq_of_lt this]
  split <;> omega

theorem uintAt_small {v : UInt64} (hv : v.toNat < 2 ^ 63) {q id : Nat}
    (h : At r.data q (beBytes (byteWidth v.toNat) v.toNat)) :
    uintAt r ⟨q, id, (beBytes (byteWidth v.toNat) v.toNat).length⟩ = .ok v.toNat := by
  rw [uintAt_ok h, toI64_small hv]

theorem uintFrom_ok {v : UInt64} (hv : v.toNat < 2 ^ 63) {least : Int} (hl : least ≤ v.toNat) {q id : Nat}
    (h : At r.data q (beBytes (byteWidth v.toNat) v.toNat)) :
    uintFrom least r ⟨q, id, (beBytes (byteWidth v.toNat) v.toNat).length⟩ = .ok v.toNat := by
  unfold uintFrom
  rw [uintAt_small hv h]
  simp only [Res.bind_ok]
  rw [Res.refuse_neg (by omega)]
  rfl

theorem float_at {v : UInt32} (hv : Finite v) {q : Nat} (h : At r.data q (beBytes 4 v.toNat)) :
    unserializeFloat r q 4 = .ok (v.toNat, 4) := by
  have hl := h.le (by simp [beBytes])
  have h2 := h.slice_eq (beBytes_length _ _)
  rw [beBytes_length] at hl
  have hfold : ∀ (bs : Bytes) (acc : Nat), bs.foldl (fun acc b => (acc <<< 8) ||| b.toNat) acc =
      acc * 256 ^ bs.length + beVal bs := by
    intro bs
    induction bs with
    | nil => intro acc; simp
    | cons b bs ih =>
      intro acc
      rw [List.foldl_cons, ih, shl8_or, beVal_cons, List.length_cons, Nat.pow_succ, Nat.add_mul, Nat.mul_assoc,
        Nat.mul_comm 256, Nat.add_assoc]
  unfold unserializeFloat Rdr.read
  rw [if_neg (by omega), show (q : Int).toNat = q from rfl, show ((4 : Int)).toNat = 4 from rfl,
    if_pos (Or.inr hl), h2]
  simp only
  rw [hfold, beVal_beBytes, Nat.mod_eq_of_lt (a := v.toNat) (by have := v.toNat_lt; omega), Nat.zero_mul,
    Nat.zero_add, if_pos trivial, if_neg hv]

theorem units_float (v : UInt32) : Dbl.units (v.toNat, 4) = floatUnits v * 2 ^ 925 := by
  unfold Dbl.units floatUnits
  simp only [if_true]
  split <;> split <;> simp [Int.neg_mul]

theorem toFloat_float (v : UInt32) : Dbl.toFloat (v.toNat, 4) = v.toNat := rfl

theorem units_pos {v : UInt32} (h : 0 < floatUnits v) : 0 < Dbl.units (v.toNat, 4) := by
  rw [units_float]
  exact Int.mul_pos h (by decide +kernel)

theorem units_nonneg {v : UInt32} (h : 0 ≤ floatUnits v) : 0 ≤ Dbl.units (v.toNat, 4) := by
  rw [units_float]
  exact Int.mul_nonneg h (by decide +kernel)

theorem units_le {v : UInt32} {m : Int} (h : floatUnits v ≤ m) : Dbl.units (v.toNat, 4) ≤ m * 2 ^ 925 := by
  rw [units_float]
  exact Int.mul_le_mul_of_nonneg_right h (by decide +kernel)

theorem le_units {v : UInt32} {m : Int} (h : m ≤ floatUnits v) : m * 2 ^ 925 ≤ Dbl.units (v.toNat, 4) := by
  rw [units_float]
  exact Int.mul_le_mul_of_nonneg_right h (by decide +kernel)

theorem not_tiny {v : UInt32} (h : NotTiny v) : ¬ (0 < Dbl.units (v.toNat, 4) ∧ Dbl.units (v.toNat, 4) < fltMin) := by
  intro ⟨h1, h2⟩
  rcases h with h | h
  · have := units_le h
    omega
  · have := le_units h
    have h3 : (2 ^ 23 * 2 ^ 925 : Int) = fltMin := by decide +kernel
    rw [h3] at this
    omega

theorem floatUnits_bounds {v : UInt32} (h : Finite v) :
    -((2 ^ 24 - 1) * 2 ^ 253) ≤ floatUnits v ∧ floatUnits v ≤ (2 ^ 24 - 1) * 2 ^ 253 := by
  have key : ∀ e f : Nat, e < 2 ^ 8 → e ≠ 255 → f < 2 ^ 23 →
      (if e = 0 then f else (2 ^ 23 + f) * 2 ^ (e - 1)) ≤ (2 ^ 24 - 1) * 2 ^ 253 := by
    intro e f he hne hf
    split
    · exact Nat.le_trans (Nat.le_of_lt hf) (by decide +kernel)
    · exact Nat.mul_le_mul (by omega) (Nat.pow_le_pow_right (by decide) (by omega))
  have := key _ _ (Nat.mod_lt _ (by decide)) h (Nat.mod_lt v.toNat (by decide : 0 < 2 ^ 23))
  unfold floatUnits
  simp only
  generalize (if v.toNat / 2 ^ 23 % 2 ^ 8 = 0 then v.toNat % 2 ^ 23
    else (2 ^ 23 + v.toNat % 2 ^ 23) * 2 ^ (v.toNat / 2 ^ 23 % 2 ^ 8 - 1)) = x at *
  generalize hK : ((2 ^ 24 - 1) * 2 ^ 253 : Nat) = K at *
  have hKi : ((2 ^ 24 - 1) * 2 ^ 253 : Int) = (K : Int) := by rw [← hK]; decide +kernel
  rw [hKi]
  split <;> omega

theorem not_notFloat {v : UInt32} (h : Finite v) (ht : NotTiny v) : ¬ Dbl.notFloat (v.toNat, 4) := by
  obtain ⟨h1, h2⟩ := floatUnits_bounds h
  have h1 := le_units h1
  have h2 := units_le h2
  have e1 : (-((2 ^ 24 - 1) * 2 ^ 253) * 2 ^ 925 : Int) = -fltMax := by decide +kernel
  have e2 : ((2 ^ 24 - 1) * 2 ^ 253 * 2 ^ 925 : Int) = fltMax := by decide +kernel
  rw [e1] at h1
  rw [e2] at h2
  unfold Dbl.notFloat
  intro hn
  rcases hn with hn | hn | hn
  · omega
  · omega
  · exact not_tiny ht hn

theorem canAlloc_of {n : Nat} (h : 0 < n ∧ n ≤ 0x80000000) : canAlloc n = true := by
  unfold canAlloc; exact decide_eq_true h

theorem read_at {q : Nat} {s : Bytes} (h : At r.data q s) : r.read q s.length = .ok s := by
  unfold Rdr.read
  have hs := h.slice_eq rfl
  by_cases h0 : s = []
  · subst h0; simp [slice]
  · rw [if_pos (Or.inr (h.le h0)), hs]

theorem binaryAt_ok {q id : Nat} {s : Bytes} (h : At r.data q s) (hs : 0 < s.length ∧ s.length ≤ 0x80000000) (code : Int) :
    binaryAt r ⟨q, id, s.length⟩ code = .ok s := by
  unfold binaryAt
  simp only
  rw [canAlloc_of hs, read_at h]
  rfl

theorem uidLoop_eq (n acc p : Nat) (h : p + n ≤ r.data.length) (hacc : (acc + 1) * 256 ^ n ≤ 2 ^ 64) :
    uidLoop r acc p n = .ok (acc * 256 ^ n + beVal (slice r.data p n)) := by
  induction n generalizing acc p with
  | zero => simp [uidLoop, slice]
  | succ n ih =>
    unfold uidLoop
    obtain ⟨b, hb⟩ := getElem?_of_lt (d := r.data) (p := p) (by omega)
    rw [byte_ok hb]
    simp only
    have hb8 := b.toNat_lt
    have h1 : (acc + 1) * 256 ≤ 2 ^ 64 := by
      have : (acc + 1) * 256 * 1 ≤ (acc + 1) * 256 * 256 ^ n := Nat.mul_le_mul_left _ (Nat.pow_pos (by decide))
      rw [Nat.pow_succ, Nat.mul_comm (256 ^ n), ← Nat.mul_assoc] at hacc
      omega
    have hsh : acc <<< 8 % 2 ^ 64 = acc <<< 8 := by
      rw [Nat.shiftLeft_eq]
      exact Nat.mod_eq_of_lt (by omega)
    rw [hsh, shl8_or, ih _ _ (by omega), slice_succ hb, beVal_cons, slice_length]
    · rw [Nat.min_eq_left (by omega), Nat.pow_succ, Nat.add_mul, Nat.mul_assoc, Nat.mul_comm 256, Nat.add_assoc]
    · rw [Nat.pow_succ, Nat.mul_comm (256 ^ n), ← Nat.mul_assoc] at hacc
      refine Nat.le_trans (Nat.mul_le_mul_right _ ?_) hacc
      omega

theorem uid_ok {v : UInt64} {q : Nat} (h : At r.data q (beBytes (byteWidth v.toNat) v.toNat)) :
    uidLoop r 0 q (beBytes (byteWidth v.toNat) v.toNat).length = .ok v.toNat := by
  have h64 := u64_lt v
  have hb := getUIntSize_bounds v.toNat
  have hf := getUIntSize_fits h64
  rw [← byteWidth_eq h64] at hb hf
  have hl := h.le (by intro h0; have := congrArg List.length h0; simp at this; omega)
  have h2 := h.slice_eq (beBytes_length _ _)
  rw [beBytes_length] at hl ⊢
  rw [uidLoop_eq _ _ _ hl, h2, beVal_beBytes, Nat.mod_eq_of_lt hf]
  · simp
  · have : 256 ^ byteWidth v.toNat ≤ 256 ^ 8 := Nat.pow_le_pow_right (by decide) hb.2
    omega

end Verif.Par
