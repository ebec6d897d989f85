/-
Helper lemmas about the writing utilities.
-/
import Verif.Model.MuxerUtil
import Verif.Lemmas.Sink
import Verif.Spec.Ebml

namespace Verif.Mux
open Verif

theorem pow256_int (n : Nat) : ((256 ^ n : Nat) : Int) = (256 : Int) ^ n := by
  induction n with
  | zero => rfl
  | succ n ih => rw [Nat.pow_succ, Int.pow_succ, Int.natCast_mul, ih]; rfl

theorem byteAt_shift (u : Nat) (q : Int) (n : Nat) :
    byteAt (u + 256 ^ (n + 1) * q) n = UInt8.ofNat (u / 256 ^ n) := by
  have hp : (256 : Int) ^ n ≠ 0 := Int.ne_of_gt (Int.pow_pos (by decide))
  have h1 : (u : Int) + 256 ^ (n + 1) * q = u + 256 ^ n * (256 * q) := by
    rw [Int.pow_succ, Int.mul_assoc]
  have h2 : ((u : Int) + 256 ^ (n + 1) * q) / 256 ^ n = ((u / 256 ^ n : Nat) : Int) + 256 * q := by
    rw [h1, Int.add_mul_ediv_left _ _ hp, Int.natCast_ediv, pow256_int]
  unfold byteAt
  rw [h2]
  have h3 : (((u / 256 ^ n : Nat) : Int) + 256 * q) % 256 = ((u / 256 ^ n % 256 : Nat) : Int) := by
    omega
  rw [h3, Int.toNat_natCast]
  apply UInt8.toNat_inj.mp
  simp

theorem serializeLoop_emits (n : Nat) (u : Nat) (q : Int) :
    Emits (serializeLoop (u + 256 ^ n * q) n) () (beBytes n u) := by
  induction n generalizing q with
  | zero => exact Emits.pure _
  | succ n ih =>
    rw [beBytes_succ]
    have h1 : (u : Int) + 256 ^ (n + 1) * q = u + 256 ^ n * (256 * q) := by
      rw [Int.pow_succ, Int.mul_assoc]
    have := Emits.bind (Emits.write [byteAt (u + 256 ^ (n + 1) * q) n])
      (f := fun _ => serializeLoop (u + 256 ^ (n + 1) * q) n) (h1 ▸ ih (256 * q))
    refine this.congr ?_
    rw [byteAt_shift]; rfl

theorem serializeInt_nat_emits {n : Nat} (u : Nat) (h1 : 1 ≤ n) (h8 : n ≤ 8) :
    Emits (serializeInt u n) () (beBytes n u) := by
  have := serializeLoop_emits n u 0
  rw [Int.mul_zero, Int.add_zero] at this
  unfold serializeInt
  rw [if_neg (by omega), Int.toNat_natCast]
  exact this

theorem serializeInt_int_emits {n : Nat} (v : Int) (h1 : 1 ≤ n) (h8 : n ≤ 8) :
    Emits (serializeInt v n) () (Spec.twosBytes n v) := by
  have hp : (0 : Int) < 2 ^ (8 * n) := Int.pow_pos (by decide)
  have he : (2 : Int) ^ (8 * n) = 256 ^ n := by rw [Int.pow_mul]; rfl
  have hv : v = ((v % 2 ^ (8 * n)).toNat : Int) + 256 ^ n * (v / 2 ^ (8 * n)) := by
    rw [Int.toNat_of_nonneg (Int.emod_nonneg _ (Int.ne_of_gt hp)), ← he]
    have := Int.emod_add_mul_ediv v (2 ^ (8 * n)); omega
  have := serializeLoop_emits n (v % 2 ^ (8 * n)).toNat (v / 2 ^ (8 * n))
  rw [← hv] at this
  unfold serializeInt
  rw [if_neg (by omega), Int.toNat_natCast]
  exact this

theorem serializeFloatLoop_emits (bits n : Nat) :
    Emits (serializeFloatLoop bits n) () (beBytes n bits) := by
  induction n with
  | zero => exact Emits.pure _
  | succ n ih =>
    rw [beBytes_succ]
    have := Emits.bind (Emits.write [UInt8.ofNat (bits >>> (8 * n))])
      (f := fun _ => serializeFloatLoop bits n) ih
    refine this.congr ?_
    rw [Nat.shiftRight_eq_div_pow, Nat.pow_mul]; rfl

/-! ### Widths -/

theorem getUIntSize_bounds (v : Nat) : 1 ≤ getUIntSize v ∧ getUIntSize v ≤ 8 := by
  unfold getUIntSize; repeat' split
  all_goals omega

theorem getCodedUIntSize_bounds (v : Nat) : 1 ≤ getCodedUIntSize v ∧ getCodedUIntSize v ≤ 8 := by
  unfold getCodedUIntSize; repeat' split
  all_goals omega

theorem byteWidth_of_bounds (n : Nat) : ∀ v, v < 256 ^ (n + 1) → (n = 0 ∨ 256 ^ n ≤ v) →
    Spec.byteWidth v = n + 1 := by
  induction n with
  | zero => intro v h _; unfold Spec.byteWidth; rw [if_pos (by simpa using h)]
  | succ n ih =>
    intro v h1 h2
    have h3 : 256 ^ (n + 1) ≤ v := by omega
    have h4 : 1 ≤ 256 ^ n := Nat.pow_pos (by decide)
    have e1 : 256 ^ (n + 1) = 256 ^ n * 256 := Nat.pow_succ ..
    have e2 : 256 ^ (n + 1 + 1) = 256 ^ n * 256 * 256 := by rw [Nat.pow_succ, Nat.pow_succ]
    unfold Spec.byteWidth
    rw [if_neg (by omega), ih (v / 256) (by omega) (by omega)]

theorem byteWidth_eq {v : Nat} (h : v < 2 ^ 64) : Spec.byteWidth v = getUIntSize v := by
  unfold getUIntSize
  repeat' split
  all_goals first
    | exact byteWidth_of_bounds 0 v (by omega) (by omega)
    | exact byteWidth_of_bounds 1 v (by omega) (by omega)
    | exact byteWidth_of_bounds 2 v (by omega) (by omega)
    | exact byteWidth_of_bounds 3 v (by omega) (by omega)
    | exact byteWidth_of_bounds 4 v (by omega) (by omega)
    | exact byteWidth_of_bounds 5 v (by omega) (by omega)
    | exact byteWidth_of_bounds 6 v (by omega) (by omega)
    | exact byteWidth_of_bounds 7 v (by omega) (by omega)

theorem getUIntSize_fits {v : Nat} (h : v < 2 ^ 64) : v < 256 ^ getUIntSize v := by
  unfold getUIntSize; repeat' split
  all_goals omega

theorem sizeWidthFrom_of_bounds (v m : Nat) (hm : m ≤ 8) (hfit : v + 1 < 2 ^ (7 * m) ∨ m = 8)
    (hlow : ∀ k, 1 ≤ k → k < m → 2 ^ (7 * k) ≤ v + 1) :
    ∀ d n, n + d = m → 1 ≤ n → Spec.sizeWidthFrom v n = m := by
  intro d
  induction d with
  | zero =>
    intro n hn _
    have : n = m := by omega
    subst this
    unfold Spec.sizeWidthFrom
    rw [if_pos (by omega)]
  | succ d ih =>
    intro n hn h1
    have := hlow n h1 (by omega)
    unfold Spec.sizeWidthFrom
    rw [if_neg (by omega), ih (n + 1) (by omega) (by omega)]

theorem sizeWidth_of_bounds {v m : Nat} (h1 : 1 ≤ m) (hm : m ≤ 8)
    (hfit : v + 1 < 2 ^ (7 * m) ∨ m = 8) (hlow : 1 < m → 2 ^ (7 * (m - 1)) ≤ v + 1) :
    Spec.sizeWidth v = m := by
  refine sizeWidthFrom_of_bounds v m hm hfit (fun k h1k hk => ?_) (m - 1) 1 (by omega) (by omega)
  refine Nat.le_trans (Nat.pow_le_pow_right (by decide) ?_) (hlow (by omega))
  omega

theorem getCodedUIntSize_low (v : Nat) :
    1 < getCodedUIntSize v → 2 ^ (7 * (getCodedUIntSize v - 1)) ≤ v + 1 := by
  unfold getCodedUIntSize; repeat' split
  all_goals intro _; omega

theorem getCodedUIntSize_high (v : Nat) :
    v + 1 < 2 ^ (7 * getCodedUIntSize v) ∨ getCodedUIntSize v = 8 := by
  unfold getCodedUIntSize; repeat' split
  all_goals omega

theorem getCodedUIntSize_eq (v : Nat) : getCodedUIntSize v = Spec.sizeWidth v :=
  (sizeWidth_of_bounds (getCodedUIntSize_bounds v).1 (getCodedUIntSize_bounds v).2
    (getCodedUIntSize_high v) (getCodedUIntSize_low v)).symm

theorem getCodedUIntSize_fits {v : Nat} (h : v + 1 < 2 ^ 56) : v + 1 < 2 ^ (7 * getCodedUIntSize v) := by
  unfold getCodedUIntSize; repeat' split
  all_goals omega

theorem getIntSize_bounds (v : Int) : 1 ≤ getIntSize v ∧ getIntSize v ≤ 8 := getUIntSize_bounds _

theorem or_marker {v n : Nat} (h : v < 2 ^ (7 * n)) : v ||| 2 ^ (n * 7) = 2 ^ (7 * n) + v := by
  rw [Nat.mul_comm n 7, Nat.or_comm]
  have := Nat.two_pow_add_eq_or_of_lt h 1
  simpa using this.symm

/-! ### Size fields -/

theorem writeUIntSize_emits {v n : Nat} (h1 : 1 ≤ n) (h8 : n ≤ 8) (hv : v + 1 < 2 ^ (7 * n)) :
    Emits (writeUIntSize v n) () (Spec.vint n v) := by
  unfold writeUIntSize
  rw [if_neg (by omega), if_pos (by omega)]
  simp only [Int.toNat_natCast]
  rw [if_neg (by rw [Nat.mul_comm n 7]; omega), or_marker (by omega)]
  exact serializeInt_nat_emits _ h1 h8

theorem writeUIntSize_refuses {v n : Nat} (h1 : 1 ≤ n) (h8 : n ≤ 8) (hv : 2 ^ (7 * n) ≤ v + 1)
    (s : Sink) : writeUIntSize v n s = (.err (-1), s) := by
  have hp : 2 ^ 7 ≤ 2 ^ (7 * n) := Nat.pow_le_pow_right (by decide) (by omega)
  unfold writeUIntSize
  rw [if_neg (by omega), if_pos (by omega)]
  simp only [Int.toNat_natCast]
  rw [if_pos (by rw [Nat.mul_comm n 7]; omega)]
  rfl

theorem writeUInt_emits {v : Nat} (hv : v + 1 < 2 ^ 56) :
    Emits (writeUInt v) () (Spec.vint (Spec.sizeWidth v) v) := by
  have hb := getCodedUIntSize_bounds v
  rw [← getCodedUIntSize_eq]
  exact writeUIntSize_emits hb.1 hb.2 (getCodedUIntSize_fits hv)

theorem writeUInt_refuses {v : Nat} (hv : 2 ^ 56 ≤ v + 1) (s : Sink) :
    writeUInt v s = (.err (-1), s) := by
  have h : getCodedUIntSize v = 8 := by
    unfold getCodedUIntSize; repeat' split
    all_goals omega
  unfold writeUInt
  rw [h]
  exact writeUIntSize_refuses (by omega) (by omega) hv s

theorem uintSizeLoop_some (v m : Nat) (hfit : v + 1 < 2 ^ (7 * m))
    (hlow : ∀ k, 1 ≤ k → k < m → 2 ^ (7 * k) ≤ v + 1) :
    ∀ f n, 1 ≤ n → n ≤ m → m < n + f → uintSizeLoop v f n = some m := by
  intro f
  induction f with
  | zero => intro n _ _ _; omega
  | succ f ih =>
    intro n h1 hn hf
    unfold uintSizeLoop
    rw [Nat.mul_comm n 7]
    by_cases h : n = m
    · subst h; rw [if_pos (by omega)]
    · have := hlow n h1 (by omega)
      have h7 : 2 ^ 7 ≤ 2 ^ (7 * n) := Nat.pow_le_pow_right (by decide) (by omega)
      rw [if_neg (by omega), ih (n + 1) (by omega) (by omega) (by omega)]

theorem uintSizeLoop_eq {v : Nat} (hv : v + 1 < 2 ^ 56) :
    uintSizeLoop v 8 1 = some (getCodedUIntSize v) := by
  have hb := getCodedUIntSize_bounds v
  refine uintSizeLoop_some v _ (getCodedUIntSize_fits hv) (fun k h1k hk => ?_) 8 1 (by omega)
    hb.1 (by omega)
  refine Nat.le_trans (Nat.pow_le_pow_right (by decide) ?_) (getCodedUIntSize_low v (by omega))
  omega

theorem uintSizeLoop_none_of (v : Nat) :
    ∀ f n, 1 ≤ n → 2 ^ (7 * (n + f - 1)) ≤ v + 1 → uintSizeLoop v f n = none := by
  intro f
  induction f with
  | zero => intro n _ _; rfl
  | succ f ih =>
    intro n h1 h
    have h7 : 2 ^ 7 ≤ 2 ^ (7 * n) := Nat.pow_le_pow_right (by decide) (by omega)
    have hle : 2 ^ (7 * n) ≤ 2 ^ (7 * (n + (f + 1) - 1)) :=
      Nat.pow_le_pow_right (by decide) (by omega)
    unfold uintSizeLoop
    rw [Nat.mul_comm n 7, if_neg (by omega)]
    exact ih (n + 1) (by omega) (by rwa [show n + 1 + f - 1 = n + (f + 1) - 1 by omega])

theorem uintSizeLoop_none {v : Nat} (hv : 2 ^ 56 ≤ v + 1) : uintSizeLoop v 8 1 = none :=
  uintSizeLoop_none_of v 8 1 (by omega) hv

theorem writeUIntSize_zero_emits {v : Nat} (hv : v + 1 < 2 ^ 56) :
    Emits (writeUIntSize v 0) () (Spec.vint (Spec.sizeWidth v) v) := by
  have hb := getCodedUIntSize_bounds v
  have hf := getCodedUIntSize_fits hv
  unfold writeUIntSize
  rw [if_neg (by omega), if_neg (by omega), uintSizeLoop_eq hv, ← getCodedUIntSize_eq]
  simp only
  rw [or_marker (by omega)]
  exact serializeInt_nat_emits _ hb.1 hb.2

/-! ### IDs and whole elements -/

theorem writeID_emits {id : Nat} (h : id < 2 ^ 64) :
    Emits (writeID id) () (beBytes (Spec.byteWidth id) id) := by
  rw [byteWidth_eq h]
  have := getUIntSize_bounds id
  exact serializeInt_nat_emits _ this.1 this.2

theorem writeEbmlMasterElement_emits {id size : Nat} (h : id < 2 ^ 64) (hs : size + 1 < 2 ^ 56) :
    Emits (writeEbmlMasterElement id size) ()
      (beBytes (Spec.byteWidth id) id ++ Spec.vint (Spec.sizeWidth size) size) :=
  (writeID_emits h).bind (writeUInt_emits hs)

theorem toI32_small {n : Nat} (h : n ≤ 8) : toI32 n = n := by
  unfold toI32; omega

theorem writeEbmlElementUInt_emits {id v : Nat} (h : id < 2 ^ 64) :
    Emits (writeEbmlElementUInt id v) () (Spec.element id (beBytes (getUIntSize v) v)) := by
  have hb := getUIntSize_bounds v
  unfold writeEbmlElementUInt writeEbmlElementUIntFixed Spec.element
  simp only [beBytes_length, toI32_small hb.2]
  rw [List.append_assoc]
  refine (writeID_emits h).bind ?_
  exact (writeUInt_emits (by omega)).bind (serializeInt_nat_emits _ hb.1 hb.2)

theorem writeEbmlElementUIntFixed_emits {id v n : Nat} (h : id < 2 ^ 64) (h1 : 1 ≤ n) (h8 : n ≤ 8)
    (hv : getUIntSize v ≤ n) :
    Emits (writeEbmlElementUIntFixed id v n) () (Spec.element id (beBytes n v)) := by
  unfold writeEbmlElementUIntFixed Spec.element
  simp only [beBytes_length, toI32_small h8]
  rw [List.append_assoc]
  refine (writeID_emits h).bind ?_
  rw [if_pos (by omega), if_neg (by omega)]
  exact (writeUInt_emits (by omega)).bind (serializeInt_nat_emits _ h1 h8)

@[simp] theorem twosBytes_length (n : Nat) (v : Int) : (Spec.twosBytes n v).length = n := by
  simp [Spec.twosBytes]

theorem writeEbmlElementInt_emits {id : Nat} {v : Int} (h : id < 2 ^ 64) :
    Emits (writeEbmlElementInt id v) () (Spec.element id (Spec.twosBytes (getIntSize v) v)) := by
  have hb := getIntSize_bounds v
  unfold writeEbmlElementInt Spec.element
  simp only [twosBytes_length]
  rw [List.append_assoc]
  refine (writeID_emits h).bind ?_
  exact (writeUInt_emits (by omega)).bind (serializeInt_int_emits _ hb.1 hb.2)

theorem writeEbmlElementFloat_emits {id bits : Nat} (h : id < 2 ^ 64) :
    Emits (writeEbmlElementFloat id bits) () (Spec.element id (beBytes 4 bits)) := by
  unfold writeEbmlElementFloat Spec.element
  simp only [beBytes_length]
  rw [List.append_assoc]
  exact (writeID_emits h).bind ((writeUInt_emits (by omega)).bind (serializeFloatLoop_emits _ _))

theorem writeBuf32_emits {v : Bytes} (h : v.length < 2 ^ 32) : Emits (writeBuf32 v) () v := by
  have := Emits.write (v.take (v.length % 2 ^ 32))
  unfold writeBuf32
  rw [Nat.mod_eq_of_lt h, List.take_length] at this ⊢
  exact this

theorem writeEbmlElementString_emits {id : Nat} {v : Bytes} (h : id < 2 ^ 64)
    (hv : v.length < 2 ^ 32) :
    Emits (writeEbmlElementString id (some v)) () (Spec.element id v) := by
  unfold writeEbmlElementString Spec.element
  rw [List.append_assoc]
  exact (writeID_emits h).bind ((writeUInt_emits (by omega)).bind (writeBuf32_emits hv))

theorem writeEbmlElementBinary_emits {id : Nat} {v : Bytes} (h : id < 2 ^ 64)
    (h0 : v ≠ []) (hv : v.length < 2 ^ 32) :
    Emits (writeEbmlElementBinary id (some v)) () (Spec.element id v) := by
  unfold writeEbmlElementBinary Spec.element
  rw [List.append_assoc]
  have : 0 < v.length := List.length_pos_iff.mpr h0
  simp only
  rw [if_neg (by omega)]
  exact (writeID_emits h).bind ((writeUInt_emits (by omega)).bind (writeBuf32_emits hv))

theorem writeEbmlDateElement_emits {id : Nat} {v : Int} (h : id < 2 ^ 64) :
    Emits (writeEbmlDateElement id v) () (Spec.element id (Spec.twosBytes 8 v)) := by
  unfold writeEbmlDateElement Spec.element kDateElementSize
  simp only [twosBytes_length]
  rw [List.append_assoc]
  refine (writeID_emits h).bind ?_
  exact (writeUInt_emits (by omega)).bind (serializeInt_int_emits _ (by omega) (by omega))

/-- Length of an element: the sum the size functions compute. -/
theorem element_length (id : Nat) (h : id < 2 ^ 64) (p : Bytes) :
    (Spec.element id p).length = getUIntSize id + getCodedUIntSize p.length + p.length := by
  simp [Spec.element, Spec.vint, byteWidth_eq h, getCodedUIntSize_eq, Nat.add_assoc]

end Verif.Mux
