/-
Byte strings and big-endian numerals.  Nothing in this file models libwebm; it is the
vocabulary in which the model and the specifications are written.
-/

namespace Verif

/-- A byte string. -/
abbrev Bytes := List UInt8

/-- `beBytes n v`: the `n` low-order bytes of `v`, most significant first. -/
def beBytes : Nat → Nat → Bytes
  | 0, _ => []
  | n + 1, v => UInt8.ofNat (v / 256 ^ n) :: beBytes n v

/-- The number denoted by a byte string, most significant byte first. -/
def beVal : Bytes → Nat
  | [] => 0
  | b :: bs => b.toNat * 256 ^ bs.length + beVal bs

@[simp] theorem beBytes_zero (v : Nat) : beBytes 0 v = [] := rfl
@[simp] theorem beVal_nil : beVal [] = 0 := rfl

theorem beBytes_succ (n v : Nat) :
    beBytes (n + 1) v = UInt8.ofNat (v / 256 ^ n) :: beBytes n v := rfl

theorem beVal_cons (b : UInt8) (bs : Bytes) :
    beVal (b :: bs) = b.toNat * 256 ^ bs.length + beVal bs := rfl

@[simp] theorem beBytes_length (n v : Nat) : (beBytes n v).length = n := by
  induction n with
  | zero => rfl
  | succ n ih => simp [beBytes, ih]

theorem beVal_lt (bs : Bytes) : beVal bs < 256 ^ bs.length := by
  induction bs with
  | nil => simp
  | cons b bs ih =>
    have hb : b.toNat < 256 := b.toNat_lt
    rw [beVal_cons, List.length_cons, Nat.pow_succ]
    have : b.toNat * 256 ^ bs.length ≤ 255 * 256 ^ bs.length :=
      Nat.mul_le_mul_right _ (by omega)
    omega

theorem beVal_beBytes (n v : Nat) : beVal (beBytes n v) = v % 256 ^ n := by
  induction n with
  | zero => simp [Nat.mod_one]
  | succ n ih =>
    rw [beBytes_succ, beVal_cons, beBytes_length, ih, Nat.pow_succ, Nat.mod_mul]
    simp only [UInt8.toNat_ofNat']
    rw [Nat.mul_comm, Nat.add_comm]

theorem beBytes_add (n v : Nat) (k : Nat) : beBytes n (v + k * 256 ^ n) = beBytes n v := by
  induction n generalizing k with
  | zero => rfl
  | succ n ih =>
    rw [beBytes_succ, beBytes_succ]
    have h1 : v + k * 256 ^ (n + 1) = v + (k * 256) * 256 ^ n := by
      rw [Nat.pow_succ, Nat.mul_assoc, Nat.mul_comm 256]
    rw [h1, ih]
    congr 1
    have hp : 0 < 256 ^ n := Nat.pow_pos (by decide)
    rw [Nat.add_mul_div_right _ _ hp]
    apply UInt8.toNat_inj.mp
    simp

theorem beBytes_beVal (bs : Bytes) : beBytes bs.length (beVal bs) = bs := by
  induction bs with
  | nil => rfl
  | cons b bs ih =>
    rw [List.length_cons, beBytes_succ, beVal_cons, Nat.add_comm, beBytes_add, ih]
    congr 1
    have hp : 0 < 256 ^ bs.length := Nat.pow_pos (by decide)
    rw [Nat.add_mul_div_right _ _ hp, Nat.div_eq_of_lt (beVal_lt bs)]
    apply UInt8.toNat_inj.mp
    simp

theorem beVal_append (xs ys : Bytes) :
    beVal (xs ++ ys) = beVal xs * 256 ^ ys.length + beVal ys := by
  induction xs with
  | nil => simp
  | cons b xs ih =>
    rw [List.cons_append, beVal_cons, beVal_cons, ih, List.length_append, Nat.pow_add,
      Nat.add_mul, Nat.mul_assoc, Nat.add_assoc]

theorem beBytes_mod (n v : Nat) : beBytes n (v % 256 ^ n) = beBytes n v := by
  have h := beBytes_add n (v % 256 ^ n) (v / 256 ^ n)
  rw [Nat.mod_add_div'] at h
  exact h.symm

theorem beBytes_inj {n a b : Nat} (ha : a < 256 ^ n) (hb : b < 256 ^ n)
    (h : beBytes n a = beBytes n b) : a = b := by
  have := congrArg beVal h
  rwa [beVal_beBytes, beVal_beBytes, Nat.mod_eq_of_lt ha, Nat.mod_eq_of_lt hb] at this

theorem beVal_inj {xs ys : Bytes} (hl : xs.length = ys.length) (h : beVal xs = beVal ys) :
    xs = ys := by
  rw [← beBytes_beVal xs, ← beBytes_beVal ys, hl, h]

/-- The accumulator loop `acc = (acc << 8) | b` used all over the code base. -/
theorem foldl_shift (bs : Bytes) (a : Nat) :
    bs.foldl (fun acc b => acc * 256 + b.toNat) a = a * 256 ^ bs.length + beVal bs := by
  induction bs generalizing a with
  | nil => simp
  | cons b bs ih =>
    rw [List.foldl_cons, ih, beVal_cons, List.length_cons, Nat.pow_succ, Nat.add_mul,
      Nat.mul_assoc, Nat.mul_comm 256, Nat.add_assoc]

/-- `shl8or`: `(acc << 8) | b` on naturals is `acc * 256 + b`. -/
theorem shl8_or (a : Nat) (b : UInt8) : (a <<< 8) ||| b.toNat = a * 256 + b.toNat := by
  have hb : b.toNat < 2 ^ 8 := b.toNat_lt
  rw [Nat.shiftLeft_eq, ← Nat.shiftLeft_eq, ← Nat.shiftLeft_add_eq_or_of_lt hb, Nat.shiftLeft_eq]

/-- The byte string from position `p`, `n` bytes long (shorter if it runs off the end). -/
def slice (bs : Bytes) (p n : Nat) : Bytes := (bs.drop p).take n

theorem slice_length (bs : Bytes) (p n : Nat) :
    (slice bs p n).length = min n (bs.length - p) := by simp [slice]

theorem slice_append_mid (pre mid post : Bytes) :
    slice (pre ++ (mid ++ post)) pre.length mid.length = mid := by
  simp [slice]

/-- The bytes `bs` are stored in `d` at offset `p`. -/
def At (d : Bytes) (p : Nat) (bs : Bytes) : Prop := slice d p bs.length = bs

theorem At.of_append (pre mid post : Bytes) : At (pre ++ (mid ++ post)) pre.length mid :=
  slice_append_mid pre mid post

theorem At.of_eq {d pre mid post : Bytes} (h : d = pre ++ (mid ++ post)) : At d pre.length mid := by
  rw [h]; exact At.of_append ..

theorem at_nil (d : Bytes) (p : Nat) : At d p [] := by simp [At, slice]

theorem at_cons {d : Bytes} {p : Nat} {b : UInt8} {bs : Bytes} :
    At d p (b :: bs) ↔ d[p]? = some b ∧ At d (p + 1) bs := by
  unfold At slice
  by_cases h : p < d.length
  · rw [List.drop_eq_getElem_cons h, List.getElem?_eq_getElem h, List.length_cons,
      List.take_succ_cons]
    simp
  · rw [List.drop_eq_nil_of_le (by omega), List.getElem?_eq_none (by omega)]
    simp

theorem at_append {d : Bytes} {p : Nat} {a b : Bytes} :
    At d p (a ++ b) ↔ At d p a ∧ At d (p + a.length) b := by
  induction a generalizing p with
  | nil => simp [at_nil]
  | cons x xs ih =>
    rw [List.cons_append, at_cons, at_cons, ih, List.length_cons, and_assoc,
      show p + 1 + xs.length = p + (xs.length + 1) by omega]

theorem At.le {d : Bytes} {p : Nat} {bs : Bytes} (h : At d p bs) (h0 : bs ≠ []) :
    p + bs.length ≤ d.length := by
  have := congrArg List.length h
  rw [slice_length] at this
  have : 0 < bs.length := List.length_pos_iff.mpr h0
  omega

theorem At.slice_eq {d : Bytes} {p n : Nat} {bs : Bytes} (h : At d p bs) (hn : bs.length = n) :
    slice d p n = bs := by rw [← hn]; exact h

end Verif
