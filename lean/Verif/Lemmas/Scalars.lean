/-
Values delivered by the scalar readers of both parsers on written data.
-/
import Verif.Lemmas.MuxerUtil
import Verif.Lemmas.WebmScalar

namespace Verif.Web
open Verif Spec

theorem mask_eq {n : Nat} (h8 : n ≤ 7) :
    (2 ^ 64 - 1) >>> (57 - 7 * n) = 2 ^ (7 * (n + 1)) - 1 := by
  have : ∀ n : Fin 8, (2 ^ 64 - 1) >>> (57 - 7 * n.val) = 2 ^ (7 * (n.val + 1)) - 1 := by
    decide
  exact this ⟨n, by omega⟩

theorem and_mask (v n : Nat) : v &&& (2 ^ n - 1) = v % 2 ^ n := Nat.and_two_pow_sub_one_eq_mod v n

theorem pow256 (n : Nat) : (256 : Nat) ^ n = 2 ^ (8 * n) := by rw [Nat.pow_mul]

theorem beVal_take_lt (bs : Bytes) (n : Nat) : beVal (bs.take n) < 256 ^ n := by
  refine Nat.lt_of_lt_of_le (beVal_lt _) (Nat.pow_le_pow_right (by decide) ?_)
  rw [List.length_take]; omega

/-- Bounds of the raw value of a variable-size integer. -/
theorem raw_bounds {b : UInt8} {bs : Bytes} {c : Nat} (h7 : c ≤ 7) (hlo : 2 ^ (7 - c) ≤ b.toNat)
    (hhi : b.toNat < 2 ^ (8 - c)) :
    2 ^ (7 * (c + 1)) ≤ b.toNat * 256 ^ c + beVal (bs.take c) ∧
    b.toNat * 256 ^ c + beVal (bs.take c) < 2 ^ (7 * (c + 1) + 1) := by
  have hl := beVal_take_lt bs c
  have hp : (256 : Nat) ^ c = 2 ^ (8 * c) := pow256 c
  have e1 : 2 ^ (7 - c) * 256 ^ c = 2 ^ (7 * (c + 1)) := by
    rw [hp, ← Nat.pow_add]; congr 1; omega
  have e2 : 2 ^ (8 - c) * 256 ^ c = 2 ^ (7 * (c + 1) + 1) := by
    rw [hp, ← Nat.pow_add]; congr 1; omega
  have h1 := Nat.mul_le_mul_right (256 ^ c) hlo
  have h2 : (b.toNat + 1) * 256 ^ c ≤ 2 ^ (8 - c) * 256 ^ c := Nat.mul_le_mul_right _ hhi
  rw [Nat.succ_mul] at h2
  omega

/-- The varint parser with a complete varint available. -/
theorem VarInt.feed_all_ok {b : UInt8} {bs : Bytes} {pos c : Nat} (h0 : b ≠ 0)
    (hc : countLeadingZeros b = c) (hl : c ≤ bs.length) :
    VarInt.feed {} (allAtOnce (b :: bs) pos) =
      (.okCompleted,
       { remaining := some 0, total := c,
         value := beVal ((b :: bs).take (c + 1)) - 2 ^ (7 * (c + 1)) },
       allAtOnce (bs.drop c) (pos + 1 + c), c + 1) := by
  obtain ⟨h7, hm⟩ := clz_facts b h0
  obtain ⟨-, -, hlo, hhi, -⟩ := Par.marker_facts b h0
  rw [hm] at hlo hhi
  rw [hc] at hlo hhi h7
  rw [show 8 - (c + 1) = 7 - c by omega] at hlo
  rw [show 9 - (c + 1) = 8 - c by omega] at hhi
  obtain ⟨r1, r2⟩ := raw_bounds (bs := bs) h7 hlo hhi
  have r3 : 2 ^ (7 * (c + 1) + 1) ≤ 2 ^ 64 := Nat.pow_le_pow_right (by decide) (by omega)
  simp only [VarInt.feed, allAtOnce_readByte_cons, if_neg h0, VarInt.tail, hc,
    accumulate64_eq (show c ≤ 8 by omega)]
  rw [accumLoop_value hl (by omega)]
  simp only [completedOk_iff, if_true, Nat.sub_self]
  rw [mask_eq h7, and_mask]
  have e : beVal ((b :: bs).take (c + 1)) = b.toNat * 256 ^ c + beVal (bs.take c) := by
    rw [List.take_succ_cons, beVal_cons, List.length_take, Nat.min_eq_left hl]
  have e2 : (b.toNat * 256 ^ c + beVal (bs.take c)) % 2 ^ (7 * (c + 1)) =
      b.toNat * 256 ^ c + beVal (bs.take c) - 2 ^ (7 * (c + 1)) := by
    rw [Nat.mod_eq_sub_mod r1, Nat.mod_eq_of_lt]
    rw [Nat.pow_succ] at r2; omega
  rw [e, e2]

/-- The varint parser on truncated data. -/
theorem VarInt.feed_all_eof {b : UInt8} {bs : Bytes} {pos c : Nat} (h0 : b ≠ 0)
    (hc : countLeadingZeros b = c) (hl : bs.length < c) :
    ∃ p, VarInt.feed {} (allAtOnce (b :: bs) pos) =
      (.endOfFile, p, allAtOnce [] (pos + 1 + bs.length), bs.length + 1) := by
  obtain ⟨h7, hm⟩ := clz_facts b h0
  rw [hc] at h7
  simp only [VarInt.feed, allAtOnce_readByte_cons, if_neg h0, VarInt.tail, hc,
    accumulate64_eq (show c ≤ 8 by omega)]
  rw [accumLoop_allAtOnce]
  simp only [if_neg (show ¬ c ≤ bs.length by omega)]
  rw [if_neg (by decide), List.drop_eq_nil_iff.mpr (by omega), Nat.min_eq_right (by omega)]
  exact ⟨_, rfl⟩

/-- The ID parser with a complete ID available. -/
theorem IdP.feed_all_ok {b : UInt8} {bs : Bytes} {pos c : Nat} (h0 : b &&& 0xf0 ≠ 0)
    (hc : countLeadingZeros b = c) (hl : c ≤ bs.length) :
    IdP.feed {} (allAtOnce (b :: bs) pos) =
      (.okCompleted, { remaining := some 0, id := beVal ((b :: bs).take (c + 1)) },
       allAtOnce (bs.drop c) (pos + 1 + c), c + 1) := by
  obtain ⟨h3, hk⟩ := (idclz_facts b).2 h0
  rw [hc] at h3 hk
  have hlt := beVal_take_lt (b :: bs) (c + 1)
  have e : beVal ((b :: bs).take (c + 1)) = b.toNat * 256 ^ c + beVal (bs.take c) := by
    rw [List.take_succ_cons, beVal_cons, List.length_take, Nat.min_eq_left hl]
  have r3 : 256 ^ (c + 1) ≤ 2 ^ 32 := by
    rw [pow256]; exact Nat.pow_le_pow_right (by decide) (by omega)
  simp only [IdP.feed, allAtOnce_readByte_cons, if_neg h0, IdP.tail, hc,
    accumulate32_eq (show c ≤ 4 by omega)]
  rw [accumLoop_value hl (by omega), e]
  simp

/-- The ID parser on truncated data. -/
theorem IdP.feed_all_eof {b : UInt8} {bs : Bytes} {pos c : Nat} (h0 : b &&& 0xf0 ≠ 0)
    (hc : countLeadingZeros b = c) (hl : bs.length < c) :
    ∃ p, IdP.feed {} (allAtOnce (b :: bs) pos) =
      (.endOfFile, p, allAtOnce [] (pos + 1 + bs.length), bs.length + 1) := by
  obtain ⟨h3, hk⟩ := (idclz_facts b).2 h0
  rw [hc] at h3
  simp only [IdP.feed, allAtOnce_readByte_cons, if_neg h0, IdP.tail, hc,
    accumulate32_eq (show c ≤ 4 by omega)]
  rw [accumLoop_allAtOnce]
  simp only [if_neg (show ¬ c ≤ bs.length by omega)]
  rw [List.drop_eq_nil_iff.mpr (by omega), Nat.min_eq_right (by omega)]
  exact ⟨_, rfl⟩

/-- The varint parser on a well-formed varint followed by anything. -/
theorem VarInt.feed_vint {n v pos : Nat} {post : Bytes} (h1 : 1 ≤ n) (h8 : n ≤ 8)
    (hv : v < 2 ^ (7 * n)) :
    VarInt.feed {} (allAtOnce (vint n v ++ post) pos) =
      (.okCompleted, { remaining := some 0, total := n - 1, value := v },
       allAtOnce post (pos + n), n) := by
  have hlen := Par.vint_length n v
  rcases hb : vint n v with _ | ⟨b, t⟩
  · rw [hb] at hlen; simp at hlen; omega
  obtain ⟨h0, hm⟩ := Par.vint_first h1 h8 hv hb
  obtain ⟨-, hm2⟩ := clz_facts b h0
  have hc : countLeadingZeros b = n - 1 := by omega
  rw [hb] at hlen
  simp only [List.length_cons] at hlen
  rw [List.cons_append, VarInt.feed_all_ok h0 hc (by rw [List.length_append]; omega)]
  have e1 : (b :: (t ++ post)).take (n - 1 + 1) = vint n v := by
    rw [hb, ← List.cons_append, List.take_left']; simp; omega
  rw [e1, show n - 1 + 1 = n by omega, Par.vint_beVal h1 hv, List.drop_left' (by omega),
    show pos + 1 + (n - 1) = pos + n by omega, Nat.add_sub_cancel_left]

/-- The size parser on a size field that is not the unknown-size pattern. -/
theorem SizeP.feed_vint {n v pos : Nat} {post : Bytes} (h1 : 1 ≤ n) (h8 : n ≤ 8)
    (hv : v + 1 < 2 ^ (7 * n)) :
    ∃ p, SizeP.feed {} (allAtOnce (vint n v ++ post) pos) =
      (.okCompleted, p, allAtOnce post (pos + n), n) ∧ SizeP.size p = v := by
  refine ⟨{ remaining := some 0, total := n - 1, value := v }, ?_, ?_⟩
  · unfold SizeP.feed
    rw [VarInt.feed_vint h1 h8 (by omega)]
    simp
  · unfold SizeP.size VarInt.encodedLength
    simp only [Nat.add_sub_cancel]
    rw [mask_eq (by omega), show n - 1 + 1 = n by omega, if_neg (by omega)]

/-- The size parser recognises the unknown-size pattern. -/
theorem SizeP.feed_unknown {n pos : Nat} {post : Bytes} (h1 : 1 ≤ n) (h8 : n ≤ 8) :
    ∃ p, SizeP.feed {} (allAtOnce (vint n (2 ^ (7 * n) - 1) ++ post) pos) =
      (.okCompleted, p, allAtOnce post (pos + n), n) ∧ SizeP.size p = kUnknownElementSize := by
  have hp : 0 < 2 ^ (7 * n) := Nat.pow_pos (by decide)
  refine ⟨{ remaining := some 0, total := n - 1, value := 2 ^ (7 * n) - 1 }, ?_, ?_⟩
  · unfold SizeP.feed
    rw [VarInt.feed_vint h1 h8 (by omega)]
    simp
  · unfold SizeP.size VarInt.encodedLength
    simp only [Nat.add_sub_cancel]
    rw [mask_eq (by omega), show n - 1 + 1 = n by omega, if_pos rfl]

/-- The ID parser on a well-formed ID followed by anything. -/
theorem IdP.feed_id {n id pos : Nat} {post : Bytes} (h : IsId n id) :
    IdP.feed {} (allAtOnce (beBytes n id ++ post) pos) =
      (.okCompleted, { remaining := some 0, id := id }, allAtOnce post (pos + n), n) := by
  have hlen := beBytes_length n id
  have h1 := h.1
  rcases hb : beBytes n id with _ | ⟨b, t⟩
  · rw [hb] at hlen; simp at hlen; omega
  have hf := Par.id_first h hb
  have h0 : b &&& 0xf0 ≠ 0 := fun h0 => by
    rw [(idclz_facts b).1 h0] at hf; cases hf
  obtain ⟨-, hk⟩ := (idclz_facts b).2 h0
  have hc : countLeadingZeros b = n - 1 := by rw [hk] at hf; exact Option.some.inj hf
  rw [hb] at hlen
  simp only [List.length_cons] at hlen
  rw [List.cons_append, IdP.feed_all_ok h0 hc (by rw [List.length_append]; omega)]
  have e1 : (b :: (t ++ post)).take (n - 1 + 1) = beBytes n id := by
    rw [hb, ← List.cons_append, List.take_left']; simp; omega
  rw [e1, show n - 1 + 1 = n by omega, beVal_beBytes, Nat.mod_eq_of_lt (Par.isId_lt h),
    List.drop_left' (by omega), show pos + 1 + (n - 1) = pos + n by omega]

/-- The unsigned integer parser. -/
theorem IntP.feed_unsigned {bs post : Bytes} {pos : Nat} (h1 : 1 ≤ bs.length) (h8 : bs.length ≤ 8) :
    IntP.feed false { size := bs.length, remaining := bs.length, value := 0 }
      (allAtOnce (bs ++ post) pos) =
      (.okCompleted, { size := bs.length, remaining := 0, value := beVal bs },
       allAtOnce post (pos + bs.length), bs.length) := by
  have hl := beVal_lt bs
  have r3 : 256 ^ bs.length ≤ 2 ^ 64 := by
    rw [pow256]; exact Nat.pow_le_pow_right (by decide) (by omega)
  simp only [IntP.feed, accumulate64_eq h8]
  rw [accumLoop_value (by rw [List.length_append]; omega) (by rw [List.take_left']; omega; rfl),
    List.take_left' rfl, List.drop_left' rfl]
  simp

/-! ### Two's complement -/

theorem twosBytes_length (n : Nat) (v : Int) : (twosBytes n v).length = n := by simp [twosBytes]

theorem twosVal_twosBytes {n : Nat} {v : Int} (h1 : 1 ≤ n) (h : FitsSigned n v) :
    twosVal (twosBytes n v) = v := by
  obtain ⟨hlo, hhi⟩ := h
  have hp : (2 : Int) ^ (8 * n) = 2 * 2 ^ (8 * n - 1) := by
    rw [show 8 * n = (8 * n - 1) + 1 by omega, Int.pow_succ, Nat.add_sub_cancel]; omega
  have hq : (0 : Int) < 2 ^ (8 * n - 1) := Int.pow_pos (by decide)
  have hcast : ((2 ^ (8 * n - 1) : Nat) : Int) = 2 ^ (8 * n - 1) := by simp
  have hcast2 : ((256 ^ n : Nat) : Int) = 2 ^ (8 * n) := by rw [pow256]; simp
  have hm0 : 0 ≤ v % 2 ^ (8 * n) := Int.emod_nonneg _ (by omega)
  have hm1 : v % 2 ^ (8 * n) < 2 ^ (8 * n) := Int.emod_lt_of_pos _ (by omega)
  have hval : ((beVal (twosBytes n v) : Nat) : Int) = v % 2 ^ (8 * n) := by
    unfold twosBytes
    rw [beVal_beBytes, Nat.mod_eq_of_lt, Int.toNat_of_nonneg hm0]
    have := Int.toNat_of_nonneg hm0
    omega
  unfold twosVal
  rw [twosBytes_length]
  by_cases hv : 0 ≤ v
  · rw [Int.emod_eq_of_lt hv (by omega)] at hval
    rw [if_pos (by omega), hval]
  · have : v % 2 ^ (8 * n) = v + 2 ^ (8 * n) := by
      rw [← Int.add_emod_right, Int.emod_eq_of_lt (by omega) (by omega)]
    rw [this] at hval
    rw [if_neg (by omega), hval]; omega

theorem signExtend_fin : ∀ n : Fin 9, 1 ≤ n.val →
    ((2 ^ 64 - 1) <<< (8 * n.val - 1)) % 2 ^ 64 = 2 ^ 64 - 2 ^ (8 * n.val - 1) := by decide

/-- Sign extension yields the two's complement value. -/
theorem toI64_signExtend {bs : Bytes} (h1 : 1 ≤ bs.length) (h8 : bs.length ≤ 8) :
    toI64 (IntP.signExtend bs.length (beVal bs)) = twosVal bs := by
  have hl := beVal_lt bs
  rw [pow256] at hl
  unfold IntP.signExtend twosVal
  rw [signExtend_fin ⟨bs.length, by omega⟩ h1]
  simp only
  generalize hn : bs.length = n at *
  generalize beVal bs = v at *
  have hk : 8 * n - 1 ≤ 63 := by omega
  have hp : 2 ^ (8 * n) = 2 * 2 ^ (8 * n - 1) := by
    rw [show 8 * n = (8 * n - 1) + 1 by omega, Nat.pow_succ, Nat.add_sub_cancel]; omega
  have hpi : (2 : Int) ^ (8 * n) = ((2 ^ (8 * n) : Nat) : Int) := by simp
  have hle : 2 ^ (8 * n - 1) ≤ 2 ^ 63 := Nat.pow_le_pow_right (by decide) hk
  have hmul : ∃ q, 2 ^ 64 - 2 ^ (8 * n - 1) = 2 ^ (8 * n - 1) * q := by
    refine ⟨2 ^ (64 - (8 * n - 1)) - 1, ?_⟩
    rw [Nat.mul_sub, ← Nat.pow_add, Nat.mul_one, show 8 * n - 1 + (64 - (8 * n - 1)) = 64 by omega]
  obtain ⟨q, hq⟩ := hmul
  by_cases hlt : v < 2 ^ (8 * n - 1)
  · have hand : v &&& (2 ^ 64 - 2 ^ (8 * n - 1)) = 0 := by
      apply Nat.eq_of_testBit_eq
      intro i
      rw [Nat.testBit_and, Nat.zero_testBit, hq]
      by_cases hi : i < 8 * n - 1
      · rw [Nat.testBit_two_pow_mul]
        simp; omega
      · rw [Nat.testBit_lt_two_pow (Nat.lt_of_lt_of_le hlt (Nat.pow_le_pow_right (by decide) (by omega)))]
        rfl
    rw [if_neg (by simpa using hand), if_pos hlt]
    unfold toI64
    omega
  · have hor : v ||| (2 ^ 64 - 2 ^ (8 * n - 1)) = 2 ^ 64 - 2 ^ (8 * n) + v := by
      have hw : v = 2 ^ (8 * n - 1) + (v - 2 ^ (8 * n - 1)) := by omega
      have h2 := Nat.two_pow_add_eq_or_of_lt (show v - 2 ^ (8 * n - 1) < 2 ^ (8 * n - 1) by omega) 1
      rw [Nat.mul_one] at h2
      have h3 := Nat.two_pow_add_eq_or_of_lt (show v - 2 ^ (8 * n - 1) < 2 ^ (8 * n - 1) by omega) q
      have hq1 : 2 ^ (8 * n - 1) * q ||| 2 ^ (8 * n - 1) = 2 ^ (8 * n - 1) * q := by
        have : (2 ^ 64 - 2 ^ (8 * n - 1)) ||| 2 ^ (8 * n - 1) = 2 ^ 64 - 2 ^ (8 * n - 1) := by
          have hf : ∀ k : Fin 64, (2 ^ 64 - 2 ^ k.val) ||| 2 ^ k.val = 2 ^ 64 - 2 ^ k.val := by decide
          exact hf ⟨8 * n - 1, by omega⟩
        rw [← hq]; exact this
      rw [hw, h2, hq, Nat.or_comm, ← Nat.or_assoc, hq1, ← h3, ← hq]
      omega
    have hne : v &&& (2 ^ 64 - 2 ^ (8 * n - 1)) ≠ 0 := by
      intro h0
      have := congrArg (fun x => Nat.testBit x (8 * n - 1)) h0
      simp only [Nat.testBit_and, Nat.zero_testBit] at this
      have hf : ∀ k : Fin 64, (2 ^ 64 - 2 ^ k.val).testBit k.val = true := by decide
      have hb := hf ⟨8 * n - 1, by omega⟩
      simp only at hb
      rw [hb, Bool.and_true] at this
      have h2 := Nat.two_pow_add_eq_or_of_lt (show v - 2 ^ (8 * n - 1) < 2 ^ (8 * n - 1) by omega) 1
      have hw : v = 2 ^ (8 * n - 1) * 1 + (v - 2 ^ (8 * n - 1)) := by omega
      rw [hw, h2, Nat.testBit_or, Nat.mul_one, Nat.testBit_two_pow_self] at this
      simp at this
    rw [if_pos hne, if_neg hlt, hor, hpi]
    unfold toI64
    omega

/-- The signed integer parser. -/
theorem IntP.feed_signed' {bs post : Bytes} {pos : Nat} (h1 : 1 ≤ bs.length) (h8 : bs.length ≤ 8) :
    IntP.feed true { size := bs.length, remaining := bs.length, value := 0 }
      (allAtOnce (bs ++ post) pos) =
      (.okCompleted, { size := bs.length, remaining := 0, value := IntP.signExtend bs.length (beVal bs) },
       allAtOnce post (pos + bs.length), bs.length) := by
  have hl := beVal_lt bs
  have r3 : 256 ^ bs.length ≤ 2 ^ 64 := by
    rw [pow256]; exact Nat.pow_le_pow_right (by decide) (by omega)
  simp only [IntP.feed, accumulate64_eq h8]
  rw [accumLoop_value (by rw [List.length_append]; omega) (by rw [List.take_left']; omega; rfl),
    List.take_left' rfl, List.drop_left' rfl]
  simp only [Nat.zero_mul, Nat.zero_add, Nat.sub_self]
  rw [if_pos ⟨trivial, trivial, by omega⟩]

theorem IntP.feed_signed {bs post : Bytes} {pos : Nat} (h1 : 1 ≤ bs.length) (h8 : bs.length ≤ 8) :
    ∃ w, IntP.feed true { size := bs.length, remaining := bs.length, value := 0 }
      (allAtOnce (bs ++ post) pos) =
      (.okCompleted, { size := bs.length, remaining := 0, value := w },
       allAtOnce post (pos + bs.length), bs.length) ∧ toI64 w = twosVal bs :=
  ⟨_, IntP.feed_signed' h1 h8, toI64_signExtend h1 h8⟩

/-! ### Booleans -/

theorem accumLoop_lt {bits n i : Nat} {s : Src} {st : Status} {i' : Nat} {s' : Src} {k : Nat}
    (h : accumLoop bits n i s = (st, i', s', k)) : i' < (i + 1) * 256 ^ k := by
  induction n generalizing i s st i' s' k with
  | zero =>
    simp only [accumLoop, Prod.mk.injEq] at h
    obtain ⟨-, rfl, -, rfl⟩ := h
    simp
  | succ n ih =>
    rw [accumLoop] at h
    rcases hr : s.readByte with ⟨st1, ob, s1⟩
    cases ob with
    | none =>
      simp only [hr, Prod.mk.injEq] at h
      obtain ⟨-, rfl, -, rfl⟩ := h
      simp
    | some b =>
      rcases hq : accumLoop bits n (((i <<< 8) ||| b.toNat) % 2 ^ bits) s1 with ⟨st2, i2, s2, k2⟩
      simp only [hr, hq, Prod.mk.injEq] at h
      obtain ⟨-, rfl, -, rfl⟩ := h
      refine Nat.lt_of_lt_of_le (ih hq) ?_
      rw [Nat.pow_succ, Nat.mul_comm (256 ^ k2), ← Nat.mul_assoc]
      refine Nat.mul_le_mul_right _ ?_
      have h1 : ((i <<< 8) ||| b.toNat) % 2 ^ bits ≤ (i <<< 8) ||| b.toNat := Nat.mod_le _ _
      rw [shl8_or] at *
      have := b.toNat_lt
      omega

/-- Equality of two outcomes, except that after a rejected value the parser and the position
may differ. -/
def BoolAgree (r r' : Fed BoolP) : Prop := r = r' ∨ (r.1 = .invalidElementValue ∧ r'.1 = .invalidElementValue)

theorem BoolP.feed_step (p : BoolP) (s : Src) (h8 : p.remaining ≤ 8) (hsz : p.remaining ≤ p.size)
    {st : Status} {p' : BoolP} {s' : Src} {k : Nat} (h : p.feed s = (st, p', s', k)) :
    (st.isStall = false → BoolAgree (p.feed s.flat) (st, p', s'.flat, k)) ∧
    (st.isStall = true → s'.stalls < s.stalls ∧ p'.remaining ≤ 8 ∧ p'.remaining ≤ p'.size ∧
      BoolAgree (p.feed s.flat) (addN k (p'.feed s'.flat))) := by
  rcases hr : accumLoop 64 p.remaining 0 s with ⟨st1, v, s1, k1⟩
  obtain ⟨-, hcase⟩ := accumLoop_step _ _ _ _ hr
  have hlt := accumLoop_lt hr
  rw [Nat.zero_add, Nat.one_mul] at hlt
  have hfeed : ∀ (q : BoolP) (s : Src), q.remaining ≤ 8 → q.feed s =
      match accumLoop 64 q.remaining 0 s with
      | (st, v, s', k) =>
        if (q.remaining - k ≠ 0 ∧ v ≠ 0) ∨ v > 1 then
          (.invalidElementValue, { q with remaining := q.remaining - k }, s', k)
        else (st, { q with
            remaining := q.remaining - k
            value := if q.size > 0 then v == 1 else q.value }, s', k) := by
    intro q s hq
    simp only [BoolP.feed, accumulate64_eq hq]
  rw [hfeed p s h8, hr] at h
  simp only at h
  rcases hcase with ⟨rfl, rfl, hf⟩ | ⟨rfl, hk, hf⟩ | ⟨rfl, hk, hst, hf⟩
  · rw [hfeed p _ h8, hf]
    simp only
    split at h
    · rename_i hc
      simp only [Prod.mk.injEq] at h
      obtain ⟨rfl, rfl, rfl, rfl⟩ := h
      rw [if_pos hc]
      exact ⟨fun _ => .inl rfl, fun h => by simp [Status.isStall] at h⟩
    · rename_i hc
      simp only [Prod.mk.injEq] at h
      obtain ⟨rfl, rfl, rfl, rfl⟩ := h
      rw [if_neg hc]
      exact ⟨fun _ => .inl rfl, fun h => by simp [Status.isStall] at h⟩
  · rw [hfeed p _ h8, hf]
    simp only
    split at h
    · rename_i hc
      simp only [Prod.mk.injEq] at h
      obtain ⟨rfl, rfl, rfl, rfl⟩ := h
      rw [if_pos hc]
      exact ⟨fun _ => .inl rfl, fun h => by simp [Status.isStall] at h⟩
    · rename_i hc
      simp only [Prod.mk.injEq] at h
      obtain ⟨rfl, rfl, rfl, rfl⟩ := h
      rw [if_neg hc]
      exact ⟨fun _ => .inl rfl, fun h => by simp [Status.isStall] at h⟩
  · split at h
    · rename_i hc
      simp only [Prod.mk.injEq] at h
      obtain ⟨rfl, rfl, rfl, rfl⟩ := h
      refine ⟨fun _ => .inr ⟨?_, rfl⟩, fun h => by simp [Status.isStall] at h⟩
      have hv : v ≠ 0 := by omega
      rw [hfeed p _ h8, hf]
      rcases hq : accumLoop 64 (p.remaining - k1) v s1.flat with ⟨st2, v2, s2, k2⟩
      have hq2 := hq
      rw [flat_eq, accumLoop_allAtOnce] at hq2
      simp only [Prod.mk.injEq] at hq2
      obtain ⟨-, hv2, -, hk2⟩ := hq2
      have hvv : v < 2 ^ 64 := Nat.lt_of_lt_of_le hlt (by
        rw [pow256]; exact Nat.pow_le_pow_right (by decide) (by omega))
      rw [foldl_acc _ _ _ hvv] at hv2
      have hlen : (s1.bytes.take (p.remaining - k1)).length = k2 := by rw [List.length_take, hk2]
      have hbl := beVal_lt (s1.bytes.take (p.remaining - k1))
      rw [hlen] at hbl hv2
      have hk2le : k2 ≤ p.remaining - k1 := by omega
      have hno : v * 256 ^ k2 + beVal (s1.bytes.take (p.remaining - k1)) < 2 ^ 64 := by
        have h1 : (v + 1) * 256 ^ k2 ≤ 256 ^ k1 * 256 ^ k2 := Nat.mul_le_mul_right _ hlt
        rw [Nat.succ_mul, ← Nat.pow_add] at h1
        have h2 : 256 ^ (k1 + k2) ≤ 2 ^ 64 := by
          rw [pow256]; exact Nat.pow_le_pow_right (by decide) (by omega)
        omega
      rw [Nat.mod_eq_of_lt hno] at hv2
      have hge : 256 ^ k2 ≤ v * 256 ^ k2 := Nat.le_mul_of_pos_left _ (by omega)
      have hp1 : 0 < 256 ^ k2 := Nat.pow_pos (by decide)
      rw [addN_mk]
      simp only
      rw [if_pos]
      by_cases hfull : k2 = 0
      · exact .inl (by omega)
      · have : 256 ^ 1 ≤ 256 ^ k2 := Nat.pow_le_pow_right (by decide) (by omega)
        right; omega
    · rename_i hc
      simp only [Prod.mk.injEq] at h
      obtain ⟨rfl, rfl, rfl, rfl⟩ := h
      refine ⟨fun h => by simp [Status.isStall] at h, fun _ => ⟨hst, by simp only; omega, by simp only; omega, ?_⟩⟩
      have hv : v = 0 := by omega
      subst hv
      rw [hfeed p _ h8, hf, hfeed _ _ (by simp only; omega)]
      simp only
      rcases hq : accumLoop 64 (p.remaining - k1) 0 s1.flat with ⟨st2, v2, s2, k2⟩
      rw [addN_mk]
      simp only
      have hsz' : p.size > 0 := by omega
      rw [Nat.sub_sub]
      by_cases hc2 : (p.remaining - (k1 + k2) ≠ 0 ∧ v2 ≠ 0) ∨ v2 > 1
      · rw [if_pos hc2, if_pos hc2]; exact .inr ⟨rfl, rfl⟩
      · rw [if_neg hc2, if_neg hc2, if_pos hsz', if_pos hsz']; exact .inl rfl

theorem BoolP.drive_agree (p : BoolP) (s : Src) (h8 : p.remaining ≤ 8) (hsz : p.remaining ≤ p.size)
    (fuel : Nat) (hf : s.stalls < fuel) {st : Status} {p' : BoolP} {s' : Src} {k : Nat}
    (h : drive BoolP.feed fuel p s = (st, p', s', k)) :
    BoolAgree (p.feed (allAtOnce s.bytes s.pos)) (st, p', allAtOnce s'.bytes s'.pos, k) := by
  induction fuel generalizing p s st p' s' k with
  | zero => omega
  | succ f ih =>
    rw [drive] at h
    rcases hr : p.feed s with ⟨st1, p1, s1, k1⟩
    obtain ⟨h1, h2⟩ := BoolP.feed_step p s h8 hsz hr
    simp only [hr] at h
    rw [← flat_eq, ← flat_eq]
    split at h
    · rename_i hst
      obtain ⟨g1, g2, g3, g4⟩ := h2 hst
      rcases hq : drive BoolP.feed f p1 s1 with ⟨st2, p2, s2, k2⟩
      have hi := ih p1 s1 g2 g3 (by omega) hq
      rw [← flat_eq, ← flat_eq] at hi
      simp only [hq, Prod.mk.injEq] at h
      obtain ⟨rfl, rfl, rfl, rfl⟩ := h
      rcases hi with hi | hi
      · rw [hi, addN_mk] at g4; exact g4
      · rcases g4 with g4 | g4
        · right
          rw [g4]
          exact hi
        · exact .inr ⟨g4.1, hi.2⟩
    · rename_i hst
      simp only [Prod.mk.injEq] at h
      obtain ⟨rfl, rfl, rfl, rfl⟩ := h
      exact h1 (by simpa using hst)

end Verif.Web

namespace Verif.Par
open Verif Spec Web

/-- `UnserializeUInt` on available data. -/
theorem unserializeUInt_ok {r : Rdr} {p n : Nat} (h1 : 1 ≤ n) (h8 : n ≤ 8)
    (h : p + n ≤ r.data.length) :
    unserializeUInt r p n = .ok (toI64 (beVal (slice r.data p n))) := by
  unfold unserializeUInt
  rw [if_neg (by omega), Int.toNat_natCast, Int.toNat_natCast, unserializeUIntLoop_eq _ _ _ _ h]
  simp

/-- `UnserializeInt` on available data. -/
theorem unserializeInt_ok {r : Rdr} {p n : Nat} (h1 : 1 ≤ n) (h8 : n ≤ 8)
    (h : p + n ≤ r.data.length) :
    unserializeInt r p n = .ok (twosVal (slice r.data p n)) := by
  obtain ⟨m, rfl⟩ : ∃ m, n = m + 1 := ⟨n - 1, by omega⟩
  obtain ⟨b, hb⟩ := getElem?_of_lt (d := r.data) (p := p) (by omega)
  have hs := slice_succ (n := m) hb
  unfold unserializeInt
  rw [if_neg (by omega), Int.toNat_natCast, Int.toNat_natCast, byte_ok hb]
  simp only
  rw [Nat.add_sub_cancel, unserializeUIntLoop_eq _ _ _ _ (by omega)]
  simp only [Res.ok.injEq]
  have hlen : (slice r.data (p + 1) m).length = m := by rw [slice_length]; omega
  have hl := beVal_lt (slice r.data (p + 1) m)
  rw [hlen] at hl
  have hv : beVal (slice r.data p (m + 1)) = b.toNat * 256 ^ m + beVal (slice r.data (p + 1) m) := by
    rw [hs, beVal_cons, hlen]
  have hb8 := b.toNat_lt
  unfold twosVal
  rw [hv, hs, List.length_cons, hlen]
  have hp1 : (256 : Nat) ^ m = 2 ^ (8 * m) := pow256 m
  have e1 : 2 ^ (8 * (m + 1) - 1) = 128 * 256 ^ m := by
    rw [hp1, show (128 : Nat) = 2 ^ 7 from rfl, ← Nat.pow_add]; congr 1; omega
  have e2 : (2 : Int) ^ (8 * (m + 1)) = ((256 * 256 ^ m : Nat) : Int) := by
    rw [hp1, show (256 : Nat) = 2 ^ 8 from rfl, ← Nat.pow_add, show 8 + 8 * m = 8 * (m + 1) by omega]
    simp
  have e3 : 128 * 256 ^ m ≤ 2 ^ 63 := by rw [← e1]; exact Nat.pow_le_pow_right (by decide) (by omega)
  rw [e1, e2]
  by_cases hneg : b.toNat < 128
  · have h1 : (b.toNat + 1) * 256 ^ m ≤ 128 * 256 ^ m := Nat.mul_le_mul_right _ (by omega)
    rw [Nat.succ_mul] at h1
    rw [if_pos hneg, if_pos (by omega)]
    unfold toI64
    omega
  · have h1 : 128 * 256 ^ m ≤ b.toNat * 256 ^ m := Nat.mul_le_mul_right _ (by omega)
    have h2 : (b.toNat + 1) * 256 ^ m ≤ 256 * 256 ^ m := Nat.mul_le_mul_right _ (by omega)
    rw [Nat.succ_mul] at h2
    rw [if_neg hneg, if_neg (by omega)]
    have h3 : (2 ^ 64 - 256 + b.toNat) * 256 ^ m + beVal (slice r.data (p + 1) m) =
        2 ^ 64 * (256 ^ m - 1) + (2 ^ 64 - 256 * 256 ^ m + (b.toNat * 256 ^ m + beVal (slice r.data (p + 1) m))) := by
      have hpos : 0 < 256 ^ m := Nat.pow_pos (by decide)
      rw [Nat.add_mul, Nat.sub_mul, Nat.mul_sub]
      omega
    rw [h3]
    unfold toI64
    omega

end Verif.Par

namespace Verif.Mux
open Verif Spec

theorem getUIntSize_le {u m : Nat} (h1 : 1 ≤ m) (h : u < 256 ^ m) : getUIntSize u ≤ m := by
  by_cases hm : 8 ≤ m
  · exact Nat.le_trans (getUIntSize_bounds u).2 hm
  · have : m = 1 ∨ m = 2 ∨ m = 3 ∨ m = 4 ∨ m = 5 ∨ m = 6 ∨ m = 7 := by omega
    unfold getUIntSize
    rcases this with rfl | rfl | rfl | rfl | rfl | rfl | rfl <;> (repeat' split) <;> omega

theorem fits_iff {n : Nat} (h1 : 1 ≤ n) (v : Int) :
    FitsSigned n v ↔ 2 * (if v < 0 then (-1 - v).toNat else v.toNat) < 256 ^ n := by
  have e : (256 : Nat) ^ n = 2 * 2 ^ (8 * n - 1) := by
    rw [Web.pow256, show 8 * n = (8 * n - 1) + 1 by omega, Nat.pow_succ, Nat.add_sub_cancel]; omega
  have c : (2 : Int) ^ (8 * n - 1) = ((2 ^ (8 * n - 1) : Nat) : Int) := by simp
  unfold FitsSigned
  rw [c, e]
  generalize 2 ^ (8 * n - 1) = m
  split <;> omega

/-- The width chosen for a signed value is the least that can hold it. -/
theorem getIntSize_spec {v : Int} (hlo : -2 ^ 63 ≤ v) (hhi : v < 2 ^ 63) :
    FitsSigned (getIntSize v) v ∧ ∀ m, 1 ≤ m → FitsSigned m v → getIntSize v ≤ m := by
  have hb := getIntSize_bounds v
  have hw : 2 * (if v < 0 then (-1 - v).toNat else v.toNat) < 2 ^ 64 := by split <;> omega
  have hg : getIntSize v = getUIntSize (2 * (if v < 0 then (-1 - v).toNat else v.toNat)) := by
    unfold getIntSize
    simp only
    rw [Nat.mod_eq_of_lt hw]
  constructor
  · rw [fits_iff hb.1, hg]
    exact getUIntSize_fits hw
  · intro m hm hf
    rw [fits_iff hm] at hf
    rw [hg]
    exact getUIntSize_le hm hf

theorem voidFill_emits (n : Nat) : Emits (voidFill n) () (List.replicate n 0) := by
  induction n with
  | zero => exact Emits.pure _
  | succ n ih => exact (Emits.write [0]).bind ih

end Verif.Mux
