/-
Helper lemmas about mkvparser's primitive readers.
-/
import Verif.Model.ParserPrims
import Verif.Spec.Ebml

namespace Verif.Par
open Verif

/-- A statement about every byte can be checked on all 256 values. -/
theorem forall_byte {P : UInt8 → Prop} (h : ∀ i : Fin 256, P (UInt8.ofNat i.val)) : ∀ b, P b := by
  intro b
  have := h ⟨b.toNat, b.toNat_lt⟩
  simpa using this

theorem marker_facts : ∀ b : UInt8, b ≠ 0 →
    1 ≤ (markerLoop b 0x80 1 8).2 ∧ (markerLoop b 0x80 1 8).2 ≤ 8 ∧
    2 ^ (8 - (markerLoop b 0x80 1 8).2) ≤ b.toNat ∧
    b.toNat < 2 ^ (9 - (markerLoop b 0x80 1 8).2) ∧
    (b &&& ~~~(markerLoop b 0x80 1 8).1).toNat = b.toNat - 2 ^ (8 - (markerLoop b 0x80 1 8).2) :=
  forall_byte (by decide +kernel)

theorem idBit_facts : ∀ b : UInt8,
    (∀ k, idBitLoop b 0 4 = some k → k < 4 ∧ 2 ^ (7 - k) ≤ b.toNat ∧ b.toNat < 2 ^ (8 - k)) ∧
    (idBitLoop b 0 4 = none → b.toNat < 16) := by
  have h : ∀ b : UInt8, (match idBitLoop b 0 4 with
      | some k => decide (k < 4 ∧ 2 ^ (7 - k) ≤ b.toNat ∧ b.toNat < 2 ^ (8 - k))
      | none => decide (b.toNat < 16)) = true := forall_byte (by decide +kernel)
  intro b
  have := h b
  constructor
  · intro k hk; simpa [hk] using this
  · intro hk; simpa [hk] using this

/-- The number of bytes of a variable-size integer starting with byte `b`. -/
theorem slice_succ {d : Bytes} {p n : Nat} {b : UInt8} (h : d[p]? = some b) :
    slice d p (n + 1) = b :: slice d (p + 1) n := by
  obtain ⟨hp, hb⟩ := List.getElem?_eq_some_iff.mp h
  unfold slice
  rw [List.drop_eq_getElem_cons hp, List.take_succ_cons, hb]

theorem getElem?_of_lt {d : Bytes} {p : Nat} (h : p < d.length) : ∃ b, d[p]? = some b :=
  ⟨d[p], List.getElem?_eq_getElem h⟩

/-- The status converted the way `ReadUInt` converts it. -/
def shortUInt (r : Rdr) : Int := if r.short < 0 then r.short else E_BUFFER_NOT_FULL

/-- The status converted the way `ReadID` converts it. -/
def shortID (r : Rdr) : Int := if r.short < 0 then E_FILE_FORMAT_INVALID else E_BUFFER_NOT_FULL

theorem byte_ok {r : Rdr} {p : Nat} {b : UInt8} (h : r.data[p]? = some b) : r.byte p = .ok b := by
  simp [Rdr.byte, h]

theorem byte_short {r : Rdr} {p : Nat} (h : r.data.length ≤ p) : r.byte p = .error r.short := by
  simp [Rdr.byte, List.getElem?_eq_none h]

theorem readUIntLoop_eq (r : Rdr) (n acc p : Nat) :
    readUIntLoop r acc p n =
      if n = 0 ∨ p + n ≤ r.data.length then .ok (acc * 256 ^ n + beVal (slice r.data p n))
      else .err (shortUInt r) := by
  induction n generalizing acc p with
  | zero => simp [readUIntLoop, slice]
  | succ n ih =>
    unfold readUIntLoop
    by_cases hp : p < r.data.length
    · obtain ⟨b, hb⟩ := getElem?_of_lt hp
      rw [byte_ok hb]
      simp only
      rw [ih, shl8_or, slice_succ hb, beVal_cons, slice_length]
      by_cases h : p + (n + 1) ≤ r.data.length
      · rw [if_pos (by omega), if_pos (by omega)]
        rw [Nat.min_eq_left (by omega), Nat.pow_succ, Nat.add_mul, Nat.mul_assoc,
          Nat.mul_comm 256, Nat.add_assoc]
      · rw [if_neg (by omega), if_neg (by omega)]
    · rw [byte_short (by omega), if_neg (by omega)]
      simp only [shortUInt]
      split <;> rfl

theorem readIDLoop_eq (r : Rdr) (n acc p : Nat) :
    readIDLoop r acc p n =
      if n = 0 ∨ p + n ≤ r.data.length then .ok (acc * 256 ^ n + beVal (slice r.data p n))
      else .err (shortID r) := by
  induction n generalizing acc p with
  | zero => simp [readIDLoop, slice]
  | succ n ih =>
    unfold readIDLoop
    by_cases hp : p < r.data.length
    · obtain ⟨b, hb⟩ := getElem?_of_lt hp
      rw [byte_ok hb]
      simp only
      rw [ih, shl8_or, slice_succ hb, beVal_cons, slice_length]
      by_cases h : p + (n + 1) ≤ r.data.length
      · rw [if_pos (by omega), if_pos (by omega)]
        rw [Nat.min_eq_left (by omega), Nat.pow_succ, Nat.add_mul, Nat.mul_assoc,
          Nat.mul_comm 256, Nat.add_assoc]
      · rw [if_neg (by omega), if_neg (by omega)]
    · rw [byte_short (by omega), if_neg (by omega)]
      simp only [shortID]
      split <;> rfl

theorem unserializeUIntLoop_eq (r : Rdr) (n acc p : Nat) (h : p + n ≤ r.data.length) :
    unserializeUIntLoop r acc p n = .ok (acc * 256 ^ n + beVal (slice r.data p n)) := by
  induction n generalizing acc p with
  | zero => simp [unserializeUIntLoop, slice]
  | succ n ih =>
    unfold unserializeUIntLoop
    obtain ⟨b, hb⟩ := getElem?_of_lt (d := r.data) (p := p) (by omega)
    rw [byte_ok hb]
    simp only
    rw [ih _ _ (by omega), shl8_or, slice_succ hb, beVal_cons, slice_length]
    rw [Nat.min_eq_left (by omega), Nat.pow_succ, Nat.add_mul, Nat.mul_assoc,
      Nat.mul_comm 256, Nat.add_assoc]

theorem unserializeUIntLoop_short (r : Rdr) (n acc p : Nat) (h : r.data.length < p + n) (hn : 0 < n) :
    unserializeUIntLoop r acc p n = if r.short < 0 then .err r.short else .ub := by
  induction n generalizing acc p with
  | zero => omega
  | succ n ih =>
    unfold unserializeUIntLoop
    by_cases hp : p < r.data.length
    · obtain ⟨b, hb⟩ := getElem?_of_lt hp
      rw [byte_ok hb]
      simp only
      exact ih _ _ (by omega) (by omega)
    · rw [byte_short (by omega)]

/-! ### `ReadUInt` -/

theorem pow_marker {n : Nat} (h1 : 1 ≤ n) (h8 : n ≤ 8) : 2 ^ (8 - n) * 256 ^ (n - 1) = 2 ^ (7 * n) := by
  rw [show (256 : Nat) = 2 ^ 8 from rfl, ← Nat.pow_mul, ← Nat.pow_add]
  congr 1; omega

/-- Exact behaviour of `ReadUInt` on a readable first byte. -/
theorem readUInt_eq {r : Rdr} {p : Nat} {b : UInt8} (hb : r.data[p]? = some b) (h0 : b ≠ 0) :
    readUInt r p =
      let n := (markerLoop b 0x80 1 8).2
      if p + n ≤ r.data.length then .ok (beVal (slice r.data p n) - 2 ^ (7 * n), n)
      else .err (shortUInt r) := by
  obtain ⟨h1, h8, hlo, hhi, hval⟩ := marker_facts b h0
  have hp : p < r.data.length := (List.getElem?_eq_some_iff.mp hb).1
  unfold readUInt
  rw [if_neg (by omega), Int.toNat_natCast, byte_ok hb]
  simp only [if_neg h0]
  rw [readUIntLoop_eq, hval]
  generalize (markerLoop b 0x80 1 8).2 = n at *
  by_cases h : p + n ≤ r.data.length
  · rw [if_pos (by omega), if_pos h]
    simp only [Res.ok.injEq, Prod.mk.injEq, and_true]
    obtain ⟨m, rfl⟩ : ∃ m, n = m + 1 := ⟨n - 1, by omega⟩
    rw [slice_succ hb, beVal_cons, slice_length, Nat.min_eq_left (by omega), ← pow_marker h1 h8]
    simp only [Nat.add_sub_cancel]
    rw [Nat.sub_mul]
    have : 2 ^ (8 - (m + 1)) * 256 ^ m ≤ b.toNat * 256 ^ m := Nat.mul_le_mul_right _ hlo
    omega
  · rw [if_neg (by omega), if_neg h]

theorem vint_length (n v : Nat) : (Spec.vint n v).length = n := by simp [Spec.vint]

theorem vint_beVal {n v : Nat} (h1 : 1 ≤ n) (hv : v < 2 ^ (7 * n)) :
    beVal (Spec.vint n v) = 2 ^ (7 * n) + v := by
  rw [Spec.vint, beVal_beBytes, Nat.mod_eq_of_lt]
  have h : (256 : Nat) ^ n = 2 ^ (8 * n) := by rw [Nat.pow_mul]
  have h2 : 2 ^ (7 * n) * 2 ≤ 2 ^ (8 * n) := by
    rw [← Nat.pow_succ]; exact Nat.pow_le_pow_right (by decide) (by omega)
  omega

/-- The first byte of a variable-size integer determines its length. -/
theorem vint_first {n v : Nat} (h1 : 1 ≤ n) (h8 : n ≤ 8) (hv : v < 2 ^ (7 * n)) {b : UInt8}
    {t : Bytes} (h : Spec.vint n v = b :: t) : b ≠ 0 ∧ (markerLoop b 0x80 1 8).2 = n := by
  obtain ⟨m, rfl⟩ : ∃ m, n = m + 1 := ⟨n - 1, by omega⟩
  have hv' := vint_beVal h1 hv
  have hl : t.length = m := by
    have := vint_length (m + 1) v; rw [h] at this; simpa using this
  rw [h, beVal_cons, hl] at hv'
  have ht := beVal_lt t; rw [hl] at ht
  have hpm := pow_marker h1 h8
  simp only [Nat.add_sub_cancel] at hpm
  have hp : 0 < 256 ^ m := Nat.pow_pos (by decide)
  -- bounds on the first byte
  have hlo : 2 ^ (8 - (m + 1)) ≤ b.toNat := by
    apply Nat.le_of_not_lt; intro hlt
    have : (b.toNat + 1) * 256 ^ m ≤ 2 ^ (8 - (m + 1)) * 256 ^ m := Nat.mul_le_mul_right _ hlt
    rw [Nat.add_mul] at this; omega
  have hhi : b.toNat < 2 ^ (9 - (m + 1)) := by
    apply Nat.lt_of_not_le; intro hge
    have h2 : 2 ^ (9 - (m + 1)) * 256 ^ m ≤ b.toNat * 256 ^ m := Nat.mul_le_mul_right _ hge
    have h3 : 2 ^ (9 - (m + 1)) = 2 * 2 ^ (8 - (m + 1)) := by
      rw [← Nat.pow_succ']; congr 1; omega
    rw [h3, Nat.mul_assoc, hpm] at h2; omega
  have hb0 : b ≠ 0 := by
    rintro rfl
    have : 0 < 2 ^ (8 - (m + 1)) := Nat.pow_pos (by decide)
    simp at hlo
  refine ⟨hb0, ?_⟩
  obtain ⟨g1, g8, glo, ghi, _⟩ := marker_facts b hb0
  generalize (markerLoop b 0x80 1 8).2 = k at *
  -- both intervals [2^(8-k), 2^(9-k)) and [2^(8-n), 2^(9-n)) contain b
  apply Nat.le_antisymm
  · apply Nat.le_of_not_lt; intro hlt
    have : 2 ^ (9 - k) ≤ 2 ^ (8 - (m + 1)) := Nat.pow_le_pow_right (by decide) (by omega)
    omega
  · apply Nat.le_of_not_lt; intro hlt
    have : 2 ^ (9 - (m + 1)) ≤ 2 ^ (8 - k) := Nat.pow_le_pow_right (by decide) (by omega)
    omega

/-- Decoding a variable-size integer present in the data. -/
theorem readUInt_of_slice {r : Rdr} {p n v : Nat} (h1 : 1 ≤ n) (h8 : n ≤ 8) (hv : v < 2 ^ (7 * n))
    (h : slice r.data p n = Spec.vint n v) : readUInt r p = .ok (v, n) := by
  have hlen : p + n ≤ r.data.length := by
    have := congrArg List.length h
    rw [slice_length, vint_length] at this; omega
  obtain ⟨b, hb⟩ := getElem?_of_lt (d := r.data) (p := p) (by omega)
  have hs : Spec.vint n v = b :: slice r.data (p + 1) (n - 1) := by
    rw [← h, ← slice_succ hb]; congr 1; omega
  obtain ⟨hb0, hm⟩ := vint_first h1 h8 hv hs
  rw [readUInt_eq hb hb0, hm]
  simp only
  rw [if_pos hlen, h, vint_beVal h1 hv]
  simp

theorem slice_of_append {pre mid post d : Bytes} (h : d = pre ++ (mid ++ post)) :
    slice d pre.length mid.length = mid := by rw [h, slice_append_mid]

/-- What a successful `ReadUInt` says about the data. -/
theorem readUInt_sound {r : Rdr} {pos : Int} {v n : Nat} (h : readUInt r pos = .ok (v, n)) :
    ∃ p : Nat, pos = p ∧ p + n ≤ r.data.length ∧ 1 ≤ n ∧ n ≤ 8 ∧ v < 2 ^ (7 * n) ∧
      slice r.data p n = Spec.vint n v := by
  by_cases hneg : pos < 0
  · simp [readUInt, hneg] at h
  obtain ⟨p, rfl⟩ : ∃ p : Nat, pos = p := ⟨pos.toNat, by omega⟩
  refine ⟨p, rfl, ?_⟩
  by_cases hp : p < r.data.length
  · obtain ⟨b, hb⟩ := getElem?_of_lt hp
    by_cases h0 : b = 0
    · unfold readUInt at h
      rw [if_neg (by omega), Int.toNat_natCast, byte_ok hb] at h
      simp [h0] at h
    · obtain ⟨h1, h8, hlo, hhi, _⟩ := marker_facts b h0
      rw [readUInt_eq hb h0] at h
      simp only at h
      generalize (markerLoop b 0x80 1 8).2 = k at *
      split at h
      · rename_i hle
        simp only [Res.ok.injEq, Prod.mk.injEq] at h
        obtain ⟨rfl, rfl⟩ := h
        have hl : (slice r.data p k).length = k := by rw [slice_length]; omega
        have hpm := pow_marker h1 h8
        obtain ⟨m, rfl⟩ : ∃ m, k = m + 1 := ⟨k - 1, by omega⟩
        have hcons := slice_succ (n := m) hb
        have hval : beVal (slice r.data p (m + 1)) =
            b.toNat * 256 ^ m + beVal (slice r.data (p + 1) m) := by
          rw [hcons, beVal_cons, slice_length, Nat.min_eq_left (by omega)]
        have ht := beVal_lt (slice r.data (p + 1) m)
        rw [slice_length, Nat.min_eq_left (by omega)] at ht
        simp only [Nat.add_sub_cancel] at hpm
        have hlo' : 2 ^ (8 - (m + 1)) * 256 ^ m ≤ b.toNat * 256 ^ m := Nat.mul_le_mul_right _ hlo
        have hhi' : (b.toNat + 1) * 256 ^ m ≤ 2 ^ (9 - (m + 1)) * 256 ^ m :=
          Nat.mul_le_mul_right _ hhi
        have h3 : 2 ^ (9 - (m + 1)) = 2 * 2 ^ (8 - (m + 1)) := by
          rw [← Nat.pow_succ']; congr 1; omega
        rw [h3, Nat.mul_assoc, hpm, Nat.add_mul] at hhi'
        refine ⟨hle, h1, h8, by omega, ?_⟩
        unfold Spec.vint
        rw [show 2 ^ (7 * (m + 1)) + (beVal (slice r.data p (m + 1)) - 2 ^ (7 * (m + 1))) =
          beVal (slice r.data p (m + 1)) by omega]
        conv => rhs; rw [← hl]
        rw [hl]
        have := beBytes_beVal (slice r.data p (m + 1))
        rw [hl] at this
        exact this.symm
      · cases h
  · unfold readUInt at h
    rw [if_neg (by omega), Int.toNat_natCast, byte_short (by omega)] at h
    simp only at h
    split at h <;> cases h

/-! ### `ReadID` -/

theorem readID_eq {r : Rdr} {p : Nat} {b : UInt8} (hb : r.data[p]? = some b) {k : Nat}
    (hk : idBitLoop b 0 4 = some k) :
    readID r p = if p + (k + 1) ≤ r.data.length then .ok (beVal (slice r.data p (k + 1)), k + 1)
      else .err (shortID r) := by
  have hp : p < r.data.length := (List.getElem?_eq_some_iff.mp hb).1
  have hb0 : b ≠ 0 := by
    rintro rfl
    have := ((idBit_facts 0).1 k hk).2.1
    have : 0 < 2 ^ (7 - k) := Nat.pow_pos (by decide)
    simp at *
  unfold readID
  rw [if_neg (by omega), Int.toNat_natCast, byte_ok hb]
  simp only [if_neg hb0, hk]
  rw [readIDLoop_eq]
  by_cases h : p + (k + 1) ≤ r.data.length
  · rw [if_pos (by omega), if_pos h, slice_succ hb, beVal_cons, slice_length,
      Nat.min_eq_left (by omega)]
  · rw [if_neg (by omega), if_neg h]

theorem id_first {n id : Nat} (h : Spec.IsId n id) {b : UInt8} {t : Bytes}
    (hb : beBytes n id = b :: t) : idBitLoop b 0 4 = some (n - 1) := by
  obtain ⟨h1, h4, hlo, hhi⟩ := h
  obtain ⟨m, rfl⟩ : ∃ m, n = m + 1 := ⟨n - 1, by omega⟩
  rw [beBytes_succ, List.cons.injEq] at hb
  have hpw : (256 : Nat) ^ m = 2 ^ (8 * m) := by rw [Nat.pow_mul]
  have e1 : 2 ^ (7 * (m + 1)) = 2 ^ (7 - m) * 2 ^ (8 * m) := by
    rw [← Nat.pow_add]; congr 1; omega
  have e2 : 2 ^ (7 * (m + 1) + 1) = 2 ^ (8 - m) * 2 ^ (8 * m) := by
    rw [← Nat.pow_add]; congr 1; omega
  have hp : 0 < 2 ^ (8 * m) := Nat.pow_pos (by decide)
  have hdlo : 2 ^ (7 - m) ≤ id / 256 ^ m := by
    rw [hpw, Nat.le_div_iff_mul_le hp]; omega
  have hdhi : id / 256 ^ m < 2 ^ (8 - m) := by
    rw [hpw, Nat.div_lt_iff_lt_mul hp]; omega
  have hle : (2 : Nat) ^ (8 - m) ≤ 2 ^ 8 := Nat.pow_le_pow_right (by decide) (by omega)
  have hbv : b.toNat = id / 256 ^ m := by
    rw [← hb.1, UInt8.toNat_ofNat', Nat.mod_eq_of_lt (by omega)]
  cases hf : idBitLoop b 0 4 with
  | none =>
    have := (idBit_facts b).2 hf
    have : (2 : Nat) ^ 4 ≤ 2 ^ (7 - m) := Nat.pow_le_pow_right (by decide) (by omega)
    omega
  | some k =>
    obtain ⟨hk4, hklo, hkhi⟩ := (idBit_facts b).1 k hf
    congr 1
    simp only [Nat.add_sub_cancel]
    apply Nat.le_antisymm
    · apply Nat.le_of_not_lt; intro hlt
      have : 2 ^ (8 - k) ≤ 2 ^ (7 - m) := Nat.pow_le_pow_right (by decide) (by omega)
      omega
    · apply Nat.le_of_not_lt; intro hlt
      have : 2 ^ (8 - m) ≤ 2 ^ (7 - k) := Nat.pow_le_pow_right (by decide) (by omega)
      omega

theorem isId_lt {n id : Nat} (h : Spec.IsId n id) : id < 256 ^ n := by
  have hpw : (256 : Nat) ^ n = 2 ^ (8 * n) := by rw [Nat.pow_mul]
  have : 2 ^ (7 * n + 1) ≤ 2 ^ (8 * n) := Nat.pow_le_pow_right (by decide) (by have := h.1; omega)
  have := h.2.2.2
  omega

theorem readID_of_slice {r : Rdr} {p n id : Nat} (hid : Spec.IsId n id)
    (h : slice r.data p n = beBytes n id) : readID r p = .ok (id, n) := by
  have h1 := hid.1
  have hlen : p + n ≤ r.data.length := by
    have := congrArg List.length h
    rw [slice_length, beBytes_length] at this; omega
  obtain ⟨b, hb⟩ := getElem?_of_lt (d := r.data) (p := p) (by omega)
  obtain ⟨m, rfl⟩ : ∃ m, n = m + 1 := ⟨n - 1, by omega⟩
  have hs := slice_succ (n := m) hb
  have hf := id_first hid (by rw [← h]; exact hs)
  rw [readID_eq hb hf, Nat.add_sub_cancel, if_pos hlen, h, beVal_beBytes,
    Nat.mod_eq_of_lt (isId_lt hid)]

theorem readID_sound {r : Rdr} {pos : Int} {id n : Nat} (h : readID r pos = .ok (id, n)) :
    ∃ p : Nat, pos = p ∧ p + n ≤ r.data.length ∧ Spec.IsId n id ∧
      slice r.data p n = beBytes n id := by
  by_cases hneg : pos < 0
  · simp [readID, hneg] at h
  obtain ⟨p, rfl⟩ : ∃ p : Nat, pos = p := ⟨pos.toNat, by omega⟩
  refine ⟨p, rfl, ?_⟩
  by_cases hp : p < r.data.length
  · obtain ⟨b, hb⟩ := getElem?_of_lt hp
    cases hf : idBitLoop b 0 4 with
    | none =>
      unfold readID at h
      rw [if_neg (by omega), Int.toNat_natCast, byte_ok hb] at h
      simp only [hf] at h
      split at h <;> cases h
    | some k =>
      obtain ⟨hk4, hlo, hhi⟩ := (idBit_facts b).1 k hf
      rw [readID_eq hb hf] at h
      split at h
      · rename_i hle
        simp only [Res.ok.injEq, Prod.mk.injEq] at h
        obtain ⟨rfl, rfl⟩ := h
        have hl : (slice r.data p (k + 1)).length = k + 1 := by rw [slice_length]; omega
        have hval : beVal (slice r.data p (k + 1)) =
            b.toNat * 256 ^ k + beVal (slice r.data (p + 1) k) := by
          rw [slice_succ hb, beVal_cons, slice_length, Nat.min_eq_left (by omega)]
        have ht := beVal_lt (slice r.data (p + 1) k)
        rw [slice_length, Nat.min_eq_left (by omega)] at ht
        have hpw : (256 : Nat) ^ k = 2 ^ (8 * k) := by rw [Nat.pow_mul]
        have e1 : 2 ^ (7 * (k + 1)) = 2 ^ (7 - k) * 256 ^ k := by
          rw [hpw, ← Nat.pow_add]; congr 1; omega
        have e2 : 2 ^ (7 * (k + 1) + 1) = 2 ^ (8 - k) * 256 ^ k := by
          rw [hpw, ← Nat.pow_add]; congr 1; omega
        have hlo' : 2 ^ (7 - k) * 256 ^ k ≤ b.toNat * 256 ^ k := Nat.mul_le_mul_right _ hlo
        have hhi' : (b.toNat + 1) * 256 ^ k ≤ 2 ^ (8 - k) * 256 ^ k := Nat.mul_le_mul_right _ hhi
        rw [Nat.add_mul] at hhi'
        refine ⟨hle, ⟨by omega, by omega, by omega, by omega⟩, ?_⟩
        have := beBytes_beVal (slice r.data p (k + 1))
        rw [hl] at this
        exact this.symm
      · cases h
  · unfold readID at h
    rw [if_neg (by omega), Int.toNat_natCast, byte_short (by omega)] at h
    simp only at h
    split at h <;> cases h

end Verif.Par
