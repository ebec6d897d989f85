/-
Properties C01-C11: EBML primitives.
-/
import Verif.Lemmas.Element
import Verif.Spec.Output

namespace Verif.Props
open Verif Spec Mux Par Web

/-- A fresh output on which every write succeeds (used by the concrete cases). -/
def goodSink : Sink := { data := [], pos := 0, calls := 0, plan := fun _ => none }

theorem goodSink_atEnd : goodSink.AtEnd := rfl

/-! ### C01 -/

/-- C01: whatever `WriteUIntSize` accepts, `ReadUInt` reads back, whatever surrounds it. -/
theorem C01_size_field_round_trip {v : Nat} {size : Int} {s s' : Sink} (hs : s.AtEnd)
    (hw : writeUIntSize v size s = (.ok (), s')) {r : Rdr} {post : Bytes}
    (hr : r.data = s'.data ++ post) :
    ∃ n : Nat, readUInt r s.data.length = .ok (v, n) ∧ s'.data.length = s.data.length + n ∧
      (0 < size → (n : Int) = size) := by
  have key : ∀ n, 1 ≤ n → n ≤ 8 → v < 2 ^ (7 * n) → s'.data = s.data ++ vint n v →
      readUInt r s.data.length = .ok (v, n) ∧ s'.data.length = s.data.length + n := by
    intro n h1 h8 hv hd
    refine ⟨readUInt_of_slice h1 h8 hv ?_, by rw [hd, List.length_append, vint_length]⟩
    have := slice_of_append (pre := s.data) (mid := vint n v) (post := post) (d := r.data)
      (by rw [hr, hd, List.append_assoc])
    rwa [vint_length] at this
  by_cases hbad : size < 0 ∨ size > 8
  · unfold writeUIntSize at hw
    rw [if_pos hbad] at hw; cases hw
  by_cases hpos : 0 < size
  · obtain ⟨n, rfl⟩ : ∃ n : Nat, size = n := ⟨size.toNat, by omega⟩
    by_cases hfit : v + 1 < 2 ^ (7 * n)
    · have he := writeUIntSize_emits (by omega) (by omega) hfit
      obtain ⟨-, hd, -⟩ := he.success hs hw
      obtain ⟨k1, k2⟩ := key n (by omega) (by omega) (by omega) hd
      exact ⟨n, k1, k2, fun _ => rfl⟩
    · rw [writeUIntSize_refuses (by omega) (by omega) (by omega)] at hw; cases hw
  · have : size = 0 := by omega
    subst this
    by_cases hfit : v + 1 < 2 ^ 56
    · obtain ⟨-, hd, -⟩ := (writeUIntSize_zero_emits hfit).success hs hw
      have hb := getCodedUIntSize_bounds v
      have hf := getCodedUIntSize_fits hfit
      rw [getCodedUIntSize_eq] at hb hf
      obtain ⟨k1, k2⟩ := key _ hb.1 hb.2 (by omega) hd
      exact ⟨_, k1, k2, fun h => absurd h hpos⟩
    · unfold writeUIntSize at hw
      rw [if_neg (by omega), if_neg (by omega), uintSizeLoop_none (by omega)] at hw
      cases hw

/-- C01: the values refused for a requested width of 1..8 bytes are exactly those that do not
fit (the all-ones pattern being reserved); a refusal writes nothing. -/
theorem C01_size_field_refusal {v n : Nat} (h1 : 1 ≤ n) (h8 : n ≤ 8) {s : Sink} (hs : s.AtEnd)
    (hp : ∀ i, s.plan i = none) :
    ((∃ s', writeUIntSize v n s = (.ok (), s')) ↔ v + 1 < 2 ^ (7 * n)) ∧
    (¬ v + 1 < 2 ^ (7 * n) → writeUIntSize v n s = (.err (-1), s)) := by
  refine ⟨⟨fun ⟨s', h⟩ => ?_, fun h => ?_⟩, fun h => writeUIntSize_refuses h1 h8 (by omega) s⟩
  · by_cases hf : v + 1 < 2 ^ (7 * n)
    · exact hf
    · rw [writeUIntSize_refuses h1 h8 (by omega)] at h; cases h
  · obtain ⟨k, hk⟩ := (writeUIntSize_emits h1 h8 h).run hs hp
    exact ⟨_, hk⟩

/-- C01, automatic width: `WriteUInt` accepts exactly the values below `2^56 - 1` and refuses
the others without writing. -/
theorem C01_auto_width_refusal {v : Nat} {s : Sink} (hs : s.AtEnd) (hp : ∀ i, s.plan i = none) :
    ((∃ s', writeUInt v s = (.ok (), s')) ↔ v + 1 < 2 ^ 56) ∧
    (¬ v + 1 < 2 ^ 56 → writeUInt v s = (.err (-1), s)) := by
  refine ⟨⟨fun ⟨s', h⟩ => ?_, fun h => ?_⟩, fun h => writeUInt_refuses (by omega) s⟩
  · by_cases hf : v + 1 < 2 ^ 56
    · exact hf
    · rw [writeUInt_refuses (by omega)] at h; cases h
  · obtain ⟨k, hk⟩ := (writeUInt_emits h).run hs hp
    exact ⟨_, hk⟩

/-- Finding: asking `WriteUIntSize` itself for the automatic width (`size == 0`) with a value
of `2^56 - 1` or more reaches an undefined shift. -/
theorem C01_size_zero_ub {v : Nat} (h : 2 ^ 56 ≤ v + 1) (s : Sink) :
    writeUIntSize v 0 s = (.ub, s) := by
  unfold writeUIntSize
  rw [if_neg (by omega), if_neg (by omega), uintSizeLoop_none h]
  rfl

example : (writeUIntSize 500 3 goodSink).1 = .ok () ∧
    (writeUIntSize 500 3 goodSink).2.data = [0x20, 0x01, 0xF4] := by decide
example : (writeUInt 127 goodSink).2.data = [0x40, 0x7F] := by decide
example : readUInt { data := [0xEC, 0x20, 0x01, 0xF4, 9] } 1 = .ok (500, 3) := by decide

/-! ### C02 -/

/-- C02: the automatic width is the least that can hold the value without the all-ones
pattern, and the bytes written are not the unknown-size pattern of any width. -/
theorem C02_auto_width_minimal {v : Nat} (hv : v + 1 < 2 ^ 56) {s s' : Sink} (hs : s.AtEnd)
    (hw : writeUInt v s = (.ok (), s')) :
    ∃ n, s'.data = s.data ++ vint n v ∧ 1 ≤ n ∧ n ≤ 8 ∧ v + 1 < 2 ^ (7 * n) ∧
      (∀ m, 1 ≤ m → v + 1 < 2 ^ (7 * m) → n ≤ m) ∧
      (∀ m, vint n v ≠ vint m (2 ^ (7 * m) - 1)) := by
  obtain ⟨-, hd, -⟩ := (writeUInt_emits hv).success hs hw
  have hb := getCodedUIntSize_bounds v
  have hf := getCodedUIntSize_fits hv
  have hl := getCodedUIntSize_low v
  rw [getCodedUIntSize_eq] at hb hf hl
  refine ⟨_, hd, hb.1, hb.2, hf, fun m h1 hm => ?_, fun m hm => ?_⟩
  · rcases Nat.lt_or_ge m (sizeWidth v) with h | h
    · have := hl (by omega)
      have h2 : 2 ^ (7 * m) ≤ 2 ^ (7 * (sizeWidth v - 1)) :=
        Nat.pow_le_pow_right (by decide) (by omega)
      omega
    · exact h
  · have hlen := congrArg List.length hm
    rw [vint_length, vint_length] at hlen
    rw [← hlen] at hm
    have h2 := congrArg beVal hm
    have hp : 0 < 2 ^ (7 * sizeWidth v) := Nat.pow_pos (by decide)
    rw [vint_beVal hb.1 (by omega), vint_beVal hb.1 (by omega)] at h2
    omega

example : (writeUInt 126 goodSink).2.data = [0xFE] ∧
    (writeUInt 16383 goodSink).2.data = [0x20, 0x3F, 0xFF] := by decide

/-! ### C03 -/

/-- C03: a well-formed ID written by the muxer is decoded by mkvparser's `ReadID` and by the
incremental ID parser to the same ID and length, whatever surrounds it. -/
theorem C03_id_round_trip {n id : Nat} (hid : IsId n id) {s s' : Sink} (hs : s.AtEnd)
    (hw : writeID id s = (.ok (), s')) (post : Bytes) {r : Rdr} (hr : r.data = s'.data ++ post) :
    s'.data.length = s.data.length + n ∧
    readID r s.data.length = .ok (id, n) ∧
    ∃ p, IdP.feed {} (allAtOnce (r.data.drop s.data.length)) =
      (.okCompleted, p, allAtOnce post n, n) ∧ p.id = id := by
  obtain ⟨hw1, h64⟩ := isId_width hid
  have he := writeID_emits h64
  rw [byteWidth_eq h64, hw1] at he
  obtain ⟨-, hd, -⟩ := he.success hs hw
  have hr' : r.data = s.data ++ (beBytes n id ++ post) := by rw [hr, hd, List.append_assoc]
  refine ⟨by rw [hd, List.length_append, beBytes_length], readID_of_slice hid ?_,
    { remaining := some 0, id := id }, ?_, rfl⟩
  · have := slice_of_append hr'
    rwa [beBytes_length] at this
  · rw [hr', List.drop_left' rfl, IdP.feed_id hid, Nat.zero_add]

/-- The element IDs of common/webmids.h that the muxer writes; all are well-formed. -/
def idTable : List (Nat × Nat) :=
  [(4, 0x1A45DFA3), (2, 0x4286), (2, 0x42F7), (2, 0x42F2), (2, 0x42F3), (2, 0x4282), (2, 0x4287),
   (2, 0x4285), (1, 0xEC), (4, 0x18538067), (4, 0x114D9B74), (2, 0x4DBB), (2, 0x53AB), (2, 0x53AC),
   (4, 0x1549A966), (3, 0x2AD7B1), (2, 0x4489), (2, 0x4461), (2, 0x7BA9), (2, 0x4D80), (2, 0x5741),
   (4, 0x1F43B675), (1, 0xE7), (1, 0xAB), (1, 0xA0), (1, 0xA1), (2, 0x75A1), (1, 0xA6), (1, 0xEE),
   (1, 0xA5), (1, 0x9B), (1, 0xFB), (2, 0x75A2), (1, 0xA3), (4, 0x1654AE6B), (1, 0xAE), (1, 0xD7),
   (2, 0x73C5), (1, 0x83), (1, 0x86), (2, 0x63A2), (2, 0x56AA), (2, 0x56BB), (2, 0x536E),
   (1, 0xE0), (1, 0xB0), (1, 0xBA), (1, 0xE1), (1, 0xB5), (1, 0x9F), (4, 0x1C53BB6B), (1, 0xBB),
   (1, 0xB3), (1, 0xB7), (1, 0xF7), (1, 0xF1), (2, 0x5378), (4, 0x1043A770), (4, 0x1254C367)]

example : ∀ p ∈ idTable, IsId p.1 p.2 := by simp only [IsId]; decide
example : readID { data := [0x1A, 0x45, 0xDF, 0xA3] } 0 = .ok (0x1A45DFA3, 4) := by decide

/-! ### C04 -/

/-- C04: an unsigned integer element written anywhere in a file is found by mkvparser's header
reader, with exactly the bytes written; its value is read back by mkvparser when below `2^63`
and by the incremental parsers always. -/
theorem C04_uint_round_trip {n id v : Nat} (hid : IsId n id) (hv : v < 2 ^ 64) {s s' : Sink}
    (hs : s.AtEnd) (hw : writeEbmlElementUInt id v s = (.ok (), s')) (post : Bytes) {r : Rdr}
    (hr : r.data = s'.data ++ post) {stop : Int} (hstop : stop < 0 ∨ s'.data.length ≤ stop)
    (hmax : s'.data.length ≤ llongMax) :
    ∃ h, parseElementHeader r s.data.length stop = .ok h ∧ h.id = id ∧
      h.pos + h.size = s'.data.length ∧
      (v < 2 ^ 63 → unserializeUInt r h.pos h.size = .ok v) ∧
      ∃ p, incElement (IntP.init 0) (IntP.feed false) (allAtOnce (r.data.drop s.data.length)) =
          some (id, p, allAtOnce post (s'.data.length - s.data.length)) ∧ p.value = v := by
  obtain ⟨-, h64⟩ := isId_width hid
  obtain ⟨-, hd, -⟩ := (writeEbmlElementUInt_emits h64).success hs hw
  have hb := getUIntSize_bounds v
  have hlen : (beBytes (getUIntSize v) v).length = getUIntSize v := beBytes_length _ _
  have hval := beVal_uint hv
  generalize hp : beBytes (getUIntSize v) v = payload at *
  have hr' : r.data = s.data ++ (element id payload ++ post) := by rw [hr, hd, List.append_assoc]
  have hdl : s'.data.length = s.data.length + (element id payload).length := by
    rw [hd, List.length_append]
  obtain ⟨h1, h2, h3⟩ := parseElementHeader_element hid hr' (by omega) (stop := stop)
    (by omega) (by omega)
  have hfit : s.data.length + n + sizeWidth payload.length + payload.length ≤ r.data.length := by
    rw [h2, hr, List.length_append]; omega
  refine ⟨_, h1, rfl, by simp only; omega, fun hsmall => ?_, ?_⟩
  · simp only
    rw [unserializeUInt_ok (by omega) (by omega) hfit, h3, hval, toI64_small hsmall]
  · refine ⟨{ size := payload.length, remaining := 0, value := beVal payload }, ?_, hval⟩
    rw [hr', List.drop_left' rfl, incElement_element hid (by omega)
      (p := { size := payload.length, remaining := payload.length, value := 0 })
      (by unfold IntP.init; rw [if_neg (by omega), if_neg (by omega)])
      (fun q => IntP.feed_unsigned (by omega) (by omega))]
    rw [Nat.zero_add, hdl, Nat.add_sub_cancel_left]

/-- Finding: mkvparser's unsigned reader returns a negative number (read by its callers as an
error) for values of `2^63` and more. -/
theorem C04_mkvparser_large_values {v : Nat} (hv : 2 ^ 63 ≤ v) (hv2 : v < 2 ^ 64) {r : Rdr} {p : Nat}
    (h : slice r.data p 8 = beBytes 8 v) : unserializeUInt r p 8 = .ok ((v : Int) - 2 ^ 64) := by
  have hl := congrArg List.length h
  rw [slice_length, beBytes_length] at hl
  have := unserializeUInt_ok (r := r) (p := p) (n := 8) (by decide) (by decide) (by omega)
  rw [h, beVal_beBytes, Nat.mod_eq_of_lt (by omega)] at this
  rw [show ((8 : Nat) : Int) = 8 from rfl] at this
  rw [this]
  congr 1
  unfold toI64
  omega

example : (writeEbmlElementUInt 0x2AD7B1 1000000 goodSink).2.data =
    [0x2A, 0xD7, 0xB1, 0x83, 0x0F, 0x42, 0x40] := by decide
example : unserializeUInt { data := [0x0F, 0x42, 0x40] } 0 3 = .ok 1000000 := by decide

/-! ### C05 -/

/-- C05: the same for signed integer elements. -/
theorem C05_int_round_trip {n id : Nat} {v : Int} (hid : IsId n id) (hlo : -2 ^ 63 ≤ v)
    (hhi : v < 2 ^ 63) {s s' : Sink} (hs : s.AtEnd)
    (hw : writeEbmlElementInt id v s = (.ok (), s')) (post : Bytes) {r : Rdr}
    (hr : r.data = s'.data ++ post) {stop : Int} (hstop : stop < 0 ∨ s'.data.length ≤ stop)
    (hmax : s'.data.length ≤ llongMax) :
    ∃ h, parseElementHeader r s.data.length stop = .ok h ∧ h.id = id ∧
      h.pos + h.size = s'.data.length ∧
      unserializeInt r h.pos h.size = .ok v ∧
      ∃ p, incElement (IntP.init 0) (IntP.feed true) (allAtOnce (r.data.drop s.data.length)) =
          some (id, p, allAtOnce post (s'.data.length - s.data.length)) ∧ toI64 p.value = v := by
  obtain ⟨-, h64⟩ := isId_width hid
  obtain ⟨-, hd, -⟩ := (writeEbmlElementInt_emits h64).success hs hw
  have hb := getIntSize_bounds v
  have hlen : (twosBytes (getIntSize v) v).length = getIntSize v := Web.twosBytes_length _ _
  have hval := twosVal_twosBytes hb.1 (getIntSize_spec hlo hhi).1
  generalize hp : twosBytes (getIntSize v) v = payload at *
  have hr' : r.data = s.data ++ (element id payload ++ post) := by rw [hr, hd, List.append_assoc]
  have hdl : s'.data.length = s.data.length + (element id payload).length := by
    rw [hd, List.length_append]
  obtain ⟨h1, h2, h3⟩ := parseElementHeader_element hid hr' (by omega) (stop := stop)
    (by omega) (by omega)
  have hfit : s.data.length + n + sizeWidth payload.length + payload.length ≤ r.data.length := by
    rw [h2, hr, List.length_append]; omega
  refine ⟨_, h1, rfl, by simp only; omega, ?_, ?_⟩
  · simp only
    rw [unserializeInt_ok (by omega) (by omega) hfit, h3, hval]
  · refine ⟨IntP.mk payload.length 0 (IntP.signExtend payload.length (beVal payload)), ?_, ?_⟩
    · rw [hr', List.drop_left' rfl, incElement_element hid (by omega)
        (p := { size := payload.length, remaining := payload.length, value := 0 })
        (by unfold IntP.init; rw [if_neg (by omega), if_neg (by omega)])
        (fun q => IntP.feed_signed' (by omega) (by omega))]
      rw [Nat.zero_add, hdl, Nat.add_sub_cancel_left]
    · simp only; rw [toI64_signExtend (by omega) (by omega), hval]

/-- C05: the width used for a signed value is the least that holds it in two's complement. -/
theorem C05_int_width_minimal {id : Nat} {v : Int} (hid : id < 2 ^ 64) (hlo : -2 ^ 63 ≤ v)
    (hhi : v < 2 ^ 63) {s s' : Sink} (hs : s.AtEnd)
    (hw : writeEbmlElementInt id v s = (.ok (), s')) :
    ∃ w, s'.data = s.data ++ element id (twosBytes w v) ∧ FitsSigned w v ∧
      ∀ m, 1 ≤ m → FitsSigned m v → w ≤ m := by
  obtain ⟨-, hd, -⟩ := (writeEbmlElementInt_emits hid).success hs hw
  exact ⟨_, hd, getIntSize_spec hlo hhi⟩

example : (writeEbmlElementInt 0x75A2 (-129) goodSink).2.data =
    [0x75, 0xA2, 0x82, 0xFF, 0x7F] := by decide
example : unserializeInt { data := [0xFF, 0x7F] } 0 2 = .ok (-129) := by decide

/-! ### C06 -/

/-- C06, unsigned. -/
theorem C06_uint_size {id v : Nat} (hid : id < 2 ^ 64) {s s' : Sink} (hs : s.AtEnd)
    (hw : writeEbmlElementUInt id v s = (.ok (), s')) :
    s'.data.length = s.data.length + ebmlElementSizeUInt id v := by
  obtain ⟨-, hd, -⟩ := (writeEbmlElementUInt_emits hid).success hs hw
  have hb := getUIntSize_bounds v
  rw [hd, List.length_append, element_length _ hid, beBytes_length,
    coded_of_bounds (c := 1) (by decide) (by decide) (by left; omega) (by omega)]
  simp only [ebmlElementSizeUInt, ebmlElementSizeUIntFixed]
  rw [if_neg (by omega)]; omega

/-- C06, unsigned with a fixed payload width (any width the C++ `int32` can hold). -/
theorem C06_uint_fixed_size {id v w : Nat} (hid : id < 2 ^ 64) (hw31 : w < 2 ^ 31)
    {s s' : Sink} (hs : s.AtEnd) (hw : writeEbmlElementUIntFixed id v w s = (.ok (), s')) :
    s'.data.length = s.data.length + ebmlElementSizeUIntFixed id v w := by
  by_cases h0 : w = 0
  · subst h0; exact C06_uint_size hid hs hw
  have hb := getUIntSize_bounds v
  by_cases hfit : getUIntSize v ≤ w ∧ w ≤ 8
  · obtain ⟨-, hd, -⟩ := (writeEbmlElementUIntFixed_emits hid (by omega) hfit.2 hfit.1).success hs hw
    rw [hd, List.length_append, element_length _ hid, beBytes_length,
      coded_of_bounds (c := 1) (by decide) (by decide) (by left; omega) (by omega)]
    simp only [ebmlElementSizeUIntFixed]
    rw [if_pos (by omega)]; omega
  · exfalso
    unfold writeEbmlElementUIntFixed at hw
    rcases h1 : writeID id s with ⟨r1, s1⟩
    cases r1 with
    | err c => rw [W.bind_of_err h1] at hw; cases hw
    | ub => rw [W.bind_of_ub h1] at hw; cases hw
    | ok a =>
      rw [W.bind_of_ok h1] at hw
      simp only [if_pos (show w > 0 by omega)] at hw
      by_cases hgt : getUIntSize v > w
      · rw [if_pos hgt] at hw; cases hw
      · rw [if_neg hgt] at hw
        rcases h2 : writeUInt w s1 with ⟨r2, s2⟩
        cases r2 with
        | err c => rw [W.bind_of_err h2] at hw; cases hw
        | ub => rw [W.bind_of_ub h2] at hw; cases hw
        | ok a =>
          rw [W.bind_of_ok h2] at hw
          unfold serializeInt at hw
          rw [if_pos (by unfold toI32; omega)] at hw
          cases hw

/-- C06, signed. -/
theorem C06_int_size {id : Nat} {v : Int} (hid : id < 2 ^ 64) {s s' : Sink} (hs : s.AtEnd)
    (hw : writeEbmlElementInt id v s = (.ok (), s')) :
    s'.data.length = s.data.length + ebmlElementSizeInt id v := by
  obtain ⟨-, hd, -⟩ := (writeEbmlElementInt_emits hid).success hs hw
  have hb := getIntSize_bounds v
  rw [hd, List.length_append, element_length _ hid, Web.twosBytes_length,
    coded_of_bounds (c := 1) (by decide) (by decide) (by left; omega) (by omega)]
  simp only [ebmlElementSizeInt]; omega

/-- C06, float. -/
theorem C06_float_size {id bits : Nat} (hid : id < 2 ^ 64) {s s' : Sink} (hs : s.AtEnd)
    (hw : writeEbmlElementFloat id bits s = (.ok (), s')) :
    s'.data.length = s.data.length + ebmlElementSizeFloat id := by
  obtain ⟨-, hd, -⟩ := (writeEbmlElementFloat_emits hid).success hs hw
  rw [hd, List.length_append, element_length _ hid, beBytes_length,
    coded_of_bounds (c := 1) (by decide) (by decide) (by left; omega) (by omega)]
  simp only [ebmlElementSizeFloat]

/-- C06, date. -/
theorem C06_date_size {id : Nat} {v : Int} (hid : id < 2 ^ 64) {s s' : Sink} (hs : s.AtEnd)
    (hw : writeEbmlDateElement id v s = (.ok (), s')) :
    s'.data.length = s.data.length + ebmlDateElementSize id := by
  obtain ⟨-, hd, -⟩ := (writeEbmlDateElement_emits hid).success hs hw
  rw [hd, List.length_append, element_length _ hid, Web.twosBytes_length,
    coded_of_bounds (c := 1) (by decide) (by decide) (by left; omega) (by omega)]
  simp only [ebmlDateElementSize, kDateElementSize]

/-- C06, master element header. -/
theorem C06_master_size {id size : Nat} (hid : id < 2 ^ 64) {s s' : Sink} (hs : s.AtEnd)
    (hw : writeEbmlMasterElement id size s = (.ok (), s')) :
    s'.data.length = s.data.length + ebmlMasterElementSize id size := by
  by_cases hsz : size + 1 < 2 ^ 56
  · obtain ⟨-, hd, -⟩ := (writeEbmlMasterElement_emits hid hsz).success hs hw
    rw [hd, List.length_append, List.length_append, beBytes_length, vint_length, byteWidth_eq hid,
      ← getCodedUIntSize_eq]
    simp only [ebmlMasterElementSize]
  · exfalso
    unfold writeEbmlMasterElement at hw
    rcases h1 : writeID id s with ⟨r1, s1⟩
    cases r1 with
    | err c => rw [W.bind_of_err h1] at hw; cases hw
    | ub => rw [W.bind_of_ub h1] at hw; cases hw
    | ok a => rw [W.bind_of_ok h1, writeUInt_refuses (by omega)] at hw; cases hw

/-- C06, strings shorter than 4 GiB (see `C06_string_truncated` for the others). -/
theorem C06_string_size {id : Nat} {v : Option Bytes} (hid : id < 2 ^ 64)
    (hv : ∀ b, v = some b → b.length < 2 ^ 32) {s s' : Sink} (hs : s.AtEnd)
    (hw : writeEbmlElementString id v s = (.ok (), s')) :
    s'.data.length = s.data.length + ebmlElementSizeString id v := by
  cases v with
  | none => cases hw
  | some b =>
    obtain ⟨-, hd, -⟩ := (writeEbmlElementString_emits hid (hv b rfl)).success hs hw
    rw [hd, List.length_append, element_length _ hid]
    simp only [ebmlElementSizeString]; omega

/-- C06, binary data shorter than 4 GiB. -/
theorem C06_binary_size {id : Nat} {v : Option Bytes} (hid : id < 2 ^ 64)
    (hv : ∀ b, v = some b → b.length < 2 ^ 32) {s s' : Sink} (hs : s.AtEnd)
    (hw : writeEbmlElementBinary id v s = (.ok (), s')) :
    s'.data.length = s.data.length + ebmlElementSizeBinary id v := by
  cases v with
  | none => cases hw
  | some b =>
    by_cases h0 : b = []
    · subst h0; cases hw
    · obtain ⟨-, hd, -⟩ := (writeEbmlElementBinary_emits hid h0 (hv b rfl)).success hs hw
      rw [hd, List.length_append, element_length _ hid]
      simp only [ebmlElementSizeBinary]; omega

/-- Finding: a string of 4 GiB or more is truncated on output (the length argument of `Write`
is 32 bits wide) although success is reported, so the declared size is then wrong. -/
theorem C06_string_truncated {id : Nat} {v : Bytes} (hid : id < 2 ^ 64) (hv : 2 ^ 32 ≤ v.length)
    (hv2 : v.length + 1 < 2 ^ 56) {s : Sink} (hs : s.AtEnd) (hp : ∀ i, s.plan i = none) :
    ∃ s', writeEbmlElementString id (some v) s = (.ok (), s') ∧
      s'.data.length < s.data.length + ebmlElementSizeString id (some v) := by
  have he : Emits (writeEbmlElementString id (some v)) ()
      (beBytes (byteWidth id) id ++ (vint (sizeWidth v.length) v.length ++
        v.take (v.length % 2 ^ 32))) :=
    (writeID_emits hid).bind ((writeUInt_emits hv2).bind (Emits.write _))
  obtain ⟨k, hk⟩ := he.run hs hp
  refine ⟨_, hk, ?_⟩
  simp only [Sink.app, List.length_append, beBytes_length, vint_length, ebmlElementSizeString,
    byteWidth_eq hid, ← getCodedUIntSize_eq, List.length_take]
  have := Nat.mod_lt v.length (show 2 ^ 32 > 0 by decide)
  omega

example : (writeEbmlElementString 0x4D80 (some [0x61, 0x62, 0x63]) goodSink).2.data =
    [0x4D, 0x80, 0x83, 0x61, 0x62, 0x63] ∧ ebmlElementSizeString 0x4D80 (some [0x61, 0x62, 0x63]) = 6 := by
  decide
example : (writeEbmlElementUIntFixed 0xD7 3 8 goodSink).2.data.length = 10 ∧
    ebmlElementSizeUIntFixed 0xD7 3 8 = 10 := by decide +kernel

/-! ### C07 -/

/-- Total sizes for which padding can be produced: at least 2, at most `2^31 + 5`, and not just
above a power of `2^7` (128, 129, 16384..16386, 2097152..2097155, 268435456..268435460). -/
def PaddingSize (n : Nat) : Prop :=
  2 ≤ n ∧ n ≤ 2 ^ 31 + 5 ∧ ∀ w, 1 ≤ w → w ≤ 4 → ¬ (2 ^ (7 * w) ≤ n ∧ n ≤ 2 ^ (7 * w) + w)

/-- C07: for these sizes the routine writes exactly `n` bytes, which are one Void element with
a zero payload, read back as such; it answers `n`. -/
theorem C07_void_exact {n : Nat} (hn : PaddingSize n) {s : Sink} (hs : s.AtEnd)
    (hp : ∀ i, s.plan i = none) (post : Bytes) :
    ∃ s' e, writeVoidElement n s = (.ok n, s') ∧
      s'.data = s.data ++ element 0xEC (List.replicate e 0) ∧
      s'.data.length = s.data.length + n ∧
      ∀ r : Rdr, r.data = s'.data ++ post → s'.data.length ≤ llongMax →
        ∃ h, parseElementHeader r s.data.length (-1) = .ok h ∧ h.id = 0xEC ∧
          h.pos + h.size = s.data.length + n := by
  obtain ⟨e, hlen, he⟩ := writeVoidElement_emits hn.1 hn.2.1 hn.2.2
  obtain ⟨k, hk⟩ := he.run hs hp
  refine ⟨_, e, hk, rfl, ?_, ?_⟩
  · simp only [Sink.app, List.length_append]; rw [hlen]
  · intro r hr hmax
    simp only [Sink.app] at hr hmax
    have hid : IsId 1 kMkvVoid := by unfold IsId kMkvVoid; decide
    have hlen2 := element_length kMkvVoid (by decide) (List.replicate e 0)
    rw [List.length_replicate] at hlen2
    have := hn.2.1
    obtain ⟨h1, h2, -⟩ := parseElementHeader_element hid (r := r) (pre := s.data) (post := post)
      (payload := List.replicate e 0) (by rw [hr, List.append_assoc])
      (by rw [List.length_replicate]; omega) (stop := -1) (by omega)
      (by rw [List.length_append] at hmax; exact hmax)
    refine ⟨_, h1, rfl, ?_⟩
    simp only
    rw [h2, hlen]

/-- C07: for every other size the routine never reports success. -/
theorem C07_void_failure {n : Nat} (h64 : n < 2 ^ 64) (hn : ¬ PaddingSize n) {s : Sink}
    (hs : s.AtEnd) (s' : Sink) (a : Nat) : writeVoidElement n s ≠ (.ok a, s') :=
  writeVoidElement_never h64 hn hs

/-- Finding: 128 is refused although a Void element of 128 bytes exists. -/
theorem C07_128_possible_but_refused :
    (element 0xEC (List.replicate 126 0)).length = 128 ∧ ¬ PaddingSize 128 := by
  refine ⟨?_, fun h => h.2.2 1 (by decide) (by decide) (by decide)⟩
  rw [element_length _ (by decide), List.length_replicate]
  decide

example : PaddingSize 110 := ⟨by decide, by decide, fun w h1 h4 => by
  have : w = 1 ∨ w = 2 ∨ w = 3 ∨ w = 4 := by omega
  rcases this with rfl | rfl | rfl | rfl <;> decide⟩
example : (writeVoidElement 5 goodSink).2.data = [0xEC, 0x83, 0, 0, 0] := by decide

/-! ### C08 -/

/-- C08: an accepted element header starts with a well-formed ID followed by a well-formed
size field, all inside the data and inside the parent; the payload starts right after it. -/
theorem C08_header_in_bounds {r : Rdr} {pos stop : Int} {h : Hdr}
    (hp : parseElementHeader r pos stop = .ok h) :
    ∃ p n m : Nat, pos = p ∧ IsId n h.id ∧ slice r.data p n = beBytes n h.id ∧
      1 ≤ m ∧ m ≤ 8 ∧ h.size < 2 ^ (7 * m) ∧ slice r.data (p + n) m = vint m h.size ∧
      h.pos = p + n + m ∧ h.pos ≤ r.data.length ∧ (0 ≤ stop → (h.pos : Int) ≤ stop) ∧
      h.pos ≤ llongMax := by
  unfold parseElementHeader at hp
  split at hp
  · cases hp
  rename_i q1
  rcases h1 : readID r pos with ⟨id, n⟩ | c | _
  · rw [h1] at hp
    simp only at hp
    split at hp
    · cases hp
    rename_i q2
    rcases h2 : readUInt r (pos + n) with ⟨sz, m⟩ | c | _
    · rw [h2] at hp
      simp only at hp
      split at hp
      · cases hp
      rename_i q3
      split at hp
      · cases hp
      rename_i q4
      simp only [Res.ok.injEq] at hp
      subst hp
      obtain ⟨p, rfl, f1, f2, f3⟩ := readID_sound h1
      obtain ⟨p', e, g1, g2, g3, g4, g5⟩ := readUInt_sound h2
      have : p' = p + n := by omega
      subst this
      exact ⟨p, n, m, rfl, f2, f3, g2, g3, g4, g5, by simp only; omega, by simp only; omega,
        by simp only; omega, by simp only; omega⟩
    · rw [h2] at hp; cases hp
    · rw [h2] at hp; cases hp
  · rw [h1] at hp; cases hp
  · rw [h1] at hp; cases hp

/-- C08: every failure of the header reader is the format error. -/
theorem C08_failure_is_format_error {r : Rdr} {pos stop : Int} {c : Int}
    (hp : parseElementHeader r pos stop = .err c) : c = E_FILE_FORMAT_INVALID := by
  unfold parseElementHeader at hp
  split at hp
  · cases hp; rfl
  rcases h1 : readID r pos with ⟨id, n⟩ | c | _
  · rw [h1] at hp
    simp only at hp
    split at hp
    · cases hp; rfl
    rcases h2 : readUInt r (pos + n) with ⟨sz, m⟩ | c | _
    · rw [h2] at hp
      simp only at hp
      split at hp
      · cases hp; rfl
      split at hp <;> cases hp
      rfl
    · rw [h2] at hp; cases hp; rfl
    · rw [h2] at hp; cases hp
  · rw [h1] at hp; cases hp; rfl
  · rw [h1] at hp; cases hp

/-- C08: a header that would reach or cross the parent's end is refused: no header is accepted
whose size field ends after `stop`, whatever the bytes are. -/
theorem C08_crossing_header_refused {r : Rdr} {p n m id size : Nat} {stop : Int} (hid : IsId n id)
    (h1 : slice r.data p n = beBytes n id) (hm : 1 ≤ m) (hm8 : m ≤ 8) (hsz : size < 2 ^ (7 * m))
    (h2 : slice r.data (p + n) m = vint m size) (hstop : 0 ≤ stop) (hc : stop < (p + n + m : Nat)) :
    parseElementHeader r p stop = .err E_FILE_FORMAT_INVALID := by
  unfold parseElementHeader
  by_cases q1 : stop ≥ 0 ∧ (p : Int) ≥ stop
  · rw [if_pos q1]
  rw [if_neg q1, readID_of_slice hid h1]
  simp only
  by_cases q2 : stop ≥ 0 ∧ (p : Int) + n ≥ stop
  · rw [if_pos q2]
  rw [if_neg q2, show (p : Int) + (n : Int) = ((p + n : Nat) : Int) by omega,
    readUInt_of_slice hm hm8 hsz h2]
  simp only
  by_cases q3 : ((p + n : Nat) : Int) + m > (llongMax : Int)
  · rw [if_pos q3]
  rw [if_neg q3, if_pos ⟨hstop, by omega⟩]

example : parseElementHeader { data := [0xEC, 0x83, 0, 0, 0] } 0 5 = .ok ⟨2, 0xEC, 3⟩ := by decide
example : parseElementHeader { data := [0x42, 0x86, 0x81, 1] } 0 2 = .err (-2) := by decide

/-! ### C09 -/

/-- C09, size fields: at every offset of every byte sequence either both parsers accept the
field with the same value and length and continue at the same place, or both refuse it as
malformed, or both find that data is missing. -/
theorem C09_sizes_agree (r : Rdr) (p : Nat) :
    (∃ v n q, readUInt r p = .ok (v, n) ∧
      VarInt.feed {} (allAtOnce (r.data.drop p) p) =
        (.okCompleted, q, allAtOnce (r.data.drop (p + n)) (p + n), n) ∧
      q.value = v ∧ q.encodedLength = n ∧
      SizeP.size q = if v = 2 ^ (7 * n) - 1 then kUnknownElementSize else v) ∨
    (r.data[p]? = some 0 ∧ readUInt r p = .err E_FILE_FORMAT_INVALID ∧
      (VarInt.feed {} (allAtOnce (r.data.drop p) p)).1 = .invalidElementValue) ∨
    (readUInt r p = .err (if r.short < 0 then r.short else E_BUFFER_NOT_FULL) ∧
      (VarInt.feed {} (allAtOnce (r.data.drop p) p)).1 = .endOfFile) := by
  cases hb : r.data[p]? with
  | none =>
    have hl := List.getElem?_eq_none_iff.mp hb
    rw [List.drop_eq_nil_of_le hl]
    refine .inr (.inr ⟨?_, rfl⟩)
    unfold readUInt
    rw [if_neg (by omega), Int.toNat_natCast, byte_short hl]
    simp only
    split <;> rfl
  | some b =>
    have hlt := (List.getElem?_eq_some_iff.mp hb).1
    have hd : r.data.drop p = b :: r.data.drop (p + 1) := by
      rw [List.drop_eq_getElem_cons hlt, (List.getElem?_eq_some_iff.mp hb).2]
    by_cases h0 : b = 0
    · subst h0
      rw [hd]
      refine .inr (.inl ⟨rfl, ?_, rfl⟩)
      unfold readUInt
      rw [if_neg (by omega), Int.toNat_natCast, byte_ok hb]
      rfl
    · obtain ⟨h7, hm⟩ := clz_facts b h0
      by_cases hfit : p + (countLeadingZeros b + 1) ≤ r.data.length
      · refine .inl ⟨beVal (slice r.data p (countLeadingZeros b + 1)) -
          2 ^ (7 * (countLeadingZeros b + 1)), countLeadingZeros b + 1,
          VarInt.mk (some 0) (countLeadingZeros b) (beVal (slice r.data p (countLeadingZeros b + 1)) -
          2 ^ (7 * (countLeadingZeros b + 1))), ?_, ?_, rfl, rfl, ?_⟩
        · rw [readUInt_eq hb h0, hm]
          simp only
          rw [if_pos hfit]
        · rw [hd, VarInt.feed_all_ok h0 rfl (by rw [List.length_drop]; omega), List.drop_drop]
          have hs : slice r.data p (countLeadingZeros b + 1) =
              (b :: r.data.drop (p + 1)).take (countLeadingZeros b + 1) := by
            unfold slice; rw [hd]
          rw [hs, show p + 1 + countLeadingZeros b = p + (countLeadingZeros b + 1) by
            rw [Nat.add_assoc, Nat.add_comm 1]]
        · unfold SizeP.size VarInt.encodedLength
          simp only [Nat.add_sub_cancel]
          rw [mask_eq h7]
      · refine .inr (.inr ⟨?_, ?_⟩)
        · rw [readUInt_eq hb h0, hm]
          simp only
          rw [if_neg hfit]; rfl
        · rw [hd]
          obtain ⟨q, hq⟩ := VarInt.feed_all_eof (pos := p) h0 rfl
            (show (r.data.drop (p + 1)).length < countLeadingZeros b by
              clear hm; rw [List.length_drop]; omega)
          rw [hq]

/-- C09, element IDs: same three cases. -/
theorem C09_ids_agree (r : Rdr) (p : Nat) :
    (∃ id n q, readID r p = .ok (id, n) ∧
      IdP.feed {} (allAtOnce (r.data.drop p) p) =
        (.okCompleted, q, allAtOnce (r.data.drop (p + n)) (p + n), n) ∧ q.id = id) ∨
    (readID r p = .err E_FILE_FORMAT_INVALID ∧
      (IdP.feed {} (allAtOnce (r.data.drop p) p)).1 = .invalidElementId) ∨
    (readID r p = .err (if r.short < 0 then E_FILE_FORMAT_INVALID else E_BUFFER_NOT_FULL) ∧
      (IdP.feed {} (allAtOnce (r.data.drop p) p)).1 = .endOfFile) := by
  cases hb : r.data[p]? with
  | none =>
    have hl := List.getElem?_eq_none_iff.mp hb
    rw [List.drop_eq_nil_of_le hl]
    refine .inr (.inr ⟨?_, rfl⟩)
    unfold readID
    rw [if_neg (by omega), Int.toNat_natCast, byte_short hl]
    simp only
    split <;> rfl
  | some b =>
    have hlt := (List.getElem?_eq_some_iff.mp hb).1
    have hd : r.data.drop p = b :: r.data.drop (p + 1) := by
      rw [List.drop_eq_getElem_cons hlt, (List.getElem?_eq_some_iff.mp hb).2]
    obtain ⟨hz, hnz⟩ := idclz_facts b
    by_cases h0 : b &&& 0xf0 = 0
    · rw [hd]
      refine .inr (.inl ⟨?_, ?_⟩)
      · unfold readID
        rw [if_neg (by omega), Int.toNat_natCast, byte_ok hb]
        simp only [hz h0]
        split <;> rfl
      · simp only [IdP.feed, allAtOnce_readByte_cons, if_pos h0]
    · obtain ⟨h3, hk⟩ := hnz h0
      by_cases hfit : p + (countLeadingZeros b + 1) ≤ r.data.length
      · refine .inl ⟨beVal (slice r.data p (countLeadingZeros b + 1)), countLeadingZeros b + 1,
          IdP.mk (some 0) (beVal (slice r.data p (countLeadingZeros b + 1))), ?_, ?_, rfl⟩
        · rw [readID_eq hb hk, if_pos hfit]
        · rw [hd, IdP.feed_all_ok h0 rfl (by rw [List.length_drop]; omega), List.drop_drop]
          have hs : slice r.data p (countLeadingZeros b + 1) =
              (b :: r.data.drop (p + 1)).take (countLeadingZeros b + 1) := by
            unfold slice; rw [hd]
          rw [hs, show p + 1 + countLeadingZeros b = p + (countLeadingZeros b + 1) by
            rw [Nat.add_assoc, Nat.add_comm 1]]
      · refine .inr (.inr ⟨?_, ?_⟩)
        · rw [readID_eq hb hk, if_neg hfit]; rfl
        · rw [hd]
          obtain ⟨q, hq⟩ := IdP.feed_all_eof (pos := p) h0 rfl
            (show (r.data.drop (p + 1)).length < countLeadingZeros b by
              rw [List.length_drop]; omega)
          rw [hq]

example : readUInt { data := [0, 0x41, 0x02] } 1 = .ok (0x102, 2) ∧
    VarInt.feed {} (allAtOnce [0x41, 0x02] 1) =
      (.okCompleted, ⟨some 0, 1, 0x102⟩, allAtOnce [] 3, 2) := by decide +kernel
example : readID { data := [0x1A, 0x45, 0xDF, 0xA3] } 0 = .ok (0x1A45DFA3, 4) := by decide +kernel
example : readID { data := [0x08, 0x45, 0xDF, 0xA3] } 0 = .err (-2) := by decide +kernel

/-! ### C10 -/

/-- C10, variable-length integers (also the sizes inside lacing headers). -/
theorem C10_var_int : ScheduleIndependent VarInt.feed {} :=
  scheduleIndependent_of_step VarInt.feed_step (by intro r h; cases h)

/-- C10, element IDs. -/
theorem C10_id : ScheduleIndependent IdP.feed {} :=
  scheduleIndependent_of_step IdP.feed_step (by intro r h; cases h)

/-- C10, element sizes. -/
theorem C10_size : ScheduleIndependent SizeP.feed {} :=
  scheduleIndependent_of_step SizeP.feed_step (by intro r h; cases h)

/-- C10, integer elements of any declared size. -/
theorem C10_int (signed : Bool) {default size : Nat} {p : IntP}
    (hi : IntP.init default size = .ok p) : ScheduleIndependent (IntP.feed signed) p := by
  unfold IntP.init at hi
  split at hi
  · cases hi
  · cases hi
    exact scheduleIndependent_of_step (IntP.feed_step signed) (by simp only; omega)

/-- C10, float elements. -/
theorem C10_float {size : Nat} {p : FloatP} (hi : FloatP.init size = .ok p) :
    ScheduleIndependent FloatP.feed p := by
  unfold FloatP.init at hi
  split at hi
  · cases hi
    exact scheduleIndependent_of_step FloatP.feed_step (by simp only; omega)
  · cases hi

/-- C10, date elements. -/
theorem C10_date {default size : Nat} {p : DateP} (hi : DateP.init default size = .ok p) :
    ScheduleIndependent DateP.feed p := by
  unfold DateP.init at hi
  split at hi
  · cases hi
  · cases hi
    exact scheduleIndependent_of_step DateP.feed_step (by simp only; omega)

/-- C10, elements holding an ID. -/
theorem C10_id_element {size : Nat} {p : IdElemP} (hi : IdElemP.init size = .ok p) :
    ScheduleIndependent IdElemP.feed p := by
  unfold IdElemP.init at hi
  split at hi
  · cases hi
  · cases hi
    exact scheduleIndependent_of_step IdElemP.feed_step (by simp only; omega)

/-- C10, string and binary elements. -/
theorem C10_bytes (str : Bool) {default : Bytes} {size : Nat} {p : ByteP}
    (hi : ByteP.init default size = .ok p) : ScheduleIndependent (ByteP.feed str) p := by
  unfold ByteP.init at hi
  split at hi
  · cases hi
  split at hi
  all_goals
    cases hi
    exact scheduleIndependent_of_step (ByteP.feed_step str) (by simp [ByteP.Inv])

/-- C10, block headers, whatever the uninitialised time code field holds at the start. -/
theorem C10_block_header (t : Nat) : ScheduleIndependent BlockHdr.feed { timecode := t } :=
  scheduleIndependent_of_step BlockHdr.feed_step
    ⟨fun h => (nomatch h), fun _ => ⟨by simp, by intro r h; cases h⟩⟩

/-- C10, block headers: the header finally delivered does not depend on the uninitialised
field. -/
theorem C10_block_header_garbage (t t' : Nat) (bs : Bytes) (pos : Nat) :
    match BlockHdr.feed { timecode := t } (allAtOnce bs pos),
      BlockHdr.feed { timecode := t' } (allAtOnce bs pos) with
    | (st, p, s, k), (st', p', s', k') =>
      st = st' ∧ s = s' ∧ k = k' ∧ (st = .okCompleted → p = p') := by
  simp only [BlockHdr.feed, BlockHdr.feedTrack]
  rcases VarInt.feed {} (allAtOnce bs pos) with ⟨st, u, s, k⟩
  simp only
  by_cases hc : st.completedOk = true
  · rw [if_pos hc, if_pos hc]
    simp only [BlockHdr.feedTimecode, accumulate16_eq (Nat.le_refl 2)]
    obtain ⟨evs, q⟩ := s
    match evs with
    | [] => simp [accumLoop, Src.readByte, Status.completedOk]
    | none :: es => simp [accumLoop, Src.readByte, Status.completedOk]
    | [some b] => simp [accumLoop, Src.readByte, Status.completedOk]
    | some b :: none :: es => simp [accumLoop, Src.readByte, Status.completedOk]
    | some b :: some c :: es =>
      have e : ∀ t : Nat, (((((t <<< 8) ||| b.toNat) % 2 ^ 16) <<< 8) ||| c.toNat) % 2 ^ 16 =
          b.toNat * 256 + c.toNat := by
        intro t
        rw [shl8_or, shl8_or]
        have := b.toNat_lt
        have := c.toNat_lt
        omega
      simp only [accumLoop, Src.readByte, e]
      simp only [show Status.okCompleted.completedOk = true from rfl, if_true]
      simp
  · rw [if_neg hc, if_neg hc]
    simp only [true_and]
    intro h
    exact absurd (by rw [h]; rfl) hc

/-- C10, boolean elements: the status, and unless the value is refused also the parser state,
bytes read and unread bytes, do not depend on how data arrives.
Missing from the full statement: after a *refused* value the number of bytes read can depend
on the schedule, see `C10_bool_counterexample`. -/
theorem C10_bool_partial {default : Bool} {size : Nat} {p : BoolP}
    (hi : BoolP.init default size = .ok p) (s : Src) (fuel : Nat) (hf : s.stalls < fuel) :
    match drive BoolP.feed fuel p s, p.feed (allAtOnce s.bytes s.pos) with
    | (st, p', s', k), whole =>
      st = whole.1 ∧
      (st ≠ .invalidElementValue → whole = (st, p', allAtOnce s'.bytes s'.pos, k)) := by
  have hp : p.remaining ≤ 8 ∧ p.remaining ≤ p.size := by
    unfold BoolP.init at hi
    split at hi
    · cases hi
    · cases hi
      simp only
      omega
  rcases hd : drive BoolP.feed fuel p s with ⟨st, p', s', k⟩
  simp only
  rcases BoolP.drive_agree p s hp.1 hp.2 fuel hf hd with h | ⟨h1, h2⟩
  · exact ⟨by rw [h], fun _ => h⟩
  · simp only at h2
    exact ⟨by rw [h1, h2], fun h => absurd h2 h⟩

/-- Finding: a two-byte boolean holding `01 00` is refused in both cases, but after one byte
when the second is late and after two when both are there. -/
theorem C10_bool_counterexample :
    ¬ ScheduleIndependent BoolP.feed { size := 2, remaining := 2, value := false } := by
  intro h
  have := h { evs := [some 1, none, some 0] } 2 (by decide)
  exact absurd this (by decide)

example : drive (IntP.feed false) 9 { size := 2, remaining := 2, value := 0 }
    { evs := [none, some 1, none, none, some 2, some 3] } =
    (.okCompleted, { size := 2, remaining := 0, value := 0x102 }, { evs := [some 3], pos := 2 }, 2) := by
  decide
example : drive BlockHdr.feed 9 { timecode := 77 }
    { evs := [some 0x81, none, some 0x01, none, some 0x02, some 0x80] } =
    (.okCompleted, { state := .done, uint := ⟨some 0, 0, 1⟩, tcRemaining := 0, track := 1,
                     timecode := 0x102, flags := 0x80 }, { evs := [], pos := 4 }, 4) := by
  decide +kernel

/-! ### C11 -/

theorem honest_of_emits {w : W Unit} {bs : Bytes} (h : Emits w () bs) : HonestOutput w bs := by
  intro s hs res s' hr
  rcases h.outcome (s := s) hs with ⟨t, ht, hd, -, -, hc⟩ | ⟨c, t, ht, hb⟩
  · rw [hr] at ht
    cases ht
    exact ⟨⟨fun _ => hc, fun _ => rfl⟩, fun _ => hd, fun h => absurd rfl h⟩
  · rw [hr] at ht
    cases ht
    refine ⟨⟨fun h => (nomatch h), fun h => ?_⟩, fun h => (nomatch h), fun _ => ⟨⟨c, rfl⟩, hb.pre⟩⟩
    obtain ⟨i, h1, h2, h3⟩ := hb.cause
    exact absurd (h i h1 h2) h3

/-- C11, size fields. -/
theorem C11_size {v n : Nat} (h1 : 1 ≤ n) (h8 : n ≤ 8) (hv : v + 1 < 2 ^ (7 * n)) :
    HonestOutput (writeUIntSize v n) (vint n v) := honest_of_emits (writeUIntSize_emits h1 h8 hv)

/-- C11, IDs. -/
theorem C11_id {id : Nat} (h : id < 2 ^ 64) : HonestOutput (writeID id) (beBytes (byteWidth id) id) :=
  honest_of_emits (writeID_emits h)

/-- C11, unsigned elements. -/
theorem C11_uint {id v : Nat} (h : id < 2 ^ 64) (hv : v < 2 ^ 64) :
    HonestOutput (writeEbmlElementUInt id v) (element id (beBytes (byteWidth v) v)) := by
  rw [byteWidth_eq hv]; exact honest_of_emits (writeEbmlElementUInt_emits h)

/-- C11, signed elements. -/
theorem C11_int {id : Nat} {v : Int} (h : id < 2 ^ 64) :
    HonestOutput (writeEbmlElementInt id v) (element id (Spec.twosBytes (getIntSize v) v)) :=
  honest_of_emits (writeEbmlElementInt_emits h)

/-- C11, float elements. -/
theorem C11_float {id bits : Nat} (h : id < 2 ^ 64) :
    HonestOutput (writeEbmlElementFloat id bits) (element id (beBytes 4 bits)) :=
  honest_of_emits (writeEbmlElementFloat_emits h)

/-- C11, string elements. -/
theorem C11_string {id : Nat} {v : Bytes} (h : id < 2 ^ 64) (hv : v.length < 2 ^ 32) :
    HonestOutput (writeEbmlElementString id (some v)) (element id v) :=
  honest_of_emits (writeEbmlElementString_emits h hv)

/-- C11, binary elements. -/
theorem C11_binary {id : Nat} {v : Bytes} (h : id < 2 ^ 64) (h0 : v ≠ []) (hv : v.length < 2 ^ 32) :
    HonestOutput (writeEbmlElementBinary id (some v)) (element id v) :=
  honest_of_emits (writeEbmlElementBinary_emits h h0 hv)

/-- C11, date elements. -/
theorem C11_date {id : Nat} {v : Int} (h : id < 2 ^ 64) :
    HonestOutput (writeEbmlDateElement id v) (element id (Spec.twosBytes 8 v)) :=
  honest_of_emits (writeEbmlDateElement_emits h)

/-- C11, master element headers. -/
theorem C11_master {id size : Nat} (h : id < 2 ^ 64) (hs : size + 1 < 2 ^ 56) :
    HonestOutput (writeEbmlMasterElement id size)
      (beBytes (byteWidth id) id ++ vint (sizeWidth size) size) :=
  honest_of_emits (writeEbmlMasterElement_emits h hs)

/-- C11, padding: any failed call is reported as the value 0, i.e. as failure. -/
theorem C11_void {n : Nat} (hn : PaddingSize n) :
    ∃ e, HonestOutput (writeVoidElement n >>= fun _ => pure ()) (element 0xEC (List.replicate e 0)) := by
  obtain ⟨e, -, he⟩ := writeVoidElement_emits hn.1 hn.2.1 hn.2.2
  refine ⟨e, honest_of_emits ?_⟩
  have := he.bind (f := fun _ => pure ()) (Emits.pure ())
  rwa [List.append_nil] at this

example : (writeEbmlElementUInt 0x4286 1 { goodSink with plan := fun i => if i = 2 then some 0 else none }) =
    (.err (-1), { goodSink with
      data := [0x42, 0x86]
      pos := 2
      calls := 3
      plan := fun i => if i = 2 then some 0 else none }) := by rfl

end Verif.Props
