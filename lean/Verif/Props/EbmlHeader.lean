/-
C25: the header of the file.
-/
import Verif.Props.Ebml
import Verif.Lemmas.EbmlHeader

namespace Verif.Props
open Verif Spec

/-- C25, writing.  The header is written with the declared size equal to the bytes that follow, and
a failing output is reported.  (A document type is a C string shorter than `2^32`.) -/
theorem C25_write {d : Bytes} {v : Nat} (hv : v < 2 ^ 64) (hd : d.length < 2 ^ 32) :
    HonestOutput (Mux.writeEbmlHeader v (some d)) (ebmlHeader d v) :=
  honest_of_emits (writeEbmlHeader_emits hv hd)

private theorem headerBytes (d : Bytes) (v : Nat) : ∃ rest, ebmlHeader d v = 0x1A :: 0x45 :: 0xDF :: 0xA3 :: rest ∧
    rest = vint (sizeWidth (ebmlHeaderPayload d v).length) (ebmlHeaderPayload d v).length ++
      ebmlHeaderPayload d v := by
  have hb : byteWidth 0x1A45DFA3 = 4 := by decide +kernel
  refine ⟨_, ?_, rfl⟩
  unfold ebmlHeader element
  rw [hb]
  rfl

/-- C25, reading.  The written header is at offset `k < 1024` of a file, and no byte before it is
the first byte of an EBML header (at the start of the file there is none).  The parser accepts it,
stops behind it, and reports the document type and the versions that were written. -/
theorem C25_round_trip {r : Par.Rdr} {d : Bytes} {v : Nat} {pre post : Bytes} (hv : v < 2 ^ 63) (h1 : 1 ≤ v)
    (hd : d ≠ []) (hd2 : d.length ≤ 20000000) (hdata : r.data = pre ++ (ebmlHeader d v ++ post))
    (hpre : pre.length < 1024) (hno : ∀ b ∈ pre, b ≠ 0x1A)
    (htotal : r.total < 0 ∨ r.total = r.data.length) (hmax : r.data.length ≤ llongMax) :
    Par.ebmlHeadParse r = .ok (.done (pre.length + (ebmlHeader d v).length)
      { version := 1, readVersion := 1, maxIdLength := 4, maxSizeLength := 8, docType := some d,
        docTypeVersion := v, docTypeReadVersion := 2 }) := by
  obtain ⟨rest, hrest, hrest2⟩ := headerBytes d v
  have i0 := ebml_isId.1
  have hat : At r.data pre.length (element kMkvEBML (ebmlHeaderPayload d v)) :=
    At.of_eq (post := post) hdata
  have hsmall := ebmlHeaderPayload_small (d := d) (v := v) (by omega) (by omega)
  have hlen := Par.element_length_id i0 (ebmlHeaderPayload d v)
  have hfit := hat.le (Par.element_ne_nil _ _)
  have hfirst : r.data[pre.length]? = some 0x1A := by
    rw [hdata, List.getElem?_append_right (by omega), hrest]; simp
  have hlp : pre.length < r.data.length := by omega
  unfold Par.ebmlHeadParse
  rw [show Par.scanByte r 0 (min 1024 r.data.length) = .ok (0 + pre.length) from
    Par.scanByte_at _ 0 pre.length (by omega) (by omega) (fun i b _ hi hb => by
      rw [hdata, List.getElem?_append_left (by omega)] at hb
      exact hno b (List.mem_of_getElem? hb)) (fun _ => by rw [Nat.zero_add]; exact hfirst)]
  simp only [Nat.zero_add]
  rw [Par.readID_at i0 hat]
  simp only
  rw [if_neg (by simp)]
  unfold Par.ebmlHeadSize
  obtain ⟨w1, w8, wv⟩ := Par.sizeWidth_bounds hsmall
  have hsz := Par.readSize_at i0 hat hsmall
  obtain ⟨b, t, hvt⟩ : ∃ b t, vint (sizeWidth (ebmlHeaderPayload d v).length) (ebmlHeaderPayload d v).length = b :: t := by
    cases hx : vint (sizeWidth (ebmlHeaderPayload d v).length) (ebmlHeaderPayload d v).length with
    | nil => have := congrArg List.length hx; rw [Par.vint_length] at this; simp at this; omega
    | cons b t => exact ⟨b, t, rfl⟩
  obtain ⟨hb0, hbm⟩ := Par.vint_first w1 w8 wv hvt
  have hgetb : r.data[pre.length + 4]? = some b := by
    have := Par.at_size i0 hat
    rw [hvt] at this
    have h2 : At r.data (pre.length + 4) (b :: t) := by
      unfold At
      rw [show (b :: t).length = sizeWidth (ebmlHeaderPayload d v).length by rw [← hvt, Par.vint_length]]
      exact this
    exact (at_cons.mp h2).1
  have hgl : Par.getUIntLength r ((pre.length + 4 : Nat) : Int) =
      .ok (0, sizeWidth (ebmlHeaderPayload d v).length) := by
    unfold Par.getUIntLength
    rw [if_neg (by omega), if_neg (by omega), if_neg (by omega), Int.toNat_natCast, Par.byte_ok hgetb]
    simp only
    rw [if_neg hb0, hbm]
  rw [hgl]
  simp only
  rw [if_neg (by omega), if_neg (by omega), if_neg (by omega), if_neg (by omega), hsz]
  simp only
  unfold Par.ebmlHeadPayload
  rw [if_neg (by omega), if_neg (by omega), Par.ebmlHead_walk hv h1 hd hd2 (Par.at_payload i0 hat) (by omega)]
  simp only
  rw [if_pos (by
    unfold Par.ebmlHeadCheck Par.writtenHead
    simp only [Option.isSome_some, Bool.true_and, Bool.and_eq_true, decide_eq_true_eq]
    omega)]
  have hl : (ebmlHeader d v).length = 4 + sizeWidth (ebmlHeaderPayload d v).length +
      (ebmlHeaderPayload d v).length := hlen
  rw [hl, show pre.length + (4 + sizeWidth (ebmlHeaderPayload d v).length + (ebmlHeaderPayload d v).length) =
    pre.length + 4 + sizeWidth (ebmlHeaderPayload d v).length + (ebmlHeaderPayload d v).length by omega]
  rfl

/-- C25, incomplete data.  As long as the header is not completely available, the parser asks for
more: it answers "buffer not full", or a position that is beyond the available data and not beyond
the header. -/
theorem C25_incomplete {r : Par.Rdr} {d : Bytes} {v k : Nat} (hv : v < 2 ^ 64) (hd2 : d.length < 2 ^ 32)
    (hdata : r.data = (ebmlHeader d v).take k) (hk : k < (ebmlHeader d v).length) (hshort : 0 < r.short)
    (htotal : r.total < 0 ∨ (ebmlHeader d v).length ≤ r.total) :
    Par.ebmlHeadParse r = .err Par.E_BUFFER_NOT_FULL ∨
    ∃ n, Par.ebmlHeadParse r = .ok (.need n) ∧ k < n ∧ n ≤ (ebmlHeader d v).length := by
  obtain ⟨rest, hrest, hrest2⟩ := headerBytes d v
  have i0 := ebml_isId.1
  have hsmall := ebmlHeaderPayload_small (d := d) (v := v) hv hd2
  have hlen : (ebmlHeader d v).length = 4 + sizeWidth (ebmlHeaderPayload d v).length + (ebmlHeaderPayload d v).length :=
    Par.element_length_id i0 (ebmlHeaderPayload d v)
  obtain ⟨w1, w8, wv⟩ := Par.sizeWidth_bounds hsmall
  have hdl : r.data.length = k := by rw [hdata, List.length_take]; omega
  unfold Par.ebmlHeadParse
  rcases Nat.lt_or_ge k 4 with hk4 | hk4
  · left
    rcases Nat.eq_zero_or_pos k with h0 | h0
    · subst h0
      have hd3 : r.data = [] := List.length_eq_zero_iff.mp hdl
      simp [Par.scanByte, Par.readID, Par.Rdr.byte, hd3, Int.not_lt.mpr (Int.le_of_lt hshort)]
    · have hfirst : r.data[0]? = some 0x1A := by
        rw [hdata, List.getElem?_take_of_lt h0, hrest]; rfl
      rw [show Par.scanByte r 0 (min 1024 r.data.length) = .ok (0 + 0) from
        Par.scanByte_at _ 0 0 (by omega) (by omega) (fun i b _ hi => by omega) (fun _ => hfirst)]
      simp only
      rw [show ((0 + 0 : Nat) : Int) = ((0 : Nat) : Int) from rfl,
        Par.readID_eq (k := 3) hfirst (by decide), if_neg (by omega)]
      have : Par.shortID r = Par.E_BUFFER_NOT_FULL := by
        unfold Par.shortID; rw [if_neg (by omega)]
      simp only
      rw [this, if_pos rfl]
  · have hpf : ∀ i, i < k → r.data[i]? = (ebmlHeader d v)[i]? := by
      intro i hi
      rw [hdata, List.getElem?_take_of_lt hi]
    have hscan : Par.scanByte r 0 (min 1024 r.data.length) = .ok (0 + 0) :=
      Par.scanByte_at _ 0 0 (by omega) (by omega) (fun i b _ hi => by omega) (fun _ => by
        rw [hpf _ (by omega), hrest]; rfl)
    have hat : At r.data 0 (beBytes 4 kMkvEBML) := by
      show slice r.data 0 4 = _
      unfold slice
      rw [List.drop_zero, hdata, List.take_take, Nat.min_eq_left hk4, hrest]
      rfl
    rw [hscan]
    simp only
    rw [show ((0 + 0 : Nat) : Int) = ((0 : Nat) : Int) from rfl,
      Par.readID_of_slice i0 (hat.slice_eq (beBytes_length _ _))]
    simp only
    rw [if_neg (by simp)]
    unfold Par.ebmlHeadSize
    obtain ⟨b, t, hvt⟩ : ∃ b t, vint (sizeWidth (ebmlHeaderPayload d v).length) (ebmlHeaderPayload d v).length = b :: t := by
      cases hx : vint (sizeWidth (ebmlHeaderPayload d v).length) (ebmlHeaderPayload d v).length with
      | nil => have := congrArg List.length hx; rw [Par.vint_length] at this; simp at this; omega
      | cons b t => exact ⟨b, t, rfl⟩
    obtain ⟨hb0, hbm⟩ := Par.vint_first w1 w8 wv hvt
    rcases Nat.lt_or_ge 4 k with h5 | h5
    · right
      have hgetb : r.data[4]? = some b := by
        rw [hpf 4 h5, hrest, hrest2, hvt]; rfl
      have hgl : Par.getUIntLength r ((0 + 0 + 4 : Nat) : Int) =
          .ok (0, sizeWidth (ebmlHeaderPayload d v).length) := by
        unfold Par.getUIntLength
        rw [if_neg (by omega), if_neg (by omega), if_neg (by omega), Int.toNat_natCast, Par.byte_ok hgetb]
        simp only
        rw [if_neg hb0, hbm]
      rw [hgl]
      simp only
      rw [if_neg (by omega), if_neg (by omega), if_neg (by omega)]
      by_cases hsz : k < 4 + sizeWidth (ebmlHeaderPayload d v).length
      · rw [if_pos (by omega)]
        exact ⟨_, rfl, by omega, by omega⟩
      · have hsl : slice r.data (0 + 0 + 4) (sizeWidth (ebmlHeaderPayload d v).length) =
            vint (sizeWidth (ebmlHeaderPayload d v).length) (ebmlHeaderPayload d v).length := by
          unfold slice
          rw [hdata, List.drop_take, List.take_take, Nat.min_eq_left (by omega), hrest, hrest2]
          show List.take _ (_ ++ _) = _
          rw [List.take_left' (Par.vint_length _ _)]
        rw [if_neg (by omega), Par.readUInt_of_slice w1 w8 wv hsl]
        simp only
        unfold Par.ebmlHeadPayload
        rw [if_neg (by omega), if_pos (by omega)]
        exact ⟨_, rfl, by omega, by omega⟩
    · left
      have hgl : Par.getUIntLength r ((0 + 0 + 4 : Nat) : Int) = .ok (4, 1) := by
        unfold Par.getUIntLength
        rw [if_neg (by omega), if_neg (by omega), if_pos (by omega)]
        rfl
      rw [hgl]
      simp only
      rw [if_pos (by decide)]

/-- An empty document type is written but not accepted. -/
theorem C25_empty_doc_type : Par.ebmlHeadParse { data := ebmlHeader [] 4 } = .err Par.E_FILE_FORMAT_INVALID := by
  decide +kernel

/-- Versions outside the stated range are written but not accepted. -/
theorem C25_unreadable_versions :
    Par.ebmlHeadParse { data := ebmlHeader [119, 101, 98, 109] 0 } = .err Par.E_FILE_FORMAT_INVALID ∧
    Par.ebmlHeadParse { data := ebmlHeader [119, 101, 98, 109] (2 ^ 63) } = .err Par.E_FILE_FORMAT_INVALID := by
  constructor <;> decide +kernel

/-- "webm", version 4: the header the muxer writes by default. -/
example : ebmlHeader [119, 101, 98, 109] 4 =
    [0x1A, 0x45, 0xDF, 0xA3, 0x9F, 0x42, 0x86, 0x81, 1, 0x42, 0xF7, 0x81, 1, 0x42, 0xF2, 0x81, 4, 0x42, 0xF3, 0x81, 8,
     0x42, 0x82, 0x84, 119, 101, 98, 109, 0x42, 0x87, 0x81, 4, 0x42, 0x85, 0x81, 2] := by decide +kernel

example : Par.ebmlHeadParse { data := [0, 7] ++ ebmlHeader [119, 101, 98, 109] 4 ++ [0x18, 0x53] } =
    .ok (.done 38 ⟨1, 1, 4, 8, some [119, 101, 98, 109], 4, 2⟩) := by decide +kernel

end Verif.Props
