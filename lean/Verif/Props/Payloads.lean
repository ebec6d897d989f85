/-
C54: strings, binary data, floats and dates written by the muxer read back; what the readers
refuse.  C09: `GetUIntLength`.  C13: which frames the muxer refuses.
-/
import Verif.Props.Blocks
import Verif.Lemmas.MuxerCluster

namespace Verif.Props
open Verif Spec Mux Par Web

/-! ### C54 -/

/-- The bit pattern of a finite (not infinite, not NaN) `float`. -/
def FiniteFloat (bits : Nat) : Prop := bits < 2 ^ 32 ∧ bits / 2 ^ 23 % 2 ^ 8 ≠ 255

private theorem stripNul_eq {v : Bytes} (h : v.getLast? ≠ some 0) : stripNul v = v := by
  unfold stripNul
  rw [List.getLast?_eq_head?_reverse] at h
  have : v.reverse.dropWhile (· == 0) = v.reverse := by
    cases hr : v.reverse with
    | nil => rfl
    | cons b bs =>
      rw [hr] at h
      simp only [List.head?_cons, ne_eq, Option.some.injEq] at h
      rw [List.dropWhile_cons_of_neg (by simpa using h)]
  rw [this, List.reverse_reverse]

/-- An element written at the end of the output, as both kinds of reader find it. -/
private theorem element_found {α} {w : W α} {a : α} {n id : Nat} (hid : IsId n id) {payload : Bytes}
    (he : Emits w a (element id payload)) (hsz : payload.length + 1 < 2 ^ 56) {s s' : Sink} (hs : s.AtEnd)
    {a' : α} (hw : w s = (.ok a', s')) (post : Bytes) {r : Rdr} (hr : r.data = s'.data ++ post) {stop : Int}
    (hstop : stop < 0 ∨ s'.data.length ≤ stop) (hmax : s'.data.length ≤ llongMax) :
    ∃ h, parseElementHeader r s.data.length stop = .ok h ∧ h.id = id ∧ h.size = payload.length ∧
      h.pos + h.size = s'.data.length ∧ slice r.data h.pos h.size = payload ∧
      h.pos + h.size ≤ r.data.length ∧
      ∀ {σ : Type} {init : Nat → Except Status σ} {feed : σ → Src → Fed σ} {p p' : σ} {k : Nat},
        init payload.length = .ok p →
        (∀ q, feed p (allAtOnce (payload ++ post) q) = (.okCompleted, p', allAtOnce post (q + payload.length), k)) →
        incElement init feed (allAtOnce (r.data.drop s.data.length)) =
          some (id, p', allAtOnce post (s'.data.length - s.data.length)) := by
  obtain ⟨-, hd, -⟩ := he.success hs hw
  have hr' : r.data = s.data ++ (element id payload ++ post) := by rw [hr, hd, List.append_assoc]
  have hdl : s'.data.length = s.data.length + (element id payload).length := by
    rw [hd, List.length_append]
  obtain ⟨h1, h2, h3⟩ := parseElementHeader_element hid hr' hsz (stop := stop) (by omega) (by omega)
  have hfit : s.data.length + n + sizeWidth payload.length + payload.length ≤ r.data.length := by
    rw [h2, hr, List.length_append]; omega
  refine ⟨_, h1, rfl, rfl, by simp only; omega, h3, hfit, ?_⟩
  intro σ init feed p p' k hi hf
  rw [hr', List.drop_left' rfl, incElement_element hid hsz hi hf, Nat.zero_add, hdl, Nat.add_sub_cancel_left]

/-- A byte or string payload with everything available. -/
private theorem byte_payload (str : Bool) (v post : Bytes) (hv : v.length + 1 < 2 ^ 56) :
    ∃ p p' k, ByteP.init [] v.length = .ok p ∧
      (∀ q, ByteP.feed str p (allAtOnce (v ++ post) q) =
        (.okCompleted, p', allAtOnce post (q + v.length), k)) ∧
      p'.result = if str then stripNul v else v := by
  unfold ByteP.init kUnknownElementSize
  rw [if_neg (by omega)]
  by_cases h0 : v.length = 0
  · have : v = [] := List.eq_nil_of_length_eq_zero h0
    subst this
    rw [if_pos h0]
    refine ⟨_, ⟨0, [], []⟩, 0, rfl, fun q => ?_, ?_⟩
    · unfold ByteP.feed
      rw [if_pos rfl]
      rfl
    · cases str <;> rfl
  · rw [if_neg h0]
    refine ⟨_, ⟨v.length, v, if str then stripNul v else v⟩, v.length, rfl, fun q => ?_, rfl⟩
    rw [ByteP.feed_all _ _ _ _ (by simp; omega)]
    simp only [List.length_nil, Nat.sub_zero, List.nil_append]
    rw [if_pos (by rw [List.length_append]; omega), List.take_left' rfl, List.drop_left' rfl]

/-- C54, strings: a string element without trailing NUL and of at most 20,000,000 bytes is read
back by both parsers exactly. -/
theorem C54_string_round_trip {n id : Nat} {v : Bytes} (hid : IsId n id) (hv : v.length ≤ 20000000)
    (hnul : v.getLast? ≠ some 0) {s s' : Sink}
    (hs : s.AtEnd) (hw : writeEbmlElementString id (some v) s = (.ok (), s')) (post : Bytes) {r : Rdr}
    (hr : r.data = s'.data ++ post) {stop : Int} (hstop : stop < 0 ∨ s'.data.length ≤ stop)
    (hmax : s'.data.length ≤ llongMax) :
    ∃ h, parseElementHeader r s.data.length stop = .ok h ∧ h.id = id ∧
      h.pos + h.size = s'.data.length ∧ unserializeString r h.pos h.size = .ok v ∧
      ∃ p, incElement (ByteP.init []) (ByteP.feed true) (allAtOnce (r.data.drop s.data.length)) =
          some (id, p, allAtOnce post (s'.data.length - s.data.length)) ∧ p.result = v := by
  obtain ⟨-, h64⟩ := isId_width hid
  obtain ⟨h, h1, h2, h3, h4, h5, h6, h7⟩ := element_found hid
    (writeEbmlElementString_emits h64 (by omega)) (by omega) hs hw post hr hstop hmax
  obtain ⟨p, p', k, g1, g2, g3⟩ := byte_payload true v post (by omega)
  refine ⟨h, h1, h2, h4, ?_, p', h7 g1 g2, by rw [g3, if_pos rfl, stripNul_eq hnul]⟩
  unfold unserializeString kStringElementSizeLimit Rdr.read
  rw [if_neg (by omega), Int.toNat_natCast, if_pos (.inr h6), h5]

/-- C54, strings: mkvparser refuses any string element of more than 20,000,000 bytes. -/
theorem C54_string_limit (r : Rdr) (pos : Nat) {size : Int} (h : 20000000 < size) :
    unserializeString r pos size = .err E_FILE_FORMAT_INVALID := by
  unfold unserializeString kStringElementSizeLimit
  rw [if_pos (.inr (by omega))]

/-- C54, binary data: read back exactly (mkvparser reads such payloads with one plain read). -/
theorem C54_binary_round_trip {n id : Nat} {v : Bytes} (hid : IsId n id) (h0 : v ≠ [])
    (hv : v.length < 2 ^ 32) {s s' : Sink}
    (hs : s.AtEnd) (hw : writeEbmlElementBinary id (some v) s = (.ok (), s')) (post : Bytes) {r : Rdr}
    (hr : r.data = s'.data ++ post) {stop : Int} (hstop : stop < 0 ∨ s'.data.length ≤ stop)
    (hmax : s'.data.length ≤ llongMax) :
    ∃ h, parseElementHeader r s.data.length stop = .ok h ∧ h.id = id ∧
      h.pos + h.size = s'.data.length ∧ r.read h.pos h.size = .ok v ∧
      ∃ p, incElement (ByteP.init []) (ByteP.feed false) (allAtOnce (r.data.drop s.data.length)) =
          some (id, p, allAtOnce post (s'.data.length - s.data.length)) ∧ p.result = v := by
  obtain ⟨-, h64⟩ := isId_width hid
  obtain ⟨h, h1, h2, h3, h4, h5, h6, h7⟩ := element_found hid
    (writeEbmlElementBinary_emits h64 h0 hv) (by omega) hs hw post hr hstop hmax
  obtain ⟨p, p', k, g1, g2, g3⟩ := byte_payload false v post (by omega)
  refine ⟨h, h1, h2, h4, ?_, p', h7 g1 g2, by rw [g3]; rfl⟩
  unfold Rdr.read
  rw [if_pos (.inr h6), h5]

private theorem float_bits {bs : Bytes} :
    bs.foldl (fun acc (b : UInt8) => (acc <<< 8) ||| b.toNat) 0 = beVal bs := by
  have := foldl_shift bs 0
  rw [Nat.zero_mul, Nat.zero_add] at this
  rw [← this]
  congr 1
  funext a b
  exact shl8_or a b

/-- C54, floats: a finite value is read back bit for bit by both parsers. -/
theorem C54_float_round_trip {n id bits : Nat} (hid : IsId n id) (hb : FiniteFloat bits) {s s' : Sink}
    (hs : s.AtEnd) (hw : writeEbmlElementFloat id bits s = (.ok (), s')) (post : Bytes) {r : Rdr}
    (hr : r.data = s'.data ++ post) {stop : Int} (hstop : stop < 0 ∨ s'.data.length ≤ stop)
    (hmax : s'.data.length ≤ llongMax) :
    ∃ h, parseElementHeader r s.data.length stop = .ok h ∧ h.id = id ∧
      h.pos + h.size = s'.data.length ∧ unserializeFloat r h.pos h.size = .ok (bits, 4) ∧
      ∃ p, incElement FloatP.init FloatP.feed (allAtOnce (r.data.drop s.data.length)) =
          some (id, p, allAtOnce post (s'.data.length - s.data.length)) ∧ p.value = some (4, bits) := by
  obtain ⟨-, h64⟩ := isId_width hid
  obtain ⟨hb1, hb2⟩ := hb
  obtain ⟨h, h1, h2, h3, h4, h5, h6, h7⟩ := element_found hid
    (writeEbmlElementFloat_emits h64) (by rw [beBytes_length]; omega) hs hw post hr hstop hmax
  have hval : beVal (beBytes 4 bits) = bits := by rw [beVal_beBytes, Nat.mod_eq_of_lt (by omega)]
  rw [beBytes_length] at h3
  refine ⟨h, h1, h2, h4, ?_, ⟨0, true, bits, some (4, bits)⟩, h7 (k := 4) (p := ⟨4, true, 0, none⟩) ?_ ?_, rfl⟩
  · unfold unserializeFloat Rdr.read
    rw [if_neg (by omega), Int.toNat_natCast, Int.toNat_natCast, if_pos (.inr h6), h5]
    simp only [float_bits, hval]
    rw [if_pos (by omega), if_neg hb2]
  · rw [beBytes_length]; rfl
  · intro q
    unfold FloatP.feed
    rw [if_neg (by decide)]
    simp only [accumulate64_eq (show 4 ≤ 8 by decide)]
    have hl : (beBytes 4 bits).length = 4 := beBytes_length _ _
    rw [accumLoop_value (by rw [List.length_append]; omega)
      (by rw [List.take_left' hl, hval]; omega), List.take_left' hl, List.drop_left' hl, hval]
    simp only [Nat.zero_mul, Nat.zero_add, Nat.sub_self, if_true, hl]
    rw [Nat.mod_eq_of_lt hb1]

/-- C54, floats: mkvparser refuses infinities and NaNs of either width, and every other width. -/
theorem C54_float_refused {r : Rdr} {pos size : Int} {bits : Nat} {w : Nat}
    (h : unserializeFloat r pos size = .ok (bits, w)) :
    (w = 4 ∧ size = 4 ∧ FiniteFloat bits) ∨
      (w = 8 ∧ size = 8 ∧ bits < 2 ^ 64 ∧ bits / 2 ^ 52 % 2 ^ 11 ≠ 2047) := by
  unfold unserializeFloat Rdr.read at h
  split at h
  · cases h
  rename_i h1
  have hs : size = 4 ∨ size = 8 := by omega
  split at h
  · split at h <;> cases h
  rename_i buf hbuf
  have hlen : buf.length ≤ size.toNat := by
    split at hbuf
    · cases hbuf; rw [slice_length]; omega
    · cases hbuf
  have hlt := beVal_lt buf
  have hle : 256 ^ buf.length ≤ 256 ^ size.toNat := Nat.pow_le_pow_right (by decide) hlen
  simp only [float_bits] at h
  rcases hs with rfl | rfl
  · rw [if_pos rfl] at h
    split at h
    · cases h
    · rename_i hf
      cases h
      refine .inl ⟨rfl, rfl, ?_, hf⟩
      have : (256 : Nat) ^ (4 : Int).toNat = 2 ^ 32 := by decide
      omega
  · rw [if_neg (by decide)] at h
    split at h
    · cases h
    · rename_i hf
      cases h
      refine .inr ⟨rfl, rfl, ?_, hf⟩
      have : (256 : Nat) ^ (8 : Int).toNat = 2 ^ 64 := by decide
      omega

private theorem toI64_twosVal {bs : Bytes} (h : bs.length = 8) : toI64 (beVal bs) = twosVal bs := by
  have hlt := beVal_lt bs
  unfold twosVal toI64
  rw [h] at hlt ⊢
  generalize beVal bs = x at hlt
  have e : (256 : Nat) ^ 8 = 2 ^ 64 := by decide
  rw [e] at hlt
  rw [Nat.mod_eq_of_lt hlt]

/-- C54, dates: read back by the incremental parser (mkvparser does not read dates). -/
theorem C54_date_round_trip {n id : Nat} {v : Int} (hid : IsId n id) (hlo : -2 ^ 63 ≤ v) (hhi : v < 2 ^ 63)
    {s s' : Sink} (hs : s.AtEnd) (hw : writeEbmlDateElement id v s = (.ok (), s')) (post : Bytes) {r : Rdr}
    (hr : r.data = s'.data ++ post) {stop : Int} (hstop : stop < 0 ∨ s'.data.length ≤ stop)
    (hmax : s'.data.length ≤ llongMax) :
    ∃ h, parseElementHeader r s.data.length stop = .ok h ∧ h.id = id ∧
      h.pos + h.size = s'.data.length ∧
      ∃ p, incElement (DateP.init 0) DateP.feed (allAtOnce (r.data.drop s.data.length)) =
          some (id, p, allAtOnce post (s'.data.length - s.data.length)) ∧ toI64 p.value = v := by
  obtain ⟨-, h64⟩ := isId_width hid
  have hl : (twosBytes 8 v).length = 8 := Web.twosBytes_length _ _
  obtain ⟨h, h1, h2, h3, h4, h5, h6, h7⟩ := element_found hid
    (writeEbmlDateElement_emits h64) (by omega) hs hw post hr hstop hmax
  have hfit : FitsSigned 8 v := by unfold FitsSigned; omega
  have hval := twosVal_twosBytes (n := 8) (by decide) hfit
  refine ⟨h, h1, h2, h4, ⟨0, beVal (twosBytes 8 v)⟩, h7 (k := 8) (p := ⟨8, 0⟩) (by rw [hl]; rfl) ?_, ?_⟩
  · intro q
    unfold DateP.feed
    have hlt := beVal_lt (twosBytes 8 v)
    rw [hl, show (256 : Nat) ^ 8 = 2 ^ 64 by decide] at hlt
    simp only [accumulate64_eq (show 8 ≤ 8 by decide)]
    rw [accumLoop_value (by rw [List.length_append]; omega)
      (by rw [List.take_left' hl]; omega), List.take_left' hl, List.drop_left' hl]
    simp [hl]
  · exact (toI64_twosVal hl).trans hval

/-- C54: an integer payload of no bytes or of more than eight is refused by mkvparser's readers,
and so is one that is not completely available: no value is made up.  (Except for the case of
`C54_missing_byte_read`.) -/
theorem C54_integer_refused_partial (r : Rdr) {pos size : Int} :
    (size < 1 ∨ 8 < size →
      unserializeUInt r pos size = .err E_FILE_FORMAT_INVALID ∧
      unserializeInt r pos size = .err E_FILE_FORMAT_INVALID) ∧
    (r.data.length < pos + size → ∀ v, unserializeUInt r pos size ≠ .ok v ∧
      (r.short < 0 ∨ 2 ≤ size → unserializeInt r pos size ≠ .ok v)) := by
  refine ⟨fun h => ⟨?_, ?_⟩, fun h v => ⟨?_, fun hsh => ?_⟩⟩
  · unfold unserializeUInt; rw [if_pos (by omega)]
  · unfold unserializeInt; rw [if_pos (by omega)]
  · have key : ∀ n acc p v, r.data.length < p + n → unserializeUIntLoop r acc p n ≠ .ok v ∨ n = 0 := by
      intro n
      induction n with
      | zero => intro _ _ _ _; exact .inr rfl
      | succ n ih =>
        intro acc p v hp
        left
        unfold unserializeUIntLoop
        split
        · split <;> exact fun h => (nomatch h)
        · rename_i b hb
          rcases ih ((acc <<< 8) ||| b.toNat) (p + 1) v (by omega) with h | h
          · exact h
          · subst h
            unfold Rdr.byte at hb
            split at hb
            · rename_i hs
              have := (List.getElem?_eq_some_iff.mp hs).1
              omega
            · cases hb
    unfold unserializeUInt
    split
    · exact fun h => (nomatch h)
    · rename_i hc
      split
      · rename_i x hx
        rcases key size.toNat 0 pos.toNat x (by omega) with h' | h'
        · exact absurd hx h'
        · omega
      · exact fun h => (nomatch h)
      · exact fun h => (nomatch h)
  · have key : ∀ n acc p v, r.data.length < p + n → unserializeUIntLoop r acc p n ≠ .ok v ∨ n = 0 := by
      intro n
      induction n with
      | zero => intro _ _ _ _; exact .inr rfl
      | succ n ih =>
        intro acc p v hp
        left
        unfold unserializeUIntLoop
        split
        · split <;> exact fun h => (nomatch h)
        · rename_i b hb
          rcases ih ((acc <<< 8) ||| b.toNat) (p + 1) v (by omega) with h | h
          · exact h
          · subst h
            unfold Rdr.byte at hb
            split at hb
            · rename_i hs
              have := (List.getElem?_eq_some_iff.mp hs).1
              omega
            · cases hb
    unfold unserializeInt
    split
    · exact fun h => (nomatch h)
    · rename_i hc
      split
      · rename_i status hb
        have hst : status = r.short := by
          unfold Rdr.byte at hb
          split at hb <;> cases hb
          rfl
        split
        · exact fun h => (nomatch h)
        · split
          · rename_i x hx
            rcases key (size.toNat - 1) _ (pos.toNat + 1) x (by omega) with h' | h'
            · exact absurd hx h'
            · omega
          · exact fun h => (nomatch h)
          · exact fun h => (nomatch h)
      · rename_i b hb
        simp only
        split
        · rename_i x hx
          rcases key (size.toNat - 1) _ (pos.toNat + 1) x (by omega) with h' | h'
          · exact absurd hx h'
          · unfold Rdr.byte at hb
            split at hb
            · rename_i hs
              have := (List.getElem?_eq_some_iff.mp hs).1
              omega
            · cases hb
        · exact fun h => (nomatch h)
        · exact fun h => (nomatch h)

/-- **A signed number of one byte that is not there is read as 0** if the reader says so with a positive number. -/
theorem C54_missing_byte_read : unserializeInt { data := [], short := 1 } 0 1 = .ok 0 := by decide

example : FiniteFloat 0x472C4400 := by unfold FiniteFloat; decide  -- 44100.0
example : unserializeFloat { data := [0x47, 0x2C, 0x44, 0x00] } 0 4 = .ok (0x472C4400, 4) := by decide
example : unserializeFloat { data := [0x7F, 0x80, 0, 0] } 0 4 = .err E_FILE_FORMAT_INVALID := by decide
example : ([0x56, 0x5F, 0x56, 0x50, 0x39] : Bytes).getLast? ≠ some 0 := by decide

/-! ### C09: the length of a size field -/

/-- C09: `GetUIntLength` agrees with reading the field: when the whole field is available it
succeeds with the width the reader finds; with no byte available at the position it says so (by
returning the position), and it never claims success there. -/
theorem C09_length_agrees (r : Rdr) (p : Nat) (ht : r.total < 0 ∨ (r.data.length : Int) ≤ r.total) :
    (∀ v n, readUInt r p = .ok (v, n) → getUIntLength r p = .ok (0, n)) ∧
    (r.data.length ≤ p → getUIntLength r p = .ok (p, 1)) ∧
    (∀ n, 0 < p → getUIntLength r p = .ok (0, n) → p < r.data.length ∧ 1 ≤ n ∧ n ≤ 8) := by
  refine ⟨fun v n h => ?_, fun h => ?_, fun n hp h => ?_⟩
  · unfold readUInt at h
    rw [if_neg (by omega), Int.toNat_natCast] at h
    unfold getUIntLength
    rw [if_neg (by omega), if_neg (by omega), Int.toNat_natCast]
    cases hb : r.data[p]? with
    | none =>
      rw [byte_short (List.getElem?_eq_none_iff.mp hb)] at h
      simp only at h
      split at h <;> cases h
    | some b =>
      have := (List.getElem?_eq_some_iff.mp hb).1
      rw [if_neg (by omega), byte_ok hb]
      rw [byte_ok hb] at h
      simp only at h ⊢
      split at h
      · cases h
      · rename_i h0
        rw [if_neg h0]
        split at h
        · cases h; rfl
        · cases h
        · cases h
  · unfold getUIntLength
    rw [if_neg (by omega), if_neg (by omega), if_pos (by omega)]
  · unfold getUIntLength at h
    rw [if_neg (by omega), if_neg (by omega), Int.toNat_natCast] at h
    split at h
    · simp only [Res.ok.injEq, Prod.mk.injEq] at h; omega
    · rename_i hlt
      refine ⟨by omega, ?_⟩
      split at h
      · cases h
      · rename_i b hb
        split at h
        · cases h
        · rename_i h0
          obtain ⟨c1, c2⟩ := clz_facts b h0
          simp only [Res.ok.injEq, Prod.mk.injEq, true_and] at h
          omega

example : getUIntLength { data := [0x40, 0x02] } 0 = .ok (0, 2) ∧
    getUIntLength { data := [0x40, 0x02] } 2 = .ok (2, 1) := by decide

/-! ### C11, C13: refusals -/

/-- C11: asked for a width outside 1 to 8, `SerializeInt` fails and writes nothing. -/
theorem C11_width_refused (v size : Int) (h : size < 1 ∨ 8 < size) (s : Sink) :
    serializeInt v size s = (.err (-1), s) := by
  unfold serializeInt
  rw [if_pos (by omega)]
  rfl

/-- C13: the muxer refuses a frame, writing nothing, unless it has data, its additional data (if
any) is not empty, its track number is between 1 and 126, and, if it cannot be a SimpleBlock, it
is a key frame or refers to another block. -/
theorem C13_bad_frame_refused {f : Frame} {ctc scale : Nat}
    (h : f.frame = [] ∨ f.additional = some [] ∨ f.trackNumber = 0 ∨ 126 < f.trackNumber ∨ scale = 0 ∨
      ((f.additional ≠ none ∨ f.discardPadding ≠ 0 ∨ f.duration ≠ 0) ∧ f.isKey = false ∧
        f.referenceBlockTimestampSet = false)) (s : Sink) :
    writeFrame f ctc scale s = (.err 0, s) := by
  unfold writeFrame
  by_cases h0 : scale = 0
  · rw [if_pos (.inr h0)]; rfl
  have hv : f.isValid = false := by
    unfold Frame.isValid kMaxTrackNumber
    rcases h with h | h | h | h | h | ⟨h1, h2, h3⟩
    · rw [if_pos (by rw [h]; rfl)]
    · rw [if_pos h]; split <;> rfl
    · split; rfl; split; rfl; rw [if_pos (.inl h)]
    · split; rfl; split; rfl; rw [if_pos (.inr h)]
    · exact absurd h h0
    · split; rfl; split; rfl; split; rfl
      have : f.canBeSimpleBlock = false := by
        unfold Frame.canBeSimpleBlock
        rcases h1 with h1 | h1 | h1
        · cases ha : f.additional with
          | none => exact absurd ha h1
          | some _ => rfl
        · simp [h1]
        · simp [h1]
      rw [this, h2, h3]; rfl
  rw [if_pos (.inl (by rw [hv]; rfl))]
  rfl

/-- C13, the other direction: any other frame (its block below 2 GiB), at most `32767` ticks
after the cluster's start, is accepted and written when no output call fails. -/
theorem C13_good_frame_written {f : Frame} {ctc scale : Nat} (h1 : f.frame ≠ []) (h2 : f.additional ≠ some [])
    (h3 : 1 ≤ f.trackNumber) (h4 : f.trackNumber ≤ 126) (h5 : 0 < scale)
    (h6 : f.additional = none ∧ f.discardPadding = 0 ∧ f.duration = 0 ∨ f.isKey = true ∨
      f.referenceBlockTimestampSet = true)
    (h7 : f.frame.length + 4 < 2 ^ 31) (h8 : ∀ a, f.additional = some a → a.length < 2 ^ 32)
    (ht : f.timestamp / scale < 2 ^ 63)
    (hlo : ctc ≤ f.timestamp / scale) (hhi : f.timestamp / scale ≤ ctc + 32767)
    {s : Sink} (hs : s.AtEnd) (hp : ∀ i, s.plan i = none) :
    ∃ n s', writeFrame f ctc scale s = (.ok n, s') ∧ s'.data.length = s.data.length + n ∧ 0 < n := by
  have hv : f.isValid = true := by
    unfold Frame.isValid kMaxTrackNumber
    rw [if_neg (fun e => h1 (List.eq_nil_of_length_eq_zero e)), if_neg h2, if_neg (by omega)]
    split
    · rename_i h
      unfold Frame.canBeSimpleBlock at h
      rcases h6 with ⟨a, b, c⟩ | a | a
      · simp [a, b, c] at h
      · simp [a] at h
      · simp [a] at h
    · rfl
  have he := writeFrame_emits (tc := ctc) (scale := scale) hv ⟨h7, h8⟩ (by omega) ht ⟨h5, hlo, hhi⟩
  rcases he.cases hs with ⟨s', w1, w2⟩ | ⟨e, s', w1, w2⟩
  · refine ⟨_, s', w1, by rw [w2.data, List.length_append], ?_⟩
    unfold frameBytes
    split
    · rw [element_length _ (by decide)]; exact Nat.lt_of_lt_of_le (by decide : 0 < 1) (by
        have := (getUIntSize_bounds 0xA3).1; omega)
    · rw [element_length _ (by decide)]; exact Nat.lt_of_lt_of_le (by decide : 0 < 1) (by
        have := (getUIntSize_bounds 0xA0).1; omega)
  · obtain ⟨i, -, -, hi⟩ := w2.cause
    exact absurd (hp i) hi

end Verif.Props
