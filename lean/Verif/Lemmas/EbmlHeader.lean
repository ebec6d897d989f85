/-
Writing and reading the file header.
-/
import Verif.Lemmas.HeaderTools
import Verif.Model.EbmlHeader
import Verif.Spec.EbmlHeader

namespace Verif
open Spec

theorem ebml_isId : IsId 4 kMkvEBML ∧ IsId 2 kMkvEBMLVersion ∧ IsId 2 kMkvEBMLReadVersion ∧
    IsId 2 kMkvEBMLMaxIDLength ∧ IsId 2 kMkvEBMLMaxSizeLength ∧ IsId 2 kMkvDocType ∧
    IsId 2 kMkvDocTypeVersion ∧ IsId 2 kMkvDocTypeReadVersion := by
  unfold IsId kMkvEBML kMkvEBMLVersion kMkvEBMLReadVersion kMkvEBMLMaxIDLength kMkvEBMLMaxSizeLength
    kMkvDocType kMkvDocTypeVersion kMkvDocTypeReadVersion
  decide

theorem ebmlHeaderPayload_split (d : Bytes) (v : Nat) : ebmlHeaderPayload d v =
    elements [uintField kMkvEBMLVersion 1] ++ (elements [uintField kMkvEBMLReadVersion 1] ++
    (elements [uintField kMkvEBMLMaxIDLength 4] ++ (elements [uintField kMkvEBMLMaxSizeLength 8] ++
    (elements [(kMkvDocType, d)] ++ (elements [uintField kMkvDocTypeVersion v] ++
    elements [uintField kMkvDocTypeReadVersion 2]))))) := by
  simp only [← Mux.elements_append]
  rfl

theorem ebmlHeaderPayload_len {d : Bytes} {v : Nat} (hv : v < 2 ^ 64) :
    (ebmlHeaderPayload d v).length = Mux.ebmlHeaderSize v (some d) := by
  obtain ⟨-, i1, i2, i3, i4, i5, i6, i7⟩ := ebml_isId
  rw [ebmlHeaderPayload_split]
  simp only [List.length_append]
  rw [Mux.uintField_len i1 (by decide), Mux.uintField_len i2 (by decide), Mux.uintField_len i3 (by decide),
    Mux.uintField_len i4 (by decide), Mux.textField_len i5, Mux.uintField_len i6 hv,
    Mux.uintField_len i7 (by decide)]
  unfold Mux.ebmlHeaderSize
  omega

theorem ebmlHeaderPayload_small {d : Bytes} {v : Nat} (hv : v < 2 ^ 64) (hd : d.length < 2 ^ 32) :
    (ebmlHeaderPayload d v).length + 1 < 2 ^ 56 := by
  obtain ⟨-, -, -, -, -, i5, i6, -⟩ := ebml_isId
  rw [ebmlHeaderPayload_len hv]
  have h1 := Mux.getCodedUIntSize_bounds d.length
  have h2 := Mux.getUIntSize_bounds v
  unfold Mux.ebmlHeaderSize Mux.ebmlElementSizeString Mux.ebmlElementSizeUInt Mux.ebmlElementSizeUIntFixed
  simp only
  rw [(isId_width i5).1, (isId_width i6).1]
  have : ∀ n, n < 9 → Mux.getUIntSize n = 1 := by decide
  rw [this 1 (by decide), this 4 (by decide), this 8 (by decide), this 2 (by decide)]
  rw [if_neg (by decide), if_neg (by decide)]
  have e1 : Mux.getUIntSize kMkvEBMLVersion = 2 := by decide
  have e2 : Mux.getUIntSize kMkvEBMLReadVersion = 2 := by decide
  have e3 : Mux.getUIntSize kMkvEBMLMaxIDLength = 2 := by decide
  have e4 : Mux.getUIntSize kMkvEBMLMaxSizeLength = 2 := by decide
  have e5 : Mux.getUIntSize kMkvDocTypeReadVersion = 2 := by decide
  omega

theorem writeEbmlHeader_emits {d : Bytes} {v : Nat} (hv : v < 2 ^ 64) (hd : d.length < 2 ^ 32) :
    Emits (Mux.writeEbmlHeader v (some d)) () (ebmlHeader d v) := by
  obtain ⟨i0, i1, i2, i3, i4, i5, i6, i7⟩ := ebml_isId
  refine Mux.master_emits (isId_width i0).2 ?_ (ebmlHeaderPayload_len hv) ?_
  · rw [ebmlHeaderPayload_split]
    unfold Mux.ebmlHeaderFields
    exact (Mux.uintField_emits (isId_width i1).2 (by decide)).bind
      ((Mux.uintField_emits (isId_width i2).2 (by decide)).bind
      ((Mux.uintField_emits (isId_width i3).2 (by decide)).bind
      ((Mux.uintField_emits (isId_width i4).2 (by decide)).bind
      ((Mux.textField_emits (isId_width i5).2 hd).bind
      ((Mux.uintField_emits (isId_width i6).2 hv).bind
      (Mux.uintField_emits (isId_width i7).2 (by decide)))))))
  · have := ebmlHeaderPayload_small hv hd
    rwa [ebmlHeaderPayload_len hv] at this

end Verif

namespace Verif.Par
open Verif Spec

theorem uintPayload_lt {v : Nat} (hv : v < 2 ^ 64) : (beBytes (byteWidth v) v).length + 1 < 2 ^ 56 := by
  have := uintField_small v hv
  omega

theorem positiveUInt_at {r : Rdr} {q v : Nat} (hv : v < 2 ^ 63) (h1 : 1 ≤ v)
    (h : At r.data q (beBytes (byteWidth v) v)) :
    positiveUInt r q (beBytes (byteWidth v) v).length = .ok v := by
  unfold positiveUInt
  rw [uintField_unserialize hv h]
  simp only
  rw [if_neg (by omega)]

/-- What the header of a file written by the muxer contains. -/
def writtenHead (d : Bytes) (v : Nat) : EbmlHead :=
  { version := 1, readVersion := 1, maxIdLength := 4, maxSizeLength := 8, docType := some d,
    docTypeVersion := v, docTypeReadVersion := 2 }

theorem ebmlHead_walk {r : Rdr} {p : Nat} {d : Bytes} {v : Nat} (hv : v < 2 ^ 63) (h1 : 1 ≤ v)
    (hd : d ≠ []) (hd2 : d.length ≤ 20000000) (h : At r.data p (ebmlHeaderPayload d v))
    (hmax : p + (ebmlHeaderPayload d v).length ≤ llongMax) :
    walk r (p + (ebmlHeaderPayload d v).length) (ebmlHeadStep r) p {} = .ok (writtenHead d v) := by
  obtain ⟨-, i1, i2, i3, i4, i5, i6, i7⟩ := ebml_isId
  have hdp := List.length_pos_iff.mpr hd
  have lv := uintField_small v (by omega)
  rw [ebmlHeaderPayload_split] at h hmax ⊢
  simp only [uintField, Mux.elements_one] at h hmax ⊢
  obtain ⟨a1, h⟩ := at_append.mp h
  obtain ⟨a2, h⟩ := at_append.mp h
  obtain ⟨a3, h⟩ := at_append.mp h
  obtain ⟨a4, h⟩ := at_append.mp h
  obtain ⟨a5, h⟩ := at_append.mp h
  obtain ⟨a6, a7⟩ := at_append.mp h
  simp only [List.length_append] at hmax ⊢
  rw [walk_step i1 (st' := {}) a1 (uintPayload_lt (by decide)) (by omega) hmax (fun q _ ha => by
      unfold ebmlHeadStep
      rw [if_neg (by have := uintPayload_pos 1; simp only; omega), if_pos rfl,
        positiveUInt_at (by decide) (by decide) ha]; rfl)]
  rw [walk_step i2 (st' := {}) a2 (uintPayload_lt (by decide)) (by omega) hmax (fun q _ ha => by
      unfold ebmlHeadStep
      rw [if_neg (by have := uintPayload_pos 1; simp only; omega), if_neg (by simp only; decide), if_pos rfl,
        positiveUInt_at (by decide) (by decide) ha]; rfl)]
  rw [walk_step i3 (st' := {}) a3 (uintPayload_lt (by decide)) (by omega) hmax (fun q _ ha => by
      unfold ebmlHeadStep
      rw [if_neg (by have := uintPayload_pos 4; simp only; omega), if_neg (by simp only; decide),
        if_neg (by simp only; decide), if_pos rfl, positiveUInt_at (by decide) (by decide) ha]; rfl)]
  rw [walk_step i4 (st' := {}) a4 (uintPayload_lt (by decide)) (by omega) hmax (fun q _ ha => by
      unfold ebmlHeadStep
      rw [if_neg (by have := uintPayload_pos 8; simp only; omega), if_neg (by simp only; decide),
        if_neg (by simp only; decide), if_neg (by simp only; decide), if_pos rfl,
        positiveUInt_at (by decide) (by decide) ha]; rfl)]
  rw [walk_step i5 (st' := { docType := some d }) a5 (by omega) (by omega) hmax (fun q _ ha => by
      unfold ebmlHeadStep
      rw [if_neg (by simp only; omega), if_neg (by simp only; decide), if_neg (by simp only; decide),
        if_neg (by simp only; decide), if_neg (by simp only; decide), if_pos rfl, if_neg (by decide),
        unserializeString_at ha hd2]; rfl)]
  rw [walk_step i6 (st' := { docType := some d, docTypeVersion := v }) a6 (by omega) (by omega) hmax
    (fun q _ ha => by
      unfold ebmlHeadStep
      rw [if_neg (by have := uintPayload_pos v; simp only; omega), if_neg (by simp only; decide),
        if_neg (by simp only; decide), if_neg (by simp only; decide), if_neg (by simp only; decide),
        if_neg (by simp only; decide), if_pos rfl, positiveUInt_at hv h1 ha]; rfl)]
  rw [walk_step i7 (st' := writtenHead d v) a7 (uintPayload_lt (by decide)) (by omega) hmax
    (fun q _ ha => by
      unfold ebmlHeadStep
      rw [if_neg (by have := uintPayload_pos 2; simp only; omega), if_neg (by simp only; decide),
        if_neg (by simp only; decide), if_neg (by simp only; decide), if_neg (by simp only; decide),
        if_neg (by simp only; decide), if_neg (by simp only; decide), if_pos rfl,
        positiveUInt_at (by decide) (by decide) ha]; rfl)]
  exact walk_end (by omega)

/-- Scanning past bytes that cannot start a header. -/
theorem scanByte_at {r : Rdr} : ∀ (n pos k : Nat), k ≤ n → pos + k < r.data.length →
    (∀ i b, pos ≤ i → i < pos + k → r.data[i]? = some b → b ≠ 0x1A) →
    (k < n → r.data[pos + k]? = some 0x1A) → scanByte r pos n = .ok (pos + k)
  | 0, pos, k, hk, _, _, _ => by
    have : k = 0 := by omega
    subst this; rfl
  | n + 1, pos, k, hk, hl, hb, hx => by
    obtain ⟨b, hget⟩ := getElem?_of_lt (show pos < r.data.length by omega)
    unfold scanByte
    rw [byte_ok hget]
    simp only
    cases k with
    | zero =>
      have := hx (by omega)
      rw [Nat.add_zero, hget] at this
      cases this
      rw [if_pos rfl]; rfl
    | succ k =>
      rw [if_neg (hb pos b (by omega) (by omega) hget)]
      rw [scanByte_at n (pos + 1) k (by omega) (by omega) (fun i b h1 h2 => hb i b (by omega) (by omega))
        (fun h => by rw [show pos + 1 + k = pos + (k + 1) by omega]; exact hx (by omega))]
      congr 1; omega

end Verif.Par
