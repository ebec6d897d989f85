/-
Tools for header elements: text fields, and walking over a fixed list of fields.
-/
import Verif.Lemmas.ParserCues

namespace Verif.Mux
open Verif Spec

theorem textField_emits {id : Nat} {v : Bytes} (h : id < 2 ^ 64) (hv : v.length < 2 ^ 32) :
    Emits (writeEbmlElementString id (some v)) () (elements [(id, v)]) := by
  rw [elements_one]
  exact writeEbmlElementString_emits h hv

theorem textField_len {n id : Nat} (hid : IsId n id) (v : Bytes) :
    (elements [(id, v)]).length = ebmlElementSizeString id (some v) := by
  rw [elements_one, element_length _ (isId_width hid).2]
  unfold ebmlElementSizeString
  simp only
  omega

end Verif.Mux

namespace Verif.Par
open Verif Spec Mux

theorem walk_end {σ : Type} {r : Rdr} {stop : Nat} {step : Nat → Hdr → σ → Res σ} {pos : Nat}
    {st : σ} (h : pos = stop) : walk r stop step pos st = .ok st := by
  rw [walk_unfold, if_neg (by omega), if_pos h]

/-- One good element is consumed by one step. -/
theorem walk_step {σ : Type} {n id : Nat} (hid : IsId n id) {r : Rdr} {p stop : Nat} {payload : Bytes}
    {step : Nat → Hdr → σ → Res σ} {st st' : σ}
    (h : At r.data p (element id payload)) (hsz : payload.length + 1 < 2 ^ 56)
    (hstop : p + (element id payload).length ≤ stop) (hmax : stop ≤ llongMax)
    (hst : ∀ q, q = p + n + sizeWidth payload.length → At r.data q payload →
      step p ⟨q, id, payload.length⟩ st = .ok st') :
    walk r stop step p st = walk r stop step (p + (element id payload).length) st' := by
  have hl := element_length_id hid payload
  have hpos := List.length_pos_iff.mpr (element_ne_nil id payload)
  rw [walk_unfold, if_pos (by omega), parseElementHeader_at hid h hsz hstop hmax]
  simp only
  rw [hst _ rfl (at_payload hid h)]
  simp only
  rw [if_neg (by omega), hl]
  congr 1; omega

theorem unserializeString_at {r : Rdr} {p : Nat} {v : Bytes} (h : At r.data p v)
    (hv : v.length ≤ 20000000) : unserializeString r p v.length = .ok v := by
  unfold unserializeString
  rw [if_neg (by unfold kStringElementSizeLimit; omega)]
  unfold Rdr.read
  rw [show ((v.length : Int)).toNat = v.length from rfl]
  have hs := h.slice_eq rfl
  by_cases h0 : v = []
  · subst h0
    simp [slice]
  · rw [if_pos (Or.inr (h.le h0)), hs]

theorem uintPayload_pos (v : Nat) : 0 < (beBytes (byteWidth v) v).length := by
  rw [beBytes_length, byteWidth.eq_1]
  split <;> omega

end Verif.Par
