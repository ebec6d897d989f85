/-
Walking over a sequence of elements.
-/
import Verif.Lemmas.Element
import Verif.Lemmas.Scalars
import Verif.Model.ParserWalk
import Verif.Spec.Tree

namespace Verif.Par
open Verif Spec Mux

theorem At.split {d : Bytes} {p : Nat} {bs : Bytes} (h : At d p bs) (h0 : bs ≠ []) :
    ∃ pre post, d = pre ++ (bs ++ post) ∧ pre.length = p := by
  have hl := h.le h0
  refine ⟨d.take p, d.drop (p + bs.length), ?_, ?_⟩
  · have h2 : slice d p bs.length = bs := h
    unfold slice at h2
    have h3 : d.drop p = bs ++ d.drop (p + bs.length) := by
      calc d.drop p = (d.drop p).take bs.length ++ (d.drop p).drop bs.length := (List.take_append_drop _ _).symm
        _ = _ := by rw [h2, List.drop_drop]
    rw [← h3, List.take_append_drop]
  · rw [List.length_take]; omega

theorem element_ne_nil (id : Nat) (p : Bytes) : element id p ≠ [] := by
  have hb := getCodedUIntSize_bounds p.length
  rw [getCodedUIntSize_eq] at hb
  intro h
  have := congrArg List.length h
  simp [element, vint_length] at this
  omega

theorem element_length_id {n id : Nat} (hid : IsId n id) (p : Bytes) :
    (element id p).length = n + sizeWidth p.length + p.length := by
  obtain ⟨hw, h64⟩ := isId_width hid
  rw [element_length id h64, hw, getCodedUIntSize_eq]

/-- Where the payload of an element at `p` starts. -/
theorem at_payload {n id : Nat} (hid : IsId n id) {d : Bytes} {p : Nat} {payload : Bytes}
    (h : At d p (element id payload)) : At d (p + n + sizeWidth payload.length) payload := by
  obtain ⟨hw, h64⟩ := isId_width hid
  have hbw : byteWidth id = n := by rw [byteWidth_eq h64, hw]
  unfold element at h
  rw [hbw, List.append_assoc] at h
  have h2 := (at_append.mp (at_append.mp h).2).2
  rwa [beBytes_length, vint_length] at h2

theorem at_id {n id : Nat} (hid : IsId n id) {d : Bytes} {p : Nat} {payload : Bytes}
    (h : At d p (element id payload)) : slice d p n = beBytes n id := by
  obtain ⟨hw, h64⟩ := isId_width hid
  have hbw : byteWidth id = n := by rw [byteWidth_eq h64, hw]
  unfold element at h
  rw [hbw, List.append_assoc] at h
  have h2 := (at_append.mp h).1
  unfold At at h2
  rwa [beBytes_length] at h2

theorem at_size {n id : Nat} (hid : IsId n id) {d : Bytes} {p : Nat} {payload : Bytes}
    (h : At d p (element id payload)) :
    slice d (p + n) (sizeWidth payload.length) = vint (sizeWidth payload.length) payload.length := by
  obtain ⟨hw, h64⟩ := isId_width hid
  have hbw : byteWidth id = n := by rw [byteWidth_eq h64, hw]
  unfold element at h
  rw [hbw, List.append_assoc] at h
  have h2 := (at_append.mp (at_append.mp h).2).1
  unfold At at h2
  rwa [beBytes_length, vint_length] at h2

theorem sizeWidth_bounds {v : Nat} (h : v + 1 < 2 ^ 56) :
    1 ≤ sizeWidth v ∧ sizeWidth v ≤ 8 ∧ v < 2 ^ (7 * sizeWidth v) := by
  have hb := getCodedUIntSize_bounds v
  have hf := getCodedUIntSize_fits h
  rw [getCodedUIntSize_eq] at hb hf
  omega

theorem parseElementHeader_at {n id : Nat} (hid : IsId n id) {r : Rdr} {p : Nat} {payload : Bytes}
    (h : At r.data p (element id payload)) (hsz : payload.length + 1 < 2 ^ 56) {stop : Nat}
    (hstop : p + (element id payload).length ≤ stop) (hmax : stop ≤ llongMax) :
    parseElementHeader r p stop = .ok ⟨p + n + sizeWidth payload.length, id, payload.length⟩ := by
  obtain ⟨pre, post, hd, rfl⟩ := At.split h (element_ne_nil _ _)
  exact (parseElementHeader_element hid hd hsz (Or.inr (by omega)) (by omega)).1

theorem readID_at {n id : Nat} (hid : IsId n id) {r : Rdr} {p : Nat} {payload : Bytes}
    (h : At r.data p (element id payload)) : readID r p = .ok (id, n) :=
  readID_of_slice hid (at_id hid h)

theorem readSize_at {n id : Nat} (hid : IsId n id) {r : Rdr} {p : Nat} {payload : Bytes}
    (h : At r.data p (element id payload)) (hsz : payload.length + 1 < 2 ^ 56) :
    readUInt r ((p + n : Nat) : Int) = .ok (payload.length, sizeWidth payload.length) := by
  obtain ⟨h1, h8, hv⟩ := sizeWidth_bounds hsz
  exact readUInt_of_slice h1 h8 hv (at_size hid h)

theorem unserializeUInt_at {r : Rdr} {p w v : Nat} (h : At r.data p (beBytes w v)) (h1 : 1 ≤ w)
    (h8 : w ≤ 8) (hv : v < 256 ^ w) (h63 : v < 2 ^ 63) : unserializeUInt r p w = .ok v := by
  have hl := h.le (by intro h0; have := congrArg List.length h0; simp at this; omega)
  rw [beBytes_length] at hl
  have h2 := h.slice_eq (beBytes_length w v)
  have := unserializeUInt_ok (r := r) (p := p) (n := w) h1 h8 hl
  rw [h2, beVal_beBytes, Nat.mod_eq_of_lt hv, toI64_small h63] at this
  exact this

theorem walk_unfold {σ : Type} (r : Rdr) (stop : Nat) (step : Nat → Hdr → σ → Res σ) (pos : Nat) (st : σ) :
    walk r stop step pos st =
      if pos < stop then
        match parseElementHeader r pos stop with
        | .err c => .err c
        | .ub => .ub
        | .ok h =>
          match step pos h st with
          | .err c => .err c
          | .ub => .ub
          | .ok st' =>
            if h.pos + h.size > stop then .err E_FILE_FORMAT_INVALID
            else walk r stop step (h.pos + h.size) st'
      else if pos = stop then .ok st
      else .err E_FILE_FORMAT_INVALID := by
  rw [walk.eq_1]
  split
  · split <;> simp_all <;> rfl
  · rfl

/-- The headers of a sequence of elements at `pos`, processed one after the other. -/
def foldSteps {σ : Type} (step : Nat → Hdr → σ → Res σ) : Nat → List (Nat × Bytes) → σ → Res σ
  | _, [], st => .ok st
  | pos, (id, payload) :: rest, st =>
    match step pos ⟨pos + getUIntSize id + sizeWidth payload.length, id, payload.length⟩ st with
    | .err c => .err c
    | .ub => .ub
    | .ok st' => foldSteps step (pos + (element id payload).length) rest st'

/-- Elements with well-formed IDs and sizes. -/
def GoodElements (els : List (Nat × Bytes)) : Prop :=
  ∀ e ∈ els, (∃ n, IsId n e.1) ∧ e.2.length + 1 < 2 ^ 56

theorem walk_elements {σ : Type} {r : Rdr} {step : Nat → Hdr → σ → Res σ} {stop : Nat}
    (hmax : stop ≤ llongMax) : ∀ {els : List (Nat × Bytes)} {pos : Nat} {st : σ}
    (_ : GoodElements els) (_ : At r.data pos (elements els))
    (_ : stop = pos + (elements els).length),
    walk r stop step pos st = foldSteps step pos els st := by
  intro els
  induction els with
  | nil =>
    intro pos st _ _ hs
    rw [walk_unfold, if_neg (by simp [elements] at hs; omega), if_pos (by simp [elements] at hs; omega)]
    rfl
  | cons e rest ih =>
    intro pos st hg ha hs
    obtain ⟨id, payload⟩ := e
    obtain ⟨⟨n, hid⟩, hsz⟩ := hg (id, payload) (by simp)
    simp only at hid hsz
    simp only [elements] at ha hs
    rw [List.length_append] at hs
    obtain ⟨ha1, ha2⟩ := at_append.mp ha
    obtain ⟨hw, h64⟩ := isId_width hid
    have hpos : 0 < (element id payload).length := List.length_pos_iff.mpr (element_ne_nil _ _)
    rw [walk_unfold, if_pos (by omega), parseElementHeader_at hid ha1 hsz (by omega) hmax]
    unfold foldSteps
    rw [hw]
    simp only
    split
    · rfl
    · rfl
    · rename_i st' h'
      have hel := element_length_id hid payload
      rw [if_neg (by omega), show pos + n + sizeWidth payload.length + payload.length =
        pos + (element id payload).length by omega]
      exact ih (fun e he => hg e (by simp [he])) ha2 (by omega)

end Verif.Par
