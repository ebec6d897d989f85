/-
Headers of elements that stand in a file, as mkvparser's loops read them.
-/
import Verif.Lemmas.BlockRoundTrip
import Verif.Lemmas.Walk
import Verif.Model.ParserSegment

namespace Verif.Par
open Verif Spec Mux

theorem getUIntLength_vint {r : Rdr} {p n v : Nat} (hr : r.Sane) (h1 : 1 ≤ n) (h8 : n ≤ 8)
    (hv : v < 2 ^ (7 * n)) (hat : At r.data p (vint n v)) :
    getUIntLength r (p : Int) = .ok (0, n) ∧ p + n ≤ r.data.length := by
  have hle := hat.le (vint_ne_nil h1)
  rw [vint_length] at hle
  obtain ⟨b, hb⟩ := getElem?_of_lt (d := r.data) (p := p) (by omega)
  have hfirst : b ≠ 0 ∧ (markerLoop b 0x80 1 8).2 = n := by
    cases hc : vint n v with
    | nil => exact absurd hc (vint_ne_nil h1)
    | cons c t =>
      rw [hc] at hat
      have := (at_cons.mp hat).1
      rw [hb] at this
      cases this
      exact vint_first h1 h8 hv hc
  refine ⟨?_, hle⟩
  unfold getUIntLength
  rw [if_neg (by omega), if_neg (by unfold Rdr.Sane at hr; omega), if_neg (by omega)]
  rw [show ((p : Int)).toNat = p from rfl, byte_ok hb]
  simp only
  rw [if_neg hfirst.1, hfirst.2]

theorem past_neg {stop : Option Nat} {p : Nat} (h : ∀ s ∈ stop, p ≤ s) : past stop p = false := by
  cases stop with
  | none => rfl
  | some s => have := h s rfl; simp only [past, Option.any]; simp; omega

theorem reached_neg {stop : Option Nat} {p : Nat} (h : ∀ s ∈ stop, p < s) : reached stop p = false := by
  cases stop with
  | none => rfl
  | some s => have := h s rfl; simp only [reached, Option.any]; simp; omega

theorem fieldIn_vint {r : Rdr} {p n v : Nat} {stop : Option Nat} (hr : r.Sane) (h1 : 1 ≤ n) (h8 : n ≤ 8)
    (hv : v < 2 ^ (7 * n)) (hat : At r.data p (vint n v)) (hl : ∀ s ∈ stop, p + n ≤ s) :
    fieldIn r stop p = .ok n := by
  obtain ⟨hg, hle⟩ := getUIntLength_vint hr h1 h8 hv hat
  unfold fieldIn
  rw [Res.refuse_neg (by omega), Res.bind_ok, hg]
  simp only [Res.bind_ok]
  rw [Res.refuse_neg (by omega), Res.bind_ok, Res.refuse_neg (by omega), Res.bind_ok,
    Res.refuse_neg (by rw [past_neg hl]; decide), Res.bind_ok, Res.refuse_neg (by omega), Res.bind_ok]

theorem beyond_neg {r : Rdr} {p : Nat} (hr : r.Sane) (hp : p ≤ r.data.length) : beyond r p = false := by
  unfold beyond Rdr.Sane at *
  simp
  omega

/-- The header of an element: its ID on `n` bytes, its size `v` on `m` bytes. -/
structure HeadAt (r : Rdr) (pos n id m v : Nat) : Prop where
  isId : IsId n id
  m1 : 1 ≤ m
  m8 : m ≤ 8
  fits : v < 2 ^ (7 * m)
  idAt : At r.data pos (beBytes n id)
  sizeAt : At r.data (pos + n) (vint m v)

theorem ElemAt.head {r : Rdr} {pos n id m : Nat} {payload : Bytes} (h : ElemAt r pos n id m payload) :
    HeadAt r pos n id m payload.length :=
  ⟨h.isId, h.m1, h.m8, by have := h.fits; omega, h.idAt, h.sizeAt⟩

namespace HeadAt
variable {r : Rdr} {pos n id m v : Nat} (h : HeadAt r pos n id m v)
include h

theorem n1 : 1 ≤ n ∧ n ≤ 4 := ⟨h.isId.1, h.isId.2.1⟩

theorem vint1 : At r.data pos (vint n (id - 2 ^ (7 * n))) ∧ id - 2 ^ (7 * n) < 2 ^ (7 * n) := by
  obtain ⟨e1, e2, -⟩ := isId_vint h.isId
  exact ⟨by rw [← e1]; exact h.idAt, e2⟩

theorem readId : readID r (pos : Int) = .ok (id, n) :=
  readID_of_slice h.isId (h.idAt.slice_eq (beBytes_length _ _))

theorem readSize : readUInt r ((pos + n : Nat) : Int) = .ok (v, m) :=
  readUInt_of_slice h.m1 h.m8 h.fits (h.sizeAt.slice_eq (vint_length _ _))

theorem le : pos + n + m ≤ r.data.length := by
  have := h.sizeAt.le (vint_ne_nil h.m1)
  rw [vint_length] at this
  exact this

theorem get1 (hr : r.Sane) : getUIntLength r (pos : Int) = .ok (0, n) :=
  (getUIntLength_vint hr h.n1.1 (by have := h.n1.2; omega) h.vint1.2 h.vint1.1).1

theorem get2 (hr : r.Sane) : getUIntLength r ((pos + n : Nat) : Int) = .ok (0, m) :=
  (getUIntLength_vint hr h.m1 h.m8 h.fits h.sizeAt).1

theorem in1 (hr : r.Sane) {stop : Option Nat} (hs : ∀ s ∈ stop, pos + n ≤ s) : fieldIn r stop pos = .ok n :=
  fieldIn_vint hr h.n1.1 (by have := h.n1.2; omega) h.vint1.2 h.vint1.1 hs

theorem in2 (hr : r.Sane) {stop : Option Nat} (hs : ∀ s ∈ stop, pos + n + m ≤ s) : fieldIn r stop (pos + n) = .ok m :=
  fieldIn_vint hr h.m1 h.m8 h.fits h.sizeAt hs

theorem head1 (hr : r.Sane) {stop : Option Nat} (hs : ∀ s ∈ stop, pos + n ≤ s) : headField r stop pos = .ok (some n) := by
  have hle := h.le
  unfold headField
  rw [Res.refuse_neg (by have := h.n1; omega), Res.bind_ok, h.get1 hr]
  simp only [Res.bind_ok]
  rw [Res.refuse_neg (by omega), Res.bind_ok, Res.refuse_neg (by omega), Res.bind_ok,
    Res.refuse_neg (by rw [past_neg hs]; decide), Res.bind_ok, if_neg (by unfold Rdr.Sane at hr; omega),
    Res.refuse_neg (by omega), Res.bind_ok]

theorem head2 (hr : r.Sane) {stop : Option Nat} (hs : ∀ s ∈ stop, pos + n + m ≤ s) :
    headField r stop (pos + n) = .ok (some m) := by
  have hle := h.le
  unfold headField
  rw [Res.refuse_neg (by have := h.m1; omega), Res.bind_ok, h.get2 hr]
  simp only [Res.bind_ok]
  rw [Res.refuse_neg (by omega), Res.bind_ok, Res.refuse_neg (by omega), Res.bind_ok,
    Res.refuse_neg (by rw [past_neg hs]; decide), Res.bind_ok, if_neg (by unfold Rdr.Sane at hr; omega),
    Res.refuse_neg (by omega), Res.bind_ok]

theorem create1 (hr : r.Sane) : createField r pos = .ok () := by
  have hle := h.le
  unfold createField
  rw [h.get1 hr]
  simp only [Res.bind_ok]
  rw [Res.refuse_neg (by omega), Res.bind_ok, Res.refuse_neg (by rw [beyond_neg hr (by omega)]; decide), Res.bind_ok,
    Res.refuse_neg (by omega)]

theorem create2 (hr : r.Sane) : createField r (pos + n) = .ok () := by
  have hle := h.le
  unfold createField
  rw [h.get2 hr]
  simp only [Res.bind_ok]
  rw [Res.refuse_neg (by omega), Res.bind_ok, Res.refuse_neg (by rw [beyond_neg hr (by omega)]; decide), Res.bind_ok,
    Res.refuse_neg (by omega)]

theorem headers1 (hr : r.Sane) {stop : Option Nat} (hs : ∀ s ∈ stop, pos + n ≤ s) : headersField r stop pos = .ok () := by
  have hle := h.le
  unfold headersField
  rw [Res.refuse_neg (by have := h.n1; omega), Res.bind_ok, h.get1 hr]
  simp only [Res.bind_ok]
  rw [Res.refuse_neg (by omega), Res.bind_ok, Res.refuse_neg (by omega), Res.bind_ok,
    Res.refuse_neg (by rw [past_neg hs]; decide), Res.bind_ok, Res.refuse_neg (by omega)]

theorem headers2 (hr : r.Sane) {stop : Option Nat} (hs : ∀ s ∈ stop, pos + n + m ≤ s) :
    headersField r stop (pos + n) = .ok () := by
  have hle := h.le
  unfold headersField
  rw [Res.refuse_neg (by have := h.m1; omega), Res.bind_ok, h.get2 hr]
  simp only [Res.bind_ok]
  rw [Res.refuse_neg (by omega), Res.bind_ok, Res.refuse_neg (by omega), Res.bind_ok,
    Res.refuse_neg (by rw [past_neg hs]; decide), Res.bind_ok, Res.refuse_neg (by omega)]

end HeadAt

end Verif.Par
