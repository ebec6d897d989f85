/-
What the muxer writes for a frame.
-/
import Verif.Model.MuxerBlock
import Verif.Lemmas.Scalars
import Verif.Lemmas.Element
import Verif.Spec.Blocks

namespace Verif.Mux
open Verif Spec

/-- A payload under an ID, with the size field the muxer writes for a length `n`
(`element id p = framed id p.length p`). -/
def blockPayload (f : Frame) (rel : Int) (flags : UInt8) : Bytes :=
  blockHead 1 f.trackNumber rel flags ++ f.frame

theorem blockPayload_length (f : Frame) (rel : Int) (flags : UInt8) :
    (blockPayload f rel flags).length = f.frame.length + 4 := by
  simp [blockPayload, blockHead, vint, Spec.twosBytes]; omega

theorem sizeWidth_small {v : Nat} (h : v < 127) : sizeWidth v = 1 := by
  unfold sizeWidth sizeWidthFrom
  rw [if_pos (by omega)]

theorem writeTrack_emits {t : Nat} (h : t ≤ 126) : Emits (writeUInt t) () (vint 1 t) := by
  have := writeUInt_emits (v := t) (by omega)
  rwa [sizeWidth_small (by omega)] at this

theorem serializeFlags_emits (b : Bool) :
    Emits (serializeInt (if b then 0x80 else 0) 1) () [if b then 0x80 else 0] := by
  cases b
  · exact serializeInt_nat_emits (n := 1) 0 (by omega) (by omega)
  · exact serializeInt_nat_emits (n := 1) 0x80 (by omega) (by omega)

theorem writeBuf32_emits' {v : Bytes} (h : v.length < 2 ^ 32) : Emits (writeBuf32 v) () v :=
  writeBuf32_emits h

theorem writeSimpleBlock_emits {f : Frame} {rel : Int} (ht : f.trackNumber ≤ 126)
    (hl : f.frame.length + 4 < 2 ^ 31) :
    Emits (writeSimpleBlock f rel)
      (element 0xA3 (blockPayload f rel (if f.isKey then 0x80 else 0))).length
      (element 0xA3 (blockPayload f rel (if f.isKey then 0x80 else 0))) := by
  have hsz : toI32 f.frame.length + 4 = ((f.frame.length + 4 : Nat) : Int) := by
    unfold toI32; omega
  have hu : toU64 ((f.frame.length + 4 : Nat) : Int) = f.frame.length + 4 := by
    unfold toU64; omega
  have key : ∀ flags : UInt8, element 0xA3 (blockPayload f rel flags) =
      beBytes (byteWidth 0xA3) 0xA3 ++ (vint (sizeWidth (f.frame.length + 4)) (f.frame.length + 4) ++
        (vint 1 f.trackNumber ++ (Spec.twosBytes 2 rel ++ ([flags] ++ (f.frame ++ []))))) := by
    intro flags
    unfold element
    rw [blockPayload_length]
    simp [blockPayload, blockHead]
  rw [element_length _ (by decide), blockPayload_length, key]
  unfold writeSimpleBlock
  simp only [hsz, hu]
  rw [if_neg (by omega)]
  refine (writeID_emits (by decide)).bind ((writeUInt_emits (by omega)).bind
    ((writeTrack_emits ht).bind ((serializeInt_int_emits (n := 2) rel (by omega) (by omega)).bind
      ((serializeFlags_emits f.isKey).bind ((writeBuf32_emits (by omega)).bind ?_)))))
  have : getUIntSize 163 + getCodedUIntSize (f.frame.length + 4) + 4 + f.frame.length =
      getUIntSize 163 + getCodedUIntSize (f.frame.length + 4) + (f.frame.length + 4) := by omega
  rw [this]
  exact Emits.pure _

/-- The BlockAdditions element of a frame. -/
def additionsBytes (f : Frame) : Bytes :=
  match f.additional with
  | none => []
  | some a => element 0x75A1 (element 0xA6
      (element 0xEE (beBytes (getUIntSize f.addId) f.addId) ++ element 0xA5 a))

def discardBytes (f : Frame) : Bytes :=
  if f.discardPadding ≠ 0 then
    element 0x75A2 (Spec.twosBytes (getIntSize f.discardPadding) f.discardPadding) else []

def refBytes (f : Frame) (scale : Nat) : Bytes :=
  if !f.isKey then element 0xFB (beBytes (getUIntSize (f.refTime scale)) (f.refTime scale)) else []

def durBytes (f : Frame) (scale : Nat) : Bytes :=
  if f.duration / scale > 0 then
    element 0x9B (beBytes (getUIntSize (f.duration / scale)) (f.duration / scale)) else []

/-- Payload of the BlockGroup of a frame. -/
def groupBytes (f : Frame) (rel : Int) (scale : Nat) : Bytes :=
  element 0xA1 (blockPayload f rel 0) ++ (additionsBytes f ++ (discardBytes f ++
    (refBytes f scale ++ durBytes f scale)))

theorem uintElement_length (id v : Nat) (hid : id < 2 ^ 64) :
    (element id (beBytes (getUIntSize v) v)).length = ebmlElementSizeUInt id v := by
  have hb := getUIntSize_bounds v
  rw [element_length _ hid, beBytes_length,
    coded_of_bounds (c := 1) (by decide) (by decide) (by left; omega) (by omega)]
  simp only [ebmlElementSizeUInt, ebmlElementSizeUIntFixed]
  rw [if_neg (by omega)]; omega

theorem intElement_length (id : Nat) (v : Int) (hid : id < 2 ^ 64) :
    (element id (Spec.twosBytes (getIntSize v) v)).length = ebmlElementSizeInt id v := by
  have hb := getIntSize_bounds v
  rw [element_length _ hid, Web.twosBytes_length,
    coded_of_bounds (c := 1) (by decide) (by decide) (by left; omega) (by omega)]
  simp only [ebmlElementSizeInt]; omega

theorem blockSizes_ok (f : Frame) (rel : Int) (scale : Nat) :
    (f.blockSizes scale).blockPayload = (blockPayload f rel 0).length ∧
    (f.blockSizes scale).groupPayload = (groupBytes f rel scale).length := by
  refine ⟨by rw [blockPayload_length]; simp [Frame.blockSizes]; omega, ?_⟩
  have hb : (element 0xA1 (blockPayload f rel 0)).length =
      ebmlMasterElementSize 0xA1 (4 + f.frame.length) + (4 + f.frame.length) := by
    rw [element_length _ (by decide), blockPayload_length]
    simp only [ebmlMasterElementSize]
    rw [Nat.add_comm 4]
  have ha : (additionsBytes f).length = if f.additional.isSome then
      ebmlMasterElementSize 0x75A1
        (ebmlMasterElementSize 0xA6 (ebmlElementSizeUInt 0xEE f.addId +
          ebmlElementSizeBinary 0xA5 f.additional) + (ebmlElementSizeUInt 0xEE f.addId +
          ebmlElementSizeBinary 0xA5 f.additional)) +
        (ebmlMasterElementSize 0xA6 (ebmlElementSizeUInt 0xEE f.addId +
          ebmlElementSizeBinary 0xA5 f.additional) + (ebmlElementSizeUInt 0xEE f.addId +
          ebmlElementSizeBinary 0xA5 f.additional)) else 0 := by
    unfold additionsBytes
    cases h : f.additional with
    | none => simp
    | some a =>
      have h1 : (element 0xEE (beBytes (getUIntSize f.addId) f.addId) ++ element 0xA5 a).length =
          ebmlElementSizeUInt 0xEE f.addId + ebmlElementSizeBinary 0xA5 (some a) := by
        rw [List.length_append, uintElement_length _ _ (by decide), element_length _ (by decide)]
        simp only [ebmlElementSizeBinary]; omega
      simp only [Option.isSome_some, if_true]
      rw [element_length _ (by decide), element_length _ (by decide), h1]
      simp only [ebmlMasterElementSize]
  have hd : (discardBytes f).length =
      if f.discardPadding ≠ 0 then ebmlElementSizeInt 0x75A2 f.discardPadding else 0 := by
    unfold discardBytes
    split
    · exact intElement_length _ _ (by decide)
    · rfl
  have hr : (refBytes f scale).length =
      if !f.isKey then ebmlElementSizeUInt 0xFB (f.refTime scale) else 0 := by
    unfold refBytes
    split
    · exact uintElement_length _ _ (by decide)
    · rfl
  have hu : (durBytes f scale).length =
      if f.duration / scale > 0 then ebmlElementSizeUInt 0x9B (f.duration / scale) else 0 := by
    unfold durBytes
    split
    · exact uintElement_length _ _ (by decide)
    · rfl
  unfold groupBytes
  rw [List.length_append, List.length_append, List.length_append, List.length_append, hb, ha, hd, hr, hu]
  simp only [Frame.blockSizes]
  cases f.additional.isSome <;> simp <;> omega

theorem element_length_le (id : Nat) (p : Bytes) (hid : id < 2 ^ 32) :
    (element id p).length ≤ p.length + 12 := by
  have hc := getCodedUIntSize_bounds p.length
  have : getUIntSize id ≤ 4 := by
    unfold getUIntSize; repeat' split
    all_goals omega
  rw [element_length _ (by omega)]
  omega

theorem groupBytes_lt {f : Frame} (rel : Int) (scale : Nat) (hl : f.frame.length < 2 ^ 32)
    (ha : ∀ a, f.additional = some a → a.length < 2 ^ 32) :
    (groupBytes f rel scale).length + 1 < 2 ^ 56 := by
  have h1 := element_length_le 0xA1 (blockPayload f rel 0) (by decide)
  rw [blockPayload_length] at h1
  have h2 : (additionsBytes f).length ≤ 2 ^ 32 + 100 := by
    unfold additionsBytes
    cases h : f.additional with
    | none => simp
    | some a =>
      have := ha a h
      simp only
      have hb := getUIntSize_bounds f.addId
      have k1 := element_length_le 0xEE (beBytes (getUIntSize f.addId) f.addId) (by decide)
      have k2 := element_length_le 0xA5 a (by decide)
      rw [beBytes_length] at k1
      generalize element 0xEE (beBytes (getUIntSize f.addId) f.addId) = x1 at *
      generalize element 0xA5 a = x2 at *
      have k3 := element_length_le 0xA6 (x1 ++ x2) (by decide)
      rw [List.length_append] at k3
      generalize element 0xA6 (x1 ++ x2) = x3 at *
      have k4 := element_length_le 0x75A1 x3 (by decide)
      omega
  have h3 : (discardBytes f).length ≤ 20 := by
    unfold discardBytes
    split
    · have hb := getIntSize_bounds f.discardPadding
      have := element_length_le 0x75A2 (Spec.twosBytes (getIntSize f.discardPadding) f.discardPadding) (by decide)
      rw [Web.twosBytes_length] at this; omega
    · simp
  have h4 : (refBytes f scale).length ≤ 20 := by
    unfold refBytes
    split
    · have hb := getUIntSize_bounds (f.refTime scale)
      have := element_length_le 0xFB (beBytes (getUIntSize (f.refTime scale)) (f.refTime scale)) (by decide)
      rw [beBytes_length] at this; omega
    · simp
  have h5 : (durBytes f scale).length ≤ 20 := by
    unfold durBytes
    split
    · have hb := getUIntSize_bounds (f.duration / scale)
      have := element_length_le 0x9B (beBytes (getUIntSize (f.duration / scale)) (f.duration / scale)) (by decide)
      rw [beBytes_length] at this; omega
    · simp
  unfold groupBytes
  simp only [List.length_append]
  omega

theorem emits_ite {c : Bool} {w : W Unit} {bs : Bytes} (h : Emits w () bs) :
    Emits (W.when c w) () (if c then bs else []) := by
  unfold W.when
  split
  · exact h
  · exact Emits.pure _

theorem writeAdditions_emits {f : Frame} {scale : Nat}
    (ha : ∀ a, f.additional = some a → a ≠ [] ∧ a.length < 2 ^ 32) :
    Emits (writeAdditions f (f.blockSizes scale)) () (additionsBytes f) := by
  unfold writeAdditions additionsBytes
  cases h : f.additional with
  | none => exact Emits.pure _
  | some a =>
    obtain ⟨h0, h32⟩ := ha a h
    have h1 : (element 0xEE (beBytes (getUIntSize f.addId) f.addId) ++ element 0xA5 a).length =
        ebmlElementSizeUInt 0xEE f.addId + ebmlElementSizeBinary 0xA5 (some a) := by
      rw [List.length_append, uintElement_length _ _ (by decide), element_length _ (by decide)]
      simp only [ebmlElementSizeBinary]; omega
    have hz1 : (f.blockSizes scale).morePayload =
        (element 0xEE (beBytes (getUIntSize f.addId) f.addId) ++ element 0xA5 a).length := by
      rw [h1]; simp [Frame.blockSizes, h]
    have hz2 : (f.blockSizes scale).additionsPayload = (element 0xA6
        (element 0xEE (beBytes (getUIntSize f.addId) f.addId) ++ element 0xA5 a)).length := by
      rw [element_length _ (by decide), h1]; simp [Frame.blockSizes, h, ebmlMasterElementSize]
    have hlt1 : (element 0xEE (beBytes (getUIntSize f.addId) f.addId) ++ element 0xA5 a).length <
        2 ^ 33 := by
      rw [h1]
      have hb := getUIntSize_bounds f.addId
      have hc := getCodedUIntSize_bounds a.length
      have e1 : getUIntSize 0xEE = 1 := rfl
      have e2 : getUIntSize 0xA5 = 1 := rfl
      simp only [ebmlElementSizeUInt, ebmlElementSizeUIntFixed, ebmlElementSizeBinary]
      rw [if_neg (by omega)]
      omega
    have hlt2 : (element 0xA6 (element 0xEE (beBytes (getUIntSize f.addId) f.addId) ++
        element 0xA5 a)).length < 2 ^ 34 := by
      rw [element_length _ (by decide)]
      have hc := getCodedUIntSize_bounds
        (element 0xEE (beBytes (getUIntSize f.addId) f.addId) ++ element 0xA5 a).length
      have e1 : getUIntSize 0xA6 = 1 := rfl
      omega
    simp only [Option.isSome_some, if_true]
    rw [hz1, hz2]
    have := (writeEbmlMasterElement_emits (id := 0x75A1) (by decide)
        (show (element 0xA6 (element 0xEE (beBytes (getUIntSize f.addId) f.addId) ++
        element 0xA5 a)).length + 1 < 2 ^ 56 by omega)).bind (f := fun _ => _)
      ((writeEbmlMasterElement_emits (id := 0xA6) (by decide)
        (show (element 0xEE (beBytes (getUIntSize f.addId) f.addId) ++ element 0xA5 a).length + 1
          < 2 ^ 56 by omega)).bind (f := fun _ => _)
      ((writeEbmlElementUInt_emits (id := 0xEE) (v := f.addId) (by decide)).bind (f := fun _ => _)
        (writeEbmlElementBinary_emits (id := 0xA5) (by decide) h0 h32)))
    refine this.congr ?_
    rw [show ∀ x, element 0x75A1 x = beBytes (byteWidth 0x75A1) 0x75A1 ++
        (vint (sizeWidth x.length) x.length ++ x) from fun x => List.append_assoc _ _ _]
    simp only [List.append_assoc]
    rw [show ∀ x, element 0xA6 x = beBytes (byteWidth 0xA6) 0xA6 ++
        (vint (sizeWidth x.length) x.length ++ x) from fun x => List.append_assoc _ _ _]

theorem writeBlock_emits {f : Frame} {rel : Int} {scale : Nat} (ht : f.trackNumber ≤ 126)
    (hl : f.frame.length < 2 ^ 32)
    (ha : ∀ a, f.additional = some a → a ≠ [] ∧ a.length < 2 ^ 32) 
    (hg : (groupBytes f rel scale).length + 1 < 2 ^ 56) :
    Emits (writeBlock f rel scale) (element 0xA0 (groupBytes f rel scale)).length
      (element 0xA0 (groupBytes f rel scale)) := by
  obtain ⟨z1, z2⟩ := blockSizes_ok f rel scale
  have hret : ebmlMasterElementSize 0xA0 (groupBytes f rel scale).length +
      (groupBytes f rel scale).length = (element 0xA0 (groupBytes f rel scale)).length := by
    rw [element_length _ (by decide)]; rfl
  have hadd := writeAdditions_emits (scale := scale) ha
  unfold writeBlock
  simp only [z1, z2, hret]
  have h0 : Emits (serializeInt 0 1) () [0] := serializeInt_nat_emits (n := 1) 0 (by omega) (by omega)
  have hbl : (blockPayload f rel 0).length + 1 < 2 ^ 56 := by rw [blockPayload_length]; omega
  have := (writeEbmlMasterElement_emits (id := 0xA0) (by decide) hg).bind (f := fun _ => _)
    ((writeEbmlMasterElement_emits (id := 0xA1) (by decide) hbl).bind (f := fun _ => _)
    ((writeTrack_emits ht).bind (f := fun _ => _)
    ((serializeInt_int_emits (n := 2) rel (by omega) (by omega)).bind (f := fun _ => _)
    (h0.bind (f := fun _ => _)
    ((writeBuf32_emits hl).bind (f := fun _ => _)
    (hadd.bind (f := fun _ => _)
    ((emits_ite (c := decide (f.discardPadding ≠ 0)) (writeEbmlElementInt_emits (id := 0x75A2)
        (v := f.discardPadding) (by decide))).bind (f := fun _ => _)
    ((emits_ite (c := !f.isKey) (writeEbmlElementUInt_emits (id := 0xFB)
        (v := f.refTime scale) (by decide))).bind (f := fun _ => _)
    ((emits_ite (c := decide (f.duration / scale > 0)) (writeEbmlElementUInt_emits (id := 0x9B)
        (v := f.duration / scale) (by decide))).bind (f := fun _ => _)
    (Emits.pure (element 0xA0 (groupBytes f rel scale)).length))))))))))
  refine Emits.congr this ?_
  rw [show ∀ x, element 0xA0 x = beBytes (byteWidth 0xA0) 0xA0 ++
        (vint (sizeWidth x.length) x.length ++ x) from fun x => List.append_assoc _ _ _]
  simp only [List.append_assoc]
  congr 2
  have : groupBytes f rel scale = beBytes (byteWidth 0xA1) 0xA1 ++
      (vint (sizeWidth (blockPayload f rel 0).length) (blockPayload f rel 0).length ++
        (vint 1 f.trackNumber ++ (Spec.twosBytes 2 rel ++ ([0] ++ (f.frame ++ (additionsBytes f ++
          (discardBytes f ++ (refBytes f scale ++ durBytes f scale)))))))) := by
    unfold groupBytes element
    conv => lhs; arg 1; arg 2; unfold blockPayload blockHead
    simp only [List.append_assoc]
  rw [this]
  simp [discardBytes, refBytes, durBytes]

end Verif.Mux
