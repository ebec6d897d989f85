/-
Lemmas for the elements before the clusters: the size functions agree with the trees of `Spec.Headers`, and
the writers put exactly those trees into the file.
-/
import Verif.Spec.Headers
import Verif.Lemmas.MuxerCues

namespace Verif.Spec
open Verif Verif.Mux

/-! ### Trees -/

@[simp] theorem Tree.nil_bytes : Tree.nil.bytes = [] := rfl

@[simp] theorem Tree.append_nil (t : Tree) : t.append .nil = t := by
  induction t with
  | nil => rfl
  | leaf id w p next ih => simp [Tree.append, ih]
  | node id w known kids next _ ih => simp [Tree.append, ih]

@[simp] theorem Tree.append_bytes (t u : Tree) : (t.append u).bytes = t.bytes ++ u.bytes := by
  induction t with
  | nil => rfl
  | leaf id w p next ih => simp [Tree.append, Tree.bytes, ih, List.append_assoc]
  | node id w known kids next _ ih => simp [Tree.append, Tree.bytes, ih, List.append_assoc]

@[simp] theorem Tree.append_fits (t u : Tree) : (t.append u).Fits ↔ t.Fits ∧ u.Fits := by
  induction t with
  | nil => simp [Tree.append, Tree.Fits]
  | leaf id w p next ih => simp [Tree.append, Tree.Fits, ih, and_assoc]
  | node id w known kids next _ ih => simp [Tree.append, Tree.Fits, ih, and_assoc]

@[simp] theorem seq_nil_bytes : (seq []).bytes = [] := rfl
@[simp] theorem seq_cons_bytes (t : Tree) (ts : List Tree) : (seq (t :: ts)).bytes = t.bytes ++ (seq ts).bytes := by
  simp [seq]
@[simp] theorem seq_nil_fits : (seq []).Fits := trivial
@[simp] theorem seq_cons_fits (t : Tree) (ts : List Tree) : (seq (t :: ts)).Fits ↔ t.Fits ∧ (seq ts).Fits := by
  simp [seq]

@[simp] theorem plain_bytes (id : Nat) (b : Bytes) : (plain id b).bytes = element id b := by
  simp [plain, Tree.bytes, element, header, Payload.data]

@[simp] theorem plain_fits (id : Nat) (b : Bytes) : (plain id b).Fits ↔ b.length < 2 ^ 32 := by
  simp [plain, Tree.Fits, Payload.data]

@[simp] theorem group_bytes (id : Nat) (k : Tree) : (group id k).bytes = element id k.bytes := by
  simp [group, Tree.bytes, element, header]

@[simp] theorem group_fits (id : Nat) (k : Tree) : (group id k).Fits ↔ k.bytes.length + 1 < 2 ^ 56 ∧ k.Fits := by
  simp [group, Tree.Fits]

theorem beBytes_byteWidth_ne {id : Nat} : beBytes (byteWidth id) id ≠ [] := by
  intro h
  have := congrArg List.length h
  unfold byteWidth at this
  split at this <;> simp at this

theorem Tree.bytes_ne {t : Tree} (h : t ≠ .nil) : t.bytes ≠ [] := by
  cases t with
  | nil => exact absurd rfl h
  | leaf id w p next => simp [Tree.bytes, header, beBytes_byteWidth_ne]
  | node id w known kids next => simp [Tree.bytes, header, beBytes_byteWidth_ne]

theorem groupIf_ne {id : Nat} {k : Tree} (h : k ≠ .nil) : groupIf id k = group id k := by
  cases k <;> first | rfl | exact absurd rfl h

theorem groupIf_nil {id : Nat} {k : Tree} (h : k.bytes.length = 0) : groupIf id k = .nil := by
  cases k with
  | nil => rfl
  | leaf => exact absurd (List.length_eq_zero_iff.mp h) (Tree.bytes_ne (by simp))
  | node => exact absurd (List.length_eq_zero_iff.mp h) (Tree.bytes_ne (by simp))

/-- A tree below the limit as a whole whose values are below 4 GiB. -/
theorem Tree.fits_of_small {t : Tree} (h : t.bytes.length < 2 ^ 32) : t.Fits := by
  induction t with
  | nil => trivial
  | leaf id w p next ih =>
    simp only [Tree.bytes, List.length_append] at h
    exact ⟨by omega, ih (by omega)⟩
  | node id w known kids next ih1 ih2 =>
    simp only [Tree.bytes, List.length_append] at h
    exact ⟨by omega, ih1 (by omega), ih2 (by omega)⟩

theorem each_cons {α : Type} (f : α → Tree) (x : α) (xs : List α) : each f (x :: xs) = (f x).append (each f xs) := rfl

theorem each_fits {α : Type} {f : α → Tree} {xs : List α} (h : (each f xs).Fits) : ∀ x ∈ xs, (f x).Fits := by
  induction xs with
  | nil => intro x hx; cases hx
  | cons y ys ih =>
    rw [each_cons, Tree.append_fits] at h
    intro x hx
    cases hx with
    | head => exact h.1
    | tail _ hx => exact ih h.2 x hx

end Verif.Spec

namespace Verif.Mux
open Verif Verif.Spec

/-! ### Sizes -/

theorem u64_lt (v : UInt64) : v.toNat < 2 ^ 64 := v.toNat_lt

theorem number_len {id : Nat} (hid : id < 2 ^ 64) (v : UInt64) : (number id v).bytes.length = numSize id v := by
  have h := getUIntSize_bounds v.toNat
  have h1 : getCodedUIntSize (getUIntSize v.toNat) = 1 := by
    unfold getCodedUIntSize; rw [if_pos (by omega)]
  simp [number, element_length _ hid, byteWidth_eq (u64_lt v), numSize, ebmlElementSizeUInt,
    ebmlElementSizeUIntFixed, h1]
  omega

theorem numberIf_len {id : Nat} (hid : id < 2 ^ 64) (v : UInt64) :
    (numberIf id v).bytes.length = sizeIf (decide (v > 0)) (numSize id v) := by
  unfold numberIf sizeIf
  by_cases h : v = 0
  · subst h; simp
  · have : v > 0 := UInt64.pos_iff_ne_zero.mpr h
    simp [h, this, number_len hid]

theorem numberSet_len {id : Nat} (hid : id < 2 ^ 64) (v : UInt64) :
    (numberSet id v).bytes.length = colourSize id v := by
  unfold numberSet colourSize sizeIf colourSet kColourNotPresent
  by_cases h : v = 0xFFFFFFFFFFFFFFFF
  · subst h; simp
  · simp [h, number_len hid]

theorem float_len {id : Nat} (hid : id < 2 ^ 64) (v : UInt32) : (float id v).bytes.length = ebmlElementSizeFloat id := by
  simp [float, element_length _ hid, ebmlElementSizeFloat]
  have : getCodedUIntSize 4 = 1 := by decide
  omega

theorem text_len {id : Nat} (hid : id < 2 ^ 64) (v : Option Bytes) :
    (text id v).bytes.length = ebmlElementSizeString id v := by
  cases v with
  | none => rfl
  | some b => simp [text, element_length _ hid, ebmlElementSizeString]; omega

theorem sizeBinary_eq (id : Nat) (v : Option Bytes) : ebmlElementSizeBinary id v = ebmlElementSizeString id v := by
  cases v <;> rfl

theorem sizeIf_string (id : Nat) (v : Option Bytes) :
    sizeIf v.isSome (ebmlElementSizeString id v) = ebmlElementSizeString id v := by
  cases v <;> rfl

theorem group_len {id : Nat} (hid : id < 2 ^ 64) (k : Tree) :
    (group id k).bytes.length = ebmlMasterElementSize id k.bytes.length + k.bytes.length := by
  simp [element_length _ hid, ebmlMasterElementSize]

theorem optional_len {α : Type} {f : α → Tree} {g : α → Nat} {o : Option α}
    (h : ∀ a, o = some a → (f a).bytes.length = g a) : (optional f o).bytes.length = o.elim 0 g := by
  cases o with
  | none => rfl
  | some a => exact h a rfl

theorem each_len {α : Type} {f : α → Tree} {g : α → Nat} {xs : List α}
    (h : ∀ x ∈ xs, (f x).bytes.length = g x) : (each f xs).bytes.length = sizeEach g xs := by
  induction xs with
  | nil => rfl
  | cons x xs ih =>
    rw [each_cons, Tree.append_bytes, List.length_append, h x (by simp), ih fun y hy => h y (by simp [hy])]
    simp [sizeEach]

/-! ### Writing -/

/-- `w` writes the elements `t`. -/
abbrev Puts (w : W Unit) (t : Tree) : Prop := Emits w () t.bytes

theorem Puts.cons {a b : W Unit} {t : Tree} {ts : List Tree} (h : Puts a t) (hb : Puts b (seq ts)) :
    Puts (a >>= fun _ => b) (seq (t :: ts)) :=
  Emits.congr (h.bind (f := fun _ => b) hb) (by simp)

theorem Puts.last {a : W Unit} {t : Tree} (h : Puts a t) : Puts a (seq [t]) := Emits.congr h (by simp)

theorem Puts.none : Puts (pure ()) .nil := Emits.pure _

theorem number_puts {id : Nat} (hid : id < 2 ^ 64) (v : UInt64) : Puts (writeNum id v) (number id v) :=
  Emits.congr (writeEbmlElementUInt_emits hid) (by simp [number, byteWidth_eq (u64_lt v)])

theorem numberIf_puts {id : Nat} (hid : id < 2 ^ 64) (v : UInt64) :
    Puts (writeIf (decide (v > 0)) (writeNum id v)) (numberIf id v) := by
  unfold numberIf writeIf
  by_cases h : v = 0
  · subst h; simp only [gt_iff_lt, UInt64.lt_irrefl, decide_false, if_true]; exact Puts.none
  · have : v > 0 := UInt64.pos_iff_ne_zero.mpr h
    rw [if_neg h, if_pos (by simpa using this)]
    exact number_puts hid v

theorem numberSet_puts {id : Nat} (hid : id < 2 ^ 64) (v : UInt64) :
    Puts (Mux.writeColour id v) (numberSet id v) := by
  unfold numberSet Mux.writeColour writeIf colourSet kColourNotPresent
  by_cases h : v = 0xFFFFFFFFFFFFFFFF
  · subst h; exact Puts.none
  · rw [if_neg h, if_pos (by simpa using h)]
    exact number_puts hid v

theorem float_puts {id : Nat} (hid : id < 2 ^ 64) (v : UInt32) : Puts (writeFlt id v) (float id v) :=
  Emits.congr (writeEbmlElementFloat_emits hid) (by simp [float])

theorem string_puts {id : Nat} (hid : id < 2 ^ 64) {v : Option Bytes} (h : v ≠ none) (hf : (text id v).Fits) :
    Puts (writeEbmlElementString id v) (text id v) := by
  cases v with
  | none => exact absurd rfl h
  | some b =>
    rw [show text id (some b) = plain id b from rfl, plain_fits] at hf
    exact Emits.congr (writeEbmlElementString_emits hid hf) (by simp [text])

theorem stringIf_puts {id : Nat} (hid : id < 2 ^ 64) {v : Option Bytes} (hf : (text id v).Fits) :
    Puts (writeIf v.isSome (writeEbmlElementString id v)) (text id v) := by
  cases v with
  | none => exact Puts.none
  | some b => exact string_puts hid (by simp) hf

theorem binary_puts {id : Nat} (hid : id < 2 ^ 64) {v : Option Bytes} (h : v ≠ none) (h0 : v ≠ some [])
    (hf : (text id v).Fits) : Puts (writeEbmlElementBinary id v) (text id v) := by
  cases v with
  | none => exact absurd rfl h
  | some b =>
    rw [show text id (some b) = plain id b from rfl, plain_fits] at hf
    exact Emits.congr (writeEbmlElementBinary_emits hid (by simpa using h0) hf) (by simp [text])

theorem binaryIf_puts {id : Nat} (hid : id < 2 ^ 64) {v : Option Bytes} (h0 : v ≠ some [])
    (hf : (text id v).Fits) : Puts (writeIf v.isSome (writeEbmlElementBinary id v)) (text id v) := by
  cases v with
  | none => exact Puts.none
  | some b => exact binary_puts hid (by simp) h0 hf

theorem group_puts {id size : Nat} (hid : id < 2 ^ 64) {w : W Unit} {k : Tree} (h : Puts w k)
    (hl : k.bytes.length = size) (hf : (group id k).Fits) :
    Puts (writeEbmlMasterElement id size >>= fun _ => w) (group id k) := by
  rw [group_fits] at hf
  exact Emits.congr (master_emits hid h hl (by omega)) (by simp)

theorem each_puts {α : Type} {f : α → Tree} {g : α → W Unit} {xs : List α}
    (h : ∀ x ∈ xs, Puts (g x) (f x)) : Puts (writeEach g xs) (each f xs) := by
  induction xs with
  | nil => exact Puts.none
  | cons x xs ih =>
    exact Emits.congr ((h x (by simp)).bind (f := fun _ => writeEach g xs) (ih fun y hy => h y (by simp [hy])))
      (by rw [each_cons]; simp)

theorem checked_emits {w : W Unit} {bs : Bytes} {size : Nat} (h : Emits w () bs)
    (hl : bs.length = size) : Emits (checked size w) () bs := by
  obtain ⟨k, hk⟩ := h
  refine ⟨k, fun s hs => ⟨fun ho => ?_, fun ho => ?_⟩⟩
  · have h1 := (hk s hs).1 ho
    unfold checked
    rw [W.bind_of_ok (show Sink.position s = (.ok s.pos, s) from rfl), W.bind_of_ok h1,
      W.bind_of_ok (show Sink.position (s.put bs k) = (.ok (s.put bs k).pos, s.put bs k) from rfl),
      if_neg]
    · rfl
    · simp only [Sink.put]; omega
  · obtain ⟨c, s', h1, h2⟩ := (hk s hs).2 ho
    refine ⟨c, s', ?_, h2⟩
    unfold checked
    rw [W.bind_of_ok (show Sink.position s = (.ok s.pos, s) from rfl), W.bind_of_err h1]

/-! ### The objects -/

theorem encryption_len (e : ContentEncoding) :
    (seq [number 0x47E1 e.encAlgo, text 0x47E2 e.keyId, group 0x47E7 (number 0x47E8 e.cipherMode)]).bytes.length =
      e.encryptionSize := by
  simp only [seq_cons_bytes, seq_nil_bytes, List.length_append, List.length_nil]
  rw [number_len (by decide), text_len (by decide), group_len (by decide), number_len (by decide)]
  simp only [ContentEncoding.encryptionSize, ContentEncoding.aesSize, ContentEncoding.aesPayload, sizeBinary_eq,
    kMkvContentEncKeyID, kMkvContentEncAlgo, kMkvContentEncAESSettings, kMkvAESSettingsCipherMode]
  omega

theorem encoding_kids_len (e : ContentEncoding) :
    (seq [number 0x5031 e.order, number 0x5032 e.scope, number 0x5033 e.type,
      group 0x5035 (seq [number 0x47E1 e.encAlgo, text 0x47E2 e.keyId,
        group 0x47E7 (number 0x47E8 e.cipherMode)])]).bytes.length = e.encodingSize := by
  have hp : e.encryptionSize > 0 := by
    have := (getUIntSize_bounds kMkvContentEncAlgo).1
    simp only [ContentEncoding.encryptionSize, numSize, ebmlElementSizeUInt, ebmlElementSizeUIntFixed]
    omega
  rw [seq_cons_bytes, seq_cons_bytes, seq_cons_bytes, seq_cons_bytes, seq_nil_bytes]
  simp only [List.length_append, List.length_nil]
  rw [group_len (by decide), encryption_len, number_len (by decide), number_len (by decide), number_len (by decide)]
  simp only [ContentEncoding.encodingSize, sizeIf, hp, decide_true, if_true, kMkvContentEncryption,
    kMkvContentEncodingType, kMkvContentEncodingScope, kMkvContentEncodingOrder]
  omega

theorem encoding_len (e : ContentEncoding) : (encodingTree e).bytes.length = e.size := by
  unfold encodingTree
  rw [group_len (by decide), encoding_kids_len]
  rfl

theorem encoding_puts {e : ContentEncoding} (hk : e.keyId ≠ none) (h0 : e.keyId ≠ some [])
    (hf : (encodingTree e).Fits) : Puts e.write (encodingTree e) := by
  have hlen := encoding_len e
  have h63 : e.size < 2 ^ 63 := by
    rw [← hlen]
    have h1 : (group 0x6240 (seq [number 0x5031 e.order, number 0x5032 e.scope, number 0x5033 e.type,
      group 0x5035 (seq [number 0x47E1 e.encAlgo, text 0x47E2 e.keyId,
        group 0x47E7 (number 0x47E8 e.cipherMode)])])).Fits := hf
    rw [group_fits] at h1
    unfold encodingTree
    rw [group_len (by decide)]
    simp only [ebmlMasterElementSize]
    have := (getUIntSize_bounds 0x6240).2
    have := (getCodedUIntSize_bounds (seq [number 0x5031 e.order, number 0x5032 e.scope, number 0x5033 e.type,
      group 0x5035 (seq [number 0x47E1 e.encAlgo, text 0x47E2 e.keyId,
        group 0x47E7 (number 0x47E8 e.cipherMode)])]).bytes.length).2
    omega
  refine counted_emits ?_ hlen h63
  unfold encodingTree at hf ⊢
  refine group_puts (by decide) ?_ (encoding_kids_len e) hf
  rw [group_fits] at hf
  have hf2 := hf.2
  simp only [seq_cons_fits] at hf2
  obtain ⟨_, _, _, hf3, _⟩ := hf2
  refine Puts.cons (number_puts (by decide) _) (Puts.cons (number_puts (by decide) _)
    (Puts.cons (number_puts (by decide) _) (Puts.last ?_)))
  refine group_puts (by decide) ?_ (encryption_len e) hf3
  rw [group_fits] at hf3
  have hf4 := hf3.2
  simp only [seq_cons_fits] at hf4
  obtain ⟨_, hf5, hf6, _⟩ := hf4
  refine Puts.cons (number_puts (by decide) _) (Puts.cons (binary_puts (by decide) hk h0 hf5) (Puts.last ?_))
  have hl : (number 0x47E8 e.cipherMode).bytes.length = e.aesPayload := number_len (by decide) _
  refine group_puts (by decide) (counted_emits (number_puts (by decide) _) hl ?_) hl hf6
  rw [group_fits] at hf6
  omega

theorem chroma_len {xId yId : Nat} (hx : xId < 2 ^ 64) (hy : yId < 2 ^ 64) (c : Chromaticity) :
    (chromaTree xId yId c).bytes.length = chromaticitySize xId yId c := by
  simp only [chromaTree, seq_cons_bytes, seq_nil_bytes, List.length_append, List.length_nil]
  rw [float_len hx, float_len hy]
  rfl

theorem chroma_puts {xId yId : Nat} (hx : xId < 2 ^ 64) (hy : yId < 2 ^ 64) {o : Option Chromaticity}
    (h : o.all Chromaticity.valid = true) : Puts (writeChromaticityOpt xId yId o) (optional (chromaTree xId yId) o) := by
  cases o with
  | none => exact Puts.none
  | some c =>
    have hv : c.valid = true := h
    unfold writeChromaticityOpt writeChromaticity
    simp only [hv, Bool.not_true, Bool.false_eq_true, if_false]
    exact Puts.cons (float_puts hx _) (Puts.last (float_puts hy _))

theorem luminance_len {id : Nat} (hid : id < 2 ^ 64) (v : UInt32) :
    (luminance id v).bytes.length = sizeIf (v != kLuminanceNotPresent) (ebmlElementSizeFloat id) := by
  unfold luminance sizeIf kLuminanceNotPresent
  by_cases h : v = 0x7F7FFFFF
  · subst h; rfl
  · simp [h, float_len hid]

theorem luminance_puts {id : Nat} (hid : id < 2 ^ 64) (v : UInt32) :
    Puts (writeIf (v != kLuminanceNotPresent) (writeFlt id v)) (luminance id v) := by
  unfold luminance writeIf kLuminanceNotPresent
  by_cases h : v = 0x7F7FFFFF
  · subst h; exact Puts.none
  · rw [if_neg h, if_pos (by simpa using h)]
    exact float_puts hid v

/-- The children of the mastering metadata. -/
def masteringKids (m : MasteringMetadata) : Tree :=
  seq [luminance 0x55D9 m.luminanceMax, luminance 0x55DA m.luminanceMin,
    optional (chromaTree 0x55D1 0x55D2) m.r, optional (chromaTree 0x55D3 0x55D4) m.g,
    optional (chromaTree 0x55D5 0x55D6) m.b, optional (chromaTree 0x55D7 0x55D8) m.whitePoint]

theorem masteringTree_eq (m : MasteringMetadata) : masteringTree m = groupIf 0x55D0 (masteringKids m) := rfl

theorem mastering_kids_len (m : MasteringMetadata) : (masteringKids m).bytes.length = m.payloadSize := by
  simp only [masteringKids, seq_cons_bytes, seq_nil_bytes, List.length_append, List.length_nil]
  rw [luminance_len (by decide), luminance_len (by decide),
    optional_len (g := chromaticitySize 0x55D1 0x55D2) (fun c _ => chroma_len (by decide) (by decide) c),
    optional_len (g := chromaticitySize 0x55D3 0x55D4) (fun c _ => chroma_len (by decide) (by decide) c),
    optional_len (g := chromaticitySize 0x55D5 0x55D6) (fun c _ => chroma_len (by decide) (by decide) c),
    optional_len (g := chromaticitySize 0x55D7 0x55D8) (fun c _ => chroma_len (by decide) (by decide) c)]
  simp only [MasteringMetadata.payloadSize, kMkvLuminanceMax, kMkvLuminanceMin, kMkvPrimaryRChromaticityX,
    kMkvPrimaryRChromaticityY, kMkvPrimaryGChromaticityX, kMkvPrimaryGChromaticityY, kMkvPrimaryBChromaticityX,
    kMkvPrimaryBChromaticityY, kMkvWhitePointChromaticityX, kMkvWhitePointChromaticityY]
  omega

theorem groupIf_len {id n : Nat} (hid : id < 2 ^ 64) {k : Tree} (h : k.bytes.length = n) :
    (groupIf id k).bytes.length = if n > 0 then n + ebmlMasterElementSize id n else n := by
  by_cases h0 : n = 0
  · subst h0
    rw [groupIf_nil h]; rfl
  · have hk : k ≠ .nil := by intro hk; subst hk; exact h0 h.symm
    rw [groupIf_ne hk, group_len hid, if_pos (by omega), h]
    omega

theorem mastering_len (m : MasteringMetadata) : (masteringTree m).bytes.length = m.size := by
  rw [masteringTree_eq, groupIf_len (by decide) (mastering_kids_len m)]
  rfl

theorem mastering_puts {m : MasteringMetadata} (hv : m.valid = true) (hf : (masteringTree m).Fits) :
    Puts m.write (masteringTree m) := by
  rw [masteringTree_eq] at hf ⊢
  have hl := mastering_kids_len m
  unfold MasteringMetadata.write
  by_cases h0 : m.payloadSize = 0
  · rw [if_pos h0, groupIf_nil (by omega)]; exact Puts.none
  · have hk : masteringKids m ≠ .nil := by intro hk; rw [hk] at hl; exact h0 hl.symm
    rw [if_neg h0]
    rw [groupIf_ne hk] at hf ⊢
    unfold MasteringMetadata.valid at hv
    simp only [Bool.and_eq_true] at hv
    obtain ⟨⟨⟨⟨⟨_, _⟩, h1⟩, h2⟩, h3⟩, h4⟩ := hv
    refine group_puts (by decide) ?_ hl hf
    exact Puts.cons (luminance_puts (by decide) _) (Puts.cons (luminance_puts (by decide) _)
      (Puts.cons (chroma_puts (by decide) (by decide) h1) (Puts.cons (chroma_puts (by decide) (by decide) h2)
        (Puts.cons (chroma_puts (by decide) (by decide) h3) (Puts.last (chroma_puts (by decide) (by decide) h4))))))

/-- The children of the colour. -/
def colourKids (c : Colour) : Tree :=
  seq [numberSet 0x55B1 c.matrixCoefficients, numberSet 0x55B2 c.bitsPerChannel,
    numberSet 0x55B3 c.chromaSubsamplingHorz, numberSet 0x55B4 c.chromaSubsamplingVert,
    numberSet 0x55B5 c.cbSubsamplingHorz, numberSet 0x55B6 c.cbSubsamplingVert,
    numberSet 0x55B7 c.chromaSitingHorz, numberSet 0x55B8 c.chromaSitingVert,
    numberSet 0x55B9 c.range, numberSet 0x55BA c.transferCharacteristics,
    numberSet 0x55BB c.primaries, numberSet 0x55BC c.maxCll, numberSet 0x55BD c.maxFall,
    optional masteringTree c.mastering]

theorem colourTree_eq (c : Colour) : colourTree c = groupIf 0x55B0 (colourKids c) := rfl

theorem colour_kids_len (c : Colour) : (colourKids c).bytes.length = c.payloadSize := by
  simp only [colourKids, seq_cons_bytes, seq_nil_bytes, List.length_append, List.length_nil]
  rw [optional_len (g := MasteringMetadata.size) (fun m _ => mastering_len m)]
  repeat rw [numberSet_len (by decide)]
  simp only [Colour.payloadSize, kMkvMatrixCoefficients, kMkvBitsPerChannel, kMkvChromaSubsamplingHorz,
    kMkvChromaSubsamplingVert, kMkvCbSubsamplingHorz, kMkvCbSubsamplingVert, kMkvChromaSitingHorz,
    kMkvChromaSitingVert, kMkvRange, kMkvTransferCharacteristics, kMkvPrimaries, kMkvMaxCLL, kMkvMaxFALL]
  omega

theorem colour_len (c : Colour) : (colourTree c).bytes.length = c.size := by
  rw [colourTree_eq, groupIf_len (by decide) (colour_kids_len c)]
  rfl

theorem optional_fits {α : Type} {f : α → Tree} {o : Option α} {a : α} (h : (optional f o).Fits) (ho : o = some a) :
    (f a).Fits := by
  subst ho; exact h

theorem colour_puts {c : Colour} (hv : c.valid = true) (hf : (colourTree c).Fits) :
    Puts c.write (colourTree c) := by
  rw [colourTree_eq] at hf ⊢
  have hl := colour_kids_len c
  unfold Colour.write
  by_cases h0 : c.payloadSize = 0
  · rw [if_pos h0, groupIf_nil (by omega)]; exact Puts.none
  · have hk : colourKids c ≠ .nil := by intro hk; rw [hk] at hl; exact h0 hl.symm
    rw [if_neg h0]
    rw [groupIf_ne hk] at hf ⊢
    simp only [hv, Bool.not_true, Bool.false_eq_true, if_false]
    have hf' := hf
    rw [group_fits] at hf'
    have hf2 := hf'.2
    simp only [colourKids, seq_cons_fits] at hf2
    obtain ⟨_, _, _, _, _, _, _, _, _, _, _, _, _, hm, _⟩ := hf2
    refine group_puts (by decide) ?_ hl hf
    have hmw : Puts c.writeMastering (optional masteringTree c.mastering) := by
      unfold Colour.writeMastering
      cases hc : c.mastering with
      | none => exact Puts.none
      | some m =>
        unfold Colour.valid at hv
        simp only [Bool.and_eq_true] at hv
        rw [hc] at hv hm
        exact mastering_puts hv.1.1.1.1.1.1 hm
    exact Puts.cons (numberSet_puts (by decide) _) (Puts.cons (numberSet_puts (by decide) _)
      (Puts.cons (numberSet_puts (by decide) _) (Puts.cons (numberSet_puts (by decide) _)
      (Puts.cons (numberSet_puts (by decide) _) (Puts.cons (numberSet_puts (by decide) _)
      (Puts.cons (numberSet_puts (by decide) _) (Puts.cons (numberSet_puts (by decide) _)
      (Puts.cons (numberSet_puts (by decide) _) (Puts.cons (numberSet_puts (by decide) _)
      (Puts.cons (numberSet_puts (by decide) _) (Puts.cons (numberSet_puts (by decide) _)
      (Puts.cons (numberSet_puts (by decide) _) (Puts.last hmw)))))))))))))

theorem hasPrivate_iff {p : Projection} (h : p.privateData ≠ some []) : p.hasPrivate = p.privateData.isSome := by
  unfold Projection.hasPrivate
  cases hp : p.privateData with
  | none => rfl
  | some b =>
    rw [hp] at h
    have : b ≠ [] := by simpa using h
    simp [List.length_pos_iff, this]

theorem projection_kids_len {p : Projection} (h : p.privateData ≠ some []) :
    (seq [number 0x7671 p.type, text 0x7672 p.privateData, float 0x7673 p.yaw,
      float 0x7674 p.pitch, float 0x7675 p.roll]).bytes.length = p.payloadSize := by
  simp only [seq_cons_bytes, seq_nil_bytes, List.length_append, List.length_nil]
  rw [number_len (by decide), text_len (by decide), float_len (by decide), float_len (by decide), float_len (by decide)]
  simp only [Projection.payloadSize, hasPrivate_iff h, sizeBinary_eq, sizeIf_string, kMkvProjection, kMkvProjectionPrivate,
    kMkvProjectionPoseYaw, kMkvProjectionPosePitch, kMkvProjectionPoseRoll, numSize, ebmlElementSizeUInt,
    ebmlElementSizeUIntFixed]
  rw [show getUIntSize 0x7670 = getUIntSize 0x7671 by decide +kernel]
  omega

theorem projection_pos (p : Projection) : p.payloadSize > 0 := by
  unfold Projection.payloadSize ebmlElementSizeFloat; omega

theorem projection_len {p : Projection} (h : p.privateData ≠ some []) : (projectionTree p).bytes.length = p.size := by
  unfold projectionTree Projection.size
  rw [group_len (by decide), projection_kids_len h, if_pos (projection_pos p)]
  exact Nat.add_comm _ _

theorem projection_puts {p : Projection} (h : p.privateData ≠ some []) (hf : (projectionTree p).Fits) :
    Puts p.write (projectionTree p) := by
  unfold Projection.write projectionTree at *
  have := projection_pos p
  rw [if_neg (by omega), hasPrivate_iff h]
  refine group_puts (by decide) ?_ (projection_kids_len h) hf
  rw [group_fits] at hf
  have hf2 := hf.2
  simp only [seq_cons_fits] at hf2
  exact Puts.cons (number_puts (by decide) _) (Puts.cons (binaryIf_puts (by decide) h hf2.2.1)
    (Puts.cons (float_puts (by decide) _) (Puts.cons (float_puts (by decide) _) (Puts.last (float_puts (by decide) _)))))

/-- The children of the Video element. -/
def videoKids (v : VideoPart) : Tree :=
  seq [number 0xB0 (if v.pixelWidth = 0 then v.width else v.pixelWidth),
    number 0xBA (if v.pixelHeight = 0 then v.height else v.pixelHeight),
    numberIf 0x54B0 v.displayWidth, numberIf 0x54BA v.displayHeight, numberIf 0x54CC v.cropLeft,
    numberIf 0x54DD v.cropRight, numberIf 0x54BB v.cropTop, numberIf 0x54AA v.cropBottom,
    numberIf 0x53B8 v.stereoMode, numberIf 0x53C0 v.alphaMode, text 0x2EB524 v.colourSpace,
    optional (float 0x2383E3) v.frameRate, optional colourTree v.colour,
    optional projectionTree v.projection]

theorem pick_eq (a b : UInt64) : (if a > 0 then a else b) = if a = 0 then b else a := by
  by_cases h : a = 0
  · subst h; rfl
  · rw [if_neg h, if_pos (UInt64.pos_iff_ne_zero.mpr h)]

theorem video_kids_len {v : VideoPart} (hp : ∀ p, v.projection = some p → p.privateData ≠ some []) :
    (videoKids v).bytes.length = v.payloadSize := by
  simp only [videoKids, seq_cons_bytes, seq_nil_bytes, List.length_append, List.length_nil]
  rw [optional_len (g := Colour.size) (fun m _ => colour_len m),
    optional_len (g := Projection.size) (fun p hq => projection_len (hp p hq)),
    optional_len (g := fun _ => ebmlElementSizeFloat 0x2383E3) (fun x _ => float_len (by decide) x),
    number_len (by decide), number_len (by decide), text_len (by decide)]
  repeat rw [numberIf_len (by decide)]
  have hfr : v.frameRate.elim 0 (fun _ => ebmlElementSizeFloat 0x2383E3) =
      sizeIf v.frameRate.isSome (ebmlElementSizeFloat 0x2383E3) := by cases v.frameRate <;> rfl
  rw [hfr]
  simp only [VideoPart.payloadSize, pick_eq, sizeIf_string, kMkvPixelWidth, kMkvPixelHeight, kMkvDisplayWidth,
    kMkvDisplayHeight, kMkvPixelCropLeft, kMkvPixelCropRight, kMkvPixelCropTop, kMkvPixelCropBottom, kMkvStereoMode,
    kMkvAlphaMode, kMkvFrameRate, kMkvColourSpace]
  omega

theorem video_payload_puts {v : VideoPart} (hc : ∀ c, v.colour = some c → c.valid = true)
    (hp : ∀ p, v.projection = some p → p.privateData ≠ some []) (hf : (videoKids v).Fits) :
    Puts v.writePayload (videoKids v) := by
  simp only [videoKids, seq_cons_fits] at hf
  obtain ⟨_, _, _, _, _, _, _, _, _, _, hcs, _, hcol, hpro, _⟩ := hf
  have h1 : Puts v.writeColour (optional colourTree v.colour) := by
    unfold VideoPart.writeColour
    cases h : v.colour with
    | none => exact Puts.none
    | some c => rw [h] at hcol; exact colour_puts (hc c h) hcol
  have h2 : Puts v.writeProjection (optional projectionTree v.projection) := by
    unfold VideoPart.writeProjection
    cases h : v.projection with
    | none => exact Puts.none
    | some c => rw [h] at hpro; exact projection_puts (hp c h) hpro
  have h3 : Puts (writeIf v.frameRate.isSome (writeFlt kMkvFrameRate (v.frameRate.getD 0)))
      (optional (float 0x2383E3) v.frameRate) := by
    cases h : v.frameRate with
    | none => exact Puts.none
    | some c => exact float_puts (by decide) c
  unfold VideoPart.writePayload videoKids
  rw [pick_eq, pick_eq]
  exact Puts.cons (number_puts (by decide) _) (Puts.cons (number_puts (by decide) _)
    (Puts.cons (numberIf_puts (by decide) _) (Puts.cons (numberIf_puts (by decide) _)
    (Puts.cons (numberIf_puts (by decide) _) (Puts.cons (numberIf_puts (by decide) _)
    (Puts.cons (numberIf_puts (by decide) _) (Puts.cons (numberIf_puts (by decide) _)
    (Puts.cons (numberIf_puts (by decide) _) (Puts.cons (numberIf_puts (by decide) _)
    (Puts.cons (stringIf_puts (by decide) hcs) (Puts.cons h3 (Puts.cons h1 (Puts.last h2)))))))))))))

/-- The children of the Audio element. -/
def audioKids (a : AudioPart) : Tree :=
  seq [float 0xB5 a.sampleRate, number 0x9F a.channels, numberIf 0x6264 a.bitDepth]

theorem audio_kids_len (a : AudioPart) : (audioKids a).bytes.length = a.payloadSize := by
  simp only [audioKids, seq_cons_bytes, seq_nil_bytes, List.length_append, List.length_nil]
  rw [float_len (by decide), number_len (by decide), numberIf_len (by decide)]
  simp only [AudioPart.payloadSize, kMkvSamplingFrequency, kMkvChannels, kMkvBitDepth]
  omega

theorem audio_payload_puts (a : AudioPart) : Puts a.writePayload (audioKids a) :=
  Puts.cons (float_puts (by decide) _) (Puts.cons (number_puts (by decide) _) (Puts.last (numberIf_puts (by decide) _)))

/-- Nothing binary is set to the empty string in this part. -/
def PartSet (t : TrackPart) : Prop := ∀ v p, t = .video v → v.projection = some p → p.privateData ≠ some []

theorem part_len {t : TrackPart} (h : PartSet t) : (partTree t).bytes.length = t.size := by
  cases t with
  | plain => rfl
  | video v =>
    show (group 0xE0 (videoKids v)).bytes.length = _
    rw [group_len (by decide), video_kids_len (fun p hp => h v p rfl hp)]
    exact Nat.add_comm _ _
  | audio a =>
    show (group 0xE1 (audioKids a)).bytes.length = _
    rw [group_len (by decide), audio_kids_len]
    exact Nat.add_comm _ _

theorem part_puts {t : TrackPart} (h : PartSet t) (hc : ∀ v c, t = .video v → v.colour = some c → c.valid = true)
    (hf : (partTree t).Fits) : Puts t.write (partTree t) := by
  cases t with
  | plain => exact Puts.none
  | video v =>
    have hf1 : (group 0xE0 (videoKids v)).Fits := hf
    have hf2 := hf1
    rw [group_fits] at hf2
    have hl := video_kids_len (v := v) (fun p hp => h v p rfl hp)
    exact group_puts (by decide) (counted_emits
      (video_payload_puts (fun c hq => hc v c rfl hq) (fun p hp => h v p rfl hp) hf2.2) hl (by omega)) hl hf1
  | audio a =>
    have hf1 : (group 0xE1 (audioKids a)).Fits := hf
    have hf2 := hf1
    rw [group_fits] at hf2
    have hl := audio_kids_len a
    exact group_puts (by decide) (counted_emits (audio_payload_puts a) hl (by omega)) hl hf1

/-- The elements of a track that are counted first. -/
def trackOwn (t : Track) : List Tree :=
  [number 0xD7 t.number, number 0x73C5 t.uid, number 0x83 t.type,
    numberIf 0x55EE t.maxBlockAdditionalId, numberIf 0x56AA t.codecDelay, numberIf 0x56BB t.seekPreRoll,
    numberIf 0x23E383 t.defaultDuration, text 0x86 t.codecId, text 0x63A2 t.codecPrivate,
    text 0x22B59C t.language, text 0x536E t.name]

/-- The children of a track. -/
def trackKids (t : Track) : Tree :=
  (seq (trackOwn t)).append ((groupIf 0x6D80 (each encodingTree t.encodings)).append (partTree t.part))

theorem append_assoc' (a b c : Tree) : (a.append b).append c = a.append (b.append c) := by
  induction a with
  | nil => rfl
  | leaf id w p next ih => simp [Tree.append, ih]
  | node id w known kids next _ ih => simp [Tree.append, ih]

theorem trackTree_eq (t : Track) : trackTree t = group 0xAE (trackKids t) := by
  unfold trackTree trackKids trackOwn
  simp only [seq, append_assoc', Tree.append_nil]

theorem own_len (t : Track) : (seq (trackOwn t)).bytes.length = t.ownSize := by
  simp only [trackOwn, seq_cons_bytes, seq_nil_bytes, List.length_append, List.length_nil]
  rw [number_len (by decide), number_len (by decide), number_len (by decide)]
  repeat rw [text_len (by decide)]
  repeat rw [numberIf_len (by decide)]
  simp only [Track.ownSize, sizeBinary_eq, sizeIf_string, kMkvTrackNumber, kMkvTrackUID, kMkvTrackType, kMkvCodecID,
    kMkvCodecPrivate, kMkvLanguage, kMkvName, kMkvMaxBlockAdditionID, kMkvCodecDelay, kMkvSeekPreRoll,
    kMkvDefaultDuration]
  omega

theorem own_puts {t : Track} (h0 : t.codecPrivate ≠ some []) (hf : (seq (trackOwn t)).Fits) :
    Puts t.writeOwn (seq (trackOwn t)) := by
  simp only [trackOwn, seq_cons_fits] at hf
  obtain ⟨_, _, _, _, _, _, _, f1, f2, f3, f4, _⟩ := hf
  exact Puts.cons (number_puts (by decide) _) (Puts.cons (number_puts (by decide) _)
    (Puts.cons (number_puts (by decide) _) (Puts.cons (numberIf_puts (by decide) _)
    (Puts.cons (numberIf_puts (by decide) _) (Puts.cons (numberIf_puts (by decide) _)
    (Puts.cons (numberIf_puts (by decide) _) (Puts.cons (stringIf_puts (by decide) f1)
    (Puts.cons (binaryIf_puts (by decide) h0 f2) (Puts.cons (stringIf_puts (by decide) f3)
    (Puts.last (stringIf_puts (by decide) f4)))))))))))

theorem encodings_len (t : Track) : (each encodingTree t.encodings).bytes.length = t.encodingsSize :=
  each_len fun e _ => encoding_len e

theorem each_ne_nil {α : Type} {f : α → Tree} {xs : List α} (hx : xs ≠ []) (hf : ∀ x, f x ≠ .nil) :
    each f xs ≠ .nil := by
  cases xs with
  | nil => exact absurd rfl hx
  | cons x xs =>
    rw [each_cons]
    have := hf x
    cases h : f x with
    | nil => exact absurd h this
    | leaf => simp [Tree.append]
    | node => simp [Tree.append]

theorem encodingsGroup_len (t : Track) : (groupIf 0x6D80 (each encodingTree t.encodings)).bytes.length =
    sizeIf (decide (t.encodings.length > 0)) (ebmlMasterElementSize kMkvContentEncodings t.encodingsSize + t.encodingsSize) := by
  cases he : t.encodings with
  | nil => rfl
  | cons e es =>
    have hne : each encodingTree (e :: es) ≠ .nil := each_ne_nil (by simp) fun x => by simp [encodingTree, group]
    rw [groupIf_ne hne, group_len (by decide), ← he, encodings_len]
    simp [sizeIf, he, kMkvContentEncodings]

theorem track_kids_len {t : Track} (h : TrackSet t) : (trackKids t).bytes.length = t.payloadSize := by
  simp only [trackKids, Tree.append_bytes, List.length_append]
  rw [own_len, encodingsGroup_len, part_len fun v p hv hp => h.projection v p hv hp]
  unfold Track.payloadSize
  omega

theorem track_len {t : Track} (h : TrackSet t) : (trackTree t).bytes.length = t.size := by
  rw [trackTree_eq, group_len (by decide), track_kids_len h]
  exact Nat.add_comm _ _

/-! ### Floats -/

theorem f32NaN_iff (b : UInt32) : f32NaN b = true ↔ IsNaN b := by
  have := b.toNat_lt
  unfold f32NaN IsNaN
  simp only [decide_eq_true_eq]
  omega

/-- The size of a float's value. -/
def mag (x : Nat) : Nat :=
  if x / 2 ^ 23 % 2 ^ 8 = 0 then x % 2 ^ 23 else (2 ^ 23 + x % 2 ^ 23) * 2 ^ (x / 2 ^ 23 % 2 ^ 8 - 1)

theorem mag_lt {x y : Nat} (h : x < y) (hy : y < 2 ^ 31) : mag x < mag y := by
  unfold mag
  have ex : x / 2 ^ 23 % 2 ^ 8 = x / 2 ^ 23 := by omega
  have ey : y / 2 ^ 23 % 2 ^ 8 = y / 2 ^ 23 := by omega
  rw [ex, ey]
  have hle : x / 2 ^ 23 ≤ y / 2 ^ 23 := by omega
  have hx := Nat.div_add_mod x (2 ^ 23)
  have hy' := Nat.div_add_mod y (2 ^ 23)
  generalize hex : x / 2 ^ 23 = a at *
  generalize hey : y / 2 ^ 23 = b at *
  generalize hmx : x % 2 ^ 23 = m at *
  generalize hmy : y % 2 ^ 23 = n at *
  have hm : m < 2 ^ 23 := by omega
  have hn : n < 2 ^ 23 := by omega
  by_cases hab : a = b
  · subst hab
    have hmn : m < n := by omega
    split
    · exact hmn
    · exact Nat.mul_lt_mul_of_pos_right (by omega) (Nat.pow_pos (by decide))
  · have hlt : a < b := by omega
    rw [if_neg (show ¬ b = 0 by omega)]
    by_cases ha : a = 0
    · rw [if_pos ha]
      have : 1 ≤ 2 ^ (b - 1) := Nat.one_le_two_pow
      have := Nat.mul_le_mul_left (2 ^ 23 + n) this
      omega
    · rw [if_neg ha]
      have e1 : 2 ^ (b - 1) = 2 ^ (a - 1) * (2 * 2 ^ (b - 1 - a)) := by
        rw [← Nat.pow_succ', ← Nat.pow_add]; congr 1; omega
      rw [e1]
      have h1 : 1 ≤ 2 ^ (b - 1 - a) := Nat.one_le_two_pow
      have h2 : 1 ≤ 2 ^ (a - 1) := Nat.one_le_two_pow
      generalize 2 ^ (b - 1 - a) = r at *
      generalize 2 ^ (a - 1) = q at *
      have h3 : (2 ^ 23 + m) * q < 2 ^ 24 * q := Nat.mul_lt_mul_of_pos_right (by omega) (by omega)
      have h4 : 2 ^ 23 * (q * (2 * 1)) ≤ (2 ^ 23 + n) * (q * (2 * r)) :=
        Nat.mul_le_mul (by omega) (Nat.mul_le_mul_left _ (by omega))
      omega

theorem mag_mod (x : Nat) : mag (x % 2 ^ 31) = mag x := by
  unfold mag
  rw [show x % 2 ^ 31 / 2 ^ 23 % 2 ^ 8 = x / 2 ^ 23 % 2 ^ 8 by omega, show x % 2 ^ 31 % 2 ^ 23 = x % 2 ^ 23 by omega]

theorem floatUnits_eq (b : UInt32) :
    floatUnits b = if b.toNat < 2 ^ 31 then (mag b.toNat : Int) else -(mag b.toNat : Int) := rfl

theorem mag_zero : mag 0 = 0 := by decide

theorem mag_le_iff {x y : Nat} (hx : x < 2 ^ 31) (hy : y < 2 ^ 31) : mag x ≤ mag y ↔ x ≤ y := by
  constructor
  · intro h
    rcases Nat.lt_or_ge y x with h1 | h1
    · have := mag_lt h1 hx; omega
    · exact h1
  · intro h
    rcases Nat.lt_or_ge x y with h1 | h1
    · exact Nat.le_of_lt (mag_lt h1 hy)
    · rw [show x = y by omega]; exact Nat.le_refl _

theorem key_le_iff (a b : UInt32) : f32Key a ≤ f32Key b ↔ floatUnits a ≤ floatUnits b := by
  rw [floatUnits_eq, floatUnits_eq, ← mag_mod a.toNat, ← mag_mod b.toNat]
  unfold f32Key
  have ha : a.toNat % 2 ^ 31 < 2 ^ 31 := Nat.mod_lt _ (by decide)
  have hb : b.toNat % 2 ^ 31 < 2 ^ 31 := Nat.mod_lt _ (by decide)
  have hA : a.toNat < 2 ^ 31 → a.toNat = a.toNat % 2 ^ 31 := fun h => (Nat.mod_eq_of_lt h).symm
  have hB : b.toNat < 2 ^ 31 → b.toNat = b.toNat % 2 ^ 31 := fun h => (Nat.mod_eq_of_lt h).symm
  have l1 := mag_le_iff ha hb
  have l2 := mag_le_iff hb ha
  have z1 := mag_le_iff ha (show 0 < 2 ^ 31 by decide)
  have z2 := mag_le_iff hb (show 0 < 2 ^ 31 by decide)
  rw [mag_zero] at z1 z2
  generalize mag (a.toNat % 2 ^ 31) = p at *
  generalize mag (b.toNat % 2 ^ 31) = q at *
  by_cases h1 : a.toNat < 2 ^ 31 <;> by_cases h2 : b.toNat < 2 ^ 31
  · rw [if_pos h1, if_pos h2, if_pos h1, if_pos h2, hA h1, hB h2]; omega
  · rw [if_pos h1, if_neg h2, if_pos h1, if_neg h2, hA h1]; omega
  · rw [if_neg h1, if_pos h2, if_neg h1, if_pos h2, hB h2]; omega
  · rw [if_neg h1, if_neg h2, if_neg h1, if_neg h2]; omega

theorem f32Le_iff (a b : UInt32) : f32Le a b = true ↔ ¬ IsNaN a ∧ ¬ IsNaN b ∧ floatUnits a ≤ floatUnits b := by
  unfold f32Le
  simp only [Bool.and_eq_true, Bool.not_eq_true', decide_eq_true_eq, key_le_iff, ← f32NaN_iff, Bool.not_eq_true, and_assoc]

theorem f32Lt_iff (a b : UInt32) : f32Lt a b = false ↔ FloatLe b a := by
  unfold f32Lt FloatLe
  rw [← f32NaN_iff, ← f32NaN_iff, ← key_le_iff]
  cases f32NaN a <;> cases f32NaN b <;> simp <;> omega

theorem chroma_valid_iff (c : Chromaticity) : c.valid = true ↔ UnitFloat c.x ∧ UnitFloat c.y := by
  unfold Chromaticity.valid UnitFloat
  simp only [Bool.and_eq_true, f32Le_iff]
  have n0 : ¬ IsNaN 0 := by unfold IsNaN; decide
  have n1 : ¬ IsNaN 0x3F800000 := by unfold IsNaN; decide
  have v0 : floatUnits 0 = 0 := by decide +kernel
  have v1 : floatUnits 0x3F800000 = 2 ^ 149 := by decide +kernel
  rw [v0, v1]
  constructor
  · rintro ⟨⟨⟨⟨_, h1, h2⟩, _, _, h3⟩, ⟨_, h4, h5⟩⟩, _, _, h6⟩
    exact ⟨⟨h1, h2, h3⟩, h4, h5, h6⟩
  · rintro ⟨⟨h1, h2, h3⟩, h4, h5, h6⟩
    exact ⟨⟨⟨⟨n0, h1, h2⟩, h1, n1, h3⟩, n0, h4, h5⟩, h4, n1, h6⟩

theorem mastering_valid_iff (m : MasteringMetadata) : m.valid = true ↔ MasteringOk m := by
  unfold MasteringMetadata.valid
  simp only [Bool.and_eq_true, Bool.or_eq_true, beq_iff_eq, Bool.not_eq_true', Bool.or_eq_false_iff, f32Lt_iff,
    Option.all_eq_true, chroma_valid_iff, kLuminanceNotPresent]
  constructor
  · rintro ⟨⟨⟨⟨⟨h1, h2⟩, h3⟩, h4⟩, h5⟩, h6⟩
    refine ⟨fun h => ?_, fun h => ?_, ?_, ?_⟩
    · rcases h1 with h1 | h1
      · exact absurd h1 h
      · exact h1.1
    · rcases h2 with h2 | h2
      · exact absurd h2 h
      · exact h2.1
    · rcases h1 with h1 | h1
      · rcases h2 with h2 | h2
        · rw [h1, h2]; exact .inr (.inr (Int.le_refl _))
        · exact h2.2
      · exact h1.2
    · rintro c (h | h | h | h)
      · exact h3 c h
      · exact h4 c h
      · exact h5 c h
      · exact h6 c h
  · intro h
    refine ⟨⟨⟨⟨⟨?_, ?_⟩, ?_⟩, ?_⟩, ?_⟩, ?_⟩
    · by_cases h1 : m.luminanceMin = 0x7F7FFFFF
      · exact .inl h1
      · exact .inr ⟨h.low h1, h.order⟩
    · by_cases h1 : m.luminanceMax = 0x7F7FFFFF
      · exact .inl h1
      · exact .inr ⟨h.high h1, h.order⟩
    · exact fun c hc => h.points c (.inl hc)
    · exact fun c hc => h.points c (.inr (.inl hc))
    · exact fun c hc => h.points c (.inr (.inr (.inl hc)))
    · exact fun c hc => h.points c (.inr (.inr (.inr hc)))

theorem colour_valid_iff (c : Colour) : c.valid = true ↔ ColourOk c := by
  unfold Colour.valid
  simp only [Bool.and_eq_true, Bool.or_eq_true, Bool.not_eq_true', colourSet, kColourNotPresent, bne_eq_false_iff_eq,
    Option.all_eq_true, mastering_valid_iff, isMatrixCoefficientsValid, isChromaSitingValid, isColourRangeValid,
    isTransferCharacteristicsValid, isPrimariesValid, decide_eq_true_eq, UInt64.le_iff_toNat_le]
  have key : ∀ (v : UInt64) (P : Prop), (v = 0xFFFFFFFFFFFFFFFF ∨ P) ↔ (v ≠ 0xFFFFFFFFFFFFFFFF → P) := by
    intro v P
    by_cases h : v = 0xFFFFFFFFFFFFFFFF <;> simp [h]
  simp only [key]
  have e2 : ∀ v : UInt64, v.toNat ≤ (2 : UInt64).toNat ↔ v.toNat ∈ [0, 1, 2] := by
    intro v; rw [show (2 : UInt64).toNat = 2 from rfl]; simp; omega
  have e3 : ∀ v : UInt64, v.toNat ≤ (3 : UInt64).toNat ↔ v.toNat ∈ [0, 1, 2, 3] := by
    intro v; rw [show (3 : UInt64).toNat = 3 from rfl]; simp; omega
  have e10 : ∀ v : UInt64, v.toNat ≤ (10 : UInt64).toNat ↔ v.toNat ∈ List.range 11 := by
    intro v; rw [show (10 : UInt64).toNat = 10 from rfl]; simp; omega
  have e22 : ∀ v : UInt64, (v.toNat ≤ (10 : UInt64).toNat ∨ v = 22) ↔ v.toNat ∈ 22 :: List.range 11 := by
    intro v
    rw [show (10 : UInt64).toNat = 10 from rfl, ← UInt64.toNat_inj, show (22 : UInt64).toNat = 22 from rfl]
    simp; omega
  simp only [e22]
  simp only [e2, e3, e10]
  constructor
  · rintro ⟨⟨⟨⟨⟨⟨h1, h2⟩, h3⟩, h4⟩, h5⟩, h6⟩, h7⟩
    exact ⟨h2, h3, h4, h5, h6, h7, h1⟩
  · rintro ⟨h2, h3, h4, h5, h6, h7, h1⟩
    exact ⟨⟨⟨⟨⟨⟨h1, h2⟩, h3⟩, h4⟩, h5⟩, h6⟩, h7⟩

theorem incomplete_iff (t : Track) : t.incomplete = false ↔
    t.type ≠ 0 ∧ t.codecId ≠ none ∧ (t.codecId = some [0x56, 0x5F, 0x41, 0x56, 0x31] → t.codecPrivate ≠ none) := by
  unfold Track.incomplete kAv1CodecId
  simp only [Bool.or_eq_false_iff, beq_eq_false_iff_ne, Bool.and_eq_false_iff, ne_eq, Option.isNone_eq_false_iff,
    Option.isSome_iff_ne_none, and_assoc]
  constructor
  · rintro ⟨h1, h2, h3⟩
    refine ⟨h1, h2, fun h => ?_⟩
    rcases h3 with h3 | h3
    · exact absurd h h3
    · exact h3
  · rintro ⟨h1, h2, h3⟩
    refine ⟨h1, h2, ?_⟩
    by_cases h : t.codecId = some [0x56, 0x5F, 0x41, 0x56, 0x31]
    · exact .inr (h3 h)
    · exact .inl h

/-! ### Tracks -/

theorem encodings_puts {t : Track} (hk : ∀ e ∈ t.encodings, e.keyId ≠ none) (h0 : ∀ e ∈ t.encodings, e.keyId ≠ some [])
    (hf : (groupIf 0x6D80 (each encodingTree t.encodings)).Fits) :
    Puts (writeIf (decide (t.encodings.length > 0)) t.writeEncodings)
      (groupIf 0x6D80 (each encodingTree t.encodings)) := by
  by_cases he : t.encodings = []
  · rw [he]; exact Puts.none
  · have hne : each encodingTree t.encodings ≠ .nil := each_ne_nil he fun x => by simp [encodingTree, group]
    rw [groupIf_ne hne] at hf ⊢
    unfold writeIf
    rw [if_pos (by simpa [List.length_pos_iff] using he)]
    have hf' := hf
    rw [group_fits] at hf'
    exact group_puts (by decide) (each_puts fun e hx => encoding_puts (hk e hx) (h0 e hx) (each_fits hf'.2 e hx))
      (encodings_len t) hf

theorem bind_assoc' {a b c : W Unit} {bs : Bytes} (h : Emits (a >>= fun _ => b >>= fun _ => c) () bs) :
    Emits ((a >>= fun _ => b) >>= fun _ => c) () bs := by
  have : ((a >>= fun _ => b) >>= fun _ => c) = (a >>= fun _ => b >>= fun _ => c) := by
    funext s
    simp only [W.bind_run]
    cases a s with
    | mk r s' => cases r <;> rfl
  rw [this]; exact h

theorem track_puts {t : Track} (hok : TrackOk t) (hs : TrackSet t) (hf : (trackTree t).Fits) :
    Puts t.write (trackTree t) := by
  rw [trackTree_eq] at hf ⊢
  have hinc : t.incomplete = false := (incomplete_iff t).mpr ⟨hok.type, hok.codec, hok.av1⟩
  have hl := track_kids_len hs
  have hf' := hf
  rw [group_fits] at hf'
  have hf2 := hf'.2
  simp only [trackKids, Tree.append_fits] at hf2
  have hown := own_len t
  have h63 : t.ownSize < 2 ^ 63 := by
    rw [← hown]
    have h1 := hf'.1
    simp only [trackKids, Tree.append_bytes, List.length_append] at h1
    omega
  unfold Track.write Track.writeBase
  simp only [hinc, Bool.false_eq_true, if_false]
  apply bind_assoc'
  refine group_puts (by decide) ?_ hl hf
  apply bind_assoc'
  unfold trackKids
  have e1 := counted_emits (own_puts hs.codecPrivate hf2.1) hown h63
  have e2 := encodings_puts hok.keys hs.keys hf2.2.1
  have e3 := part_puts (t := t.part) hs.projection
    (fun v c hv hc => (colour_valid_iff c).mpr (hok.colour v c hv hc)) hf2.2.2
  refine Emits.congr (e1.bind (f := fun _ => _) (e2.bind (f := fun _ => _) e3)) ?_
  simp only [Tree.append_bytes]

theorem tracks_puts {ts : List Track} (hok : ∀ t ∈ ts, TrackOk t) (hs : ∀ t ∈ ts, TrackSet t)
    (hf : (tracksTree ts).Fits) : Puts (writeTracks ts) (tracksTree ts) := by
  unfold tracksTree writeTracks at *
  have hl : (each trackTree ts).bytes.length = sizeEach Track.size ts := each_len fun t ht => track_len (hs t ht)
  have hf' := hf
  rw [group_fits] at hf'
  exact group_puts (by decide) (counted_emits (each_puts fun t ht => track_puts (hok t ht) (hs t ht)
    (each_fits hf'.2 t ht)) hl (by omega)) hl hf

/-! ### Chapters and tags -/

theorem display_kids_len (d : Display) :
    (seq [text 0x85 d.title, text 0x437C d.language, text 0x437E d.country]).bytes.length = d.payloadSize := by
  simp only [seq_cons_bytes, seq_nil_bytes, List.length_append, List.length_nil]
  repeat rw [text_len (by decide)]
  simp only [Display.payloadSize, sizeIf_string, kMkvChapString, kMkvChapLanguage, kMkvChapCountry]
  omega

theorem display_len (d : Display) : (displayTree d).bytes.length = d.size := by
  unfold displayTree
  rw [group_len (by decide), display_kids_len]
  rfl

theorem display_puts {d : Display} (h : d.title ≠ none) (hf : (displayTree d).Fits) : Puts d.write (displayTree d) := by
  refine checked_emits ?_ (display_len d)
  unfold displayTree at *
  refine group_puts (by decide) ?_ (display_kids_len d) hf
  rw [group_fits] at hf
  have hf2 := hf.2
  simp only [seq_cons_fits] at hf2
  exact Puts.cons (string_puts (by decide) h hf2.1) (Puts.cons (stringIf_puts (by decide) hf2.2.1)
    (Puts.last (stringIf_puts (by decide) hf2.2.2.1)))

theorem chapter_kids_len (c : Chapter) :
    (seq [text 0x5654 c.id, number 0x73C4 c.uid, number 0x91 c.start, number 0x92 c.stop,
      each displayTree c.displays]).bytes.length = c.payloadSize := by
  simp only [seq_cons_bytes, seq_nil_bytes, List.length_append, List.length_nil]
  rw [text_len (by decide), number_len (by decide), number_len (by decide), number_len (by decide),
    each_len (g := Display.size) fun d _ => display_len d]
  simp only [Chapter.payloadSize, kMkvChapterStringUID, kMkvChapterUID, kMkvChapterTimeStart, kMkvChapterTimeEnd]
  omega

theorem chapter_len (c : Chapter) : (chapterTree c).bytes.length = c.size := by
  unfold chapterTree
  rw [group_len (by decide), chapter_kids_len]
  rfl

theorem chapter_puts {c : Chapter} (h : ChapterOk c) (hf : (chapterTree c).Fits) : Puts c.write (chapterTree c) := by
  refine checked_emits ?_ (chapter_len c)
  unfold chapterTree at *
  refine group_puts (by decide) ?_ (chapter_kids_len c) hf
  rw [group_fits] at hf
  have hf2 := hf.2
  simp only [seq_cons_fits] at hf2
  obtain ⟨f1, _, _, _, f2, _⟩ := hf2
  exact Puts.cons (string_puts (by decide) h.1 f1) (Puts.cons (number_puts (by decide) _)
    (Puts.cons (number_puts (by decide) _) (Puts.cons (number_puts (by decide) _)
    (Puts.last (each_puts fun d hd => display_puts (h.2 d hd) (each_fits f2 d hd))))))

theorem edition_len (cs : List Chapter) : (group 0x45B9 (each chapterTree cs)).bytes.length = editionSize cs := by
  rw [group_len (by decide), each_len (g := Chapter.size) fun c _ => chapter_len c]
  rfl

theorem chapters_puts {cs : List Chapter} (h : ∀ c ∈ cs, ChapterOk c) (hf : (chaptersTree cs).Fits) :
    Puts (writeChapters cs) (chaptersTree cs) := by
  unfold chaptersTree writeChapters at *
  have hf' := hf
  rw [group_fits] at hf'
  have hf2 := hf'.2
  have hf3 := hf2
  rw [group_fits] at hf3
  refine group_puts (by decide) (checked_emits (checked_emits ?_ (edition_len cs)) (edition_len cs)) (edition_len cs) hf
  exact group_puts (by decide) (each_puts fun c hc => chapter_puts (h c hc) (each_fits hf3.2 c hc))
    (each_len fun c _ => chapter_len c) hf2

theorem simpleTag_kids_len (t : SimpleTag) :
    (seq [text 0x45A3 t.name, text 0x4487 t.string]).bytes.length = t.payloadSize := by
  simp only [seq_cons_bytes, seq_nil_bytes, List.length_append, List.length_nil]
  repeat rw [text_len (by decide)]
  simp only [SimpleTag.payloadSize, kMkvTagName, kMkvTagString]
  omega

theorem simpleTag_len (t : SimpleTag) : (simpleTagTree t).bytes.length = t.size := by
  unfold simpleTagTree
  rw [group_len (by decide), simpleTag_kids_len]
  rfl

theorem simpleTag_puts {t : SimpleTag} (h1 : t.name ≠ none) (h2 : t.string ≠ none) (hf : (simpleTagTree t).Fits) :
    Puts t.write (simpleTagTree t) := by
  refine checked_emits ?_ (simpleTag_len t)
  unfold simpleTagTree at *
  refine group_puts (by decide) ?_ (simpleTag_kids_len t) hf
  rw [group_fits] at hf
  have hf2 := hf.2
  simp only [seq_cons_fits] at hf2
  exact Puts.cons (string_puts (by decide) h1 hf2.1) (Puts.last (string_puts (by decide) h2 hf2.2.1))

theorem tag_len (t : Tag) : (group 0x7373 (each simpleTagTree t)).bytes.length = Tag.size t := by
  rw [group_len (by decide), each_len (g := SimpleTag.size) fun c _ => simpleTag_len c]
  rfl

theorem tag_puts {t : Tag} (h : TagOk t) (hf : (group 0x7373 (each simpleTagTree t)).Fits) :
    Puts (Tag.write t) (group 0x7373 (each simpleTagTree t)) := by
  refine checked_emits ?_ (tag_len t)
  have hf' := hf
  rw [group_fits] at hf'
  exact group_puts (by decide) (each_puts fun c hc => simpleTag_puts (h c hc).1 (h c hc).2 (each_fits hf'.2 c hc))
    (each_len fun c _ => simpleTag_len c) hf

theorem tags_puts {ts : List Tag} (h : ∀ t ∈ ts, TagOk t) (hf : (tagsTree ts).Fits) : Puts (writeTags ts) (tagsTree ts) := by
  unfold tagsTree writeTags at *
  have hl : (each (fun t => group 0x7373 (each simpleTagTree t)) ts).bytes.length = sizeEach Tag.size ts :=
    each_len fun t _ => tag_len t
  have hf' := hf
  rw [group_fits] at hf'
  exact group_puts (by decide) (checked_emits (each_puts fun t ht => tag_puts (h t ht) (each_fits hf'.2 t ht)) hl) hl hf

/-! ### Refusals -/

/-- `w` never succeeds. -/
def Never {α : Type} (w : W α) : Prop := ∀ s a s', w s ≠ (.ok a, s')

theorem Never.first {α β : Type} {w : W α} {f : α → W β} (h : Never w) : Never (w >>= f) := by
  intro s a s' he
  rw [W.bind_run] at he
  have := h s
  cases hw : w s with
  | mk r s1 =>
    rw [hw] at he
    cases r with
    | ok b => exact this b s1 hw
    | err c => simp at he
    | ub => simp at he

theorem Never.then {α β : Type} {w : W α} {f : α → W β} (h : ∀ a, Never (f a)) : Never (w >>= f) := by
  intro s a s' he
  rw [W.bind_run] at he
  cases hw : w s with
  | mk r s1 =>
    rw [hw] at he
    cases r with
    | ok b => exact h b s1 a s' he
    | err c => simp at he
    | ub => simp at he

theorem Never.fail {α : Type} (c : Int) : Never (W.fail c : W α) := by
  intro s a s' he; simp [W.fail] at he

theorem Never.counted {n : Nat} {w : W Unit} (h : Never w) : Never (counted n w) :=
  Never.then fun _ => Never.first h

theorem Never.checked {n : Nat} {w : W Unit} (h : Never w) : Never (checked n w) :=
  Never.then fun _ => Never.first h

theorem Never.each {α : Type} {f : α → W Unit} {xs : List α} {x : α} (hx : x ∈ xs) (h : Never (f x)) :
    Never (writeEach f xs) := by
  induction xs with
  | nil => cases hx
  | cons y ys ih =>
    cases hx with
    | head => exact Never.first h
    | tail _ hx => exact Never.then fun _ => ih hx

theorem Never.string {id : Nat} {v : Option Bytes} (h : v = none) : Never (writeEbmlElementString id v) := by
  subst h; exact Never.fail _

theorem Never.binary {id : Nat} {v : Option Bytes} (h : v = none) : Never (writeEbmlElementBinary id v) := by
  subst h; exact Never.fail _

theorem encoding_never {e : ContentEncoding} (h : e.keyId = none) : Never e.write := by
  refine Never.counted ?_
  unfold ContentEncoding.writeParts
  exact Never.then fun _ => Never.then fun _ => Never.then fun _ => Never.then fun _ => Never.then fun _ =>
    Never.then fun _ => Never.first (Never.binary h)

theorem colour_unset_valid {c : Colour} (h : c.payloadSize = 0) : c.valid = true := by
  have hl := colour_kids_len c
  rw [h] at hl
  simp only [colourKids, seq_cons_bytes, seq_nil_bytes, List.length_append, List.length_nil] at hl
  have hset : ∀ (id : Nat) (v : UInt64), (numberSet id v).bytes.length = 0 → colourSet v = false := by
    intro id v hv
    unfold numberSet at hv
    by_cases h : v = 0xFFFFFFFFFFFFFFFF
    · subst h; rfl
    · rw [if_neg h] at hv
      exact absurd (List.length_eq_zero_iff.mp hv) (Tree.bytes_ne (by simp [number, plain]))
  have h1 := hset 0x55B1 c.matrixCoefficients (by omega)
  have h2 := hset 0x55B7 c.chromaSitingHorz (by omega)
  have h3 := hset 0x55B8 c.chromaSitingVert (by omega)
  have h4 := hset 0x55B9 c.range (by omega)
  have h5 := hset 0x55BA c.transferCharacteristics (by omega)
  have h6 := hset 0x55BB c.primaries (by omega)
  have h7 : (optional masteringTree c.mastering).bytes.length = 0 := by omega
  clear hl
  have h8 : c.mastering.all MasteringMetadata.valid = true := by
    cases hm : c.mastering with
    | none => rfl
    | some m =>
      rw [hm] at h7
      have h9 : m.size = 0 := by rw [← mastering_len]; exact h7
      have h10 : m.payloadSize = 0 := by unfold MasteringMetadata.size at h9; split at h9 <;> omega
      have h11 := mastering_kids_len m
      rw [h10] at h11
      simp only [masteringKids, seq_cons_bytes, seq_nil_bytes, List.length_append, List.length_nil] at h11
      have hlum : ∀ (id : Nat) (v : UInt32), (luminance id v).bytes.length = 0 → v = 0x7F7FFFFF := by
        intro id v hv
        unfold luminance at hv
        by_cases h : v = 0x7F7FFFFF
        · exact h
        · rw [if_neg h] at hv
          exact absurd (List.length_eq_zero_iff.mp hv) (Tree.bytes_ne (by simp [float, plain]))
      have hch : ∀ (x y : Nat) (o : Option Chromaticity), (optional (chromaTree x y) o).bytes.length = 0 → o = none := by
        intro x y o ho
        cases o with
        | none => rfl
        | some c =>
          exact absurd (List.length_eq_zero_iff.mp ho)
            (Tree.bytes_ne (by simp [Spec.optional, chromaTree, seq, float, plain, Tree.append]))
      show m.valid = true
      rw [mastering_valid_iff]
      have a1 := hlum 0x55D9 m.luminanceMax (by omega)
      have a2 := hlum 0x55DA m.luminanceMin (by omega)
      have a3 := hch 0x55D1 0x55D2 m.r (by omega)
      have a4 := hch 0x55D3 0x55D4 m.g (by omega)
      have a5 := hch 0x55D5 0x55D6 m.b (by omega)
      have a6 := hch 0x55D7 0x55D8 m.whitePoint (by omega)
      refine ⟨fun h => absurd a2 h, fun h => absurd a1 h, ?_, ?_⟩
      · rw [a1, a2]; exact .inr (.inr (Int.le_refl _))
      · rw [a3, a4, a5, a6]; rintro c (h | h | h | h) <;> cases h
  unfold Colour.valid
  simp [h1, h2, h3, h4, h5, h6, h8]

theorem colour_never {c : Colour} (h : ¬ ColourOk c) : Never c.write := by
  have hv : c.valid = false := by
    cases hc : c.valid with
    | false => rfl
    | true => exact absurd ((colour_valid_iff c).mp hc) h
  unfold Colour.write
  by_cases h0 : c.payloadSize = 0
  · rw [colour_unset_valid h0] at hv; cases hv
  · rw [if_neg h0]
    simp only [hv, Bool.not_false, if_true]
    exact Never.fail _

theorem video_never {v : VideoPart} {c : Colour} (hc : v.colour = some c) (h : ¬ ColourOk c) : Never v.writePayload := by
  have h1 : Never v.writeColour := by
    unfold VideoPart.writeColour; rw [hc]; exact colour_never h
  unfold VideoPart.writePayload
  exact Never.then fun _ => Never.then fun _ => Never.then fun _ => Never.then fun _ => Never.then fun _ =>
    Never.then fun _ => Never.then fun _ => Never.then fun _ => Never.then fun _ => Never.then fun _ =>
    Never.then fun _ => Never.then fun _ => Never.first h1

theorem track_never {t : Track} (h : ¬ TrackOk t) : Never t.write := by
  by_cases hi : t.incomplete = true
  · unfold Track.write Track.writeBase
    rw [if_pos hi]
    exact Never.first (Never.fail _)
  · have hi : t.incomplete = false := by simpa using hi
    obtain ⟨h1, h2, h3⟩ := (incomplete_iff t).mp hi
    by_cases hk : ∀ e ∈ t.encodings, e.keyId ≠ none
    · have : ∃ v c, t.part = .video v ∧ v.colour = some c ∧ ¬ ColourOk c := by
        apply Classical.byContradiction
        intro hn
        refine h ⟨h1, h2, h3, hk, fun v c hv hc => ?_⟩
        apply Classical.byContradiction
        intro hno
        exact hn ⟨v, c, hv, hc, hno⟩
      obtain ⟨v, c, hv, hc, hno⟩ := this
      unfold Track.write
      rw [hv]
      exact Never.then fun _ => Never.then fun _ => Never.counted (video_never hc hno)
    · have : ∃ e ∈ t.encodings, e.keyId = none := by
        apply Classical.byContradiction
        intro hn
        exact hk fun e he hx => hn ⟨e, he, hx⟩
      obtain ⟨e, he, hx⟩ := this
      unfold Track.write Track.writeBase
      rw [if_neg (by simp [hi])]
      refine Never.first (Never.then fun _ => Never.then fun _ => ?_)
      unfold writeIf
      rw [if_pos (by simpa [List.length_pos_iff] using List.ne_nil_of_mem he)]
      exact Never.then fun _ => Never.each he (encoding_never hx)

theorem tracks_never {ts : List Track} {t : Track} (ht : t ∈ ts) (h : ¬ TrackOk t) : Never (writeTracks ts) :=
  Never.then fun _ => Never.counted (Never.each ht (track_never h))

theorem chapters_never {cs : List Chapter} {c : Chapter} (hc : c ∈ cs) (h : ¬ ChapterOk c) : Never (writeChapters cs) := by
  refine Never.then fun _ => Never.checked (Never.checked (Never.then fun _ => Never.each hc (Never.checked ?_)))
  by_cases h1 : c.id = none
  · exact Never.then fun _ => Never.first (Never.string h1)
  · have : ∃ d ∈ c.displays, d.title = none := by
      apply Classical.byContradiction
      intro hn
      exact h ⟨h1, fun d hd hx => hn ⟨d, hd, hx⟩⟩
    obtain ⟨d, hd, hx⟩ := this
    exact Never.then fun _ => Never.then fun _ => Never.then fun _ => Never.then fun _ => Never.then fun _ =>
      Never.each hd (Never.checked (Never.then fun _ => Never.first (Never.string hx)))

theorem tags_never {ts : List Tag} {t : Tag} (ht : t ∈ ts) (h : ¬ TagOk t) : Never (writeTags ts) := by
  refine Never.then fun _ => Never.checked (Never.each ht (Never.checked (Never.then fun _ => ?_)))
  have : ∃ x ∈ t, x.name = none ∨ x.string = none := by
    apply Classical.byContradiction
    intro hn
    exact h fun x hx => ⟨fun h1 => hn ⟨x, hx, .inl h1⟩, fun h1 => hn ⟨x, hx, .inr h1⟩⟩
  obtain ⟨x, hx, hn | hn⟩ := this
  · exact Never.each hx (Never.checked (Never.then fun _ => Never.first (Never.string hn)))
  · exact Never.each hx (Never.checked (Never.then fun _ => Never.then fun _ => Never.string hn))

end Verif.Mux
