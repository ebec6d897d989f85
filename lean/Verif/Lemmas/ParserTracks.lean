/-
mkvparser reads the Tracks element the muxer writes.
-/
import Verif.Lemmas.Reading

namespace Verif.Par
open Verif Verif.Spec Verif.Mux

variable {r : Rdr}

/-- Close `IsId n id` for numerals. -/
local macro "isid" : tactic => `(tactic| (unfold IsId; decide +kernel))

/-! ### Mastering metadata -/

theorem luminanceAt_ok {v : UInt32} {q id : Nat} {m : Int} {max : Int} (hm : m * 2 ^ 925 ≤ max) (hf : Finite v)
    (ht : NotTiny v) (h0 : 0 ≤ floatUnits v) (h1 : floatUnits v ≤ m) (h : At r.data q (beBytes 4 v.toNat)) :
    luminanceAt r ⟨q, id, 4⟩ max = .ok v.toNat := by
  unfold luminanceAt
  have hfl := float_at hf h
  simp only [show ((4 : Nat) : Int) = 4 from rfl, hfl, Res.orErr_ok, Res.bind_ok, toFloat_float]
  rw [Res.refuse_neg (not_notFloat hf ht)]
  simp only [Res.bind_ok]
  have h2 := units_nonneg h0
  have h3 := units_le h1
  have h4 := Int.le_trans h3 hm
  have h5 : ¬ (Dbl.units (v.toNat, 4) < 0 ∨ max < Dbl.units (v.toNat, 4)) := by omega
  exact congrArg (fun x : Res Unit => x >>= fun _ => Res.ok v.toNat) (Res.refuse_neg h5)

theorem max_reads {v : UInt32} (hv : ReadableLuminance v (floatUnits 0x461C3FF5)) {st : ReadMastering}
    (h0 : st.luminanceMax = 0x7F7FFFFF) :
    Reads r (masteringStep r) (luminance 0x55D9 v) st { st with luminanceMax := v.toNat } := by
  unfold luminance
  split
  · rename_i h
    subst h
    rw [show ({ st with luminanceMax := (0x7F7FFFFF : UInt32).toNat } : ReadMastering) = st by cases st; cases h0; rfl]
    exact Reads.nil
  · rename_i h
    obtain ⟨hf, ht, h1, h2⟩ := hv h
    refine Reads.float (n := 2) (by isid) fun p q hq => ?_
    show (luminanceAt r ⟨q, 0x55D9, 4⟩ maxLuminance >>= fun f => .ok { st with luminanceMax := f }) = _
    rw [luminanceAt_ok (by decide +kernel) hf ht h1 h2 hq]
    rfl

theorem min_reads {v : UInt32} (hv : ReadableLuminance v (floatUnits 0x4479FFFE)) {st : ReadMastering}
    (h0 : st.luminanceMin = 0x7F7FFFFF) :
    Reads r (masteringStep r) (luminance 0x55DA v) st { st with luminanceMin := v.toNat } := by
  unfold luminance
  split
  · rename_i h
    subst h
    rw [show ({ st with luminanceMin := (0x7F7FFFFF : UInt32).toNat } : ReadMastering) = st by cases st; cases h0; rfl]
    exact Reads.nil
  · rename_i h
    obtain ⟨hf, ht, h1, h2⟩ := hv h
    refine Reads.float (n := 2) (by isid) fun p q hq => ?_
    show (luminanceAt r ⟨q, 0x55DA, 4⟩ maxLowLuminance >>= fun f => .ok { st with luminanceMin := f }) = _
    rw [luminanceAt_ok (by decide +kernel) hf ht h1 h2 hq]
    rfl

theorem unitFloat_finite {v : UInt32} (h : UnitFloat v) : Finite v := by
  obtain ⟨h1, h2, h3⟩ := h
  intro he
  by_cases hz : v.toNat % 2 ^ 23 = 0
  · have h4 : floatUnits v = 2 ^ 23 * 2 ^ 254 ∨ floatUnits v = -(2 ^ 23 * 2 ^ 254) := by
      unfold floatUnits
      simp only [he, hz]
      split
      · left; decide +kernel
      · right; decide +kernel
    rcases h4 with h4 | h4
    · rw [h4] at h3; exact absurd h3 (by decide +kernel)
    · rw [h4] at h2; exact absurd h2 (by decide +kernel)
  · exact h1 ⟨he, hz⟩

theorem chromaAt_ok {v : UInt32} (hu : UnitFloat v) (ht : NotTiny v) {q id : Nat} {isX : Bool}
    (h : At r.data q (beBytes 4 v.toNat)) {c : Option ReadChroma} :
    chromaAt r ⟨q, id, 4⟩ isX c =
      .ok (some (if isX then { c.getD {} with x := v.toNat } else { c.getD {} with y := v.toNat })) := by
  unfold chromaAt
  have hfl := float_at (unitFloat_finite hu) h
  simp only [show ((4 : Nat) : Int) = 4 from rfl, hfl, Res.orErr_ok, Res.bind_ok, toFloat_float]
  have h2 := units_nonneg hu.2.1
  have h3 := units_le hu.2.2
  have h4 := not_tiny ht
  rw [show (2 ^ 149 * 2 ^ 925 : Int) = one by decide +kernel] at h3
  have h5 : ¬ (Dbl.units (v.toNat, 4) < 0 ∨ one < Dbl.units (v.toNat, 4) ∨
      (0 < Dbl.units (v.toNat, 4) ∧ Dbl.units (v.toNat, 4) < fltMin)) := by omega
  rw [Res.refuse_neg h5]
  rfl

/-- One of the four points, in the place that `get` and `set` name. -/
theorem chroma_reads {xId yId : Nat} {n m : Nat} (hx : IsId n xId) (hy : IsId m yId) {c : Option Chromaticity}
    (hc : ReadableChroma c) (get : ReadMastering → Option ReadChroma)
    (set : ReadMastering → Option ReadChroma → ReadMastering) (hgs : ∀ s c, get (set s c) = c)
    (hss : ∀ s c d, set (set s c) d = set s d) (hns : ∀ s, get s = none → set s none = s)
    (hsx : ∀ p q s, masteringStep r p ⟨q, xId, 4⟩ s = (chromaAt r ⟨q, xId, 4⟩ true (get s) >>= fun c => .ok (set s c)))
    (hsy : ∀ p q s, masteringStep r p ⟨q, yId, 4⟩ s = (chromaAt r ⟨q, yId, 4⟩ false (get s) >>= fun c => .ok (set s c)))
    {st : ReadMastering} (h0 : get st = none) :
    Reads r (masteringStep r) (Spec.optional (chromaTree xId yId) c) st (set st (c.map seenChroma)) := by
  cases c with
  | none =>
    show Reads r _ Tree.nil st (set st none)
    rw [hns st h0]; exact Reads.nil
  | some c =>
    obtain ⟨⟨h1, h2⟩, h3, h4⟩ := hc c rfl
    refine Reads.cons (b := set st (some ⟨c.x.toNat, 0⟩)) (Reads.float hx fun p q hq => ?_)
      (Reads.cons (Reads.float hy fun p q hq => ?_) Reads.seqNil)
    · rw [hsx, chromaAt_ok h1 h2 hq, h0]; rfl
    · rw [hsy, chromaAt_ok h3 h4 hq, hgs]
      show Res.ok (set (set st _) _) = _
      rw [hss]; rfl

theorem mastering_reads {m : MasteringMetadata} (h : ReadableMastering m) :
    Reads r (masteringStep r) (masteringKids m) {} (seenMastering m) := by
  unfold masteringKids
  refine Reads.cons (max_reads h.max rfl) ?_
  refine Reads.cons (min_reads h.min rfl) ?_
  refine Reads.cons (chroma_reads (n := 2) (m := 2) (by isid) (by isid) h.r ReadMastering.r (fun s c => { s with r := c })
    (fun _ _ => rfl) (fun _ _ _ => rfl) (fun s h => by cases s; cases h; rfl) (fun _ _ _ => rfl) (fun _ _ _ => rfl) rfl) ?_
  refine Reads.cons (chroma_reads (n := 2) (m := 2) (by isid) (by isid) h.g ReadMastering.g (fun s c => { s with g := c })
    (fun _ _ => rfl) (fun _ _ _ => rfl) (fun s h => by cases s; cases h; rfl) (fun _ _ _ => rfl) (fun _ _ _ => rfl) rfl) ?_
  refine Reads.cons (chroma_reads (n := 2) (m := 2) (by isid) (by isid) h.b ReadMastering.b (fun s c => { s with b := c })
    (fun _ _ => rfl) (fun _ _ _ => rfl) (fun s h => by cases s; cases h; rfl) (fun _ _ _ => rfl) (fun _ _ _ => rfl) rfl) ?_
  refine Reads.cons (chroma_reads (n := 2) (m := 2) (by isid) (by isid) h.whitePoint ReadMastering.whitePoint
    (fun s c => { s with whitePoint := c })
    (fun _ _ => rfl) (fun _ _ _ => rfl) (fun s h => by cases s; cases h; rfl) (fun _ _ _ => rfl) (fun _ _ _ => rfl) rfl) ?_
  exact Reads.seqNil

theorem seenMastering_default : seenMastering {} = {} := rfl

theorem chroma_nil {xId yId : Nat} {c : Option Chromaticity} :
    (Spec.optional (chromaTree xId yId) c).bytes = [] → c = none := by
  cases c with
  | none => intro _; rfl
  | some c =>
    intro h
    exact absurd h (Tree.bytes_ne (by simp [Spec.optional, chromaTree, seq, Spec.float, Spec.plain, Tree.append]))

theorem luminance_nil {id : Nat} {v : UInt32} : (luminance id v).bytes = [] → v = 0x7F7FFFFF := by
  unfold luminance
  split
  · intro _; assumption
  · intro h
    exact absurd h (Tree.bytes_ne (by simp [Spec.float, Spec.plain]))

theorem mastering_nil (m : MasteringMetadata) : masteringKids m = .nil ↔ m = {} := by
  constructor
  · intro h
    have hb : (masteringKids m).bytes = [] := by rw [h]; rfl
    simp only [masteringKids, seq_cons_bytes, List.append_eq_nil_iff] at hb
    obtain ⟨h1, h2, h3, h4, h5, h6, -⟩ := hb
    have h1 := luminance_nil h1
    have h2 := luminance_nil h2
    have h3 := chroma_nil h3
    have h4 := chroma_nil h4
    have h5 := chroma_nil h5
    have h6 := chroma_nil h6
    cases m
    simp_all
    rfl
  · rintro rfl; rfl

theorem masteringParse_ok {m : MasteringMetadata} (h : ReadableMastering m) {q : Nat}
    (hq : At r.data q (masteringKids m).bytes) (hm : q + (masteringKids m).bytes.length ≤ llongMax) :
    masteringParse r q (masteringKids m).bytes.length = .ok (seenMastering m) := by
  unfold masteringParse
  rw [(mastering_reads h).run hq hm]
  rfl

/-! ### Colour -/

theorem colourNumber_reads {n id : Nat} (hid : IsId n id) {v : UInt64} (hv : ReadableNumber v)
    (set : ReadColour → Int → ReadColour) {st : ReadColour} (h0 : set st llongMax = st)
    (hs : ∀ p q k, colourStep r p ⟨q, id, k⟩ st = (uintFrom 0 r ⟨q, id, k⟩ >>= fun v => .ok (set st v))) :
    Reads r (colourStep r) (numberSet id v) st (set st (seenNumber v)) := by
  unfold numberSet seenNumber
  split
  · rw [show (2 ^ 63 - 1 : Int) = llongMax from rfl, h0]; exact Reads.nil
  · rename_i h
    rcases hv with hv | hv
    · exact absurd hv h
    · refine Reads.number hid fun p q hq => ?_
      rw [hs, uintFrom_ok (by omega) (by omega) hq]
      rfl

/-- What is read of mastering metadata that may be absent. -/
def seenMasteringOpt (m : Option MasteringMetadata) : Option ReadMastering :=
  m.bind fun m => if m = {} then none else some (seenMastering m)

theorem colourMastering_reads {m : Option MasteringMetadata} (h : ∀ x, m = some x → ReadableMastering x)
    (hf : (Spec.optional masteringTree m).Fits) {st : ReadColour} (h0 : st.mastering = none) :
    Reads r (colourStep r) (Spec.optional masteringTree m) st { st with mastering := seenMasteringOpt m } := by
  have hst : ({ st with mastering := none } : ReadColour) = st := by cases st; cases h0; rfl
  cases m with
  | none => show Reads r _ Tree.nil st { st with mastering := none }; rw [hst]; exact Reads.nil
  | some m =>
    simp only [Spec.optional, masteringTree_eq, seenMasteringOpt, Option.bind_some] at hf ⊢
    by_cases hm : m = {}
    · subst hm
      show Reads r _ Tree.nil st { st with mastering := none }
      rw [hst]; exact Reads.nil
    · rw [if_neg hm]
      have hne : masteringKids m ≠ .nil := fun hn => hm ((mastering_nil m).mp hn)
      rw [groupIf_ne hne] at hf ⊢
      rw [group_fits] at hf
      refine Reads.group (n := 2) (by isid) hf.1 fun p q hq hmax => ?_
      show (Res.refuse (st.mastering.isSome) E_FILE_FORMAT_INVALID >>= fun _ =>
        (masteringParse r q (masteringKids m).bytes.length >>= fun m => .ok { st with mastering := some m })) = _
      rw [Res.refuse_neg (by rw [h0]; simp), masteringParse_ok (h m rfl) hq hmax]
      rfl

theorem colour_reads {c : Colour} (h : ReadableColour c) (hf : (Spec.optional masteringTree c.mastering).Fits) :
    Reads r (colourStep r) (colourKids c) {} (seenColour c) := by
  have hn := h.numbers
  simp only [List.forall_mem_cons, List.forall_mem_nil, and_true] at hn
  obtain ⟨h1, h2, h3, h4, h5, h6, h7, h8, h9, h10, h11, h12, h13, -⟩ := hn
  unfold colourKids
  refine Reads.cons (colourNumber_reads (n := 2) (by isid) h1 (fun s v => { s with matrixCoefficients := v }) rfl (fun _ _ _ => rfl)) ?_
  refine Reads.cons (colourNumber_reads (n := 2) (by isid) h2 (fun s v => { s with bitsPerChannel := v }) rfl (fun _ _ _ => rfl)) ?_
  refine Reads.cons (colourNumber_reads (n := 2) (by isid) h3 (fun s v => { s with chromaSubsamplingHorz := v }) rfl (fun _ _ _ => rfl)) ?_
  refine Reads.cons (colourNumber_reads (n := 2) (by isid) h4 (fun s v => { s with chromaSubsamplingVert := v }) rfl (fun _ _ _ => rfl)) ?_
  refine Reads.cons (colourNumber_reads (n := 2) (by isid) h5 (fun s v => { s with cbSubsamplingHorz := v }) rfl (fun _ _ _ => rfl)) ?_
  refine Reads.cons (colourNumber_reads (n := 2) (by isid) h6 (fun s v => { s with cbSubsamplingVert := v }) rfl (fun _ _ _ => rfl)) ?_
  refine Reads.cons (colourNumber_reads (n := 2) (by isid) h7 (fun s v => { s with chromaSitingHorz := v }) rfl (fun _ _ _ => rfl)) ?_
  refine Reads.cons (colourNumber_reads (n := 2) (by isid) h8 (fun s v => { s with chromaSitingVert := v }) rfl (fun _ _ _ => rfl)) ?_
  refine Reads.cons (colourNumber_reads (n := 2) (by isid) h9 (fun s v => { s with range := v }) rfl (fun _ _ _ => rfl)) ?_
  refine Reads.cons (colourNumber_reads (n := 2) (by isid) h10 (fun s v => { s with transferCharacteristics := v }) rfl (fun _ _ _ => rfl)) ?_
  refine Reads.cons (colourNumber_reads (n := 2) (by isid) h11 (fun s v => { s with primaries := v }) rfl (fun _ _ _ => rfl)) ?_
  refine Reads.cons (colourNumber_reads (n := 2) (by isid) h12 (fun s v => { s with maxCll := v }) rfl (fun _ _ _ => rfl)) ?_
  refine Reads.cons (colourNumber_reads (n := 2) (by isid) h13 (fun s v => { s with maxFall := v }) rfl (fun _ _ _ => rfl)) ?_
  exact Reads.cons (colourMastering_reads h.mastering hf rfl) Reads.seqNil

theorem numberSet_nil {id : Nat} {v : UInt64} : (numberSet id v).bytes = [] ↔ v = 0xFFFFFFFFFFFFFFFF := by
  unfold numberSet
  split
  · simp_all
  · rename_i h
    exact ⟨fun hb => absurd hb (Tree.bytes_ne (by simp [Spec.number, Spec.plain])), fun hv => absurd hv h⟩

theorem seenNumber_default {v : UInt64} (h : ReadableNumber v) : seenNumber v = llongMax ↔ v = 0xFFFFFFFFFFFFFFFF := by
  unfold seenNumber
  split
  · simp_all; rfl
  · rename_i hne
    refine ⟨fun hv => ?_, fun hv => absurd hv hne⟩
    rcases h with h | h
    · exact h
    · rw [show ((llongMax : Nat) : Int) = 2 ^ 63 - 1 from rfl] at hv
      omega

theorem masteringOpt_nil (m : Option MasteringMetadata) :
    (Spec.optional masteringTree m).bytes = [] ↔ seenMasteringOpt m = none := by
  cases m with
  | none => exact ⟨fun _ => rfl, fun _ => rfl⟩
  | some m =>
    simp only [Spec.optional, masteringTree_eq, seenMasteringOpt, Option.bind_some]
    by_cases hm : m = {}
    · subst hm; exact ⟨fun _ => rfl, fun _ => rfl⟩
    · have hne : masteringKids m ≠ .nil := fun hn => hm ((mastering_nil m).mp hn)
      rw [groupIf_ne hne, if_neg hm, group_bytes]
      exact ⟨fun h => absurd h (element_ne_nil _ _), fun h => by cases h⟩

theorem bytes_nil {t : Tree} : t.bytes = [] ↔ t = .nil :=
  ⟨fun h => Classical.byContradiction fun hn => Tree.bytes_ne hn h, fun h => by rw [h]; rfl⟩

theorem colour_nil {c : Colour} (h : ReadableColour c) : colourKids c = .nil ↔ seenColour c = {} := by
  have hn := h.numbers
  simp only [List.forall_mem_cons, List.forall_mem_nil, and_true] at hn
  obtain ⟨h1, h2, h3, h4, h5, h6, h7, h8, h9, h10, h11, h12, h13, -⟩ := hn
  rw [← bytes_nil]
  have hcons : seenColour c = {} ↔ seenNumber c.matrixCoefficients = llongMax ∧ seenNumber c.bitsPerChannel = llongMax ∧
      seenNumber c.chromaSubsamplingHorz = llongMax ∧ seenNumber c.chromaSubsamplingVert = llongMax ∧
      seenNumber c.cbSubsamplingHorz = llongMax ∧ seenNumber c.cbSubsamplingVert = llongMax ∧
      seenNumber c.chromaSitingHorz = llongMax ∧ seenNumber c.chromaSitingVert = llongMax ∧
      seenNumber c.range = llongMax ∧ seenNumber c.transferCharacteristics = llongMax ∧
      seenNumber c.primaries = llongMax ∧ seenNumber c.maxCll = llongMax ∧ seenNumber c.maxFall = llongMax ∧
      seenMasteringOpt c.mastering = none := by
    rw [show seenColour c = ReadColour.mk (seenNumber c.matrixCoefficients) (seenNumber c.bitsPerChannel)
      (seenNumber c.chromaSubsamplingHorz) (seenNumber c.chromaSubsamplingVert) (seenNumber c.cbSubsamplingHorz)
      (seenNumber c.cbSubsamplingVert) (seenNumber c.chromaSitingHorz) (seenNumber c.chromaSitingVert)
      (seenNumber c.range) (seenNumber c.transferCharacteristics) (seenNumber c.primaries) (seenNumber c.maxCll)
      (seenNumber c.maxFall) (seenMasteringOpt c.mastering) from rfl, ReadColour.mk.injEq]
  rw [hcons, seenNumber_default h1, seenNumber_default h2, seenNumber_default h3, seenNumber_default h4,
    seenNumber_default h5, seenNumber_default h6, seenNumber_default h7, seenNumber_default h8, seenNumber_default h9,
    seenNumber_default h10, seenNumber_default h11, seenNumber_default h12, seenNumber_default h13,
    ← masteringOpt_nil]
  simp only [colourKids, seq_cons_bytes, seq_nil_bytes, List.append_eq_nil_iff, numberSet_nil, and_true]

theorem colourParse_ok {c : Colour} (h : ReadableColour c) (hf : (Spec.optional masteringTree c.mastering).Fits)
    {q : Nat} (hq : At r.data q (colourKids c).bytes) (hm : q + (colourKids c).bytes.length ≤ llongMax) :
    colourParse r q (colourKids c).bytes.length = .ok (seenColour c) := by
  unfold colourParse
  rw [(colour_reads h hf).run hq hm]
  rfl

/-! ### Projection -/

/-- The children of a projection. -/
def projectionKids (p : Projection) : Tree :=
  seq [number 0x7671 p.type, text 0x7672 p.privateData, float 0x7673 p.yaw, float 0x7674 p.pitch, float 0x7675 p.roll]

theorem projectionTree_eq (p : Projection) : projectionTree p = group 0x7670 (projectionKids p) := rfl

theorem pose_reads {n id : Nat} (hid : IsId n id) {v : UInt32} (hf : Finite v) (ht : NotTiny v) {st st' : ReadProjection}
    (hs : ∀ p q, projectionStep r p ⟨q, id, 4⟩ st = (unserializeFloat r q 4 >>= fun d =>
      (Res.refuse (Dbl.notFloat d) E_FILE_FORMAT_INVALID >>= fun _ =>
        if id = kMkvProjectionPoseYaw then .ok { st with yaw := Dbl.toFloat d }
        else if id = kMkvProjectionPosePitch then .ok { st with pitch := Dbl.toFloat d }
        else if id = kMkvProjectionPoseRoll then .ok { st with roll := Dbl.toFloat d }
        else .err E_FILE_FORMAT_INVALID)))
    (he : (if id = kMkvProjectionPoseYaw then (.ok { st with yaw := v.toNat } : Res ReadProjection)
        else if id = kMkvProjectionPosePitch then .ok { st with pitch := v.toNat }
        else if id = kMkvProjectionPoseRoll then .ok { st with roll := v.toNat }
        else .err E_FILE_FORMAT_INVALID) = .ok st') :
    Reads r (projectionStep r) (Spec.float id v) st st' := by
  refine Reads.float hid fun p q hq => ?_
  rw [hs, float_at hf hq, Res.bind_ok, Res.refuse_neg (not_notFloat hf ht), Res.bind_ok]
  simp only [toFloat_float]
  exact he

theorem projection_reads {p : Projection} (h : ReadableProjection p) (hf : (projectionKids p).Fits) :
    Reads r (projectionStep r) (projectionKids p) {} (seenProjection p) := by
  have hfl := h.floats
  simp only [List.forall_mem_cons, List.forall_mem_nil, and_true] at hfl
  obtain ⟨⟨h1, h2⟩, ⟨h3, h4⟩, ⟨h5, h6⟩, -⟩ := hfl
  simp only [projectionKids, seq_cons_fits] at hf
  unfold projectionKids
  refine Reads.cons (b := { type := p.type.toNat }) (Reads.number (n := 2) (by isid) fun pp q hq => ?_) ?_
  · show (uintFrom 0 r ⟨q, 0x7671, _⟩ >>= fun v => .ok { ({} : ReadProjection) with type := v }) = _
    rw [uintFrom_ok h.type (by omega) hq]; rfl
  refine Reads.cons (b := { type := p.type.toNat, privateData := p.privateData })
    (Reads.text (n := 2) (by isid) hf.2.1 (fun h0 => by rw [h0]) fun s hs hl pp q hq => ?_) ?_
  · show (Res.refuse (Option.isSome (none : Option Bytes)) E_FILE_FORMAT_INVALID >>= fun _ =>
      (binaryAt r ⟨q, 0x7672, s.length⟩ E_FILE_FORMAT_INVALID >>= fun b =>
        .ok { ({ type := p.type.toNat } : ReadProjection) with privateData := some b })) = _
    rw [Res.refuse_neg (by simp), binaryAt_ok hq (h.data s hs), hs]
    rfl
  refine Reads.cons (pose_reads (n := 2) (by isid) h1 h2 (fun _ _ => rfl) rfl) ?_
  refine Reads.cons (pose_reads (n := 2) (by isid) h3 h4 (fun _ _ => rfl) rfl) ?_
  refine Reads.cons (pose_reads (n := 2) (by isid) h5 h6 (fun _ _ => rfl) rfl) ?_
  exact Reads.seqNil

theorem projectionParse_ok {p : Projection} (h : ReadableProjection p) (hf : (projectionKids p).Fits)
    {q : Nat} (hq : At r.data q (projectionKids p).bytes) (hm : q + (projectionKids p).bytes.length ≤ llongMax) :
    projectionParse r q (projectionKids p).bytes.length = .ok (seenProjection p) := by
  unfold projectionParse
  rw [(projection_reads h hf).run hq hm]
  rfl

/-! ### Video -/

theorem videoNumber_reads {n id : Nat} (hid : IsId n id) {v : UInt64} {least : Int} (hv : v.toNat < 2 ^ 63)
    (hl : least ≤ v.toNat) (set : ReadVideo → Int → ReadVideo) {st : ReadVideo}
    (hs : ∀ p q k, videoStep r p ⟨q, id, k⟩ st = (uintFrom least r ⟨q, id, k⟩ >>= fun v => .ok (set st v))) :
    Reads r (videoStep r) (number id v) st (set st v.toNat) := by
  refine Reads.number hid fun p q hq => ?_
  rw [hs, uintFrom_ok hv hl hq]
  rfl

theorem videoNumberIf_reads {n id : Nat} (hid : IsId n id) {v : UInt64} {least : Int} (hv : v.toNat < 2 ^ 63)
    (hl : v ≠ 0 → least ≤ v.toNat) (set : ReadVideo → Int → ReadVideo) {st : ReadVideo} (h0 : set st 0 = st)
    (hs : ∀ p q k, videoStep r p ⟨q, id, k⟩ st = (uintFrom least r ⟨q, id, k⟩ >>= fun v => .ok (set st v))) :
    Reads r (videoStep r) (numberIf id v) st (set st v.toNat) := by
  refine Reads.numberIf hid (fun h => ?_) fun h p q hq => ?_
  · subst h; exact h0.symm
  · rw [hs, uintFrom_ok hv (hl h) hq]; rfl

theorem videoIgnored_reads {n id : Nat} (hid : IsId n id) {v : UInt64} {st : ReadVideo}
    (hs : ∀ p q k, videoStep r p ⟨q, id, k⟩ st = .ok st) :
    Reads r (videoStep r) (numberIf id v) st st :=
  Reads.numberIf hid (fun _ => rfl) fun _ p q _ => hs p q _

theorem one_le_of_ne {v : UInt64} (h : v ≠ 0) : (1 : Int) ≤ v.toNat := by
  have h1 : v.toNat ≠ 0 := fun hn => h (UInt64.toNat_inj.mp (by simpa using hn))
  omega

theorem rate_ok {v : UInt32} (hv : Finite v ∧ 0 < floatUnits v) {q : Nat} (hq : At r.data q (beBytes 4 v.toNat))
    {α : Type} (k : Dbl → Res α) :
    (unserializeFloat r q ((4 : Nat) : Int) >>= fun d =>
      (Res.refuse (Dbl.units d ≤ 0) E_FILE_FORMAT_INVALID >>= fun _ => k d)) = k (v.toNat, 4) := by
  rw [show ((4 : Nat) : Int) = 4 from rfl, float_at hv.1 hq, Res.bind_ok]
  have h1 := units_pos hv.2
  have h2 : ¬ Dbl.units (v.toNat, 4) ≤ 0 := by omega
  rw [Res.refuse_neg h2]
  rfl

/-- What is read of a colour that may be absent. -/
def seenColourOpt (c : Option Colour) : Option ReadColour :=
  c.bind fun c => if seenColour c = {} then none else some (seenColour c)

theorem video_reads {v : VideoPart} (h : ReadableVideo v) (hf : (videoKids v).Fits) :
    Reads r (videoStep r) (videoKids v) {} (seenVideo v) := by
  simp only [videoKids, seq_cons_fits] at hf
  obtain ⟨-, -, -, -, -, -, -, -, -, -, hf1, -, hf2, hf3, -⟩ := hf
  unfold videoKids
  refine Reads.cons (videoNumber_reads (n := 1) (least := 1) (by isid) h.width.2 (by have := h.width.1; omega)
    (fun s n => { s with width := n }) (fun _ _ _ => rfl)) ?_
  refine Reads.cons (videoNumber_reads (n := 1) (least := 1) (by isid) h.height.2 (by have := h.height.1; omega)
    (fun s n => { s with height := n }) (fun _ _ _ => rfl)) ?_
  refine Reads.cons (videoNumberIf_reads (n := 2) (least := 1) (by isid) h.display.1 one_le_of_ne
    (fun s n => { s with displayWidth := n }) rfl (fun _ _ _ => rfl)) ?_
  refine Reads.cons (videoNumberIf_reads (n := 2) (least := 1) (by isid) h.display.2.1 one_le_of_ne
    (fun s n => { s with displayHeight := n }) rfl (fun _ _ _ => rfl)) ?_
  refine Reads.cons (videoIgnored_reads (n := 2) (by isid) (fun _ _ _ => rfl)) ?_
  refine Reads.cons (videoIgnored_reads (n := 2) (by isid) (fun _ _ _ => rfl)) ?_
  refine Reads.cons (videoIgnored_reads (n := 2) (by isid) (fun _ _ _ => rfl)) ?_
  refine Reads.cons (videoIgnored_reads (n := 2) (by isid) (fun _ _ _ => rfl)) ?_
  refine Reads.cons (videoNumberIf_reads (n := 2) (least := 0) (by isid) h.display.2.2 (fun _ => by omega)
    (fun s n => { s with stereoMode := n }) rfl (fun _ _ _ => rfl)) ?_
  refine Reads.cons (videoIgnored_reads (n := 2) (by isid) (fun _ _ _ => rfl)) ?_
  generalize hs0 : ({ ({ ({ ({ ({ ({} : ReadVideo) with width := _ } : ReadVideo) with height := _ } : ReadVideo)
    with displayWidth := _ } : ReadVideo) with displayHeight := _ } : ReadVideo) with stereoMode := _ } : ReadVideo) = s0
  refine Reads.cons (b := { s0 with colourSpace := v.colourSpace })
    (Reads.text (n := 3) (by isid) hf1 (fun h0 => by rw [h0, ← hs0]) fun s hs hl p q hq => ?_) ?_
  · show (match unserializeString r q s.length with
      | .ok s => Res.ok { s0 with colourSpace := some s }
      | .err c => if c < 0 then .err c else .ok { s0 with colourSpace := none }
      | .ub => .ub) = _
    rw [unserializeString_at hq (h.colourSpace s hs).1, hs]
  generalize hs1 : ({ s0 with colourSpace := v.colourSpace } : ReadVideo) = s1
  have h1 : s1.rate = (0, 8) ∧ s1.colour = none ∧ s1.projection = none := by rw [← hs1, ← hs0]; exact ⟨rfl, rfl, rfl⟩
  refine Reads.cons (b := { s1 with rate := match v.frameRate with | none => (0, 8) | some b => (b.toNat, 4) }) ?_ ?_
  · cases hr : v.frameRate with
    | none =>
      have : ({ s1 with rate := (0, 8) } : ReadVideo) = s1 := by cases s1; cases h1.1; rfl
      show Reads r _ .nil s1 { s1 with rate := (0, 8) }
      rw [this]; exact Reads.nil
    | some b =>
      refine Reads.float (n := 3) (by isid) fun p q hq => ?_
      exact rate_ok (h.rate b hr) hq fun d => .ok { s1 with rate := d }
  generalize hs2 : ({ s1 with rate := match v.frameRate with | none => (0, 8) | some b => (b.toNat, 4) } : ReadVideo) = s2
  have h2 : s2.colour = none ∧ s2.projection = none := by rw [← hs2]; exact h1.2
  refine Reads.cons (b := { s2 with colour := seenColourOpt v.colour }) ?_ ?_
  · have hn : ({ s2 with colour := none } : ReadVideo) = s2 := by cases s2; cases h2.1; rfl
    cases hc : v.colour with
    | none =>
      show Reads r _ .nil s2 { s2 with colour := none }
      rw [hn]; exact Reads.nil
    | some c =>
      have hfc := optional_fits hf2 hc
      have hrc := h.colour c hc
      simp only [Spec.optional, seenColourOpt, Option.bind_some]
      rw [colourTree_eq] at hfc ⊢
      by_cases h0 : colourKids c = .nil
      · rw [if_pos ((colour_nil hrc).mp h0), h0, hn]
        exact Reads.nil
      · rw [if_neg (fun hx => h0 ((colour_nil hrc).mpr hx))]
        rw [groupIf_ne h0] at hfc ⊢
        rw [group_fits] at hfc
        refine Reads.group (n := 2) (by isid) hfc.1 fun p q hq hmax => ?_
        show (colourParse r q (colourKids c).bytes.length >>= fun c => .ok { s2 with colour := some c }) = _
        have hfm := hfc.2
        simp only [colourKids, seq_cons_fits] at hfm
        rw [colourParse_ok hrc hfm.2.2.2.2.2.2.2.2.2.2.2.2.2.1 hq hmax]
        rfl
  generalize hs3 : ({ s2 with colour := seenColourOpt v.colour } : ReadVideo) = s3
  have h3 : s3.projection = none := by rw [← hs3]; exact h2.2
  refine Reads.cons (b := { s3 with projection := v.projection.map seenProjection }) ?_ ?_
  · cases hc : v.projection with
    | none =>
      have hn : ({ s3 with projection := none } : ReadVideo) = s3 := by cases s3; cases h3; rfl
      show Reads r _ .nil s3 { s3 with projection := none }
      rw [hn]; exact Reads.nil
    | some p =>
      have hfc := optional_fits hf3 hc
      simp only [Spec.optional, Option.map_some]
      rw [projectionTree_eq] at hfc ⊢
      rw [group_fits] at hfc
      refine Reads.group (n := 2) (by isid) hfc.1 fun pp q hq hmax => ?_
      show (projectionParse r q (projectionKids p).bytes.length >>= fun c => .ok { s3 with projection := some c }) = _
      rw [projectionParse_ok (h.projection p hc) hfc.2 hq hmax]
      rfl
  have : ({ s3 with projection := v.projection.map seenProjection } : ReadVideo) = seenVideo v := by
    rw [← hs3, ← hs2, ← hs1, ← hs0]
    rfl
  rw [this]
  exact Reads.seqNil

theorem videoParse_ok {v : VideoPart} (h : ReadableVideo v) (hf : (videoKids v).Fits)
    {q : Nat} (hq : At r.data q (videoKids v).bytes) (hm : q + (videoKids v).bytes.length ≤ llongMax) :
    videoParse r q (videoKids v).bytes.length = .ok (seenVideo v) :=
  (video_reads h hf).run hq hm

/-! ### Audio -/

theorem audio_reads {a : AudioPart} (h : ReadableAudio a) :
    Reads r (audioStep r) (audioKids a) {} (seenAudio a) := by
  unfold audioKids
  refine Reads.cons (b := { rate := (a.sampleRate.toNat, 4) }) (Reads.float (n := 1) (by isid) fun p q hq => ?_) ?_
  · exact rate_ok h.rate hq fun d => Res.ok ({ rate := d } : ReadAudio)
  refine Reads.cons (b := { rate := (a.sampleRate.toNat, 4), channels := a.channels.toNat })
    (Reads.number (n := 1) (by isid) fun p q hq => ?_) ?_
  · show (uintFrom 1 r ⟨q, 0x9F, _⟩ >>= fun n => .ok { ({ rate := (a.sampleRate.toNat, 4) } : ReadAudio) with channels := n }) = _
    rw [uintFrom_ok h.channels.2 (by have := h.channels.1; omega) hq]; rfl
  refine Reads.cons (b := seenAudio a) (Reads.numberIf (n := 2) (by isid) (fun h0 => ?_) fun h0 p q hq => ?_) Reads.seqNil
  · unfold seenAudio; rw [h0]; rfl
  · show (uintFrom 1 r ⟨q, 0x6264, _⟩ >>= fun n =>
      .ok { ({ rate := (a.sampleRate.toNat, 4), channels := a.channels.toNat } : ReadAudio) with bitDepth := n }) = _
    rw [uintFrom_ok h.depth (one_le_of_ne h0) hq]; rfl

theorem audioParse_ok {a : AudioPart} (h : ReadableAudio a)
    {q : Nat} (hq : At r.data q (audioKids a).bytes) (hm : q + (audioKids a).bytes.length ≤ llongMax) :
    audioParse r q (audioKids a).bytes.length = .ok (seenAudio a) :=
  (audio_reads h).run hq hm

/-! ### Encodings -/

theorem walkKeep_of_walk {σ : Type} {step : Nat → Hdr → σ → Res σ} {keep : Nat → Hdr → σ → Turn σ}
    (h : ∀ p h s s', step p h s = .ok s' → keep p h s = .next s') {stop pos : Nat} {a b : σ}
    (hw : walk r stop step pos a = .ok b) : walkKeep r stop keep pos a = .next b := by
  induction pos, a using walkKeep.induct (r := r) (stop := stop) (step := keep) with
  | case1 pos st hlt c hp => rw [walk_unfold, if_pos hlt, hp] at hw; cases hw
  | case2 pos st hlt hp => rw [walk_unfold, if_pos hlt, hp] at hw; cases hw
  | case3 pos st hlt hd hp c s hs =>
    rw [walk_unfold, if_pos hlt, hp] at hw
    simp only at hw
    cases hx : step pos hd st with
    | ok s' => rw [h _ _ _ _ hx] at hs; cases hs
    | err => rw [hx] at hw; cases hw
    | ub => rw [hx] at hw; cases hw
  | case4 pos st hlt hd hp hs =>
    rw [walk_unfold, if_pos hlt, hp] at hw
    simp only at hw
    cases hx : step pos hd st with
    | ok s' => rw [h _ _ _ _ hx] at hs; cases hs
    | err => rw [hx] at hw; cases hw
    | ub => rw [hx] at hw; cases hw
  | case5 pos st hlt hd hp s hs hgt =>
    rw [walk_unfold, if_pos hlt, hp] at hw
    simp only at hw
    cases hx : step pos hd st with
    | ok s' => rw [hx] at hw; simp only at hw; rw [if_pos hgt] at hw; cases hw
    | err => rw [hx] at hw; cases hw
    | ub => rw [hx] at hw; cases hw
  | case6 pos st hlt hd hp s hs hgt ih =>
    rw [walk_unfold, if_pos hlt, hp] at hw
    simp only at hw
    cases hx : step pos hd st with
    | ok s' =>
      rw [hx] at hw; simp only at hw; rw [if_neg hgt] at hw
      have hss := h _ _ _ _ hx
      rw [hs] at hss
      cases hss
      rw [walkKeep.eq_1, if_pos hlt]
      split
      · rename_i hp'; rw [hp] at hp'; cases hp'
      · rename_i hp'; rw [hp] at hp'; cases hp'
      · rename_i hd' hp'
        rw [hp] at hp'
        cases hp'
        rw [hs]
        simp only
        rw [if_neg hgt]
        exact ih hw
    | err => rw [hx] at hw; cases hw
    | ub => rw [hx] at hw; cases hw
  | case7 st => 
    rw [walk_end rfl] at hw
    cases hw
    rw [walkKeep.eq_1, if_neg (by omega), if_pos rfl]
  | case8 pos st hlt hne =>
    rw [walk_unfold, if_neg hlt, if_neg hne] at hw
    cases hw

/-- The body of a loop without what it leaves behind. -/
def Turn.drop {σ : Type} : Turn σ → Res σ
  | .next s => .ok s
  | .ret c _ => .err c
  | .ub => .ub

theorem walkKeep_reads {σ : Type} {keep : Nat → Hdr → σ → Turn σ} {t : Tree} {a b : σ}
    (h : Reads r (fun p h s => (keep p h s).drop) t a b) {pos : Nat} (ha : At r.data pos t.bytes)
    (hm : pos + t.bytes.length ≤ llongMax) : walkKeep r (pos + t.bytes.length) keep pos a = .next b := by
  refine walkKeep_of_walk (step := fun p h s => (keep p h s).drop) ?_ (h.run ha hm)
  intro p hd s s' hx
  cases hk : keep p hd s with
  | next s1 => simp only [hk, Turn.drop, Res.ok.injEq] at hx; rw [hx]
  | ret c s1 => simp [hk, Turn.drop] at hx
  | ub => simp [hk, Turn.drop] at hx

/-- The children of an encryption. -/
def encryptionKids (e : ContentEncoding) : Tree :=
  seq [number 0x47E1 e.encAlgo, text 0x47E2 e.keyId, group 0x47E7 (number 0x47E8 e.cipherMode)]

/-- The children of an encoding. -/
def encodingKids (e : ContentEncoding) : Tree :=
  seq [number 0x5031 e.order, number 0x5032 e.scope, number 0x5033 e.type, group 0x5035 (encryptionKids e)]

theorem encodingTree_eq (e : ContentEncoding) : encodingTree e = group 0x6240 (encodingKids e) := rfl

theorem aes_ok {q : Nat} (hq : At r.data q (number 0x47E8 1).bytes)
    (hm : q + (number 0x47E8 1).bytes.length ≤ llongMax) :
    aesParse r q (number 0x47E8 1).bytes.length 1 = .ok 1 := by
  refine Reads.run (a := 1) (Reads.number (n := 2) (by isid) fun p q hq => ?_) hq hm
  show (uintAt r ⟨q, 0x47E8, _⟩ >>= fun v => (Res.refuse (toU64 v ≠ 1) E_FILE_FORMAT_INVALID >>= fun _ => .ok (toU64 v))) = _
  rw [uintAt_ok hq, Res.bind_ok, toU64_toI64]
  rfl

theorem encryption_reads {e : ContentEncoding} (h : ReadableEncoding e) (hf : (encryptionKids e).Fits) :
    Reads r (fun p h s => (encryptionStep r p h s).drop) (encryptionKids e) {}
      { algo := e.encAlgo.toNat, keyId := e.keyId, cipherMode := e.cipherMode.toNat } := by
  simp only [encryptionKids, seq_cons_fits] at hf
  obtain ⟨-, hf1, hf2, -⟩ := hf
  unfold encryptionKids
  rw [h.algo, h.mode] at *
  refine Reads.cons (b := { algo := 5 }) (Reads.number (n := 2) (by isid) fun p q hq => ?_) ?_
  · show (Turn.of ({} : ReadEncryption) (uintAt r ⟨q, 0x47E1, _⟩) _).drop = _
    rw [uintAt_ok hq]
    rfl
  refine Reads.cons (b := { algo := 5, keyId := e.keyId }) (Reads.text (n := 2) (by isid) hf1
    (fun h0 => by rw [h0]) fun s hs hl p q hq => ?_) ?_
  · show (encryptionData r ⟨q, 0x47E2, s.length⟩ fun b => { ({ algo := 5 } : ReadEncryption) with keyId := b }).drop = _
    have hk := h.key s hs
    unfold encryptionData
    simp only
    rw [if_neg (by omega), canAlloc_of hk, read_at hq, hs]
    rfl
  refine Reads.cons (Reads.group (n := 2) (by isid) (by rw [group_fits] at hf2; exact hf2.1) fun p q hq hm => ?_) Reads.seqNil
  show (Turn.of ({ algo := 5, keyId := e.keyId } : ReadEncryption) (aesParse r q (number 0x47E8 1).bytes.length 1) _).drop = _
  rw [aes_ok hq hm]
  rfl

theorem encryptionParse_ok {e : ContentEncoding} (h : ReadableEncoding e) (hf : (encryptionKids e).Fits) {q : Nat}
    (hq : At r.data q (encryptionKids e).bytes) (hm : q + (encryptionKids e).bytes.length ≤ llongMax) :
    encryptionParse r q (encryptionKids e).bytes.length =
      .ok { algo := e.encAlgo.toNat, keyId := e.keyId, cipherMode := e.cipherMode.toNat } := by
  unfold encryptionParse
  rw [walkKeep_reads (encryption_reads h hf) hq hm]

theorem encoding_counts {e : ContentEncoding} (hf : (encodingKids e).Fits) :
    Reads r encodingCount (encodingKids e) 0 1 := by
  simp only [encodingKids, seq_cons_fits, group_fits] at hf
  obtain ⟨-, -, -, hf1, -⟩ := hf
  unfold encodingKids
  refine Reads.cons (b := 0) (Reads.number (n := 2) (by isid) fun p q hq => rfl) ?_
  refine Reads.cons (b := 0) (Reads.number (n := 2) (by isid) fun p q hq => rfl) ?_
  refine Reads.cons (b := 0) (Reads.number (n := 2) (by isid) fun p q hq => rfl) ?_
  exact Reads.cons (Reads.group (n := 2) (by isid) hf1.1 fun p q hq _ => rfl) Reads.seqNil

theorem encoding_reads {e : ContentEncoding} (h : ReadableEncoding e) (hf : (encodingKids e).Fits) :
    Reads r (encodingStep r) (encodingKids e) {} (seenEncoding e) := by
  simp only [encodingKids, seq_cons_fits, group_fits] at hf
  obtain ⟨-, -, -, hf1, -⟩ := hf
  unfold encodingKids
  refine Reads.cons (b := { order := e.order.toNat }) (Reads.number (n := 2) (by isid) fun p q hq => ?_) ?_
  · show (uintAt r ⟨q, 0x5031, _⟩ >>= fun v => .ok { ({} : ReadEncoding) with order := toU64 v }) = _
    rw [uintAt_ok hq, Res.bind_ok, toU64_toI64]
  refine Reads.cons (b := { order := e.order.toNat, scope := e.scope.toNat })
    (Reads.number (n := 2) (by isid) fun p q hq => ?_) ?_
  · show (uintAt r ⟨q, 0x5032, _⟩ >>= fun v => (Res.refuse (toU64 v < 1) (-1) >>= fun _ =>
      .ok { ({ order := e.order.toNat } : ReadEncoding) with scope := toU64 v })) = _
    rw [uintAt_ok hq, Res.bind_ok, toU64_toI64, Res.refuse_neg (by have := h.scope; omega)]
    rfl
  refine Reads.cons (b := { order := e.order.toNat, scope := e.scope.toNat, type := e.type.toNat })
    (Reads.number (n := 2) (by isid) fun p q hq => ?_) ?_
  · show (uintAt r ⟨q, 0x5033, _⟩ >>= fun v =>
      .ok { ({ order := e.order.toNat, scope := e.scope.toNat } : ReadEncoding) with type := toU64 v }) = _
    rw [uintAt_ok hq, Res.bind_ok, toU64_toI64]
  refine Reads.cons (Reads.group (n := 2) (by isid) hf1.1 fun p q hq hm => ?_) Reads.seqNil
  show (encryptionParse r q (encryptionKids e).bytes.length >>= fun c => _) = _
  rw [encryptionParse_ok h hf1.2 hq hm]
  rfl

theorem encodingParse_ok {e : ContentEncoding} (h : ReadableEncoding e) (hf : (encodingKids e).Fits) {q : Nat}
    (hq : At r.data q (encodingKids e).bytes) (hm : q + (encodingKids e).bytes.length ≤ llongMax) :
    encodingParse r q (encodingKids e).bytes.length = .ok (seenEncoding e) := by
  unfold encodingParse
  rw [(encoding_counts hf).run hq hm, Res.bind_ok, Res.refuse_neg (by decide), Res.bind_ok,
    (encoding_reads h hf).run hq hm]

theorem encodings_count {es : List ContentEncoding} (hf : (each encodingTree es).Fits) (n : Nat) :
    Reads r encodingsCount (each encodingTree es) n (n + es.length) := by
  induction es generalizing n with
  | nil => exact Reads.nil
  | cons e es ih =>
    rw [each_cons, Tree.append_fits, encodingTree_eq, group_fits] at hf
    rw [each_cons, encodingTree_eq]
    refine Reads.append (b := n + 1) (Reads.group (n := 2) (by isid) hf.1.1 fun p q hq _ => rfl) ?_
    have := ih hf.2 (n + 1)
    rw [List.length_cons, ← Nat.add_assoc, Nat.add_right_comm]
    exact this

theorem encodings_reads {es : List ContentEncoding} (h : ∀ e ∈ es, ReadableEncoding e)
    (hf : (each encodingTree es).Fits) (st : List ReadEncoding) :
    Reads r (fun p h s => (encodingsStep r p h s).drop) (each encodingTree es) st (st ++ es.map seenEncoding) := by
  induction es generalizing st with
  | nil => rw [List.map_nil, List.append_nil]; exact Reads.nil
  | cons e es ih =>
    rw [each_cons, Tree.append_fits, encodingTree_eq, group_fits] at hf
    rw [each_cons, encodingTree_eq]
    refine Reads.append (b := st ++ [seenEncoding e]) (Reads.group (n := 2) (by isid) hf.1.1 fun p q hq hm => ?_) ?_
    · show (match encodingParse r q (encodingKids e).bytes.length with
        | .ok e => Turn.next (st ++ [e])
        | .err c => .ret c st
        | .ub => .ub).drop = _
      rw [encodingParse_ok (h e (List.mem_cons_self ..)) hf.1.2 hq hm]
      rfl
    · have := ih (fun x hx => h x (List.mem_cons_of_mem _ hx)) hf.2 (st ++ [seenEncoding e])
      rw [List.append_assoc] at this
      exact this

theorem encodingsParse_ok {es : List ContentEncoding} (h : ∀ e ∈ es, ReadableEncoding e)
    (hf : (each encodingTree es).Fits) {q : Nat} (hq : At r.data q (each encodingTree es).bytes)
    (hm : q + (each encodingTree es).bytes.length ≤ llongMax) :
    encodingsParse r q (each encodingTree es).bytes.length = .ok (es.map seenEncoding) := by
  unfold encodingsParse
  rw [(encodings_count hf 0).run hq hm]
  simp only
  split
  · rename_i h0
    rw [Nat.zero_add, List.length_eq_zero_iff] at h0
    subst h0; rfl
  · rw [walkKeep_reads (encodings_reads h hf []) hq hm]
    rfl

/-! ### Track entries -/

theorem entryNumberIf_reads {n id : Nat} (hid : IsId n id) {v : UInt64} (set : EntryVars → Nat → EntryVars) {st : EntryVars}
    (h0 : set st 0 = st)
    (hs : ∀ p q k, entryStep r p ⟨q, id, k⟩ st = (uintAt r ⟨q, id, k⟩ >>= fun v => .ok (set st (toU64 v)))) :
    Reads r (entryStep r) (numberIf id v) st (set st v.toNat) := by
  refine Reads.numberIf hid (fun h => ?_) fun _ p q hq => ?_
  · subst h; exact h0.symm
  · rw [hs, uintAt_ok hq, Res.bind_ok, toU64_toI64]

theorem entryText_reads {n id : Nat} (hid : IsId n id) {s : Option Bytes} (hs : ReadableText s) (hf : (text id s).Fits)
    (set : EntryVars → Option Bytes → EntryVars) {st : EntryVars} (h0 : set st none = st)
    (hst : ∀ p q k, entryStep r p ⟨q, id, k⟩ st = (unserializeString r q k >>= fun b => .ok (set st (some b)))) :
    Reads r (entryStep r) (text id s) st (set st s) := by
  refine Reads.text hid hf (fun h => ?_) fun b hb _ p q hq => ?_
  · subst h; exact h0.symm
  · rw [hst, unserializeString_at hq (hs b hb).1, hb]; rfl

/-- What the loop of a track entry has gathered when the track's own elements have been read. -/
def ownVars (t : Mux.Track) : EntryVars where
  info := { type := t.type.toNat, number := t.number.toNat, uid := t.uid.toNat,
            defaultDuration := t.defaultDuration.toNat, codecDelay := t.codecDelay.toNat,
            seekPreRoll := t.seekPreRoll.toNat, name := t.name, language := t.language, codecId := t.codecId,
            codecPrivate := t.codecPrivate }

/-- After the first six. -/
def ownVars1 (t : Mux.Track) : EntryVars where
  info := { type := t.type.toNat, number := t.number.toNat, uid := t.uid.toNat,
            codecDelay := t.codecDelay.toNat, seekPreRoll := t.seekPreRoll.toNat }

/-- After the duration. -/
def ownVars2 (t : Mux.Track) : EntryVars where
  info := { type := t.type.toNat, number := t.number.toNat, uid := t.uid.toNat,
            defaultDuration := t.defaultDuration.toNat, codecDelay := t.codecDelay.toNat,
            seekPreRoll := t.seekPreRoll.toNat }

/-- After the codec's data. -/
def ownVars3 (t : Mux.Track) : EntryVars where
  info := { type := t.type.toNat, number := t.number.toNat, uid := t.uid.toNat,
            defaultDuration := t.defaultDuration.toNat, codecDelay := t.codecDelay.toNat,
            seekPreRoll := t.seekPreRoll.toNat, codecId := t.codecId, codecPrivate := t.codecPrivate }

theorem own_reads {t : Mux.Track} (h : ReadableTrack t) (hf : (seq (trackOwn t)).Fits) :
    Reads r (entryStep r) (seq (trackOwn t)) {} (ownVars t) := by
  simp only [trackOwn, seq_cons_fits] at hf
  obtain ⟨-, -, -, -, -, -, -, hf1, hf2, hf3, hf4, -⟩ := hf
  unfold trackOwn
  refine Reads.cons (b := { info := { number := t.number.toNat } }) (Reads.number (n := 1) (by isid) fun p q hq => ?_) ?_
  · show (uintAt r ⟨q, 0xD7, _⟩ >>= fun v => (Res.refuse (v ≤ 0 ∨ v > 127) E_FILE_FORMAT_INVALID >>= fun _ =>
      .ok { ({} : EntryVars) with info := { ({} : EntryVars).info with number := v } })) = _
    have := h.number
    have hn : ¬ ((t.number.toNat : Int) ≤ 0 ∨ (t.number.toNat : Int) > 127) := by omega
    rw [uintAt_small (by omega) hq, Res.bind_ok, Res.refuse_neg hn]
    rfl
  refine Reads.cons (b := { info := { number := t.number.toNat, uid := t.uid.toNat } })
    (Reads.number (n := 2) (by isid) fun p q hq => ?_) ?_
  · show (Res.refuse ((beBytes (byteWidth t.uid.toNat) t.uid.toNat).length > 8) E_FILE_FORMAT_INVALID >>= fun _ =>
      (uidLoop r 0 q (beBytes (byteWidth t.uid.toNat) t.uid.toNat).length >>= fun u =>
        .ok { ({ info := { number := t.number.toNat } } : EntryVars) with
          info := { ({ number := t.number.toNat } : ReadTrackInfo) with uid := u } })) = _
    rw [Res.refuse_neg (by have := number_small t.uid; omega), Res.bind_ok, uid_ok hq]
    rfl
  refine Reads.cons (b := { info := { number := t.number.toNat, uid := t.uid.toNat, type := t.type.toNat } })
    (Reads.number (n := 1) (by isid) fun p q hq => ?_) ?_
  · show (uintAt r ⟨q, 0x83, _⟩ >>= fun v => (Res.refuse (v ≤ 0 ∨ v > 254) E_FILE_FORMAT_INVALID >>= fun _ =>
      .ok { ({} : EntryVars) with info := { ({ number := t.number.toNat, uid := t.uid.toNat } : ReadTrackInfo) with type := v } })) = _
    have := h.type
    have hn : ¬ ((t.type.toNat : Int) ≤ 0 ∨ (t.type.toNat : Int) > 254) := by omega
    rw [uintAt_small (by omega) hq, Res.bind_ok, Res.refuse_neg hn]
    rfl
  refine Reads.cons (Reads.numberIf (n := 2) (by isid) (fun _ => rfl) fun _ p q _ => rfl) ?_
  refine Reads.cons (entryNumberIf_reads (n := 2) (by isid) (fun s v => { s with info := { s.info with codecDelay := v } })
    rfl (fun _ _ _ => rfl)) ?_
  refine Reads.cons (entryNumberIf_reads (n := 2) (by isid) (fun s v => { s with info := { s.info with seekPreRoll := v } })
    rfl (fun _ _ _ => rfl)) ?_
  show Reads r _ _ (ownVars1 t) _
  refine Reads.cons (b := ownVars2 t) (Reads.numberIf (n := 3) (by isid) (fun hz => by unfold ownVars2; rw [hz]; rfl)
    fun _ p q hq => ?_) ?_
  · show (uintFrom 0 r ⟨q, 0x23E383, _⟩ >>= fun v =>
      .ok { ownVars1 t with info := { (ownVars1 t).info with defaultDuration := toU64 v } }) = _
    rw [uintFrom_ok h.duration (by omega) hq, Res.bind_ok]
    have : toU64 (t.defaultDuration.toNat : Int) = t.defaultDuration.toNat := by
      unfold toU64; have := u64_lt t.defaultDuration; omega
    rw [this]
    rfl
  refine Reads.cons (entryText_reads (n := 1) (by isid) h.codecId hf1 (fun s v => { s with info := { s.info with codecId := v } })
    rfl (fun _ _ _ => rfl)) ?_
  refine Reads.cons (b := ownVars3 t)
    (Reads.text (n := 2) (by isid) hf2 (fun hz => by unfold ownVars3; rw [hz]; rfl) fun s hs hl p q hq => ?_) ?_
  · have hk := h.codecPrivate s hs
    show (if s.length = 0 then _ else (binaryAt r ⟨q, 0x63A2, s.length⟩ (-1) >>= fun b => _)) = _
    rw [if_neg (by omega), binaryAt_ok hq hk]
    unfold ownVars3
    rw [hs]
    rfl
  refine Reads.cons (entryText_reads (n := 3) (by isid) h.language hf3 (fun s v => { s with info := { s.info with language := v } })
    rfl (fun _ _ _ => rfl)) ?_
  exact Reads.cons (entryText_reads (n := 2) (by isid) h.name hf4 (fun s v => { s with info := { s.info with name := v } })
    rfl (fun _ _ _ => rfl)) Reads.seqNil

theorem cString_id {s : Option Bytes} (h : ReadableText s) : s.map cString = s := by
  cases s with
  | none => rfl
  | some b =>
    have h0 := (h b rfl).2
    have : cString b = b := by
      unfold cString
      clear h
      induction b with
      | nil => rfl
      | cons x xs ih =>
        have hx : x ≠ 0 := fun hn => h0 (by rw [hn]; exact List.mem_cons_self ..)
        rw [List.takeWhile_cons, if_pos (by simpa using hx), ih (fun hn => h0 (List.mem_cons_of_mem _ hn))]
    rw [Option.map_some, this]

theorem encodings_walk {t : Mux.Track} (h : ReadableTrack t) (hf : (groupIf 0x6D80 (each encodingTree t.encodings)).Fits)
    {q stop : Nat} (hq : At r.data q (groupIf 0x6D80 (each encodingTree t.encodings)).bytes)
    (hs : q + (groupIf 0x6D80 (each encodingTree t.encodings)).bytes.length ≤ stop) (hm : stop ≤ llongMax) (s : EntryVars)
    (h0 : s.e = none) : ∃ e, walk r stop (entryStep r) q s = walk r stop (entryStep r)
        (q + (groupIf 0x6D80 (each encodingTree t.encodings)).bytes.length) { s with e := e } ∧
      (t.encodings = [] → e = none) ∧ entryEncodings r e = .ok (t.encodings.map seenEncoding) := by
  cases he : t.encodings with
  | nil => refine ⟨none, ?_, fun _ => rfl, rfl⟩; cases s; cases h0; rfl
  | cons e es =>
    rw [he] at hf hq hs
    have hne : each encodingTree (e :: es) ≠ .nil := by
      rw [each_cons, encodingTree_eq]
      simp [group, Tree.append]
    rw [groupIf_ne hne] at hf hq hs ⊢
    rw [group_fits] at hf
    rw [group_bytes] at hq hs ⊢
    have hid : IsId 2 0x6D80 := by isid
    refine ⟨some (q + 2 + sizeWidth (each encodingTree (e :: es)).bytes.length, (each encodingTree (e :: es)).bytes.length),
      ?_, ⟨fun hn => absurd hn (by simp), ?_⟩⟩
    · refine walk_step hid hq hf.1 hs hm fun q' hq' hat => ?_
      rw [hq']; rfl
    · have hl := element_length_id hid (each encodingTree (e :: es)).bytes
      exact encodingsParse_ok (fun x hx => h.encodings x (by rw [he]; exact hx)) hf.2 (at_payload hid hq) (by omega)

theorem entryParse_ok {t : Mux.Track} (h : ReadableTrack t) (hf : (trackKids t).Fits) {before : List ReadTrack}
    (hb : ∀ x ∈ before, x.info.number ≠ t.number.toNat) {q : Nat} (hq : At r.data q (trackKids t).bytes)
    (hm : q + (trackKids t).bytes.length ≤ llongMax) :
    entryParse r before q (trackKids t).bytes.length = .ok (seenTrack t) := by
  have hcopy : ({ (ownVars t).info with lacing := true } : ReadTrackInfo).copy = (seenTrack t).info := by
    unfold ReadTrackInfo.copy ownVars seenTrack
    simp only
    rw [cString_id h.name, cString_id h.language, cString_id h.codecId]
    rfl
  have hany : ¬ ((before.any fun x => x.info.number == (t.number.toNat : Int)) = true) := by
    rw [List.any_eq_true]
    rintro ⟨x, hx, hn⟩
    exact hb x hx (by simpa using hn)
  have hnum := h.number
  have htype := h.type
  have hend : ∀ sv sa se, entryEnd r before ⟨(ownVars t).info, sv, sa, se, 1⟩ =
      (let info := (seenTrack t).info
       if (t.type.toNat : Int) = 1 then
        match sv, sa with
        | some (start, size), none => do
          let v ← videoParse r start size
          let es ← entryEncodings r se
          .ok { info, part := .video v, encodings := es }
        | _, _ => .err E_FILE_FORMAT_INVALID
      else if (t.type.toNat : Int) = 2 then
        match sa, sv with
        | some (start, size), none => do
          let a ← audioParse r start size
          let es ← entryEncodings r se
          .ok { info, part := .audio a, encodings := es }
        | _, _ => .err E_FILE_FORMAT_INVALID
      else do
        Res.refuse sa.isSome E_FILE_FORMAT_INVALID
        Res.refuse sv.isSome E_FILE_FORMAT_INVALID
        Res.refuse ((t.type.toNat : Int) = 0x21 ∧ se.isSome) E_FILE_FORMAT_INVALID
        .ok { info }) := by
    intro sv sa se
    unfold entryEnd
    rw [← hcopy]
    simp only
    have h1 : ¬ ((ownVars t).info.number ≤ 0) := by show ¬ ((t.number.toNat : Int) ≤ 0); omega
    have h2 : ¬ ((ownVars t).info.type ≤ 0) := by show ¬ ((t.type.toNat : Int) ≤ 0); omega
    rw [Res.refuse_neg h1, Res.bind_ok, Res.refuse_neg (p := (before.any fun x => x.info.number == (ownVars t).info.number) = true) hany,
      Res.bind_ok, Res.refuse_neg h2, Res.bind_ok]
    rfl
  simp only [trackKids, Tree.append_fits] at hf
  obtain ⟨hf1, hf2, hf3⟩ := hf
  unfold entryParse
  unfold trackKids at hq hm ⊢
  simp only [Tree.append_bytes, List.length_append] at hq hm ⊢
  obtain ⟨hq1, hq2⟩ := at_append.mp hq
  obtain ⟨hq2, hq3⟩ := at_append.mp hq2
  rw [own_reads h hf1 q _ hq1 (by omega) hm]
  obtain ⟨e, hw, he0, he⟩ := encodings_walk h hf2 hq2 (stop := q + ((seq (trackOwn t)).bytes.length +
    ((groupIf 0x6D80 (each encodingTree t.encodings)).bytes.length + (partTree t.part).bytes.length))) (by omega) hm (ownVars t) rfl
  rw [hw]
  have hk := h.kind
  unfold KindFits at hk
  have hst : q + (seq (trackOwn t)).bytes.length + (groupIf 0x6D80 (each encodingTree t.encodings)).bytes.length +
      (partTree t.part).bytes.length = q + ((seq (trackOwn t)).bytes.length +
    ((groupIf 0x6D80 (each encodingTree t.encodings)).bytes.length + (partTree t.part).bytes.length)) := by omega
  rw [← hst] at hm ⊢
  clear hst
  generalize q + (seq (trackOwn t)).bytes.length + (groupIf 0x6D80 (each encodingTree t.encodings)).bytes.length = q3 at *
  cases hp : t.part with
  | plain =>
    rw [hp] at hk
    simp only at hk
    rw [walk_end (by simp [partTree]), Res.bind_ok]
    show entryEnd r before ⟨(ownVars t).info, none, none, e, 1⟩ = _
    rw [hend]
    have n1 : ¬ (t.type.toNat : Int) = 1 := fun hn => hk.1 (UInt64.toNat_inj.mp (by simp; omega))
    have n2 : ¬ (t.type.toNat : Int) = 2 := fun hn => hk.2.1 (UInt64.toNat_inj.mp (by simp; omega))
    simp only
    have n4 : ¬ ((none : Option (Nat × Nat)).isSome = true) := by simp
    rw [if_neg n1, if_neg n2, Res.refuse_neg n4, Res.bind_ok, Res.bind_ok]
    have n3 : ¬ ((t.type.toNat : Int) = 0x21 ∧ e.isSome = true) := by
      rintro ⟨hn, hs⟩
      rw [he0 (hk.2.2 (UInt64.toNat_inj.mp (by simp; omega)))] at hs
      cases hs
    rw [Res.refuse_neg n3, Res.bind_ok]
    unfold seenTrack
    rw [hp]
    rfl
  | video v =>
    rw [hp] at hk hf3 hq3 hm
    simp only at hk
    have hf3 : (group 0xE0 (videoKids v)).Fits := hf3
    rw [group_fits] at hf3
    have hid : IsId 1 0xE0 := by isid
    have hbb : (partTree (.video v)).bytes = element 0xE0 (videoKids v).bytes := group_bytes 0xE0 (videoKids v)
    rw [hbb] at hq3 hm ⊢
    have hl := element_length_id hid (videoKids v).bytes
    rw [walk_step (st' := { ownVars t with e := e, v := some (q3 + 1 + sizeWidth (videoKids v).bytes.length, (videoKids v).bytes.length) })
      hid hq3 hf3.1 (Nat.le_refl _) hm (fun q' hq' hat => by rw [hq']; rfl), walk_end rfl, Res.bind_ok]
    show entryEnd r before ⟨(ownVars t).info, some _, none, e, 1⟩ = _
    rw [hend]
    simp only
    rw [hk.1, if_pos (by decide)]
    rw [videoParse_ok hk.2 hf3.2 (at_payload hid hq3) (by omega), Res.bind_ok, he, Res.bind_ok]
    unfold seenTrack
    rw [hp]
    rfl
  | audio a =>
    rw [hp] at hk hf3 hq3 hm
    simp only at hk
    have hf3 : (group 0xE1 (audioKids a)).Fits := hf3
    rw [group_fits] at hf3
    have hid : IsId 1 0xE1 := by isid
    have hbb : (partTree (.audio a)).bytes = element 0xE1 (audioKids a).bytes := group_bytes 0xE1 (audioKids a)
    rw [hbb] at hq3 hm ⊢
    have hl := element_length_id hid (audioKids a).bytes
    rw [walk_step (st' := { ownVars t with e := e, a := some (q3 + 1 + sizeWidth (audioKids a).bytes.length, (audioKids a).bytes.length) })
      hid hq3 hf3.1 (Nat.le_refl _) hm (fun q' hq' hat => by rw [hq']; rfl), walk_end rfl, Res.bind_ok]
    show entryEnd r before ⟨(ownVars t).info, none, some _, e, 1⟩ = _
    rw [hend]
    simp only
    rw [hk.1, if_neg (by decide), if_pos (by decide)]
    rw [audioParse_ok hk.2 (at_payload hid hq3) (by omega), Res.bind_ok, he, Res.bind_ok]
    unfold seenTrack
    rw [hp]
    rfl

/-! ### Tracks -/

theorem trackKids_pos (t : Mux.Track) : (trackKids t).bytes.length ≠ 0 := by
  intro h
  refine Tree.bytes_ne ?_ (List.length_eq_zero_iff.mp h)
  simp [trackKids, trackOwn, seq, number, plain, Tree.append]

theorem tracks_count {ts : List Mux.Track} (hf : (each trackTree ts).Fits) (n : Nat) :
    Reads r tracksCount (each trackTree ts) n (n + ts.length) := by
  induction ts generalizing n with
  | nil => exact Reads.nil
  | cons t ts ih =>
    rw [each_cons, Tree.append_fits, trackTree_eq, group_fits] at hf
    rw [each_cons, trackTree_eq]
    refine Reads.append (b := n + 1) (Reads.group (n := 1) (by isid) hf.1.1 fun p q hq _ => ?_) ?_
    · show Res.ok (if (trackKids t).bytes.length ≠ 0 ∧ (0xAE : Nat) = 0xAE then n + 1 else n) = _
      rw [if_pos ⟨trackKids_pos t, rfl⟩]
    have := ih hf.2 (n + 1)
    rw [List.length_cons, ← Nat.add_assoc, Nat.add_right_comm]
    exact this

theorem tracks_read {ts : List Mux.Track} (h : ∀ t ∈ ts, ReadableTrack t) (hf : (each trackTree ts).Fits)
    (hd : (ts.map (·.number)).Nodup) (stop : Nat) (hm : stop ≤ llongMax) (st : List ReadTrack)
    (hst : ∀ t ∈ ts, ∀ x ∈ st, x.info.number ≠ t.number.toNat) {pos : Nat}
    (ha : At r.data pos (each trackTree ts).bytes) (hs : pos + (each trackTree ts).bytes.length = stop) :
    walk r stop (tracksStep r stop) pos st = .ok (st ++ ts.map seenTrack) := by
  induction ts generalizing st pos with
  | nil => rw [List.map_nil, List.append_nil]; exact walk_end hs
  | cons t ts ih =>
    rw [each_cons, Tree.append_fits, trackTree_eq, group_fits] at hf
    rw [each_cons, trackTree_eq, Tree.append_bytes, group_bytes] at ha hs
    rw [List.length_append] at hs
    obtain ⟨ha1, ha2⟩ := at_append.mp ha
    have hid : IsId 1 0xAE := by isid
    have hl := element_length_id hid (trackKids t).bytes
    rw [List.map_cons, List.nodup_cons] at hd
    rw [walk_step (st' := st ++ [seenTrack t]) hid ha1 hf.1.1 (by omega) hm (fun q hq hat => ?_)]
    · rw [ih (fun x hx => h x (List.mem_cons_of_mem _ hx)) hf.2 hd.2 (st ++ [seenTrack t]) ?_ ha2 (by omega)]
      · rw [List.append_assoc]; rfl
      · intro u hu x hx
        rcases List.mem_append.mp hx with hx | hx
        · exact hst u (List.mem_cons_of_mem _ hu) x hx
        · rw [List.mem_singleton] at hx
          subst hx
          intro hn
          have hn : (t.number.toNat : Int) = u.number.toNat := hn
          refine hd.1 (List.mem_map.mpr ⟨u, hu, ?_⟩)
          exact UInt64.toNat_inj.mp (by omega)
    · show (if (trackKids t).bytes.length = 0 then _ else
        (Res.assert (q + (trackKids t).bytes.length ≤ stop) >>= fun _ =>
          (entryParse r st q (trackKids t).bytes.length >>= fun t => .ok (st ++ [t])))) = _
      rw [if_neg (trackKids_pos t), Res.assert_pos (by omega), Res.bind_ok,
        entryParse_ok (h t (List.mem_cons_self ..)) hf.1.2 (hst t (List.mem_cons_self ..)) hat (by omega)]
      rfl

theorem tracksParse_ok {ts : List Mux.Track} (h : ∀ t ∈ ts, ReadableTrack t) (hf : (each trackTree ts).Fits)
    (hd : (ts.map (·.number)).Nodup) {pos : Nat} (ha : At r.data pos (each trackTree ts).bytes)
    (hm : pos + (each trackTree ts).bytes.length ≤ llongMax) :
    tracksParse r pos (each trackTree ts).bytes.length = .ok (ts.map seenTrack) := by
  unfold tracksParse
  rw [(tracks_count hf 0).run ha hm, Res.bind_ok]
  split
  · rename_i h0
    rw [Nat.zero_add, List.length_eq_zero_iff] at h0
    subst h0; rfl
  · rw [tracks_read h hf hd _ hm [] (fun _ _ x hx => by cases hx) ha rfl]
    rfl

end Verif.Par
