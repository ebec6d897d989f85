/-
Copying the settings of tracks and tags.
-/
import Verif.Model.SampleTracks
import Verif.Spec.SampleTracks
import Verif.Lemmas.ParserTracks

namespace Verif.Sample
open Verif Verif.Par Verif.Spec

/-! ### Sampling rates -/

theorem log2_mul_pow {n : Nat} (hn : n ≠ 0) (k : Nat) : Nat.log2 (n * 2 ^ k) = Nat.log2 n + k := by
  have h0 : n * 2 ^ k ≠ 0 := Nat.mul_ne_zero hn (Nat.ne_of_gt (Nat.two_pow_pos k))
  rw [Nat.log2_eq_iff h0]
  have h1 : 2 ^ Nat.log2 n ≤ n := Nat.log2_self_le hn
  have h2 : n < 2 ^ (Nat.log2 n + 1) := Nat.lt_log2_self
  constructor
  · rw [Nat.pow_add]; exact Nat.mul_le_mul_right _ h1
  · rw [show Nat.log2 n + k + 1 = Nat.log2 n + 1 + k by omega, Nat.pow_add]
    exact Nat.mul_lt_mul_of_pos_right h2 (Nat.two_pow_pos k)

/-- The number stands for itself. -/
theorem units_ofNat {n : Nat} (h0 : n ≠ 0) (h : n < 2 ^ 31) :
    (dblOfInt n).units = (n * 2 ^ 1074 : Nat) ∧ (dblOfInt n).1 < 2 ^ 63 ∧ (dblOfInt n).2 = 8 := by
  have he : Nat.log2 n < 31 := (Nat.log2_lt h0).mpr h
  have h1 : 2 ^ Nat.log2 n ≤ n := Nat.log2_self_le h0
  have h2 : n < 2 ^ (Nat.log2 n + 1) := Nat.lt_log2_self
  generalize hee : Nat.log2 n = e at *
  have hlow : 2 ^ 52 ≤ n * 2 ^ (52 - e) := by
    calc 2 ^ 52 = 2 ^ e * 2 ^ (52 - e) := by rw [← Nat.pow_add]; congr 1; omega
      _ ≤ _ := Nat.mul_le_mul_right _ h1
  have hhigh : n * 2 ^ (52 - e) < 2 ^ 53 := by
    calc n * 2 ^ (52 - e) < 2 ^ (e + 1) * 2 ^ (52 - e) := Nat.mul_lt_mul_of_pos_right h2 (Nat.two_pow_pos _)
      _ = 2 ^ 53 := by rw [← Nat.pow_add]; congr 1; omega
  have hd : dblOfInt n = ((1023 + e) * 2 ^ 52 + (n * 2 ^ (52 - e) - 2 ^ 52), 8) := by
    unfold dblOfInt
    have hn0 : ¬ ((n : Int) = 0) := by omega
    have hnn : ¬ ((n : Int) < 0) := by omega
    simp only [if_neg hn0, if_neg hnn, Int.natAbs_natCast, hee, Nat.zero_add]
  have hm : n * 2 ^ (52 - e) * 2 ^ (1022 + e) = n * 2 ^ 1074 := by
    rw [Nat.mul_assoc, ← Nat.pow_add]; congr 2; omega
  rw [hd]
  generalize n * 2 ^ (52 - e) = x at *
  refine ⟨?_, by simp only; omega, rfl⟩
  have e1 : ((1023 + e) * 2 ^ 52 + (x - 2 ^ 52)) / 2 ^ 52 % 2 ^ 11 = 1023 + e := by omega
  have e2 : ((1023 + e) * 2 ^ 52 + (x - 2 ^ 52)) % 2 ^ 52 = x - 2 ^ 52 := by omega
  unfold Dbl.units
  simp only [show ¬ (8 = 4) by decide, if_false, e1, e2]
  rw [if_pos (by omega), if_neg (by omega), show 2 ^ 52 + (x - 2 ^ 52) = x by omega, show 1023 + e - 1 = 1022 + e by omega, hm]

theorem pow_split : (2 : Nat) ^ 1074 = 2 ^ 149 * 2 ^ 925 := by rw [← Nat.pow_add]

/-- The float for a number that is one. -/
theorem toFloat_ofNat {n : Nat} (h0 : n ≠ 0) (h : n < 2 ^ 31) {b : UInt32} (hb : floatUnits b = (n * 2 ^ 149 : Nat)) :
    (dblOfInt n).toFloat = b.toNat := by
  obtain ⟨u1, u2, u3⟩ := units_ofNat h0 h
  have hlog := log2_mul_pow h0 1074
  have h1 : 2 ^ Nat.log2 n ≤ n := Nat.log2_self_le h0
  have h2 : n < 2 ^ (Nat.log2 n + 1) := Nat.lt_log2_self
  have hbig : ¬ n * 2 ^ 1074 < 2 ^ 948 := by
    have : 1 * 2 ^ 1074 ≤ n * 2 ^ 1074 := Nat.mul_le_mul_right _ (by omega)
    have : (2 : Nat) ^ 948 ≤ 2 ^ 1074 := Nat.pow_le_pow_right (by omega) (by omega)
    omega
  have hbt := b.toNat_lt
  unfold floatUnits at hb
  simp only at hb
  have hpos : 0 < n * 2 ^ 149 := Nat.mul_pos (by omega) (Nat.two_pow_pos _)
  have hlt : b.toNat < 2 ^ 31 := by
    apply Classical.byContradiction
    intro hn
    rw [if_neg hn] at hb
    omega
  rw [if_pos hlt] at hb
  have hE : b.toNat / 2 ^ 23 % 2 ^ 8 = b.toNat / 2 ^ 23 := by omega
  rw [hE] at hb
  by_cases hz : b.toNat / 2 ^ 23 = 0
  · rw [if_pos hz] at hb
    exfalso
    have hb' : b.toNat % 2 ^ 23 = n * 2 ^ 149 := by exact_mod_cast hb
    have : 1 * 2 ^ 149 ≤ n * 2 ^ 149 := Nat.mul_le_mul_right _ (by omega)
    have : (2 : Nat) ^ 23 ≤ 2 ^ 149 := Nat.pow_le_pow_right (by omega) (by omega)
    omega
  · rw [if_neg hz] at hb
    have hb' : (2 ^ 23 + b.toNat % 2 ^ 23) * 2 ^ (b.toNat / 2 ^ 23 - 1) = n * 2 ^ 149 := by exact_mod_cast hb
    have hf0 : 2 ^ 23 + b.toNat % 2 ^ 23 ≠ 0 := by omega
    have hl1 := log2_mul_pow hf0 (b.toNat / 2 ^ 23 - 1)
    rw [hb', log2_mul_pow h0] at hl1
    have hl2 : Nat.log2 (2 ^ 23 + b.toNat % 2 ^ 23) = 23 := by
      rw [Nat.log2_eq_iff hf0]; omega
    rw [hl2] at hl1
    have hmul : n * 2 ^ 1074 = (2 ^ 23 + b.toNat % 2 ^ 23) * 2 ^ (Nat.log2 n + 1051) := by
      rw [pow_split, ← Nat.mul_assoc, ← hb', Nat.mul_assoc, ← Nat.pow_add, show b.toNat / 2 ^ 23 - 1 + 925 = Nat.log2 n + 1051 by omega]
    unfold Dbl.toFloat
    rw [u3, if_neg (by decide)]
    simp only [u1, Int.natAbs_natCast]
    rw [if_pos u2, if_neg hbig, hlog, show Nat.log2 n + 1074 - 23 = Nat.log2 n + 1051 by omega, hmul]
    unfold roundDiv
    rw [Nat.mul_mod_left, Nat.mul_div_cancel _ (Nat.two_pow_pos _), if_pos (.inl (by have := Nat.two_pow_pos (Nat.log2 n + 1051); omega))]
    omega

theorem tdiv_units (u : Nat) : ((u : Int) * 2 ^ 925).tdiv (2 ^ 1074) = ((u / 2 ^ 149 : Nat) : Int) := by
  have h1 : (u : Int) * 2 ^ 925 = ((u * 2 ^ 925 : Nat) : Int) := by simp only [Int.natCast_mul, Int.natCast_pow, Int.cast_ofNat_Int]
  have h2 : (2 : Int) ^ 1074 = ((2 ^ 1074 : Nat) : Int) := by simp only [Int.natCast_pow, Int.cast_ofNat_Int]
  rw [h1, h2, ← Int.ofNat_tdiv, pow_split, Nat.mul_div_mul_right _ _ (Nat.two_pow_pos 925)]

/-- Rounding towards zero to a whole number. -/
theorem trunc_float {b : UInt32} (h0 : 0 ≤ floatUnits b) (h : (floatUnits b).toNat / 2 ^ 149 < 2 ^ 31) :
    truncInt (b.toNat, 4) = .ok ((floatUnits b).toNat / 2 ^ 149 : Nat) := by
  unfold truncInt
  rw [units_float]
  obtain ⟨u, hu⟩ := Int.eq_ofNat_of_zero_le h0
  rw [hu] at h ⊢
  simp only [Int.toNat_natCast] at h ⊢
  simp only [tdiv_units]
  rw [if_pos]
  omega

/-- Too large to be an `int`. -/
theorem trunc_ub {b : UInt32} (h0 : 0 ≤ floatUnits b) (h : 2 ^ 31 ≤ (floatUnits b).toNat / 2 ^ 149) :
    truncInt (b.toNat, 4) = .ub := by
  unfold truncInt
  rw [units_float]
  obtain ⟨u, hu⟩ := Int.eq_ofNat_of_zero_le h0
  rw [hu] at h ⊢
  simp only [Int.toNat_natCast] at h ⊢
  simp only [tdiv_units]
  rw [if_neg]
  omega

/-- The whole part of a float is a float. -/
theorem whole_float {b : UInt32} (h0 : 0 ≤ floatUnits b) (h1 : (floatUnits b).toNat / 2 ^ 149 ≠ 0) :
    ∃ c : UInt32, floatUnits c = ((floatUnits b).toNat / 2 ^ 149 * 2 ^ 149 : Nat) ∧ (Finite b → Finite c) := by
  have hbt := b.toNat_lt
  have hlt : b.toNat < 2 ^ 31 := by
    apply Classical.byContradiction
    intro hn
    have : (floatUnits b).toNat = 0 := by
      unfold floatUnits at h0 ⊢
      simp only [if_neg hn] at h0 ⊢
      omega
    rw [this] at h1
    exact h1 rfl
  have hE : b.toNat / 2 ^ 23 % 2 ^ 8 = b.toNat / 2 ^ 23 := by omega
  have hu : (floatUnits b).toNat = if b.toNat / 2 ^ 23 = 0 then b.toNat % 2 ^ 23 else (2 ^ 23 + b.toNat % 2 ^ 23) * 2 ^ (b.toNat / 2 ^ 23 - 1) := by
    unfold floatUnits
    simp only [if_pos hlt, hE, Int.toNat_natCast]
  by_cases hz : b.toNat / 2 ^ 23 = 0
  · rw [if_pos hz] at hu
    rw [hu] at h1
    exfalso
    apply h1
    apply Nat.div_eq_of_lt
    have : (2 : Nat) ^ 23 ≤ 2 ^ 149 := Nat.pow_le_pow_right (by omega) (by omega)
    omega
  rw [if_neg hz] at hu
  by_cases hbig : 150 ≤ b.toNat / 2 ^ 23
  · refine ⟨b, ?_, id⟩
    obtain ⟨k, hk⟩ : ∃ k, b.toNat / 2 ^ 23 - 1 = k + 149 := ⟨b.toNat / 2 ^ 23 - 150, by omega⟩
    rw [hk, Nat.pow_add, ← Nat.mul_assoc] at hu
    rw [hu, Nat.mul_div_cancel _ (Nat.two_pow_pos _), ← hu]
    omega
  · obtain ⟨k, hk⟩ : ∃ k, b.toNat / 2 ^ 23 - 1 + k = 149 := ⟨150 - b.toNat / 2 ^ 23, by omega⟩
    have hdiv : (floatUnits b).toNat / 2 ^ 149 = (2 ^ 23 + b.toNat % 2 ^ 23) / 2 ^ k := by
      rw [hu, ← hk, Nat.pow_add, Nat.mul_comm (2 ^ _) (2 ^ k), Nat.mul_div_mul_right _ _ (Nat.two_pow_pos _)]
    have hk23 : k ≤ 23 := by
      apply Classical.byContradiction
      intro hn
      apply h1
      rw [hdiv]
      apply Nat.div_eq_of_lt
      have : (2 : Nat) ^ 24 ≤ 2 ^ k := Nat.pow_le_pow_right (by omega) (by omega)
      omega
    rw [hdiv]
    generalize hn : (2 ^ 23 + b.toNat % 2 ^ 23) / 2 ^ k = n
    have hle : n * 2 ^ k ≤ 2 ^ 23 + b.toNat % 2 ^ 23 := by rw [← hn]; exact Nat.div_mul_le_self _ _
    have hge : 2 ^ 23 ≤ n * 2 ^ k := by
      have e : 2 ^ 23 = 2 ^ (23 - k) * 2 ^ k := by rw [← Nat.pow_add]; congr 1; omega
      rw [e]
      apply Nat.mul_le_mul_right
      rw [← hn, Nat.le_div_iff_mul_le (Nat.two_pow_pos _), ← e]
      omega
    have hto : (UInt32.ofNat (b.toNat / 2 ^ 23 * 2 ^ 23 + (n * 2 ^ k - 2 ^ 23))).toNat = b.toNat / 2 ^ 23 * 2 ^ 23 + (n * 2 ^ k - 2 ^ 23) := by
      rw [UInt32.toNat_ofNat']
      apply Nat.mod_eq_of_lt
      omega
    refine ⟨UInt32.ofNat (b.toNat / 2 ^ 23 * 2 ^ 23 + (n * 2 ^ k - 2 ^ 23)), ?_, ?_⟩
    · unfold floatUnits
      rw [hto]
      have e1 : (b.toNat / 2 ^ 23 * 2 ^ 23 + (n * 2 ^ k - 2 ^ 23)) / 2 ^ 23 % 2 ^ 8 = b.toNat / 2 ^ 23 := by omega
      have e2 : (b.toNat / 2 ^ 23 * 2 ^ 23 + (n * 2 ^ k - 2 ^ 23)) % 2 ^ 23 = n * 2 ^ k - 2 ^ 23 := by omega
      simp only [e1, e2, if_neg hz]
      rw [if_pos (by omega), show 2 ^ 23 + (n * 2 ^ k - 2 ^ 23) = n * 2 ^ k by omega, Nat.mul_assoc, ← Nat.pow_add,
        show k + (b.toNat / 2 ^ 23 - 1) = 149 by omega]
    · intro _
      unfold Finite
      rw [hto]
      omega

/-! ### Colour and projection -/

theorem number_back {v : UInt64} (h : ReadableNumber v) : copyNumber (seenNumber v) = v := by
  unfold copyNumber seenNumber
  by_cases hv : v = 0xFFFFFFFFFFFFFFFF
  · rw [if_pos hv, if_neg (by unfold llongMax; decide)]
    exact hv.symm
  · rw [if_neg hv]
    rcases h with h | h
    · exact absurd h hv
    · rw [if_pos (by unfold llongMax; omega)]
      unfold toU64
      have : ((v.toNat : Int) % 2 ^ 64).toNat = v.toNat := by omega
      rw [this, UInt64.ofNat_toNat]

theorem chroma_back (c : Mux.Chromaticity) : copyChroma (seenChroma c) = c := by
  unfold copyChroma seenChroma
  simp only [UInt32.ofNat_toNat]

theorem luminance_back (v : UInt32) : copyLuminance v.toNat = v := by
  unfold copyLuminance
  by_cases h : v.toNat ≠ 0x7F7FFFFF
  · rw [if_pos h, UInt32.ofNat_toNat]
  · rw [if_neg h]
    apply UInt32.toNat_inj.mp
    have : v.toNat = 0x7F7FFFFF := Classical.byContradiction h
    rw [this]; rfl

theorem chroma_map_back (c : Option Mux.Chromaticity) : (c.map seenChroma).map copyChroma = c := by
  cases c with
  | none => rfl
  | some c => simp only [Option.map_some, chroma_back]

theorem mastering_back (m : Mux.MasteringMetadata) : copyMastering (seenMastering m) = m := by
  unfold copyMastering seenMastering
  simp only [luminance_back, chroma_map_back]

/-- A colour without empty mastering metadata. -/
def plainColour (c : Mux.Colour) : Mux.Colour := { c with mastering := c.mastering.bind fun m => if m = {} then none else some m }

theorem colour_back {c : Mux.Colour} (h : ReadableColour c) : copyColour (seenColour c) = plainColour c := by
  have hn := fun v hv => number_back (h.numbers v hv)
  unfold copyColour seenColour plainColour
  simp only
  rw [hn c.matrixCoefficients (by simp), hn c.bitsPerChannel (by simp), hn c.chromaSubsamplingHorz (by simp),
    hn c.chromaSubsamplingVert (by simp), hn c.cbSubsamplingHorz (by simp), hn c.cbSubsamplingVert (by simp),
    hn c.chromaSitingHorz (by simp), hn c.chromaSitingVert (by simp), hn c.range (by simp),
    hn c.transferCharacteristics (by simp), hn c.primaries (by simp), hn c.maxCll (by simp), hn c.maxFall (by simp)]
  congr 1
  cases c.mastering with
  | none => rfl
  | some m =>
    simp only [Option.bind_some]
    by_cases hm : m = {}
    · rw [if_pos hm, if_pos hm]; rfl
    · rw [if_neg hm, if_neg hm]; simp only [Option.map_some, mastering_back]

theorem plain_mastering {c : Mux.Colour} {m : Mux.MasteringMetadata} (h : (plainColour c).mastering = some m) : c.mastering = some m := by
  unfold plainColour at h
  simp only at h
  cases hc : c.mastering with
  | none => rw [hc] at h; cases h
  | some m' =>
    rw [hc] at h
    simp only [Option.bind_some] at h
    split at h
    · cases h
    · exact h

theorem plain_seen (c : Mux.Colour) : seenColour (plainColour c) = seenColour c := by
  unfold seenColour plainColour
  simp only
  congr 1
  cases c.mastering with
  | none => rfl
  | some m =>
    simp only [Option.bind_some]
    by_cases hm : m = {}
    · rw [if_pos hm, if_pos hm]; rfl
    · rw [if_neg hm]; simp only [Option.bind_some, if_neg hm]

theorem plain_ok {c : Mux.Colour} (h : ColourOk c) : ColourOk (plainColour c) :=
  ⟨h.matrix, h.sitingHorz, h.sitingVert, h.range, h.transfer, h.primaries, fun m hm => h.mastering m (plain_mastering hm)⟩

theorem plain_readable {c : Mux.Colour} (h : ReadableColour c) : ReadableColour (plainColour c) :=
  ⟨h.numbers, fun m hm => h.mastering m (plain_mastering hm)⟩

/-- The projection that is set in the new file. -/
def keptProjection (p : Mux.Projection) : Mux.Projection :=
  { p with yaw := copyPose p.yaw.toNat, pitch := copyPose p.pitch.toNat, roll := copyPose p.roll.toNat }

theorem data_back {d : Option Bytes} (h : ReadableData d) : (d.bind fun b => if b.length > 0 then some b else none) = d := by
  cases d with
  | none => rfl
  | some b => simp only [Option.bind_some]; rw [if_pos (h b rfl).1]

theorem u64_back (v : UInt64) : UInt64.ofNat (toU64 (v.toNat : Int)) = v := by
  have := v.toNat_lt
  unfold toU64
  have h : ((v.toNat : Int) % 2 ^ 64).toNat = v.toNat := by omega
  rw [h, UInt64.ofNat_toNat]

theorem projection_back {p : Mux.Projection} (h : ReadableProjection p) : copyProjection (seenProjection p) = keptProjection p := by
  unfold copyProjection seenProjection keptProjection
  simp only
  rw [if_pos (by omega), u64_back, data_back h.data]

theorem pose_toNat (v : UInt32) : (copyPose v.toNat).toNat = keptAngle v.toNat := by
  unfold copyPose keptAngle
  by_cases h : v.toNat = 0x7F7FFFFF
  · rw [if_pos h, if_neg (by simp [h])]; rfl
  · rw [if_neg h, if_pos h, UInt32.ofNat_toNat]

theorem pose_readable {v : UInt32} (h : Finite v ∧ NotTiny v) : Finite (copyPose v.toNat) ∧ NotTiny (copyPose v.toNat) := by
  unfold copyPose
  by_cases hv : v.toNat ≠ 0x7F7FFFFF
  · rw [if_pos hv, UInt32.ofNat_toNat]; exact h
  · rw [if_neg hv]
    exact ⟨by unfold Finite; decide, .inl (by decide +kernel)⟩

theorem kept_projection_readable {p : Mux.Projection} (h : ReadableProjection p) : ReadableProjection (keptProjection p) := by
  refine ⟨h.type, h.data, ?_⟩
  intro f hf
  simp only [keptProjection, List.mem_cons, List.not_mem_nil, or_false] at hf
  rcases hf with rfl | rfl | rfl <;> exact pose_readable (h.floats _ (by simp))

/-! ### Tracks -/

/-- The video part of the copy. -/
def copiedVideo (v : Mux.VideoPart) : Mux.VideoPart :=
  { width := if v.pixelWidth = 0 then v.width else v.pixelWidth, height := if v.pixelHeight = 0 then v.height else v.pixelHeight,
    colour := v.colour.bind fun c => if seenColour c = {} then none else some (plainColour c),
    projection := v.projection.map keptProjection, frameRate := v.frameRate }

/-- The copy of a track. -/
def copied (n : Nat) (uid : UInt64) (t : Mux.Track) : Mux.Track :=
  { number := UInt64.ofNat n, uid := uid, type := t.type, codecId := t.codecId, name := t.name, codecPrivate := t.codecPrivate,
    codecDelay := if t.type = 2 then t.codecDelay else 0, seekPreRoll := if t.type = 2 then t.seekPreRoll else 0,
    part := match t.part with
      | .video v => .video (copiedVideo v)
      | p => p }

theorem i32_back {v : UInt64} (h : v.toNat < 2 ^ 31) : UInt64.ofNat (toU64 (toI32 (v.toNat : Int))) = v := by
  have : toI32 (v.toNat : Int) = v.toNat := by unfold toI32; omega
  rw [this, u64_back]

theorem text_back {s : Option Bytes} (h : ReadableText s) : textOf s = s := cString_id h

theorem video_back {v : Mux.VideoPart} (h : ReadableVideo v)
    (hw : (if v.pixelWidth = 0 then v.width else v.pixelWidth).toNat < 2 ^ 31)
    (hh : (if v.pixelHeight = 0 then v.height else v.pixelHeight).toNat < 2 ^ 31) :
    ({ width := UInt64.ofNat (toU64 (toI32 (seenVideo v).width)), height := UInt64.ofNat (toU64 (toI32 (seenVideo v).height)), colour := (seenVideo v).colour.map copyColour, projection := (seenVideo v).projection.map copyProjection, frameRate := if (seenVideo v).rate.units > 0 then some (UInt32.ofNat (seenVideo v).rate.toFloat) else none } : Mux.VideoPart) = copiedVideo v := by
  unfold seenVideo copiedVideo
  simp only
  rw [i32_back hw, i32_back hh]
  congr 1
  · cases hr : v.frameRate with
    | none => simp only; rw [if_neg (by decide +kernel)]
    | some b =>
      simp only
      rw [if_pos (units_pos (h.rate b hr).2), toFloat_float, UInt32.ofNat_toNat]
  · cases hc : v.colour with
    | none => rfl
    | some c =>
      simp only [Option.bind_some]
      split
      · rfl
      · simp only [Option.map_some, colour_back (h.colour c hc)]
  · cases hp : v.projection with
    | none => rfl
    | some p => simp only [Option.map_some, projection_back (h.projection p hp)]

theorem audio_back {a : Mux.AudioPart} {n : Nat} (hr : 0 < floatUnits a.sampleRate) (hn : n < 2 ^ 31)
    (hu : floatUnits a.sampleRate = n * 2 ^ 149) (hc : a.channels.toNat < 2 ^ 31) :
    truncInt (seenAudio a).rate = .ok n ∧
    ({ sampleRate := UInt32.ofNat (dblOfInt n).toFloat, channels := UInt64.ofNat (toU64 (toI32 (seenAudio a).channels)), bitDepth := if (seenAudio a).bitDepth > 0 then UInt64.ofNat (toU64 (seenAudio a).bitDepth) else 0 } : Mux.AudioPart) = a := by
  have hu' : floatUnits a.sampleRate = (n * 2 ^ 149 : Nat) := by rw [hu]; simp only [Int.natCast_mul, Int.natCast_pow, Int.cast_ofNat_Int]
  have hq : (floatUnits a.sampleRate).toNat / 2 ^ 149 = n := by
    rw [hu', Int.toNat_natCast, Nat.mul_div_cancel _ (Nat.two_pow_pos _)]
  have h0 : n ≠ 0 := by
    rintro rfl
    rw [hu'] at hr
    simp at hr
  constructor
  · have := trunc_float (b := a.sampleRate) (by omega) (by omega)
    rw [hq] at this
    exact this
  · unfold seenAudio
    simp only
    rw [toFloat_ofNat h0 hn hu', UInt32.ofNat_toNat, i32_back hc, u64_back]
    have : (if (a.bitDepth.toNat : Int) > 0 then a.bitDepth else 0) = a.bitDepth := by
      split
      · rfl
      · exact (UInt64.toNat_inj.mp (by show a.bitDepth.toNat = 0; omega)).symm
    rw [this]

/-- The tracks so far are numbered from 1. -/
def InNumbers (ts : List Mux.Track) : Prop := ∀ t ∈ ts, t.number.toNat ≤ ts.length

theorem addNew_ok {kind : Mux.TrackKind} {ts : List Mux.Track} (t : Mux.Track) (h : InNumbers ts) :
    addNew kind ts t = .ok (ts ++ [{ t with number := UInt64.ofNat (ts.length + 1) }], ts.length + 1) := by
  unfold addNew Mux.Tracks.request Mux.Tracks.addTrack
  have hl : (numbering ts).entries.length = ts.length := by simp [numbering]
  have ht : (numbering ts).taken (ts.length + 1) = false := by
    unfold Mux.Tracks.taken numbering
    simp only [List.any_map, List.any_eq_false, Function.comp, beq_iff_eq]
    intro x hx
    have := h x hx
    omega
  have hw : (numbering ts).wroteTracks = false := rfl
  rw [if_neg (by rw [hw]; simp), if_neg (by decide), if_neg (by simp)]
  simp only [hl, Int.toNat_zero, if_true]
  unfold Mux.Tracks.nextFree
  rw [ht]
  simp only [Bool.false_eq_true, if_false, List.getLast?_concat, Option.map_some, Option.getD_some]

theorem inNumbers_add {ts : List Mux.Track} (t : Mux.Track) (h : InNumbers ts) (hl : ts.length < 2 ^ 63) :
    InNumbers (ts ++ [{ t with number := UInt64.ofNat (ts.length + 1) }]) := by
  intro x hx
  rw [List.length_append, List.length_singleton]
  rcases List.mem_append.mp hx with hx' | hx'
  · have := h x hx'; omega
  · rw [List.mem_singleton.mp hx']
    simp only [UInt64.toNat_ofNat']
    omega

/-- One track. -/
theorem copyTrack_ok {t : Mux.Track} (hok : TrackOk t) (hr : ReadableTrack t) (hc : Copyable t) {uid : UInt64} {nt : NewTracks}
    (hn : InNumbers nt.tracks) (hl : nt.tracks.length < 2 ^ 63) :
    copyTrack true true uid (seenTrack t) nt =
      .ok (if t.type = 1 then ⟨nt.tracks ++ [copied (nt.tracks.length + 1) uid t], nt.tracks.length + 1, nt.audio⟩
        else if t.type = 2 then ⟨nt.tracks ++ [copied (nt.tracks.length + 1) uid t], nt.video, nt.tracks.length + 1⟩ else nt) := by
  have hk := hr.kind
  unfold KindFits at hk
  unfold Copyable at hc
  have hcd : ∀ d, (textOf t.codecId).getD d = t.codecId.getD d := by intro d; rw [text_back hr.codecId]
  have hsome : ∀ d, some (t.codecId.getD d) = t.codecId := by
    intro d
    cases h : t.codecId with
    | none => exact absurd h hok.codec
    | some c => rfl
  unfold copyTrack
  cases hp : t.part with
  | video v =>
    simp only [hp] at hk hc
    have h1 : (seenTrack t).info.type = 1 := by simp only [seenTrack]; rw [hk.1]; rfl
    have hpart : (seenTrack t).part = .video (seenVideo v) := by simp only [seenTrack, hp, seenPart]
    rw [if_pos ⟨h1, rfl⟩, hpart]
    simp only
    unfold copyVideoTrack
    simp only
    rw [video_back hk.2 hc.1 hc.2]
    have hav : ¬ (t.codecId.getD "V_VP8".toUTF8.toList = Mux.kAv1CodecId ∧ t.codecPrivate = none) := by
      rintro ⟨a, b⟩
      exact hok.av1 (by rw [← hsome "V_VP8".toUTF8.toList, a]; rfl) b
    simp only [seenTrack, hcd, data_back hr.codecPrivate]
    rw [addNew_ok _ hn]
    simp only [Res.bind_ok, Res.refuse_neg hav, hk.1, if_true, hsome, text_back hr.name]
    congr 2
    congr 1
    unfold copied
    simp only [hp, hk.1]
    rfl
  | audio a =>
    simp only [hp] at hk hc
    obtain ⟨⟨n, hn1, hn2⟩, hch⟩ := hc
    have h2 : (seenTrack t).info.type = 2 := by simp only [seenTrack]; rw [hk.1]; rfl
    have hpart : (seenTrack t).part = .audio (seenAudio a) := by simp only [seenTrack, hp, seenPart]
    rw [if_neg (by rw [h2]; simp), if_pos ⟨h2, rfl⟩, hpart]
    simp only
    obtain ⟨b1, b2⟩ := audio_back hk.2.rate.2 hn1 hn2 hch
    unfold copyAudioTrack
    rw [b1]
    simp only [Res.bind_ok]
    rw [b2]
    simp only [seenTrack, hcd, data_back hr.codecPrivate]
    rw [addNew_ok _ hn]
    have h21 : ¬ ((2 : UInt64) = 1) := by decide
    simp only [Res.bind_ok, hk.1, if_true, hsome, text_back hr.name, UInt64.ofNat_toNat, if_neg h21]
    congr 2
    congr 1
    unfold copied
    simp only [hp, hk.1]
    rfl
  | plain =>
    simp only [hp] at hk
    have h1 : ¬ (seenTrack t).info.type = 1 := by
      simp only [seenTrack]
      intro h
      exact hk.1 (UInt64.toNat_inj.mp (by show t.type.toNat = 1; omega))
    have h2 : ¬ (seenTrack t).info.type = 2 := by
      simp only [seenTrack]
      intro h
      exact hk.2.1 (UInt64.toNat_inj.mp (by show t.type.toNat = 2; omega))
    rw [if_neg (fun h => h1 h.1), if_neg (fun h => h2 h.1), if_neg hk.1, if_neg hk.2.1]

/-- Whether a track is copied. -/
theorem isAv_seen (t : Mux.Track) : IsAv (seenTrack t) = decide (t.type = 1 ∨ t.type = 2) := by
  unfold IsAv seenTrack
  simp only
  by_cases h1 : t.type = 1
  · rw [h1]; decide
  · by_cases h2 : t.type = 2
    · rw [h2]; decide
    · have h1' : ¬ ((t.type.toNat : Int) = 1) := fun h => h1 (UInt64.toNat_inj.mp (by show t.type.toNat = 1; omega))
      have h2' : ¬ ((t.type.toNat : Int) = 2) := fun h => h2 (UInt64.toNat_inj.mp (by show t.type.toNat = 2; omega))
      simp [h1, h2, h1', h2']

/-- The copies of all tracks. -/
def copies (uid : Nat → UInt64) : (i n : Nat) → List Mux.Track → List Mux.Track
  | _, _, [] => []
  | i, n, t :: ts => if t.type = 1 ∨ t.type = 2 then copied n (uid i) t :: copies uid (i + 1) (n + 1) ts else copies uid (i + 1) n ts

/-- The number of the last copy of a type, or the one before. -/
def lastOf (type : UInt64) : (n : Nat) → (before : Nat) → List Mux.Track → Nat
  | _, b, [] => b
  | n, b, t :: ts => if t.type = 1 ∨ t.type = 2 then lastOf type (n + 1) (if t.type = type then n else b) ts else lastOf type n b ts

theorem copyTracks_ok (uid : Nat → UInt64) : ∀ (ts : List Mux.Track) (i : Nat) (nt : NewTracks), (∀ t ∈ ts, TrackOk t) →
    (∀ t ∈ ts, ReadableTrack t) → (∀ t ∈ ts, Copyable t) → InNumbers nt.tracks → nt.tracks.length + ts.length < 2 ^ 63 →
    copyTracks true true uid i (ts.map seenTrack) nt = .ok ⟨nt.tracks ++ copies uid i (nt.tracks.length + 1) ts,
      lastOf 1 (nt.tracks.length + 1) nt.video ts, lastOf 2 (nt.tracks.length + 1) nt.audio ts⟩
  | [], i, nt, _, _, _, _, _ => by simp [copyTracks, copies, lastOf]
  | t :: ts, i, nt, hok, hr, hc, hn, hl => by
    have ho := fun x hx => hok x (List.mem_cons_of_mem _ hx)
    have hr' := fun x hx => hr x (List.mem_cons_of_mem _ hx)
    have hc' := fun x hx => hc x (List.mem_cons_of_mem _ hx)
    simp only [List.length_cons] at hl
    have hadd := inNumbers_add (copied (nt.tracks.length + 1) (uid i) t) hn (by omega)
    have hself : ({ copied (nt.tracks.length + 1) (uid i) t with number := UInt64.ofNat (nt.tracks.length + 1) } : Mux.Track) =
      copied (nt.tracks.length + 1) (uid i) t := rfl
    rw [hself] at hadd
    rw [List.map_cons, copyTracks, copyTrack_ok (hok t (List.mem_cons_self ..)) (hr t (List.mem_cons_self ..)) (hc t (List.mem_cons_self ..)) hn (by omega),
      Res.bind_ok]
    have h21 : ¬ ((2 : UInt64) = 1) := by decide
    have h12 : ¬ ((1 : UInt64) = 2) := by decide
    by_cases h1 : t.type = 1
    · rw [if_pos h1, copyTracks_ok uid ts (i + 1) _ ho hr' hc' hadd (by simp only [List.length_append, List.length_singleton]; omega)]
      simp only [copies, lastOf, h1, true_or, if_true, if_neg h12, List.length_append, List.length_singleton, List.append_assoc, List.singleton_append]
    · rw [if_neg h1]
      by_cases h2 : t.type = 2
      · rw [if_pos h2, copyTracks_ok uid ts (i + 1) _ ho hr' hc' hadd (by simp only [List.length_append, List.length_singleton]; omega)]
        simp only [copies, lastOf, h2, or_true, if_true, if_neg h21, List.length_append, List.length_singleton, List.append_assoc, List.singleton_append]
      · rw [if_neg h2, copyTracks_ok uid ts (i + 1) _ ho hr' hc' hn (by omega)]
        simp only [copies, lastOf, h1, h2, or_self, if_false]

/-! ### What is seen of a copy -/

theorem copiedVideo_seen (v : Mux.VideoPart) : seenVideo (copiedVideo v) = keptVideo (seenVideo v) := by
  unfold seenVideo copiedVideo keptVideo
  simp only [if_true]
  congr 1
  · cases hc : v.colour with
    | none => rfl
    | some c =>
      simp only [Option.bind_some]
      by_cases h : seenColour c = {}
      · rw [if_pos h, if_pos h]; rfl
      · rw [if_neg h]; simp only [Option.bind_some, plain_seen, if_neg h]
  · cases hp : v.projection with
    | none => rfl
    | some p => simp only [Option.map_some, seenProjection, keptProjection, pose_toNat]

theorem copied_seen {n : Nat} (hn : n < 2 ^ 64) (uid : UInt64) {t : Mux.Track} (hr : ReadableTrack t) (ha : t.type = 1 ∨ t.type = 2) :
    seenTrack (copied n uid t) = keptTrack n uid.toNat (seenTrack t) := by
  have hk := hr.kind
  unfold KindFits at hk
  have hnum : (UInt64.ofNat n).toNat = n := by rw [UInt64.toNat_ofNat']; omega
  unfold seenTrack copied keptTrack
  simp only [hnum]
  cases hp : t.part with
  | video v =>
    simp only [hp] at hk
    have h12 : ¬ ((1 : UInt64) = 2) := by decide
    have h12' : ¬ (((1 : UInt64).toNat : Int) = 2) := by decide
    simp only [hk.1, if_neg h12, if_neg h12', seenPart, copiedVideo_seen]
    simp
  | audio a =>
    simp only [hp] at hk
    have h22' : ((2 : UInt64).toNat : Int) = 2 := by decide
    simp only [hk.1, if_true, if_pos h22', seenPart]
    simp
  | plain =>
    simp only [hp] at hk
    exact absurd ha (by simp [hk.1, hk.2.1])

theorem copied_ok {n : Nat} {uid : UInt64} {t : Mux.Track} (hok : TrackOk t) : TrackOk (copied n uid t) := by
  refine ⟨hok.type, hok.codec, hok.av1, (by intro e he; cases he), ?_⟩
  intro v c hv hc
  simp only [copied] at hv
  cases hp : t.part with
  | video v' =>
    rw [hp] at hv
    simp only [Mux.TrackPart.video.injEq] at hv
    subst hv
    simp only [copiedVideo] at hc
    cases hcc : v'.colour with
    | none => rw [hcc] at hc; cases hc
    | some c' =>
      rw [hcc] at hc
      simp only [Option.bind_some] at hc
      split at hc
      · cases hc
      · simp only [Option.some.injEq] at hc
        subst hc
        exact plain_ok (hok.colour v' c' hp hcc)
  | audio a => rw [hp] at hv; cases hv
  | plain => rw [hp] at hv; cases hv

theorem copied_set {n : Nat} {uid : UInt64} {t : Mux.Track} (hs : TrackSet t) : TrackSet (copied n uid t) := by
  refine ⟨hs.codecPrivate, (by intro e he; cases he), ?_⟩
  intro v p hv hpp
  simp only [copied] at hv
  cases hp : t.part with
  | video v' =>
    rw [hp] at hv
    simp only [Mux.TrackPart.video.injEq] at hv
    subst hv
    simp only [copiedVideo] at hpp
    cases hcc : v'.projection with
    | none => rw [hcc] at hpp; cases hpp
    | some p' =>
      rw [hcc] at hpp
      simp only [Option.map_some, Option.some.injEq] at hpp
      subst hpp
      exact hs.projection v' p' hp hcc
  | audio a => rw [hp] at hv; cases hv
  | plain => rw [hp] at hv; cases hv

theorem copied_readable {n : Nat} {uid : UInt64} {t : Mux.Track} (hr : ReadableTrack t) (ha : t.type = 1 ∨ t.type = 2)
    (h1 : 1 ≤ n) (h2 : n ≤ 127) : ReadableTrack (copied n uid t) := by
  have hnum : (UInt64.ofNat n).toNat = n := by rw [UInt64.toNat_ofNat']; omega
  refine ⟨by simp only [copied, hnum]; omega, hr.type, by simp [copied], hr.codecId, (by intro b hb; cases hb), hr.name, hr.codecPrivate,
    (by intro e he; cases he), ?_⟩
  have hk := hr.kind
  unfold KindFits at hk ⊢
  simp only [copied]
  cases hp : t.part with
  | video v =>
    simp only [hp] at hk ⊢
    refine ⟨hk.1, ?_⟩
    have hv := hk.2
    refine ⟨by simpa [copiedVideo] using hv.width, by simpa [copiedVideo] using hv.height, by simp [copiedVideo], hv.rate,
      (by intro b hb; cases hb), ?_, ?_⟩
    · intro c hc
      simp only [copiedVideo] at hc
      cases hcc : v.colour with
      | none => rw [hcc] at hc; cases hc
      | some c' =>
        rw [hcc] at hc
        simp only [Option.bind_some] at hc
        split at hc
        · cases hc
        · simp only [Option.some.injEq] at hc
          subst hc
          exact plain_readable (hv.colour c' hcc)
    · intro p hpp
      simp only [copiedVideo] at hpp
      cases hcc : v.projection with
      | none => rw [hcc] at hpp; cases hpp
      | some p' =>
        rw [hcc] at hpp
        simp only [Option.map_some, Option.some.injEq] at hpp
        subst hpp
        exact kept_projection_readable (hv.projection p' hcc)
  | audio a => simp only [hp] at hk ⊢; exact hk
  | plain =>
    simp only [hp] at hk
    exact absurd ha (by simp [hk.1, hk.2.1])

theorem copies_seen (uid : Nat → UInt64) : ∀ (ts : List Mux.Track) (i n : Nat), (∀ t ∈ ts, ReadableTrack t) → n + ts.length < 2 ^ 63 →
    (copies uid i n ts).map seenTrack = keptTracks uid i n (ts.map seenTrack)
  | [], _, _, _, _ => rfl
  | t :: ts, i, n, hr, hl => by
    have hr' := fun x hx => hr x (List.mem_cons_of_mem _ hx)
    simp only [List.length_cons] at hl
    unfold copies
    rw [List.map_cons]
    unfold keptTracks
    rw [isAv_seen]
    by_cases ha : t.type = 1 ∨ t.type = 2
    · rw [if_pos ha, if_pos (by simpa using ha), List.map_cons, copied_seen (by omega) _ (hr t (List.mem_cons_self ..)) ha,
        copies_seen uid ts _ _ hr' (by omega)]
    · rw [if_neg ha, if_neg (by simpa using ha), copies_seen uid ts _ _ hr' (by omega)]

/-- The members and the numbers of the copies. -/
theorem copies_mem (uid : Nat → UInt64) : ∀ (ts : List Mux.Track) (i n : Nat) {c : Mux.Track}, c ∈ copies uid i n ts →
    ∃ t ∈ ts, ∃ j k, (t.type = 1 ∨ t.type = 2) ∧ n ≤ k ∧ k < n + (ts.filter fun t => t.type = 1 ∨ t.type = 2).length ∧ c = copied k (uid j) t
  | [], _, _, _, hc => by simp [copies] at hc
  | t :: ts, i, n, c, hc => by
    unfold copies at hc
    by_cases ha : t.type = 1 ∨ t.type = 2
    · rw [if_pos ha] at hc
      rw [List.filter_cons_of_pos (by simpa using ha), List.length_cons]
      rcases List.mem_cons.mp hc with rfl | hc'
      · exact ⟨t, List.mem_cons_self .., i, n, ha, Nat.le_refl _, by omega, rfl⟩
      · obtain ⟨x, hx, j, k, h1, h2, h3, h4⟩ := copies_mem uid ts _ _ hc'
        exact ⟨x, List.mem_cons_of_mem _ hx, j, k, h1, by omega, by omega, h4⟩
    · rw [if_neg ha] at hc
      rw [List.filter_cons_of_neg (by simpa using ha)]
      obtain ⟨x, hx, j, k, h1, h2, h3, h4⟩ := copies_mem uid ts _ _ hc
      exact ⟨x, List.mem_cons_of_mem _ hx, j, k, h1, by omega, by omega, h4⟩

theorem copies_distinct (uid : Nat → UInt64) : ∀ (ts : List Mux.Track) (i n : Nat), n + ts.length < 2 ^ 63 →
    ((copies uid i n ts).map (·.number)).Nodup
  | [], _, _, _ => by simp [copies]
  | t :: ts, i, n, hl => by
    simp only [List.length_cons] at hl
    have hfl := List.length_filter_le (fun t : Mux.Track => decide (t.type = 1 ∨ t.type = 2)) ts
    unfold copies
    split
    · rw [List.map_cons, List.nodup_cons]
      refine ⟨?_, copies_distinct uid ts _ _ (by omega)⟩
      intro hm
      obtain ⟨c, hc, he⟩ := List.mem_map.mp hm
      obtain ⟨x, hx, j, k, h1, h2, h3, h4⟩ := copies_mem uid ts _ _ hc
      rw [h4] at he
      have he' := congrArg UInt64.toNat he
      simp only [copied, UInt64.toNat_ofNat'] at he'
      omega
    · exact copies_distinct uid ts _ _ (by omega)

/-! ### Which track is the last -/

theorem lastOf_none {type : UInt64} : ∀ (ts : List Mux.Track) (n b : Nat), (∀ t ∈ ts, t.type ≠ type) → lastOf type n b ts = b
  | [], _, _, _ => rfl
  | t :: ts, n, b, h => by
    have h' := fun x hx => h x (List.mem_cons_of_mem _ hx)
    unfold lastOf
    rw [if_neg (h t (List.mem_cons_self ..)), lastOf_none ts _ _ h', lastOf_none ts _ _ h', ite_self]

/-- The copy of the only track of a type. -/
theorem lastOf_only (uid : Nat → UInt64) {type : UInt64} (hty : type = 1 ∨ type = 2) : ∀ (ts : List Mux.Track) (i n b : Nat) {t : Mux.Track},
    t ∈ ts → t.type = type → (ts.filter fun t => t.type = type).length ≤ 1 →
    lastOf type n b ts < n + ts.length ∧ ∃ j, copied (lastOf type n b ts) (uid j) t ∈ copies uid i n ts
  | [], _, _, _, _, ht, _, _ => by simp at ht
  | x :: ts, i, n, b, t, ht, he, h1 => by
    rw [lastOf, copies]
    by_cases hx : x.type = type
    · rw [List.filter_cons_of_pos (by simpa using hx), List.length_cons] at h1
      have hnil : ts.filter (fun t => decide (t.type = type)) = [] := List.length_eq_zero_iff.mp (by omega)
      have hno : ∀ y ∈ ts, y.type ≠ type := fun y hy hn => by
        have := List.filter_eq_nil_iff.mp hnil y hy
        simp [hn] at this
      rcases List.mem_cons.mp ht with rfl | ht'
      · have ha : t.type = 1 ∨ t.type = 2 := by rw [hx]; exact hty
        rw [if_pos ha, if_pos hx, if_pos ha, lastOf_none ts _ _ hno]
        exact ⟨by rw [List.length_cons]; omega, i, List.mem_cons_self ..⟩
      · exact absurd he (hno t ht')
    · rw [List.filter_cons_of_neg (by simpa using hx)] at h1
      have ht' : t ∈ ts := by
        rcases List.mem_cons.mp ht with rfl | ht'
        · exact absurd he hx
        · exact ht'
      rw [if_neg hx]
      by_cases ha : x.type = 1 ∨ x.type = 2
      · rw [if_pos ha, if_pos ha]
        obtain ⟨hl, j, hj⟩ := lastOf_only uid hty ts (i + 1) (n + 1) b ht' he h1
        exact ⟨by rw [List.length_cons]; omega, j, List.mem_cons_of_mem _ hj⟩
      · rw [if_neg ha, if_neg ha]
        obtain ⟨hl, hj⟩ := lastOf_only uid hty ts (i + 1) n b ht' he h1
        exact ⟨by rw [List.length_cons]; omega, hj⟩

/-! ### Tags -/

theorem tags_back {ts : List Mux.Tag} (hfull : ∀ t ∈ ts, ∀ s ∈ t, s.name ≠ some [] ∧ s.string ≠ some [])
    (hread : ∀ t ∈ ts, ∀ s ∈ t, ReadableText s.name ∧ ReadableText s.string) : copyTags (seenTags ts) = ts.filter (· ≠ []) := by
  unfold copyTags seenTags
  rw [List.map_map]
  conv => rhs; rw [← List.map_id (ts.filter (· ≠ []))]
  apply List.map_congr_left
  intro t ht
  have htm := (List.mem_filter.mp ht).1
  simp only [Function.comp, seenTag, List.map_map, id]
  conv => rhs; rw [← List.map_id t]
  apply List.map_congr_left
  intro s hs
  obtain ⟨f1, f2⟩ := hfull t htm s hs
  obtain ⟨r1, r2⟩ := hread t htm s hs
  simp only [Function.comp, seenText, if_neg f1, if_neg f2, text_back r1, text_back r2, id]

end Verif.Sample
