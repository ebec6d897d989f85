/-
Properties of the VP9 helpers: C44 and C48 (frame headers).
-/
import Verif.Lemmas.Vp9Header

namespace Verif.Props
open Verif Spec.Vp9 Vp9

/-! ### C44 -/

/-- Parsing any frame ends, reads no memory outside the frame, and counts at most its bits. -/
theorem C44_in_bounds (h : Hdr) (frame : Bytes) :
    ∃ ok h' n, parseHeader h frame = .ok (ok, h', n) ∧ n ≤ 8 * frame.length := by
  unfold parseHeader
  by_cases h0 : frame.length = 0
  · rw [if_pos h0]; exact ⟨false, h, 0, rfl, by omega⟩
  · rw [if_neg h0]
    obtain ⟨⟨ok, h'⟩, t, t', e, -, r, -⟩ := sim_uncompressedHeader (F := frame) (k := 0) h.reset
      ⟨frame, 0⟩ ⟨frame, 0⟩ ⟨rfl, by simp, by simp, Or.inl rfl⟩
    rw [e]
    exact ⟨ok, h', t.off, rfl, r.bound⟩

/-- Bits past the end count as zero: a non-empty frame gives the same results as the frame
followed by any number of zero bytes. -/
theorem C44_zero_padding (h : Hdr) (frame : Bytes) (k : Nat) (hne : frame ≠ []) :
    ∃ ok h' n n', parseHeader h frame = .ok (ok, h', n) ∧
      parseHeader h (frame ++ List.replicate k 0) = .ok (ok, h', n') := by
  have h0 : frame.length ≠ 0 := fun h => hne (List.length_eq_zero_iff.mp h)
  unfold parseHeader
  rw [if_neg h0, if_neg (by rw [List.length_append]; omega)]
  obtain ⟨⟨ok, h'⟩, t, t', e, e', -, -⟩ := sim_uncompressedHeader (F := frame) (k := k) h.reset
    ⟨frame, 0⟩ ⟨frame ++ List.replicate k 0, 0⟩ ⟨rfl, rfl, by simp, Or.inl rfl⟩
  rw [e, e']
  exact ⟨ok, h', t.off, t'.off, rfl, rfl⟩

/-- A key frame cut after the width. -/
example : parseHeader {} [0x82, 0x49, 0x83, 0x42, 0x00, 0x13, 0xf0] =
    .ok (true, { profile := 0, key := true, altref := false, bitDepth := 8, subsamplingX := 1,
                 subsamplingY := 1, width := 320, height := 1, displayWidth := 320,
                 displayHeight := 1, rowTiles := 1, columnTiles := 1 }, 56) := by decide +kernel

/-! ### C48 -/

/-- A frame whose bits start with the header of a key frame is accepted, exactly that header is
read, and the results are the values encoded. -/
theorem C48_key_frame (h : Hdr) (frame : Bytes) (k : KeyFrame) (lo hi : Nat) (r : List Bool)
    (hb : bitsOf frame = k.bits lo hi ++ r)
    (hp : k.profile ≤ 3) (hc : k.color.space < 8) (hz : k.size.Valid) (hf : k.filter.Valid)
    (hlo : MinLog2 (sbCols k.size.width) lo) (hhi : MaxLog2 (sbCols k.size.width) hi)
    (ht : ∀ c r, k.tiles = some (c, r) → lo ≤ c ∧ c ≤ hi ∧ r ≤ 2) :
    ∃ h', parseHeader h frame = .ok (true, h', (k.bits lo hi).length) ∧
      h'.profile = k.profile ∧ h'.key = true ∧ h'.altref = !k.show' ∧
      h'.errorResilient = (if k.resilient then 1 else 0) ∧
      h'.bitDepth = k.color.depth k.profile ∧ h'.colorSpace = k.color.space ∧
      h'.refreshFlags = 0 ∧
      h'.width = k.size.width ∧ h'.height = k.size.height ∧
      (h'.displayWidth, h'.displayHeight) = k.size.render.getD (k.size.width, k.size.height) ∧
      h'.frameParallel = (if k.resilient then 1 else if k.parallel then 1 else 0) ∧
      (h'.columnTiles, h'.rowTiles) = (match k.tiles with
        | some (c, r) => (2 ^ c, 2 ^ r)
        | none => (h.columnTiles, h.rowTiles)) := by
  refine ⟨_, parse_of_reads h _ frame _ r true (reads_key _ k lo hi hp hc hz hf hlo hhi ht) hb
    (by unfold KeyFrame.bits startBits; simp), ?_⟩
  cases ht : k.tiles with
  | none => simp [withKey, ht, withTiles, withSize, withColor, withStart, Hdr.reset]
  | some t => simp [withKey, ht, withTiles, withSize, withColor, withStart, Hdr.reset]

/-- The same for intra-only frames: in profile 0 the colour format is the fixed one. -/
theorem C48_intra_only_frame (h : Hdr) (frame : Bytes) (k : IntraFrame) (r : List Bool)
    (hb : bitsOf frame = k.bits ++ r)
    (hp : k.profile ≤ 3) (hc : k.color.space < 8) (hz : k.size.Valid)
    (hr : k.resetContext < 4) (hf : k.refresh < 256) :
    ∃ h', parseHeader h frame = .ok (true, h', k.bits.length) ∧
      h'.profile = k.profile ∧ h'.key = false ∧ h'.altref = true ∧ h'.intraOnly = 1 ∧
      h'.errorResilient = (if k.resilient then 1 else 0) ∧
      h'.bitDepth = (if k.profile = 0 then 8 else k.color.depth k.profile) ∧
      h'.colorSpace = (if k.profile = 0 then 1 else k.color.space) ∧
      h'.refreshFlags = k.refresh ∧
      h'.width = k.size.width ∧ h'.height = k.size.height ∧
      (h'.displayWidth, h'.displayHeight) = k.size.render.getD (k.size.width, k.size.height) ∧
      (h'.columnTiles, h'.rowTiles) = (h.columnTiles, h.rowTiles) := by
  refine ⟨_, parse_of_reads h _ frame _ r true (reads_intra _ k hp hc hz hr hf) hb
    (by unfold IntraFrame.bits startBits; simp), ?_⟩
  by_cases h0 : k.profile = 0
  · simp [withIntra, h0, withSize, withStart, Hdr.reset]
  · simp [withIntra, Nat.pos_of_ne_zero h0, h0, withSize, withColor, withStart, Hdr.reset]

/-- The same for inter frames: a frame that takes its size from a reference leaves the size
reported as it was. -/
theorem C48_inter_frame (h : Hdr) (frame : Bytes) (k : InterFrame) (r : List Bool)
    (hb : bitsOf frame = k.bits ++ r)
    (hp : k.profile ≤ 3) (hr : k.resetContext < 4) (hf : k.refresh < 256) (hrefs : k.refs.length = 3)
    (hi : ∀ i, k.size = .inl i → i < 3) (hz : ∀ z, k.size = .inr z → z.Valid) :
    ∃ h', parseHeader h frame = .ok (true, h', k.bits.length) ∧
      h'.profile = k.profile ∧ h'.key = false ∧ h'.altref = !k.show' ∧ h'.intraOnly = 0 ∧
      h'.errorResilient = (if k.resilient then 1 else 0) ∧
      h'.refreshFlags = k.refresh ∧ h'.bitDepth = h.bitDepth ∧
      (h'.width, h'.height, h'.displayWidth, h'.displayHeight) = (match k.size with
        | .inl _ => (h.width, h.height, h.displayWidth, h.displayHeight)
        | .inr z => (z.width, z.height, z.render.getD (z.width, z.height))) ∧
      (h'.columnTiles, h'.rowTiles) = (h.columnTiles, h.rowTiles) := by
  refine ⟨_, parse_of_reads h _ frame _ r true (reads_inter _ k hp hr hf hrefs hi hz) hb
    (by unfold InterFrame.bits startBits; simp), ?_⟩
  cases hs : k.size with
  | inl i => simp [withInter, hs, withStart, Hdr.reset]
  | inr z => simp [withInter, hs, withSize, withStart, Hdr.reset]

/-- A 320x240 key frame of profile 0 with one tile. -/
def sampleKey : KeyFrame :=
  { profile := 0, show' := true, resilient := false,
    color := { twelve := false, space := 1, range := false, subX := true, subY := true },
    size := { width := 320, height := 240, render := none },
    refreshContext := true, parallel := false,
    filter := { contextIdx := 0, level := 9, sharpness := 0,
                deltas := some (some ([some 3, none, none, some 1], [none, none])), baseQ := 60,
                q1 := none, q2 := some 3, q3 := none },
    tiles := some (0, 1) }

example : MinLog2 (sbCols 320) 0 ∧ MaxLog2 (sbCols 320) 0 := by
  have h5 : sbCols 320 = 5 := by decide
  rw [h5]
  refine ⟨⟨by decide, fun j hj => absurd hj (by omega)⟩, Or.inl rfl, fun j hj => ?_⟩
  have : 2 ^ 1 ≤ 2 ^ j := Nat.pow_le_pow_right (by omega) hj
  omega

example : sampleKey.size.Valid ∧ sampleKey.filter.Valid :=
  ⟨⟨by decide, by decide, by decide, by decide, fun r h => nomatch h⟩,
   fun r m h => by cases h; exact ⟨rfl, rfl⟩⟩

/-- A frame that starts with it. -/
example : bitsOf [130, 73, 131, 66, 32, 19, 240, 14, 244, 18, 56, 50, 4, 60, 76, 128] =
    sampleKey.bits 0 0 ++ List.replicate 6 false := by decide +kernel

end Verif.Props
