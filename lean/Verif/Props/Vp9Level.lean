/-
Properties of the VP9 level statistics: C45 (figures) and C49 (level).
-/
import Verif.Lemmas.Vp9Level

namespace Verif.Props
open Verif Spec.Vp9Level Vp9

/-! ### C45 -/

/-- The figures that do not depend on the frames' times: the largest picture and breadth, the
largest size of four consecutive frames, the totals, the smallest distance between consecutive
alternate reference frames, the most reference slots in use, and the most tile columns. -/
theorem C45_figures (fs : List LevelFrame) (h : ∀ f ∈ fs, f.width * f.height < 2 ^ 31) :
    ∃ s, Stats.addAll {} fs = .ok s ∧
      s.frames = fs.length ∧
      IsMax s.maxPicture (fs.map luma) ∧
      IsMax s.maxBreadth (fs.map breadth) ∧
      IsMax s.maxCpb ((moments fs).map lastFour) ∧
      IsMax s.maxTiles (fs.map fun f => (f.columnTiles : Int)) ∧
      IsMax s.maxRefreshed ((moments fs).map slotsUsed) ∧
      s.totalCompressed = (fs.map LevelFrame.bytes).sum ∧
      s.displayed = (fs.filter fun f => !f.altref).length ∧
      s.totalUncompressed =
        ((fs.filter fun f => !f.altref).map fun f => f.width * f.height * f.bitDepth * 3 / 2).sum ∧
      (∀ m, s.minAltref = some m ↔ AltrefGap fs m ∧ ∀ n, AltrefGap fs n → m ≤ n) ∧
      (s.minAltref = none ↔ ∀ n, ¬ AltrefGap fs n) := by
  obtain ⟨s, e, hi, -, -⟩ := addAll_inv fs h
  refine ⟨s, e, hi.size.frames, hi.size.picture, hi.size.breadth, hi.cpb.largest, hi.ref.tiles,
    hi.ref.largest, hi.size.total, hi.alt.displayed, hi.alt.bits, ?_, ?_⟩
  · intro m
    have := hi.alt.least
    cases hm : s.minAltref with
    | none => rw [hm] at this; exact ⟨fun h => (nomatch h), fun h => absurd h.1 (this m)⟩
    | some k =>
      rw [hm] at this
      constructor
      · intro h; obtain rfl := Option.some.inj h; exact this
      · rintro ⟨h1, h2⟩
        have a := this.2 m h1
        have b := h2 k this.1
        rw [show k = m by omega]
  · have := hi.alt.least
    cases hm : s.minAltref with
    | none => rw [hm] at this; exact ⟨fun _ => this, fun _ => rfl⟩
    | some k => rw [hm] at this; exact ⟨fun h => (nomatch h), fun h => absurd this.1 (h k)⟩

/-- If times do not decrease, the largest luma sample rate is the largest number of samples of
the frames in a second. -/
theorem C45_luma_rate (fs : List LevelFrame) (h : ∀ f ∈ fs, f.width * f.height < 2 ^ 31)
    (ht : fs.Pairwise fun a b => a.time ≤ b.time) :
    ∃ s, Stats.addAll {} fs = .ok s ∧ IsMax s.maxLuma ((moments fs).map lastSecond) := by
  obtain ⟨s, e, -, hl, -⟩ := addAll_inv fs h
  exact ⟨s, e, (hl ht).largest⟩

/-- The stream starts with its first frame and ends with its last one. -/
theorem C45_span (fs : List LevelFrame) (h : ∀ f ∈ fs, f.width * f.height < 2 ^ 31)
    (ht : ∀ f ∈ fs, 0 ≤ f.time) :
    ∃ s, Stats.addAll {} fs = .ok s ∧
      s.start = (fs.head?.map LevelFrame.time).getD (-1) ∧
      s.finish = (fs.getLast?.map LevelFrame.time).getD (-1) := by
  obtain ⟨s, e, -, -, hs⟩ := addAll_inv fs h
  exact ⟨s, e, hs ht⟩

/-- A frame of 65536 times 32768 samples, which a header can announce, overflows. -/
theorem C45_large_picture_ub (s : Stats) :
    s.add { time := 0, width := 65536, height := 32768, bytes := 10 } = .ub := rfl

/-- Out of order, a frame can be kept in the window because one before it is still recent. -/
theorem C45_luma_rate_unordered :
    ∃ (fs : List LevelFrame) (s : Stats), Stats.addAll {} fs = .ok s ∧
      ¬ IsMax s.maxLuma ((moments fs).map lastSecond) := by
  refine ⟨[{ time := 3000000000, width := 1, height := 1, bytes := 1 },
           { time := 0, width := 1, height := 1, bytes := 1 },
           { time := 3000000000, width := 1, height := 1, bytes := 1 }], _, rfl, ?_⟩
  rintro ⟨-, h⟩
  revert h
  decide +kernel

def levelFrames : List LevelFrame :=
  [{ time := 0, width := 320, height := 180, bytes := 4000, key := true },
   { time := 0, width := 320, height := 180, bytes := 900, altref := true, refresh := 4 },
   { time := 600000000, width := 320, height := 180, bytes := 100, refresh := 1 },
   { time := 999999999, width := 320, height := 180, bytes := 120, refresh := 1 },
   { time := 1000000000, width := 320, height := 180, bytes := 3500, altref := true, refresh := 8 },
   { time := 1000000000, width := 320, height := 180, bytes := 90, refresh := 2 }]

example : (∀ f ∈ levelFrames, f.width * f.height < 2 ^ 31) ∧
    levelFrames.Pairwise (fun a b => a.time ≤ b.time) ∧ ∀ f ∈ levelFrames, 0 ≤ f.time := by
  decide +kernel

example : (match Stats.addAll {} levelFrames with
    | .ok s => (s.maxLuma, s.maxCpb, s.minAltref, s.maxRefreshed)
    | _ => (0, 0, none, 0)) = (4 * 57600, 5120, some 2, 4) := by decide +kernel

/-! ### C49 -/

/-- If the comparisons are upward closed, every limit is kept by some level, the CPB limit
by a level that defines one, and no more than four references are used, then the level reported
is the lowest whose upper limits the stream keeps, or none if the stream does not meet that
level's alternate reference distance or compression ratio.  Missing: streams that exceed the
limits of all levels, and streams with more than four references, for which the claim is false
(`C49_excess_ignored`, `C49_references_ignored`, `C49_cpb_ignored`). -/
theorem C49_lowest_level_partial (n : Needs)
    (u1 : Upward n.lumaRateOk) (u2 : Upward n.bitrateOk) (u3 : Upward n.cpbOk)
    (e1 : ∃ r ∈ levelTable, n.lumaRateOk r.lumaRate = true)
    (e2 : ∃ r ∈ levelTable, n.pictureSize ≤ r.pictureSize)
    (e3 : ∃ r ∈ levelTable, n.breadth ≤ r.breadth)
    (e4 : ∃ r ∈ levelTable, n.bitrateOk r.bitrate = true)
    (e5 : ∃ r ∈ levelTable, r.cpb > 0 ∧ n.cpbOk r.cpb = true)
    (e6 : ∃ r ∈ levelTable, n.tiles ≤ r.tiles) (hr : n.refs ≤ 4) :
    ∃ row ∈ levelTable, Keeps n row ∧ (∀ r ∈ levelTable, Keeps n r → row.level ≤ r.level) ∧
      getLevel n =
        if n.altref < row.altref ∨ n.ratioOk row.ratio = false then 0 else row.level := by
  have s1 := lowest_first (p := fun r => n.lumaRateOk r.lumaRate)
    (upward_pairwise u1 (g := LevelRow.lumaRate) (by decide +kernel)) e1
  have s2 := lowest_raise s1 (p := fun r => n.pictureSize ≤ r.pictureSize)
    (le_pairwise _ (g := LevelRow.pictureSize) (by decide +kernel)) (by simpa using e2)
  have s3 := lowest_raise s2 (p := fun r => n.breadth ≤ r.breadth)
    (le_pairwise _ (g := LevelRow.breadth) (by decide +kernel)) (by simpa using e3)
  have s4 := lowest_raise s3 (p := fun r => n.bitrateOk r.bitrate)
    (upward_pairwise u2 (g := LevelRow.bitrate) (by decide +kernel)) e4
  have s5 := lowest_raise s4 (p := fun r => r.cpb = 0 ∨ n.cpbOk r.cpb)
    (cpb_pairwise u3) (by
      obtain ⟨r, h1, -, h3⟩ := e5
      exact ⟨r, h1, by simp [h3]⟩)
  rw [← raise_congr (cpb_find e5)] at s5
  have s6 := lowest_raise s5 (p := fun r => n.tiles ≤ r.tiles)
    (le_pairwise _ (g := LevelRow.tiles) (by decide +kernel)) (by simpa using e6)
  have href : ∀ r ∈ levelTable, 4 ≤ r.refs := by decide +kernel
  have s7 := lowest_raise s6 (p := fun r => n.refs ≤ r.refs)
    (by
      have : levelTable.Pairwise (fun _ b => 4 ≤ b.refs) := by decide +kernel
      exact this.imp (fun h _ => by simp; omega))
    ⟨levelTable.head (by decide), by decide +kernel, by
      have := href (levelTable.head (by decide)) (by decide +kernel)
      simp; omega⟩
  have s8 : Lowest (Keeps n) (bestRow n) := lowest_congr s7 (by
    intro r _
    unfold Keeps
    simp only [decide_eq_true_eq, and_assoc])
  obtain ⟨row, hm, hb, hlow⟩ := s8
  refine ⟨row, hm, (hlow row hm).mpr (Nat.le_refl _), fun r hr h => (hlow r hr).mp h, ?_⟩
  unfold getLevel
  simp only [hb, Option.getD_some]
  by_cases ha : n.altref < row.altref
  · rw [if_pos ha, if_pos (Or.inl ha)]
  · rw [if_neg ha]
    by_cases hk : n.ratioOk row.ratio = true
    · rw [if_neg (by simp [hk]), if_neg (by simp [hk]; omega)]
    · rw [if_pos hk, if_pos (Or.inr (by simpa using hk))]

/-- A stream with less than two alternate reference frames, whose smallest distance is reported
as -1, never has a level. -/
theorem C49_no_altref_distance_unknown (n : Needs) (h : n.altref = -1) : getLevel n = 0 := by
  unfold getLevel
  simp only
  rw [if_pos (by rw [h]; omega)]

/-- The needs of a stream, with exact comparisons. -/
def exactNeeds (lumaRate pictureSize breadth bitrate cpb tiles refs : Nat) : Needs where
  lumaRateOk := fun l => lumaRate ≤ l
  pictureSize := pictureSize
  breadth := breadth
  bitrateOk := fun l => bitrate ≤ l
  cpbOk := fun l => cpb ≤ l
  tiles := tiles
  refs := refs
  altref := 100
  ratioOk := fun _ => true

/-- A need that exceeds the limit of every level is ignored: this stream is reported to have
level 1 although its bit rate is larger than what any level allows. -/
theorem C49_excess_ignored :
    getLevel (exactNeeds 1000 1000 100 500000 100 1 1) = 10 ∧
    ∀ r ∈ levelTable, ¬ Keeps (exactNeeds 1000 1000 100 500000 100 1 1) r := by
  refine ⟨by decide +kernel, ?_⟩
  intro r hr hk
  have h1 : ∀ r ∈ levelTable, r.bitrate < 500000 := by decide +kernel
  have h2 : decide (500000 ≤ r.bitrate) = true := hk.2.2.2.1
  have := h1 r hr
  simp only [decide_eq_true_eq] at h2
  omega

/-- The number of references is ignored: this stream is reported to have level 5 although it uses
eight references and level 5 allows four. -/
theorem C49_references_ignored :
    getLevel (exactNeeds 1000 8000000 100 100 100 1 8) = 50 ∧
    ∀ r ∈ levelTable, r.level = 50 → r.refs = 4 := by decide +kernel

/-- A CPB size larger than any defined limit is ignored: this stream is reported to have level 1,
and the lowest level whose limits it keeps is 5.2. -/
theorem C49_cpb_ignored :
    getLevel (exactNeeds 1000 1000 100 100 50000 1 1) = 10 ∧
    ∀ r ∈ levelTable, Keeps (exactNeeds 1000 1000 100 100 50000 1 1) r → 52 ≤ r.level := by
  refine ⟨by decide +kernel, ?_⟩
  intro r hr hk
  have h1 : ∀ r ∈ levelTable, r.level < 52 → 0 < r.cpb ∧ r.cpb < 50000 := by decide +kernel
  have h2 : r.cpb = 0 ∨ decide (50000 ≤ r.cpb) = true := hk.2.2.2.2.1
  apply Nat.le_of_not_lt
  intro hlt
  have := h1 r hr hlt
  rcases h2 with h2 | h2
  · omega
  · simp only [decide_eq_true_eq] at h2; omega

/-- A stream that meets the hypotheses of `C49_lowest_level_partial`. -/
example : getLevel (exactNeeds 30000000 921600 1280 5000 4000 4 3) = 31 ∧
    (∃ r ∈ levelTable, r.cpb > 0 ∧ (exactNeeds 30000000 921600 1280 5000 4000 4 3).cpbOk r.cpb) ∧
    Upward (exactNeeds 30000000 921600 1280 5000 4000 4 3).bitrateOk :=
  ⟨by decide +kernel, by decide +kernel, fun a b h1 h2 => by
    simp only [exactNeeds, decide_eq_true_eq] at h2 ⊢; omega⟩

end Verif.Props
