/-
C60: what the muxer writes for the tracks, chapters and tags a user has set up.
-/
import Verif.Props.Ebml
import Verif.Lemmas.MuxerHeaders

namespace Verif.Props
open Verif Verif.Mux Verif.Spec

/-- C60, tracks.  If every track can be written, the Tracks element in the file is exactly the tree that stands for
the tracks: every value that was set, in a fixed order, and nothing else; with any failing output the call
reports the failure and leaves a prefix of it. -/
theorem C60_tracks {ts : List Track} (hok : ∀ t ∈ ts, TrackOk t) (hset : ∀ t ∈ ts, TrackSet t)
    (hfit : (tracksTree ts).Fits) : HonestOutput (writeTracks ts) (tracksTree ts).bytes :=
  honest_of_emits (tracks_puts hok hset hfit)

/-- C60, tracks that cannot be written.  One such track, and the call fails whatever the output does. -/
theorem C60_tracks_refused {ts : List Track} (h : ¬ ∀ t ∈ ts, TrackOk t) : NeverWrites (writeTracks ts) := by
  have : ∃ t ∈ ts, ¬ TrackOk t := by
    apply Classical.byContradiction
    intro hn
    exact h fun t ht => Classical.byContradiction fun hno => hn ⟨t, ht, hno⟩
  obtain ⟨t, ht, hno⟩ := this
  exact fun s s' => tracks_never ht hno s () s'

/-- C60, chapters. -/
theorem C60_chapters {cs : List Chapter} (hok : ∀ c ∈ cs, ChapterOk c) (hfit : (chaptersTree cs).Fits) :
    HonestOutput (writeChapters cs) (chaptersTree cs).bytes := honest_of_emits (chapters_puts hok hfit)

/-- C60, chapters that cannot be written. -/
theorem C60_chapters_refused {cs : List Chapter} (h : ¬ ∀ c ∈ cs, ChapterOk c) : NeverWrites (writeChapters cs) := by
  have : ∃ t ∈ cs, ¬ ChapterOk t := by
    apply Classical.byContradiction
    intro hn
    exact h fun t ht => Classical.byContradiction fun hno => hn ⟨t, ht, hno⟩
  obtain ⟨t, ht, hno⟩ := this
  exact fun s s' => chapters_never ht hno s () s'

/-- C60, tags. -/
theorem C60_tags {ts : List Tag} (hok : ∀ t ∈ ts, TagOk t) (hfit : (tagsTree ts).Fits) :
    HonestOutput (writeTags ts) (tagsTree ts).bytes := honest_of_emits (tags_puts hok hfit)

/-- C60, tags that cannot be written. -/
theorem C60_tags_refused {ts : List Tag} (h : ¬ ∀ t ∈ ts, TagOk t) : NeverWrites (writeTags ts) := by
  have : ∃ t ∈ ts, ¬ TagOk t := by
    apply Classical.byContradiction
    intro hn
    exact h fun t ht => Classical.byContradiction fun hno => hn ⟨t, ht, hno⟩
  obtain ⟨t, ht, hno⟩ := this
  exact fun s s' => tags_never ht hno s () s'

/-- C60: anything below 4 GiB fits. -/
theorem C60_small_fits {t : Tree} (h : t.bytes.length < 2 ^ 32) : t.Fits := Tree.fits_of_small h

/-- C60: the setters for binary data refuse the empty string and otherwise keep the value. -/
theorem C60_setters (t : Track) (e : ContentEncoding) (p : Projection) (v : Option Bytes) :
    (t.setCodecPrivate v = if v = none ∨ v = some [] then none else some { t with codecPrivate := v }) ∧
    (e.setEncryptionID v = if v = none ∨ v = some [] then none else some { e with keyId := v }) ∧
    (p.setPrivate v = if v = none ∨ v = some [] then none else some { p with privateData := v }) := by
  cases v with
  | none => exact ⟨rfl, rfl, rfl⟩
  | some b =>
    cases b with
    | nil => exact ⟨rfl, rfl, rfl⟩
    | cons x xs => simp [Track.setCodecPrivate, ContentEncoding.setEncryptionID, Projection.setPrivate]

/-- C60: chapter times are written in units of the timecode scale, rounded down. -/
theorem C60_chapter_times (c : Chapter) {scale : UInt64} (hs : scale ≠ 0) (start stop : UInt64) :
    (c.setTime scale start stop).start.toNat * scale.toNat ≤ start.toNat ∧
    start.toNat < ((c.setTime scale start stop).start.toNat + 1) * scale.toNat ∧
    (c.setTime scale start stop).stop.toNat * scale.toNat ≤ stop.toNat ∧
    stop.toNat < ((c.setTime scale start stop).stop.toNat + 1) * scale.toNat := by
  have h0 : 0 < scale.toNat := by
    rcases Nat.eq_zero_or_pos scale.toNat with h | h
    · exact absurd (UInt64.toNat_inj.mp h) hs
    · exact h
  simp only [Chapter.setTime, UInt64.toNat_div]
  refine ⟨Nat.div_mul_le_self _ _, ?_, Nat.div_mul_le_self _ _, ?_⟩
  · rw [Nat.mul_comm]; exact Nat.lt_mul_div_succ _ h0
  · rw [Nat.mul_comm]; exact Nat.lt_mul_div_succ _ h0

/-- **A maximal luminance alone cannot be written.** If mastering metadata has a maximal luminance (a number up to
9999.99) and no minimal one, no track with it can be written, and so no file with such a track. -/
theorem C60_luminance_max_alone {ts : List Track} {t : Track} {v : VideoPart} {c : Colour} {m : MasteringMetadata}
    (ht : t ∈ ts) (hv : t.part = .video v) (hc : v.colour = some c) (hm : c.mastering = some m)
    (hmin : m.luminanceMin = 0x7F7FFFFF) (hmax : ¬ IsNaN m.luminanceMax)
    (hle : floatUnits m.luminanceMax ≤ floatUnits 0x461C3FF6) : NeverWrites (writeTracks ts) := by
  refine C60_tracks_refused fun h => ?_
  have ho := ((h t ht).colour v c hv hc).mastering m hm |>.order
  rw [hmin] at ho
  rcases ho with ho | ho | ho
  · revert ho; unfold IsNaN; decide
  · exact hmax ho
  · have : floatUnits 0x461C3FF6 < floatUnits 0x7F7FFFFF := by decide +kernel
    omega

/-- A video track mastered for up to 1000 nits. -/
def brightVideo : Track :=
  { number := 1, uid := 1, type := 1, codecId := some [0x56, 0x5F, 0x56, 0x50, 0x39],
    part := .video { width := 320, height := 240, colour := some { mastering := some { luminanceMax := 0x447A0000 } } } }

example : NeverWrites (writeTracks [brightVideo]) :=
  C60_luminance_max_alone (List.mem_singleton.mpr rfl) rfl rfl rfl rfl (by unfold IsNaN; decide) (by decide +kernel)

/-- **A luminance that is not a number is written.** -/
theorem C60_nan_luminance_accepted : MasteringOk { luminanceMin := 0x7FC00000, luminanceMax := 0x7FC00000 } := by
  have hn : IsNaN 0x7FC00000 := by unfold IsNaN; decide
  exact ⟨fun _ => ⟨.inr (.inl hn), .inl hn⟩, fun _ => ⟨.inr (.inl hn), .inl hn⟩, .inl hn,
    by rintro c (h | h | h | h) <;> cases h⟩

/-- **A projection whose type is "not present" is written with the type 2⁶⁴ - 1.** -/
theorem C60_projection_type_unset (p : Projection) (h : p.type = 0xFFFFFFFFFFFFFFFF) :
    ∃ rest, (projectionTree p).bytes = beBytes 2 0x7670 ++ vint (sizeWidth (11 + rest.length)) (11 + rest.length) ++
      ([0x76, 0x71, 0x88, 0xFF, 0xFF, 0xFF, 0xFF, 0xFF, 0xFF, 0xFF, 0xFF] ++ rest) := by
  refine ⟨(seq [text 0x7672 p.privateData, float 0x7673 p.yaw, float 0x7674 p.pitch, float 0x7675 p.roll]).bytes, ?_⟩
  unfold projectionTree
  rw [group_bytes, seq_cons_bytes, h]
  have : (number 0x7671 0xFFFFFFFFFFFFFFFF).bytes =
    [0x76, 0x71, 0x88, 0xFF, 0xFF, 0xFF, 0xFF, 0xFF, 0xFF, 0xFF, 0xFF] := by decide +kernel
  rw [this]
  generalize (seq [text 0x7672 p.privateData, float 0x7673 p.yaw, float 0x7674 p.pitch,
    float 0x7675 p.roll]).bytes = rest
  unfold element
  rw [show byteWidth 0x7670 = 2 by decide +kernel]
  simp only [List.length_append, List.length_cons, List.length_nil, List.append_assoc]

/-! A video track with encryption, colour and projection, and an audio track. -/

/-- A rich video track. -/
def richVideo : Track :=
  { number := 1, uid := 0xABCD, type := 1, codecId := some [0x56, 0x5F, 0x56, 0x50, 0x39], codecPrivate := some [1, 1, 0],
    language := some [0x65, 0x6E, 0x67], defaultDuration := 33333333,
    encodings := [{ keyId := some [7, 8, 9] }],
    part := .video { width := 320, height := 240, displayWidth := 640, cropLeft := 2,
                     frameRate := some 0x41F00000, colourSpace := some [0x59, 0x55, 0x59, 0x32],
                     colour := some { matrixCoefficients := 9, range := 1, primaries := 22,
                                      mastering := some { luminanceMax := 0x447A0000, luminanceMin := 0x3C23D70A,
                                                          r := some ⟨0x3F2E147B, 0x3EA3D70A⟩ } },
                     projection := some { type := 1, yaw := 0x3F800000, privateData := some [0, 0, 0, 0] } } }

/-- An audio track. -/
def plainAudio : Track :=
  { number := 2, uid := 0xBEEF, type := 2, codecId := some [0x41, 0x5F, 0x4F, 0x50, 0x55, 0x53], codecDelay := 6500000,
    part := .audio { sampleRate := 0x473B8000, channels := 2, bitDepth := 16 } }

theorem rich_ok : ∀ t ∈ [richVideo, plainAudio], TrackOk t := by
  intro t ht
  rcases List.mem_cons.mp ht with rfl | ht
  · refine ⟨by decide, by decide, fun h => absurd h (by decide), ?_, ?_⟩
    · intro e he
      have : e = { keyId := some [7, 8, 9] } := by simpa [richVideo] using he
      rw [this]; decide
    · intro v c hv hc
      rw [← colour_valid_iff]
      cases hv; cases hc; decide +kernel
  · have : t = plainAudio := by simpa using ht
    subst this
    refine ⟨by decide, by decide, fun h => absurd h (by decide), ?_, ?_⟩
    · intro e he; cases he
    · intro v c hv; cases hv

theorem rich_set : ∀ t ∈ [richVideo, plainAudio], TrackSet t := by
  intro t ht
  rcases List.mem_cons.mp ht with rfl | ht
  · refine ⟨by decide, ?_, ?_⟩
    · intro e he
      have : e = { keyId := some [7, 8, 9] } := by simpa [richVideo] using he
      rw [this]; decide
    · intro v p hv hp
      cases hv; cases hp; decide
  · have : t = plainAudio := by simpa using ht
    subst this
    refine ⟨by decide, ?_, ?_⟩
    · intro e he; cases he
    · intro v c hv; cases hv

example : HonestOutput (writeTracks [richVideo, plainAudio]) (tracksTree [richVideo, plainAudio]).bytes :=
  C60_tracks rich_ok rich_set (C60_small_fits (by decide +kernel))

/-- The audio track, byte by byte. -/
example : (tracksTree [plainAudio]).bytes =
    [0x16, 0x54, 0xAE, 0x6B, 0xAA, 0xAE, 0xA8, 0xD7, 0x81, 2, 0x73, 0xC5, 0x82, 0xBE, 0xEF, 0x83, 0x81, 2,
     0x56, 0xAA, 0x83, 0x63, 0x2E, 0xA0, 0x86, 0x86, 0x41, 0x5F, 0x4F, 0x50, 0x55, 0x53,
     0xE1, 0x8D, 0xB5, 0x84, 0x47, 0x3B, 0x80, 0x00, 0x9F, 0x81, 2, 0x62, 0x64, 0x81, 16] := by decide +kernel

/-- An AV1 track without private data, a track without a codec. -/
example : NeverWrites (writeTracks [plainAudio, { plainAudio with codecId := some [0x56, 0x5F, 0x41, 0x56, 0x31] }]) :=
  C60_tracks_refused fun h => (h _ (.tail _ (.head _))).av1 rfl rfl
example : NeverWrites (writeTracks [plainAudio, { plainAudio with codecId := none }]) :=
  C60_tracks_refused fun h => (h _ (.tail _ (.head _))).codec rfl

/-- Two chapters, two tags. -/
def sampleChapters : List Chapter :=
  [{ id := some [0x61], uid := 77, start := 0, stop := 5000,
     displays := [⟨some [0x41, 0x42], some [0x65, 0x6E], none⟩, ⟨some [0x43], none, some [0x66, 0x72]⟩] },
   { id := some [0x62], uid := 78, start := 5000, stop := 9000, displays := [] }]

def sampleTags : List Tag := [[⟨some [0x54], some [0x56, 0x57]⟩, ⟨some [0x55], some []⟩], []]

example : HonestOutput (writeChapters sampleChapters) (chaptersTree sampleChapters).bytes :=
  C60_chapters (by unfold ChapterOk; decide) (C60_small_fits (by decide +kernel))
example : NeverWrites (writeChapters (sampleChapters ++ [{ uid := 3 }])) :=
  C60_chapters_refused fun h => (h { uid := 3 } (by simp)).1 rfl
example : HonestOutput (writeTags sampleTags) (tagsTree sampleTags).bytes :=
  C60_tags (by unfold TagOk; decide) (C60_small_fits (by decide +kernel))
example : NeverWrites (writeTags [[⟨some [0x54], none⟩]]) :=
  C60_tags_refused fun h => (h _ (.head _) _ (.head _)).2 rfl

example : (tagsTree sampleTags).bytes =
    [0x12, 0x54, 0xC3, 0x67, 0x9C, 0x73, 0x73, 0x96, 0x67, 0xC8, 0x89, 0x45, 0xA3, 0x81, 0x54, 0x44, 0x87, 0x82, 0x56, 0x57,
     0x67, 0xC8, 0x87, 0x45, 0xA3, 0x81, 0x55, 0x44, 0x87, 0x80, 0x73, 0x73, 0x80] := by decide +kernel

end Verif.Props
