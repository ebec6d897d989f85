/-
C63 and C64: what was set up in the muxer is what an application sees that opens the file with mkvparser.
-/
import Verif.Props.Headers
import Verif.Lemmas.ParserChapters

namespace Verif.Props
open Verif Verif.Mux Verif.Spec Verif.Par

/-- C63, tracks.  The Tracks element the muxer writes is read by mkvparser as exactly the tracks that were set up:
numbers, UIDs, types, names, languages, codecs with private data, durations, delays, encryptions, video size,
frame rate, colour with mastering metadata, projection, audio settings. -/
theorem C63_tracks {ts : List Mux.Track} (hok : ∀ t ∈ ts, TrackOk t) (hset : ∀ t ∈ ts, TrackSet t)
    (hfit : (tracksTree ts).Fits) (hread : ∀ t ∈ ts, ReadableTrack t) (hdistinct : (ts.map (·.number)).Nodup) :
    ∃ bs, HonestOutput (writeTracks ts) bs ∧ ReadAs tracksParse 0x1654AE6B bs (ts.map seenTrack) := by
  refine ⟨_, C60_tracks hok hset hfit, fun r p stop ha hs hm => ?_⟩
  have hid : IsId 4 0x1654AE6B := by unfold IsId; decide +kernel
  unfold tracksTree at *
  rw [group_fits] at hfit
  rw [group_bytes] at *
  have hl := element_length_id hid (each trackTree ts).bytes
  refine ⟨_, parseElementHeader_at hid ha hfit.1 hs hm, rfl, by simp only; omega, ?_⟩
  exact tracksParse_ok hread hfit.2 hdistinct (at_payload hid ha) (by simp only; unfold llongMax; omega)

/-- C63, segment information: the time scale, the names and the duration are those in the Info element. -/
theorem C63_info {scale : Nat} {duration : Option UInt32} {date : Option Int} {muxing writing : Bytes}
    (h : ReadableInfo scale duration muxing writing) :
    ReadAs infoParse 0x1549A966 (infoElement scale (duration.map UInt32.toNat) date muxing writing)
      (seenInfo scale duration muxing writing) := by
  intro r p stop ha hs hm
  have hid : IsId 4 0x1549A966 := by unfold IsId; decide +kernel
  have hsmall : (fieldsTree (infoFields scale (duration.map UInt32.toNat) date muxing writing)).bytes.length + 1 < 2 ^ 56 :=
    infoFields_small h
  rw [← infoTree_bytes] at *
  unfold infoTree at *
  rw [group_bytes] at *
  have hl := element_length_id hid (fieldsTree (infoFields scale (duration.map UInt32.toNat) date muxing writing)).bytes
  refine ⟨_, parseElementHeader_at hid ha hsmall hs hm, rfl, by simp only; omega, ?_⟩
  exact infoParse_ok h rfl (at_payload hid ha) (by simp only; unfold llongMax; omega)

/-- C63, duration: what `GetDuration` says is the duration that was written times the scale, in nanoseconds, rounded
down. (`floatUnits d / 2¹⁴⁹` is the value of the float `d`.) -/
theorem C63_duration {scale : Nat} {d : UInt32} {muxing writing : Bytes} (h : ReadableInfo scale (some d) muxing writing) :
    (seenInfo scale (some d) muxing writing).getDuration = .ok (((floatUnits d).toNat * scale / 2 ^ 149 : Nat) : Int) :=
  duration_ok h rfl

/-- C63, no duration. -/
theorem C63_no_duration (scale : Nat) (muxing writing : Bytes) :
    (seenInfo scale none muxing writing).getDuration = .ok (-1) := rfl

/-- C64, chapters, for UIDs that are read as unsigned (see `C64_uid_changed`). -/
theorem C64_chapters_partial {cs : List Chapter} (hok : ∀ c ∈ cs, ChapterOk c) (hfit : (chaptersTree cs).Fits)
    (hread : ∀ c ∈ cs, ReadableChapter c) (huid : ∀ c ∈ cs, ReadsUnsigned c.uid) :
    ∃ bs, HonestOutput (writeChapters cs) bs ∧ ReadAs chaptersParse 0x1043A770 bs (seenChapters cs) := by
  refine ⟨_, C60_chapters hok hfit, fun r p stop ha hs hm => ?_⟩
  obtain ⟨h, h1, h2, h3, h4⟩ := chapters_at hok hfit hread ha hs hm
  refine ⟨h, h1, h2, h3, h4.trans ?_⟩
  unfold seenChapters
  rw [List.map_congr_left fun c hc => readBack_eq (huid c hc)]

/-- **Any other chapter UID is changed.**  A UID is written as an unsigned number and read as a signed one. -/
theorem C64_uid_changed {c : Chapter} (hok : ChapterOk c) (hfit : (chaptersTree [c]).Fits) (hread : ReadableChapter c)
    (huid : ¬ ReadsUnsigned c.uid) :
    ∃ bs a, HonestOutput (writeChapters [c]) bs ∧ ReadAs chaptersParse 0x1043A770 bs [[a]] ∧
      a.uid = c.uid.toNat + (2 ^ 64 - 2 ^ (8 * byteWidth c.uid.toNat)) ∧ a.uid ≠ c.uid.toNat := by
  have hok' : ∀ x ∈ [c], ChapterOk x := fun x hx => by rw [List.mem_singleton.mp hx]; exact hok
  have hread' : ∀ x ∈ [c], ReadableChapter x := fun x hx => by rw [List.mem_singleton.mp hx]; exact hread
  refine ⟨_, readBack c, C60_chapters hok' hfit, fun r p stop ha hs hm => ?_, ?_⟩
  · obtain ⟨h, h1, h2, h3, h4⟩ := chapters_at hok' hfit hread' ha hs hm
    exact ⟨h, h1, h2, h3, h4⟩
  · exact signExtended_ne huid

/-- Half of the UIDs that `MakeUID` makes (seven random bytes) are such: all those with the highest bit set. -/
theorem C64_uid_changed_often {u : UInt64} (h1 : 2 ^ 55 ≤ u.toNat) (h2 : u.toNat < 2 ^ 56) : ¬ ReadsUnsigned u := by
  unfold ReadsUnsigned
  have hb : byteWidth u.toNat = 7 := byteWidth_of_bounds 6 _ (by omega) (Or.inr (by omega))
  rw [hb]
  omega

/-- C63, display size: the size set with `set_display_width` and `set_display_height` is shown; where none was set
(0), it is the size of the picture in pixels. -/
theorem C63_display (v : VideoPart) :
    (seenVideo v).getDisplayWidth =
      ((if v.displayWidth ≠ 0 then v.displayWidth else if v.pixelWidth ≠ 0 then v.pixelWidth else v.width).toNat : Nat) ∧
    (seenVideo v).getDisplayHeight =
      ((if v.displayHeight ≠ 0 then v.displayHeight
        else if v.pixelHeight ≠ 0 then v.pixelHeight else v.height).toNat : Nat) := by
  have key : ∀ a b c : UInt64,
      (if ((a.toNat : Nat) : Int) > 0 then ((a.toNat : Nat) : Int) else ((if b = 0 then c else b).toNat : Nat)) =
        ((if a ≠ 0 then a else if b ≠ 0 then b else c).toNat : Nat) := by
    intro a b c
    by_cases h : a = 0
    · subst h
      by_cases hb : b = 0 <;> simp [hb]
    · have : a.toNat ≠ 0 := fun e => h (UInt64.toNat_inj.mp e)
      rw [if_pos (by omega), if_pos h]
  exact ⟨key _ _ _, key _ _ _⟩

/-- C63, setters that can refuse: `SetStereoMode` and `SetAlphaMode` take the modes WebM has and no others
(0 mono, 1 side by side, 2 and 3 top and bottom, 11 side by side with the right eye first; 0 no alpha, 1 alpha), and
what is then shown differs in the stereo mode alone. -/
theorem C63_modes (v : VideoPart) (mode : UInt64) :
    ((∃ v', v.setStereoMode mode = some v') ↔
      mode.toNat = 0 ∨ mode.toNat = 1 ∨ mode.toNat = 2 ∨ mode.toNat = 3 ∨ mode.toNat = 11) ∧
    (∀ v', v.setStereoMode mode = some v' → seenVideo v' = { seenVideo v with stereoMode := mode.toNat } ∧
      v'.alphaMode = v.alphaMode) ∧
    ((∃ v', v.setAlphaMode mode = some v') ↔ mode.toNat = 0 ∨ mode.toNat = 1) ∧
    (∀ v', v.setAlphaMode mode = some v' → seenVideo v' = seenVideo v ∧ v'.alphaMode = mode) := by
  unfold VideoPart.setStereoMode VideoPart.setAlphaMode
  refine ⟨?_, ?_, ?_, ?_⟩
  · simp [← UInt64.toNat_inj]
  · intro v' h
    split at h
    · cases h; exact ⟨rfl, rfl⟩
    · cases h
  · simp [← UInt64.toNat_inj]
  · intro v' h
    split at h
    · cases h; exact ⟨rfl, rfl⟩
    · cases h

/-- C63, setters that can refuse: the key of an encryption, the private data of a projection and of a codec are taken
unless they are missing or empty, and are then what is shown; nothing else changes. -/
theorem C63_binary (e : ContentEncoding) (p : Projection) (t : Mux.Track) (data : Option Bytes) :
    ((∃ e', e.setEncryptionID data = some e') ↔ data ≠ none ∧ data ≠ some []) ∧
    (∀ e', e.setEncryptionID data = some e' → e' = { e with keyId := data } ∧
      (seenEncoding e').encryptions.map (·.keyId) = [data]) ∧
    ((∃ p', p.setPrivate data = some p') ↔ data ≠ none ∧ data ≠ some []) ∧
    (∀ p', p.setPrivate data = some p' → seenProjection p' = { seenProjection p with privateData := data }) ∧
    ((∃ t', t.setCodecPrivate data = some t') ↔ data ≠ none ∧ data ≠ some []) ∧
    (∀ t', t.setCodecPrivate data = some t' →
      seenTrack t' = { seenTrack t with info := { (seenTrack t).info with codecPrivate := data } }) := by
  unfold ContentEncoding.setEncryptionID Projection.setPrivate Mux.Track.setCodecPrivate
  cases data with
  | none => simp
  | some b =>
    cases b with
    | nil => simp
    | cons x xs =>
      simp only [List.length_cons, Nat.succ_ne_zero, if_false, Nat.not_lt_zero, Nat.add_one_ne_zero]
      rw [if_neg (by omega), if_neg (by omega)]
      refine ⟨⟨fun _ => ⟨by simp, by simp⟩, fun _ => ⟨_, rfl⟩⟩, ?_, ⟨fun _ => ⟨by simp, by simp⟩, fun _ => ⟨_, rfl⟩⟩, ?_,
        ⟨fun _ => ⟨by simp, by simp⟩, fun _ => ⟨_, rfl⟩⟩, ?_⟩
      · intro e' h; cases h; exact ⟨rfl, rfl⟩
      · intro e' h; cases h; rfl
      · intro e' h; cases h; rfl

/-- C64, times: the times given in nanoseconds are shown in nanoseconds, rounded down to the time scale. -/
theorem C64_times {c : Chapter} {scale start stop : UInt64} (h0 : scale ≠ 0) (h1 : start.toNat < 2 ^ 63)
    (h2 : stop.toNat < 2 ^ 63) :
    ReadAtom.getTime (some scale.toNat) (seenChapter (c.setTime scale start stop)).start =
      .ok ((start.toNat - start.toNat % scale.toNat : Nat) : Int) ∧
    ReadAtom.getTime (some scale.toNat) (seenChapter (c.setTime scale start stop)).stop =
      .ok ((stop.toNat - stop.toNat % scale.toNat : Nat) : Int) := by
  have hs : scale.toNat ≠ 0 := fun h => h0 (UInt64.toNat_inj.mp h)
  have key : ∀ t : UInt64, t.toNat < 2 ^ 63 → ReadAtom.getTime (some scale.toNat) ((t / scale).toNat : Nat) =
      .ok ((t.toNat - t.toNat % scale.toNat : Nat) : Int) := by
    intro t ht
    rw [UInt64.toNat_div]
    have e := Nat.div_add_mod t.toNat scale.toNat
    have hm : scale.toNat * (t.toNat / scale.toNat) = t.toNat - t.toNat % scale.toNat := by omega
    unfold ReadAtom.getTime
    simp only
    have e2 : ((scale.toNat : Int)) * ((t.toNat / scale.toNat : Nat) : Int) = ((t.toNat - t.toNat % scale.toNat : Nat) : Int) := by
      rw [← Int.natCast_mul, hm]
    rw [if_neg (by omega), if_neg (Int.not_lt.mpr (Int.natCast_nonneg _)), e2, if_pos (by omega)]
  exact ⟨key start h1, key stop h2⟩

/-- C64, tags. -/
theorem C64_tags {ts : List Tag} (hok : ∀ t ∈ ts, TagOk t) (hfit : (tagsTree ts).Fits) (hread : ∀ t ∈ ts, ReadableTag t) :
    ∃ bs, HonestOutput (writeTags ts) bs ∧ ReadAs tagsParse 0x1254C367 bs (seenTags ts) := by
  refine ⟨_, C60_tags hok hfit, fun r p stop ha hs hm => ?_⟩
  have hid : IsId 4 0x1254C367 := by unfold IsId; decide +kernel
  unfold tagsTree at *
  rw [group_fits] at hfit
  rw [group_bytes] at *
  have hl := element_length_id hid (each (fun t => group 0x7373 (each simpleTagTree t)) ts).bytes
  refine ⟨_, parseElementHeader_at hid ha hfit.1 hs hm, rfl, by simp only; omega, ?_⟩
  exact tagsParse_ok hread hok hfit.2 rfl (at_payload hid ha) (by simp only; unfold llongMax; omega)

/-! ### What is not read back -/

/-- A video track mastered for up to 9999.99 nits. -/
def limitVideo : Mux.Track :=
  { number := 1, uid := 1, type := 1, codecId := some [0x56, 0x5F, 0x56, 0x50, 0x39],
    part := .video { width := 320, height := 240,
                     colour := some { mastering := some { luminanceMin := 0, luminanceMax := 0x461C3FF6 } } } }

/-- **A maximal luminance of 9999.99 makes the whole file unreadable.**  The muxer accepts and writes it, as the float
nearest to 9999.99; mkvparser compares it with the double 9999.99, which is a little less. -/
theorem C63_luminance_limit_refused :
    HonestOutput (writeTracks [limitVideo]) (tracksTree [limitVideo]).bytes ∧
    tracksParse { data := (tracksTree [limitVideo]).bytes } 5 ((tracksTree [limitVideo]).bytes.length - 5) =
      .err E_FILE_FORMAT_INVALID := by
  refine ⟨C60_tracks ?_ ?_ (C60_small_fits (by decide +kernel)), by decide +kernel⟩
  · intro t ht
    rw [List.mem_singleton.mp ht]
    refine ⟨by decide, by decide, fun h => absurd h (by decide), ?_, ?_⟩
    · intro e he; cases he
    · intro v c hv hc
      rw [← colour_valid_iff]
      cases hv; cases hc; decide +kernel
  · intro t ht
    rw [List.mem_singleton.mp ht]
    refine ⟨by decide, ?_, ?_⟩
    · intro e he; cases he
    · intro v c hv hc; cases hv; cases hc

/-- **A duration of exactly 2⁶³ nanoseconds is accepted, and asking for it is undefined behaviour.** -/
theorem C63_duration_limit :
    ∃ (r : Rdr) (i : ReadInfo), infoParse r 5 (r.data.length - 5) = .ok i ∧ i.getDuration = .ub :=
  ⟨{ data := infoElement 1 (some 0x5F000000) none [0x61] [0x62] },
    { timecodeScale := 1, duration := some (0x5F000000, 4), muxingApp := some [0x61], writingApp := some [0x62] },
    by decide +kernel, by decide +kernel⟩

/-- **Empty names and values of tags and empty texts of chapters are shown as missing, tags without contents not at
all.** -/
theorem C64_empty_missing (c : Chapter) (h : c.id = some []) :
    (seenChapter c).stringUid = none ∧ seenTags [[⟨some [0x41], some []⟩], []] = [[⟨some [0x41], none⟩]] := by
  refine ⟨?_, by decide⟩
  simp [seenChapter, seenText, h]

/-! ### Examples -/

theorem rich_readable : ∀ t ∈ [richVideo, plainAudio], ReadableTrack t := by
  intro t ht
  rcases List.mem_cons.mp ht with rfl | ht
  · refine ⟨by decide, by decide, by decide, ?_, ?_, ?_, ?_, ?_, ?_⟩
    · intro s hs; cases hs; decide
    · intro s hs; cases hs; decide
    · intro s hs; cases hs
    · intro s hs; cases hs; decide
    · intro e he
      have : e = { keyId := some [7, 8, 9] } := by simpa [richVideo] using he
      rw [this]
      refine ⟨by decide, rfl, rfl, ?_⟩
      intro s hs; cases hs; decide
    · refine ⟨rfl, by decide, by decide, by decide, ?_, ?_, ?_, ?_⟩
      · intro b hb; cases hb; exact ⟨by unfold Finite; decide, by decide +kernel⟩
      · intro s hs; cases hs; decide
      · intro c hc
        cases hc
        refine ⟨?_, ?_⟩
        · unfold ReadableNumber; decide
        · intro m hm
          cases hm
          refine ⟨?_, ?_, ?_, ?_, ?_, ?_⟩
          · intro _; exact ⟨by unfold Finite; decide, by unfold NotTiny; decide +kernel, by decide +kernel, by decide +kernel⟩
          · intro _; exact ⟨by unfold Finite; decide, by unfold NotTiny; decide +kernel, by decide +kernel, by decide +kernel⟩
          · intro x hx; cases hx
            unfold UnitFloat NotTiny IsNaN; decide +kernel
          · intro x hx; cases hx
          · intro x hx; cases hx
          · intro x hx; cases hx
      · intro q hq
        cases hq
        refine ⟨by decide, ?_, ?_⟩
        · intro s hs; cases hs; decide
        · unfold Finite NotTiny; decide +kernel
  · have : t = plainAudio := by simpa using ht
    subst this
    refine ⟨by decide, by decide, by decide, ?_, ?_, ?_, ?_, ?_, ?_⟩
    · intro s hs; cases hs; decide
    · intro s hs; cases hs
    · intro s hs; cases hs
    · intro s hs; cases hs
    · intro e he; cases he
    · exact ⟨rfl, ⟨by unfold Finite; decide, by decide +kernel⟩, by decide, by decide⟩

example : ∃ bs, HonestOutput (writeTracks [richVideo, plainAudio]) bs ∧
    ReadAs tracksParse 0x1654AE6B bs [seenTrack richVideo, seenTrack plainAudio] :=
  C63_tracks rich_ok rich_set (C60_small_fits (by decide +kernel)) rich_readable (by decide)

example : (seenTrack plainAudio).part = .audio { rate := (0x473B8000, 4), channels := 2, bitDepth := 16 } := rfl

/-- Scale 1 ms, duration 12.5 s. -/
theorem sample_info : ReadableInfo 1000000 (some 0x46435000) [0x61] [0x62, 0x63] :=
  ⟨by decide, by decide, by decide, fun d hd => by cases hd; exact ⟨by unfold Finite; decide, by decide +kernel, by decide +kernel⟩⟩

example : ReadAs infoParse 0x1549A966 (infoElement 1000000 ((some 0x46435000 : Option UInt32).map UInt32.toNat) (some (-5)) [0x61] [0x62, 0x63])
    (seenInfo 1000000 (some 0x46435000) [0x61] [0x62, 0x63]) := C63_info sample_info

example : (seenInfo 1000000 (some 0x46435000) [0x61] [0x62, 0x63]).getDuration = .ok 12500000000 := by
  rw [C63_duration sample_info]
  decide +kernel

theorem sample_chapters_readable : ∀ c ∈ sampleChapters, ReadableChapter c := by
  intro c hc
  have : c = sampleChapters[0] ∨ c = sampleChapters[1] := by simpa [sampleChapters] using hc
  rcases this with rfl | rfl
  · refine ⟨?_, by decide, ?_⟩
    · intro b hb; cases hb; decide
    · intro d hd
      have : d = ⟨some [0x41, 0x42], some [0x65, 0x6E], none⟩ ∨ d = ⟨some [0x43], none, some [0x66, 0x72]⟩ := by
        simpa [sampleChapters] using hd
      rcases this with rfl | rfl <;>
      · refine ⟨?_, ?_, ?_⟩ <;> (intro b hb; cases hb; try decide)
  · refine ⟨?_, by decide, ?_⟩
    · intro b hb; cases hb; decide
    · intro d hd; cases hd

example : ∃ bs, HonestOutput (writeChapters sampleChapters) bs ∧
    ReadAs chaptersParse 0x1043A770 bs (seenChapters sampleChapters) :=
  C64_chapters_partial (by unfold ChapterOk; decide) (C60_small_fits (by decide +kernel)) sample_chapters_readable
    (by unfold ReadsUnsigned; decide +kernel)

/-- UID 200 is read as 2⁶⁴ - 56. -/
example : ∃ bs a, HonestOutput (writeChapters [{ id := some [0x61], uid := 200 }]) bs ∧
    ReadAs chaptersParse 0x1043A770 bs [[a]] ∧ a.uid = 2 ^ 64 - 56 := by
  obtain ⟨bs, a, h1, h2, h3, -⟩ := C64_uid_changed (c := { id := some [0x61], uid := 200 })
    (by unfold ChapterOk; decide) (C60_small_fits (by decide +kernel))
    ⟨by intro b hb; cases hb; decide, by decide, by intro d hd; cases hd⟩ (by unfold ReadsUnsigned; decide +kernel)
  refine ⟨bs, a, h1, h2, h3.trans (by decide +kernel)⟩

theorem sample_tags_readable : ∀ t ∈ sampleTags, ReadableTag t := by
  intro t ht s hs
  have : s = ⟨some [0x54], some [0x56, 0x57]⟩ ∨ s = ⟨some [0x55], some []⟩ := by
    have : t = sampleTags[0] ∨ t = [] := by simpa [sampleTags] using ht
    rcases this with rfl | rfl
    · simpa [sampleTags] using hs
    · cases hs
  rcases this with rfl | rfl <;> constructor <;> (intro b hb; cases hb; decide)

example : ∃ bs, HonestOutput (writeTags sampleTags) bs ∧ ReadAs tagsParse 0x1254C367 bs
    [[⟨some [0x54], some [0x56, 0x57]⟩, ⟨some [0x55], none⟩]] :=
  C64_tags (by unfold TagOk; decide) (C60_small_fits (by decide +kernel)) sample_tags_readable

end Verif.Props
