/-
C77: what becomes of the settings of tracks and of the tags when the muxer sample copies a file.
-/
import Verif.Lemmas.SampleTracks
import Verif.Props.Reading
import Verif.Spec.Sample

namespace Verif.Props
open Verif Verif.Par Verif.Mux Verif.Spec Verif.Vtt Verif.Vtt.Spec Verif.Sample

/-- **C77, tracks.** A file with any tracks that can be written and read (`ReadableTrack`), with at most 126 video and audio tracks,
whole sampling rates and sizes below 2³¹: the copying succeeds, the new tracks can be written, and who reads what is written finds
`keptTracks`. -/
theorem C77_tracks (uid : Nat → UInt64) {ts : List Mux.Track} (hok : ∀ t ∈ ts, TrackOk t) (hset : ∀ t ∈ ts, TrackSet t)
    (hread : ∀ t ∈ ts, ReadableTrack t) (hcopy : ∀ t ∈ ts, Copyable t)
    (hfew : (ts.filter fun t => t.type = 1 ∨ t.type = 2).length ≤ 126) (hlen : ts.length < 2 ^ 32) :
    ∃ nt, copyTracks true true uid 0 (ts.map seenTrack) {} = .ok nt ∧ (nt.tracks.map seenTrack = keptTracks uid 0 1 (ts.map seenTrack)) ∧
      (∀ t ∈ nt.tracks, TrackOk t ∧ TrackSet t ∧ ReadableTrack t) ∧
      ((tracksTree nt.tracks).Fits → ∃ bs, HonestOutput (writeTracks nt.tracks) bs ∧
        ReadAs tracksParse 0x1654AE6B bs (keptTracks uid 0 1 (ts.map seenTrack))) := by
  have hc := copyTracks_ok uid ts 0 {} hok hread hcopy (by intro t ht; cases ht) (by simp; omega)
  have hs := copies_seen uid ts 0 1 hread (by omega)
  have hd := copies_distinct uid ts 0 1 (by omega)
  have hm : ∀ t ∈ copies uid 0 1 ts, TrackOk t ∧ TrackSet t ∧ ReadableTrack t := by
    intro t ht
    obtain ⟨x, hx, j, k, h1, h2, h3, rfl⟩ := copies_mem uid ts 0 1 ht
    exact ⟨copied_ok (hok x hx), copied_set (hset x hx), copied_readable (hread x hx) h1 h2 (by omega)⟩
  refine ⟨_, hc, hs, hm, fun hfit => ?_⟩
  have := C63_tracks (fun t ht => (hm t ht).1) (fun t ht => (hm t ht).2.1) hfit (fun t ht => (hm t ht).2.2) hd
  rw [hs] at this
  exact this

private theorem copyTracks_congr (v a : Bool) {uid uid' : Nat → UInt64} : ∀ (ts : List ReadTrack) (n : Nat) (nt : NewTracks),
    (∀ k, n ≤ k → uid k = uid' k) → copyTracks v a uid n ts nt = copyTracks v a uid' n ts nt
  | [], _, _, _ => rfl
  | t :: ts, n, nt, h => by
    unfold copyTracks
    rw [h n (Nat.le_refl _)]
    cases copyTrack v a (uid' n) t nt with
    | ok nt' => exact copyTracks_congr v a ts (n + 1) nt' fun k hk => h k (by omega)
    | err c => rfl
    | ub => rfl

/-- **C77, options.** When only video or only audio (or neither) is wanted, what is copied is what would be copied of a file that
has only the tracks of that kind. -/
theorem C77_options (video audio : Bool) (uid : Nat → UInt64) (ts : List ReadTrack) (nt : NewTracks) :
    ∃ uid', copyTracks video audio uid 0 ts nt =
      copyTracks true true uid' 0 (ts.filter fun t => (decide (t.info.type = 1) && video) || (decide (t.info.type = 2) && audio)) nt := by
  suffices h : ∀ (ts : List ReadTrack) (n m : Nat) (nt : NewTracks), ∃ uid', copyTracks video audio uid n ts nt =
      copyTracks true true uid' m (ts.filter fun t => (decide (t.info.type = 1) && video) || (decide (t.info.type = 2) && audio)) nt from
    h ts 0 0 nt
  intro ts
  induction ts with
  | nil => intro n m nt; exact ⟨uid, rfl⟩
  | cons t ts ih =>
    intro n m nt
    by_cases hw : ((decide (t.info.type = 1) && video) || (decide (t.info.type = 2) && audio)) = true
    · rw [List.filter_cons, if_pos hw]
      have hsame : ∀ u, copyTrack video audio u t nt = copyTrack true true u t nt := by
        intro u
        unfold copyTrack
        simp only [Bool.or_eq_true, Bool.and_eq_true, decide_eq_true_eq] at hw
        rcases hw with hw | hw
        · rw [if_pos hw, if_pos ⟨hw.1, rfl⟩]
        · rw [if_neg (by omega), if_pos hw, if_neg (by omega), if_pos ⟨hw.1, rfl⟩]
      cases hc : copyTrack video audio (uid n) t nt with
      | ok nt' =>
        obtain ⟨uid', h⟩ := ih (n + 1) (m + 1) nt'
        refine ⟨fun k => if k = m then uid n else uid' k, ?_⟩
        rw [copyTracks, copyTracks, if_pos rfl, ← hsame, hc, Res.bind_ok, Res.bind_ok, h]
        exact copyTracks_congr _ _ _ _ _ fun k hk => by rw [if_neg (by omega)]
      | err c =>
        refine ⟨fun _ => uid n, ?_⟩
        rw [copyTracks, copyTracks, ← hsame, hc]
        rfl
      | ub =>
        refine ⟨fun _ => uid n, ?_⟩
        rw [copyTracks, copyTracks, ← hsame, hc]
        rfl
    · rw [List.filter_cons, if_neg hw]
      obtain ⟨uid', h⟩ := ih (n + 1) m nt
      refine ⟨uid', ?_⟩
      rw [copyTracks, ← h]
      have : copyTrack video audio (uid n) t nt = .ok nt := by
        unfold copyTrack
        simp only [Bool.or_eq_true, Bool.and_eq_true, decide_eq_true_eq, not_or] at hw
        rw [if_neg hw.1, if_neg hw.2]
      rw [this, Res.bind_ok]

/-- **C77, which frames go where.** If the old file has at most one video track and one audio track, the frames of each are written
to the copy of their track. -/
theorem C77_choice (uid : Nat → UInt64) {ts : List Mux.Track} (hok : ∀ t ∈ ts, TrackOk t) (hread : ∀ t ∈ ts, ReadableTrack t)
    (hcopy : ∀ t ∈ ts, Copyable t) (hdistinct : (ts.map (·.number)).Nodup) (hlen : ts.length < 2 ^ 32)
    (hvideo : (ts.filter fun t => t.type = 1).length ≤ 1) (haudio : (ts.filter fun t => t.type = 2).length ≤ 1)
    {nt : NewTracks} (h : copyTracks true true uid 0 (ts.map seenTrack) {} = .ok nt) :
    ∀ t ∈ ts, t.type = 1 ∨ t.type = 2 → ∃ c ∈ nt.tracks,
      newTrack { videoTrack := nt.video, audioTrack := nt.audio } (ts.map seenTrack) t.number.toNat = some c.number.toNat ∧
      seenTrack c = keptTrack c.number.toNat c.uid.toNat (seenTrack t) := by
  have hc := copyTracks_ok uid ts 0 {} hok hread hcopy (by intro t ht; cases ht) (by simp; omega)
  rw [h] at hc
  injection hc with hc
  subst hc
  intro t ht ha
  have hfind : (ts.map seenTrack).find? (fun x => x.info.number == (t.number.toNat : Int)) = some (seenTrack t) := by
    clear h hok hread hcopy hlen hvideo haudio
    induction ts with
    | nil => cases ht
    | cons x xs ih =>
      rw [List.map_cons, List.nodup_cons] at hdistinct
      rw [List.map_cons]
      rcases List.mem_cons.mp ht with rfl | ht'
      · rw [List.find?_cons_of_pos (by simp [seenTrack])]
      · rw [List.find?_cons_of_neg, ih hdistinct.2 ht']
        intro he
        apply hdistinct.1
        simp only [seenTrack, beq_iff_eq] at he
        exact List.mem_map.mpr ⟨t, ht', UInt64.toNat_inj.mp (by omega)⟩
  have hnum : ∀ {k j}, k < 2 ^ 64 → (copied k (uid j) t).number.toNat = k ∧
      seenTrack (copied k (uid j) t) = keptTrack (copied k (uid j) t).number.toNat (copied k (uid j) t).uid.toNat (seenTrack t) := by
    intro k j hk
    have hn : (copied k (uid j) t).number.toNat = k := by
      simp only [copied, UInt64.toNat_ofNat']
      omega
    exact ⟨hn, by rw [hn]; exact copied_seen hk _ (hread t ht) ha⟩
  unfold newTrack
  rw [hfind]
  simp only
  have hty : (seenTrack t).info.type = t.type.toNat := rfl
  rcases ha with ha | ha
  · obtain ⟨h1, j, h2⟩ := lastOf_only uid (.inl rfl) ts 0 1 0 ht ha hvideo
    rw [if_pos ⟨by rw [hty, ha]; rfl, trivial⟩]
    obtain ⟨n1, n2⟩ := hnum (k := lastOf 1 1 0 ts) (j := j) (by omega)
    exact ⟨_, h2, by rw [n1]; rfl, n2⟩
  · obtain ⟨h1, j, h2⟩ := lastOf_only uid (.inr rfl) ts 0 1 0 ht ha haudio
    have hne : ¬ ((seenTrack t).info.type = 1 ∧ True) := by rw [hty, ha]; decide
    rw [if_neg hne, if_pos ⟨by rw [hty, ha]; rfl, trivial⟩]
    obtain ⟨n1, n2⟩ := hnum (k := lastOf 2 1 0 ts) (j := j) (by omega)
    exact ⟨_, h2, by rw [n1]; rfl, n2⟩

/-- **Several tracks of a kind are mixed.** Frames of any two audio tracks of a file go to the same track of the new file, though it
has a copy of each of them; so do those of two video tracks. -/
theorem C77_mixed (o : Choice) (tracks : List ReadTrack) {m n x y : Nat} {a b : ReadTrack}
    (ha : tracks.find? (fun t => t.info.number == (m : Int)) = some a) (hb : tracks.find? (fun t => t.info.number == (n : Int)) = some b)
    (hkind : a.info.type = b.info.type) (hx : newTrack o tracks m = some x) (hy : newTrack o tracks n = some y) : x = y := by
  unfold newTrack at hx hy
  rw [ha] at hx
  rw [hb] at hy
  simp only [hkind] at hx hy
  rw [hx] at hy
  exact Option.some.inj hy

/-- **Sampling rates lose their fraction.** Whatever the sampling rate of an audio track (at least 1, below 2³¹): that of the copy is
its whole part. -/
theorem C77_rate {uid : UInt64} {i : ReadTrackInfo} {a : ReadAudio} {b : UInt32} (hb : a.rate = (b.toNat, 4)) (h0 : 0 ≤ floatUnits b)
    (h1 : 1 ≤ (floatUnits b).toNat / 2 ^ 149) (h2 : (floatUnits b).toNat / 2 ^ 149 < 2 ^ 31) {nt nt' : NewTracks}
    (h : copyAudioTrack uid i a nt = .ok nt') :
    ∃ t p, nt'.tracks = nt.tracks ++ [t] ∧ t.part = .audio p ∧ floatUnits p.sampleRate = ((floatUnits b).toNat / 2 ^ 149 * 2 ^ 149 : Nat) := by
  obtain ⟨c, hc, -⟩ := whole_float h0 (by omega)
  have hf := toFloat_ofNat (by omega) h2 hc
  unfold copyAudioTrack at h
  rw [hb, trunc_float h0 h2, Res.bind_ok] at h
  simp only [hf, UInt32.ofNat_toNat] at h
  unfold addNew at h
  rcases hr : (numbering nt.tracks).request .audio 0 with ⟨r', n⟩
  rw [hr] at h
  cases n with
  | zero => exact nomatch (h : Res.err (-1) = Res.ok nt')
  | succ n =>
    simp only [Res.bind_ok] at h
    injection h with h
    subst h
    exact ⟨_, _, rfl, rfl, hc⟩

/-- **A sampling rate of 2³¹ or more is undefined behaviour.** -/
theorem C77_rate_ub {uid : UInt64} {i : ReadTrackInfo} {a : ReadAudio} {b : UInt32} (hb : a.rate = (b.toNat, 4)) (h0 : 0 ≤ floatUnits b)
    (h1 : 2 ^ 31 ≤ (floatUnits b).toNat / 2 ^ 149) (nt : NewTracks) : copyAudioTrack uid i a nt = .ub := by
  unfold copyAudioTrack
  rw [hb, trunc_ub h0 h1]
  rfl

/-- **C77, tags.** If all names and values of the tags have at least one character, the new file has the same tags. -/
theorem C77_tags {ts : List Tag} (hok : ∀ t ∈ ts, TagOk t) (hread : ∀ t ∈ ts, ∀ s ∈ t, ReadableText s.name ∧ ReadableText s.string)
    (hfull : ∀ t ∈ ts, ∀ s ∈ t, s.name ≠ some [] ∧ s.string ≠ some []) (hfit : (tagsTree (copyTags (seenTags ts))).Fits) :
    ∃ bs, HonestOutput (writeTags (copyTags (seenTags ts))) bs ∧ ReadAs tagsParse 0x1254C367 bs (seenTags ts) := by
  have hb := tags_back hfull hread
  have hm : ∀ t ∈ copyTags (seenTags ts), t ∈ ts := by
    intro t ht
    rw [hb] at ht
    exact (List.mem_filter.mp ht).1
  have := C64_tags (fun t ht => hok t (hm t ht)) hfit (fun t ht s hs =>
    ⟨fun b hb => ((hread t (hm t ht) s hs).1 b hb).1, fun b hb => ((hread t (hm t ht) s hs).2 b hb).1⟩)
  have hs : seenTags (copyTags (seenTags ts)) = seenTags ts := by
    rw [hb]
    unfold seenTags
    rw [List.filter_filter]
    simp
  rw [hs] at this
  exact this

/-- **One empty value, and the tags of the copy cannot be written.** An empty string is read as a missing one, and the muxer refuses
tags with missing strings. -/
theorem C77_empty_tag {ts : List Tag} {t : Tag} {s : SimpleTag} (ht : t ∈ ts) (hs : s ∈ t) (he : s.string = some [] ∨ s.name = some []) :
    NeverWrites (writeTags (copyTags (seenTags ts))) := by
  refine C60_tags_refused fun hall => ?_
  have hne : t ≠ [] := fun h => by rw [h] at hs; cases hs
  have hm : (seenTag t).map (fun s => (⟨textOf s.name, textOf s.string⟩ : SimpleTag)) ∈ copyTags (seenTags ts) := by
    unfold copyTags seenTags
    exact List.mem_map.mpr ⟨seenTag t, List.mem_map.mpr ⟨t, List.mem_filter.mpr ⟨ht, by simpa using hne⟩, rfl⟩, rfl⟩
  have := hall _ hm ⟨textOf (seenText s.name), textOf (seenText s.string)⟩
    (List.mem_map.mpr ⟨⟨seenText s.name, seenText s.string⟩, List.mem_map.mpr ⟨s, hs, rfl⟩, rfl⟩)
  rcases he with he | he
  · exact this.2 (by rw [he]; rfl)
  · exact this.1 (by rw [he]; rfl)

/-! ### A file -/

theorem rich_copyable : ∀ t ∈ [richVideo, plainAudio], Copyable t := by
  intro t ht
  rcases List.mem_cons.mp ht with rfl | ht'
  · exact ⟨by decide +kernel, by decide +kernel⟩
  · rw [List.mem_singleton.mp ht']
    exact ⟨⟨48000, by decide, by decide +kernel⟩, by decide⟩

/-- A video track with everything set, and an audio track. -/
example : ∃ nt bs, copyTracks true true (fun n => UInt64.ofNat (100 + n)) 0 [seenTrack richVideo, seenTrack plainAudio] {} = .ok nt ∧
    HonestOutput (writeTracks nt.tracks) bs ∧
    ReadAs tracksParse 0x1654AE6B bs [keptTrack 1 100 (seenTrack richVideo), keptTrack 2 101 (seenTrack plainAudio)] := by
  obtain ⟨nt, h1, h2, h3, h4⟩ := C77_tracks (fun n => UInt64.ofNat (100 + n)) rich_ok rich_set rich_readable rich_copyable (by decide) (by decide)
  have hfit : (tracksTree nt.tracks).Fits := by
    have hc := copyTracks_ok (fun n => UInt64.ofNat (100 + n)) [richVideo, plainAudio] 0 {} rich_ok rich_readable rich_copyable
      (by intro t ht; cases ht) (by decide)
    rw [h1] at hc
    injection hc with hc
    subst hc
    exact C60_small_fits (by decide +kernel)
  obtain ⟨bs, b1, b2⟩ := h4 hfit
  exact ⟨nt, bs, h1, b1, b2⟩

/-- 44.1 kHz and a half: the half is lost. -/
example : (match copyAudioTrack 5 {} { rate := (0x472C4480, 4), channels := 2 } {} with
    | .ok nt => nt.tracks.map (·.part) == [.audio { sampleRate := 0x472C4400, channels := 2, bitDepth := 0 }] && nt.audio == 1
    | _ => false) = true := by
  decide +kernel

/-- A tag without a value cannot be copied. -/
example : NeverWrites (writeTags (copyTags (seenTags sampleTags))) :=
  C77_empty_tag (t := sampleTags[0]) (s := ⟨some [0x55], some []⟩) (by decide) (by decide) (.inl rfl)

example : copyTags (seenTags [[⟨some [0x54], some [0x56]⟩], []]) = [[⟨some [0x54], some [0x56]⟩]] := by decide +kernel

end Verif.Props
