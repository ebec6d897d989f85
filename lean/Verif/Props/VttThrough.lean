/-
C71, C72, C74, C75: WebVTT text on its way through a WebM file.
-/
import Verif.Lemmas.VttFile
import Verif.Lemmas.VttProper
import Verif.Props.Headers
import Verif.Props.Watching

namespace Verif.Props
open Verif Verif.Par Verif.Mux Spec Verif.Vtt Verif.Vtt.Spec

/-! ### C71: one cue -/

/-- What the WebVTT parser hands out can stand in a WebVTT file, and no time has milliseconds from 1 to 99 (which it reads
wrongly, see `C37_leading_zero`). -/
theorem C71_parsed {p p' : Parser} {c : Vtt.Cue} (h : p.parse = (.ok c, p')) :
    Proper c ∧ PlainMs c.start ∧ PlainMs c.stop :=
  ⟨parse_proper h, parse_plain h⟩

/-- The data of a cue's block: the identifier, the settings separated by spaces and the lines of the payload, each of these
followed by a line feed. -/
theorem C71_format (c : Vtt.Cue) :
    makeFrame c = c.identifier ++ [0x0A] ++
      ((c.settings.map fun g => g.name ++ [0x3A] ++ g.value).intersperse [0x20]).flatten ++ [0x0A] ++
      c.payload.flatMap (· ++ [0x0A]) := by
  have hs : ∀ gs : List Setting, settingsLine gs = ((gs.map fun g => g.name ++ [0x3A] ++ g.value).intersperse [0x20]).flatten := by
    intro gs
    induction gs with
    | nil => rfl
    | cons g gs ih =>
      cases gs with
      | nil => simp [settingsLine]
      | cons g' gs =>
        rw [settingsLine, ih]
        · simp
        · simp
  have hp : ∀ ls : List Bytes, cuePayload ls = ls.flatMap (· ++ [0x0A]) := by
    intro ls
    induction ls with
    | nil => rfl
    | cons l ls ih => rw [cuePayload, ih]; simp
  unfold makeFrame cueIdentifier cueSettings
  rw [hp]
  cases hg : c.settings with
  | nil => simp
  | cons g gs =>
    rw [← hs]
    simp

/-- **C71, partial.** A cue's block is turned back into text by the demuxer, whatever the file, the timecode scale, the
cluster and the block are, as long as mkvparser shows the block with the cue's data, start and duration; and the text of
any number of such cues behind the line WEBVTT is read by the WebVTT parser as exactly these cues.  Missing: cues of
length zero (`C71_zero_length`), NULs (`C71_nul`), and settings near the limit of a line. -/
theorem C71_cue_partial : ∃ text : Vtt.Cue → Bytes,
    (∀ c, Proper c → Keepable c → millisOf c.start < millisOf c.stop →
      ∀ (r : Rdr) (k tc x y d : Int) (b : Block) (s : SeenFrame), 0 < k → watchEntry r tc (.group b x y d) = .ok [s] →
        s.data = makeFrame c → s.time * k = millisOf c.start * 1000000 →
        s.duration * k = (millisOf c.stop - millisOf c.start) * 1000000 →
        demuxCue r (some k) tc b d = .ok (text c)) ∧
    ∀ cs : List Vtt.Cue, (∀ c ∈ cs, Proper c ∧ Keepable c) →
      (Parser.init { rest := "WEBVTT\n".toUTF8.toList ++ cs.flatMap text }).1 = 0 ∧
      cueResults (cs.length + 1) (Parser.init { rest := "WEBVTT\n".toUTF8.toList ++ cs.flatMap text }).2 =
        cs.map .ok ++ [.err 1] := by
  refine ⟨cueText, fun c hp hk ho r k tc x y d b s h0 hw hd ht hl => ?_, fun cs h => output_read h⟩
  have hm := millis_nonneg hp.start.1
  have hr := hk.range
  have h1 : 0 ≤ s.time := by
    apply Decidable.byContradiction
    intro hn
    have : s.time * k < 0 := Int.mul_neg_of_neg_of_pos (by omega) h0
    omega
  have h2 : 0 < s.duration := by
    apply Decidable.byContradiction
    intro hn
    have : s.duration = 0 := by omega
    rw [this] at hl
    simp at hl
    omega
  rw [demuxCue_seen hw h0 h1 h2 (by rw [ht, hl]; omega)]
  exact demuxSeen_ok hp hk hd ht hl

/-! ### C75: the names of the output files -/

theorem decimal_inj {a b : Nat} (h : decimal a = decimal b) : a = b := by
  have h1 := (decimal_spec a).2.1
  have h2 := (decimal_spec b).2.1
  rw [h] at h1
  omega

theorem unique_key {m : List VttFile} (hm : (m.map (·.key)).Nodup) {x y : VttFile} (hx : x ∈ m) (hy : y ∈ m)
    (h : x.key = y.key) : x = y := by
  induction m with
  | nil => cases hx
  | cons a m ih =>
    rw [List.map_cons, List.nodup_cons] at hm
    rcases List.mem_cons.mp hx with rfl | hx1 <;> rcases List.mem_cons.mp hy with rfl | hy1
    · rfl
    · exact absurd (List.mem_map.mpr ⟨y, hy1, h.symm⟩) hm.1
    · exact absurd (h ▸ List.mem_map.mpr ⟨x, hx1, rfl⟩ : y.key ∈ m.map (·.key)) hm.1
    · exact ih hm.2 hx1 hy1

/-- **C75.** No two output files of the demuxer have the same name. -/
theorem C75_names {m : List VttFile} (hm : (m.map (·.key)).Nodup) {x y : VttFile} (hx : x ∈ m) (hy : y ∈ m) (hne : x ≠ y)
    (base : Bytes) : fileName base m x ≠ fileName base m y := by
  intro h
  have key : x.key ≠ y.key := fun hk => hne (unique_key hm hx hy hk)
  unfold fileName at h
  simp only [List.append_assoc, List.append_cancel_left_eq] at h
  by_cases hk : x.kind = y.kind
  · rw [hk, List.append_cancel_left_eq, List.append_cancel_right_eq] at h
    by_cases hc : (m.filter fun z => z.kind == y.kind).length > 1
    · rw [if_pos hc, if_pos hc] at h
      exact key (decimal_inj h)
    · refine hc ?_
      have hx' : x ∈ m.filter fun z => z.kind == y.kind := List.mem_filter.mpr ⟨hx, by simp [hk]⟩
      have hy' : y ∈ m.filter fun z => z.kind == y.kind := List.mem_filter.mpr ⟨hy, by simp⟩
      rcases hl : m.filter (fun z => z.kind == y.kind) with _ | ⟨a, _ | ⟨b, l⟩⟩
      · rw [hl] at hx'; cases hx'
      · rw [hl, List.mem_singleton] at hx' hy'
        exact absurd (hx'.trans hy'.symm) hne
      · rw [hl]; simp
  · have h3 := congrArg (List.take 3) h
    rw [List.take_append_of_le_length (by cases x.kind <;> decide +kernel),
      List.take_append_of_le_length (by cases y.kind <;> decide +kernel)] at h3
    revert h3 hk
    cases x.kind <;> cases y.kind <;> decide +kernel

/-! ### C74: chapters -/

/-- **C74, partial.** Cues with an identifier and without settings that are made into chapters, when the timecode scale
divides a millisecond, are turned back by the demuxer into text that the WebVTT parser reads as the same cues, whatever UIDs
the chapters got.  Missing: cues without identifier (`C74_unnamed`) and with settings (`C74_settings_lost`). -/
theorem C74_chapters_partial {scale : Nat} (hs : scale ∣ 1000000) {cs : List Vtt.Cue} {chs : List Chapter} {us : List UInt64}
    (hall : ∀ c ∈ cs, Proper c ∧ Keepable c ∧ c.identifier ≠ [] ∧ c.settings = []) (hu : us.length = cs.length)
    (hadd : chs.map Res.ok = List.zipWith (addChapter (UInt64.ofNat scale)) us cs) :
    ∃ text, chapterCues (some (scale : Int)) (chs.map seenChapter) = .ok text ∧
      (Parser.init { rest := "WEBVTT\n".toUTF8.toList ++ text }).1 = 0 ∧
      cueResults (cs.length + 1) (Parser.init { rest := "WEBVTT\n".toUTF8.toList ++ text }).2 = cs.map .ok ++ [.err 1] :=
  ⟨_, chapterCues_ok hs cs hall ⟨us, hu, hadd⟩, output_read fun c hc => ⟨(hall c hc).1, (hall c hc).2.1⟩⟩

/-- With a chapter made from a cue that has no identifier, the chapters of a file can never be written. -/
theorem C74_unnamed {scale uid : UInt64} {c : Vtt.Cue} {ch : Chapter} (hc : c.identifier = [])
    (h : addChapter scale uid c = .ok ch) {chs : List Chapter} (hm : ch ∈ chs) : NeverWrites (Mux.writeChapters chs) := by
  refine C60_chapters_refused fun hall => (hall ch hm).1 ?_
  unfold addChapter at h
  obtain ⟨_, -, h⟩ := Res.bind_eq_ok.mp h
  obtain ⟨_, -, h⟩ := Res.bind_eq_ok.mp h
  obtain ⟨_, -, h⟩ := Res.bind_eq_ok.mp h
  cases h
  simp [hc, Chapter.setTime, Chapter.addString]

/-- The settings of a cue leave no trace in a chapter. -/
theorem C74_settings_lost (scale uid : UInt64) (c : Vtt.Cue) (gs : List Setting) :
    addChapter scale uid { c with settings := gs } = addChapter scale uid c := rfl

/-! ### C72: a whole file -/

/-- The codec ID of the tracks with WebVTT text of this kind; chapters are not a track. -/
def codecOf : VttKind → Option Bytes
  | .subtitles => some "D_WEBVTT/SUBTITLES".toUTF8.toList
  | .captions => some "D_WEBVTT/CAPTIONS".toUTF8.toList
  | .descriptions => some "D_WEBVTT/DESCRIPTIONS".toUTF8.toList
  | .metadata => some "D_WEBVTT/METADATA".toUTF8.toList
  | .chapters => none

/-- The track holds WebVTT text of this kind. -/
def TextTrack (t : Track) (kind : VttKind) : Prop := kind ≠ .chapters ∧ t.codecId = codecOf kind

/-- The WebVTT parser reads this text as exactly these cues. -/
def ReadsAs (text : Bytes) (cs : List Vtt.Cue) : Prop :=
  (Parser.init { rest := text }).1 = 0 ∧
  cueResults (cs.length + 1) (Parser.init { rest := text }).2 = cs.map .ok ++ [.err 1]

private theorem kind_codec {c : Bytes} {k : VttKind} : vttKind c = some k ↔ k ≠ .chapters ∧ some c = codecOf k := by
  unfold vttKind
  constructor
  · intro h
    split at h
    · cases h; rename_i h; subst h; exact ⟨by simp, rfl⟩
    split at h
    · cases h; rename_i h; subst h; exact ⟨by simp, rfl⟩
    split at h
    · cases h; rename_i h; subst h; exact ⟨by simp, rfl⟩
    split at h
    · cases h; rename_i h; subst h; exact ⟨by simp, rfl⟩
    cases h
  · rintro ⟨h1, h2⟩
    cases k <;> simp only [codecOf, Option.some.injEq, reduceCtorEq] at h2
    · subst h2; decide +kernel
    · subst h2; decide +kernel
    · subst h2; decide +kernel
    · subst h2; decide +kernel

private theorem entry_text {t : Track} (ht : 1 ≤ t.number.toNat) {x : VttFile} :
    Entry' (seenTrack t) x ↔ ∃ kind, TextTrack t kind ∧ x = { key := t.number.toNat, kind := kind } := by
  unfold Entry' TextTrack
  constructor
  · rintro ⟨-, c, k, h1, h2, rfl⟩
    obtain ⟨k1, k2⟩ := kind_codec.mp h2
    exact ⟨k, ⟨k1, (show t.codecId = some c from h1).trans k2⟩, rfl⟩
  · rintro ⟨k, ⟨k1, k2⟩, rfl⟩
    refine ⟨by show (0 : Int) < (t.number.toNat : Int); omega, ?_⟩
    cases hc : t.codecId with
    | none => rw [hc] at k2; cases k <;> first | exact absurd rfl k1 | cases k2
    | some c => exact ⟨c, k, hc, kind_codec.mpr ⟨k1, hc ▸ k2⟩, rfl⟩

private theorem blocks_track {tc scale : Nat} {fs : List Frame} {bs : Bytes} (h : Blocks tc scale fs bs) :
    ∀ f ∈ fs, f.trackNumber ≠ 0 := by
  induction h with
  | nil => intro f hf; cases hf
  | cons h _ ih =>
    intro f hf
    rcases List.mem_cons.mp hf with rfl | hf
    · have := h.2.2.2.1; omega
    · exact ih f hf

private theorem clusters_track {scale : Nat} {sized : Bool} {off : Nat} {cs : List (Nat × ClusterOf)} {bs : Bytes}
    (h : ClustersAt scale sized off cs bs) : ∀ f ∈ clusterFrames cs, f.trackNumber ≠ 0 := by
  induction h with
  | nil => intro f hf; cases hf
  | cons h _ ih =>
    intro f hf
    unfold clusterFrames at hf
    rw [List.map_cons, List.flatten_cons, List.mem_append] at hf
    rcases hf with hf | hf
    · obtain ⟨_, ⟨_, _, _, _, _, hb, _⟩, _⟩ := h
      exact blocks_track hb f hf
    · exact ih f hf

/-- Filtering what is shown is filtering the frames. -/
theorem filter_watched (scale n : Nat) : ∀ fs : List Frame,
    (fs.map (Frame.asWatched scale)).filter (·.track = n) = (fs.filter (·.trackNumber = n)).map (Frame.asWatched scale)
  | [] => rfl
  | f :: fs => by
    have : (Frame.asWatched scale f).track = f.trackNumber := rfl
    rw [List.map_cons, List.filter_cons, List.filter_cons, this, filter_watched scale n fs]
    split <;> rfl

private theorem cues_watched {scale n : Nat} : ∀ {cs : List Vtt.Cue} {fs : List Frame},
    (∀ c ∈ cs, Proper c ∧ Keepable c) → fs.map Res.ok = cs.map (fun c => TrackCue.frame ⟨n, c⟩) →
    fs.map (Frame.asWatched scale) = cs.map (seenCue scale n)
  | [], fs, _, h => by
    have : fs = [] := by simpa using h
    subst this; rfl
  | c :: cs, [], _, h => by cases h
  | c :: cs, f :: fs, hall, h => by
    rw [List.map_cons, List.map_cons, List.cons.injEq] at h
    obtain ⟨h1, h2⟩ := hall c (by simp)
    rw [List.map_cons, List.map_cons, frame_seen h1 h2.order h2.range h.1.symm,
      cues_watched (fun c hc => hall c (by simp [hc])) h.2]

/-- **C72, partial.** A recording with WebVTT tracks, made with the muxer from cues as the sample's metadata writer makes
frames and chapters of them, and taken apart by the demuxer: for all settings, tracks, other frames and cues within the limits
of `C65_recording_partial`, when the timecode scale divides a millisecond, the demuxer succeeds, makes one file for each WebVTT
track and one for the chapters, and no other, and the WebVTT parser reads each of them as exactly the cues that were put in.
Missing: what is missing in C65, C71 and C74; other timecode scales. -/
theorem C72_recording_partial {g : Seg} {muxing writing : Bytes} {ts : List Track} {ch : Option (List Chapter)}
    {tg : Option (List Tag)}
    (hg : g.Settings muxing writing (tracksTree ts).bytes (ch.map fun c => (chaptersTree c).bytes)
      (tg.map fun t => (tagsTree t).bytes)) (hu : g.Unused) (hn : g.Numbered)
    (hacc : g.accurate = false) (hl : g.live = false)
    (hroom : g.Room (ch.map fun c => (chaptersTree c).bytes) (tg.map fun t => (tagsTree t).bytes))
    {xs : List SegCall} (hxs : g.WellFed xs) (hr : ∀ f, .frame f ∈ xs → f.Showable g.info.scale)
    {s : Sink} (hd : s.data = []) (hp : s.pos = 0) (hs : s.Sure)
    {rs : List (Res Unit)} {g1 g2 : Seg} {s1 s2 : Sink} {r : Res Unit} {d : Option Nat} {du : Option UInt32}
    (hrun : Seg.run xs g s = (rs, g1, s1)) (hfin : Seg.finalize d g1 s1 = (r, g2, s2))
    (hsm : s2.data.length < 2 ^ 48) (hw : ∃ f ∈ acceptedFrames xs rs, g.queues f = false)
    (hdu : g.lastDuration d = du.map UInt32.toNat) (hv : Viewable g.docType g.info.scale du muxing writing ts ch tg)
    (hdoc : g.docType = "webm".toUTF8.toList) (hscale : g.info.scale ∣ 1000000)
    {cues : Nat → List Vtt.Cue} (hcues : ∀ n, ∀ c ∈ cues n, Proper c ∧ Keepable c)
    (htracks : ∀ t ∈ ts, ∀ kind, TextTrack t kind →
      (((acceptedFrames xs rs).filter (·.trackNumber = t.number.toNat)).map Res.ok =
        (cues t.number.toNat).map fun c => TrackCue.frame ⟨t.number.toNat, c⟩) ∧
      ∀ c ∈ cues t.number.toNat, millisOf c.start < millisOf c.stop)
    (hchapters : ∀ chs ∈ ch, (∀ c ∈ cues 0, c.identifier ≠ [] ∧ c.settings = []) ∧
      ∃ us : List UInt64, us.length = (cues 0).length ∧
        chs.map Res.ok = List.zipWith (addChapter (UInt64.ofNat g.info.scale)) us (cues 0))
    (hsome : ch ≠ none ∨ ∃ t ∈ ts, ∃ kind, TextTrack t kind)
    {reader : Rdr} (hdata : reader.data = s2.data) (htotal : reader.total = s2.data.length) {fuel : Nat}
    (hfuel : s2.data.length < fuel) :
    ∃ m : List VttFile, vttdemux reader fuel = .ok m ∧ (m.map (·.key)).Pairwise (· < ·) ∧
      (∀ n kind, (∃ x ∈ m, x.key = n ∧ x.kind = kind) ↔
        (ch ≠ none ∧ n = 0 ∧ kind = .chapters) ∨ ∃ t ∈ ts, t.number.toNat = n ∧ TextTrack t kind) ∧
      ∀ x ∈ m, ReadsAs x.text (cues x.key) := by
  obtain ⟨-, off, _, cs, bs, _, h2, h3, -, -, -, -, h4, -, -⟩ :=
    recording_opens hg hu hn hacc hl hroom hxs hr hd hp hs hrun hfin hsm hw hdu hv
  have hnum : ∀ t ∈ ts, 1 ≤ t.number.toNat := fun t ht => (hv.tracks.2 t ht).number.1
  have entry : ∀ x, (∃ t ∈ ts.map seenTrack, Entry' t x) ↔
      ∃ t ∈ ts, ∃ kind, TextTrack t kind ∧ x = { key := t.number.toNat, kind := kind } := by
    intro x
    constructor
    · rintro ⟨t, ht, hx⟩
      obtain ⟨t, ht', rfl⟩ := List.mem_map.mp ht
      have ht := ht'
      exact ⟨t, ht, (entry_text (hnum t ht)).mp hx⟩
    · rintro ⟨t, ht, hx⟩
      exact ⟨_, List.mem_map.mpr ⟨t, ht, rfl⟩, (entry_text (hnum t ht)).mpr hx⟩
  obtain ⟨m, d1, d2, d3, d4⟩ := demux_opens h2 hscale rfl hdoc (of := cues) (by
      have := hv.numbers
      show ((ts.map seenTrack).map fun t => t.info.number).Nodup
      rw [List.map_map]
      refine (List.pairwise_map.mpr (List.Pairwise.imp ?_ (List.pairwise_map.mp this)))
      intro a b hab heq
      refine hab (UInt64.toNat_inj.mp ?_)
      have : (a.number.toNat : Int) = b.number.toNat := heq
      omega)
    (by
      intro t ht
      obtain ⟨t, ht', rfl⟩ := List.mem_map.mp ht
      have ht := ht'
      have := hnum t ht
      show (0 : Int) < (t.number.toNat : Int)
      omega)
    hcues
    (by
      show match ch.map seenChapters with
        | none => True
        | some [] => cues 0 = []
        | some [as] => chapterCues (some (g.info.scale : Int)) as = .ok ((cues 0).flatMap cueText)
        | some _ => False
      cases ch with
      | none => trivial
      | some chs =>
        obtain ⟨c1, us, c2, c3⟩ := hchapters chs rfl
        show match some (seenChapters chs) with
          | none => True
          | some [] => cues 0 = []
          | some [as] => chapterCues (some (g.info.scale : Int)) as = .ok ((cues 0).flatMap cueText)
          | some _ => False
        unfold seenChapters
        by_cases hz : chs = []
        · rw [if_pos hz]
          subst hz
          have hlen := congrArg List.length c3
          rw [List.length_zipWith, c2, Nat.min_self] at hlen
          exact List.eq_nil_of_length_eq_zero hlen.symm
        · rw [if_neg hz]
          exact chapterCues_ok hscale _ (fun c hc => ⟨(hcues 0 c hc).1, (hcues 0 c hc).2, c1 c hc⟩) ⟨us, c2, c3⟩)
    (by
      intro t ht x hx
      obtain ⟨t, ht', rfl⟩ := List.mem_map.mp ht
      have ht := ht'
      obtain ⟨kind, hk, rfl⟩ := (entry_text (hnum t ht)).mp hx
      obtain ⟨t1, t2⟩ := htracks t ht kind hk
      refine ⟨?_, t2⟩
      rw [h4, filter_watched]
      exact cues_watched (hcues _) t1)
    (by
      rcases hsome with h | ⟨t, ht, k, hk⟩
      · refine .inl ?_
        show ch.map seenChapters ≠ none
        cases ch with
        | none => exact absurd rfl h
        | some _ => simp
      · obtain ⟨t', h1, h2⟩ := (entry { key := t.number.toNat, kind := k }).mpr ⟨t, ht, k, hk, rfl⟩
        exact .inr ⟨t', h1, _, h2⟩)
    (clusters_track h3) hdata htotal hfuel
  refine ⟨m, d1, d2, ?_, fun x hx => ?_⟩
  · intro n kind
    rw [d3 n kind]
    refine or_congr ?_ ?_
    · have : (shownAs g.docType g.info.scale du muxing writing ts ch tg).chapters = ch.map seenChapters := rfl
      rw [this]
      cases ch <;> simp
    · refine (entry _).trans ⟨?_, ?_⟩
      · rintro ⟨t, ht, k, hk, he⟩
        cases he
        exact ⟨t, ht, rfl, hk⟩
      · rintro ⟨t, ht, rfl, hk⟩
        exact ⟨t, ht, kind, hk, rfl⟩
  · rw [d4 x hx]
    exact output_read (hcues _)

/-! ### Examples, and what is false without the conditions -/

/-- A cue with everything: `1`, `00:00:00.500 --> 00:00:01.500 line:0`, `Hi`, `you`. -/
def sampleCue : Vtt.Cue :=
  { identifier := [0x31], start := ⟨0, 0, 0, 500⟩, stop := ⟨0, 0, 1, 500⟩,
    settings := [⟨"line".toUTF8.toList, [0x30]⟩], payload := ["Hi".toUTF8.toList, "you".toUTF8.toList] }

/-- A chapter: `c`, `00:00:00.000 --> 00:00:02.000`, `One`. -/
def sampleChapterCue : Vtt.Cue :=
  { identifier := [0x63], start := ⟨0, 0, 0, 0⟩, stop := ⟨0, 0, 2, 0⟩, settings := [], payload := ["One".toUTF8.toList] }

/-- The text of a WebVTT file with this one cue, read with a parser. -/
private theorem proper_of {c : Vtt.Cue} (text : Bytes) (h : (Parser.parse (Parser.init { rest := text }).2).1 = .ok c) : Proper c := by
  rcases hp : Parser.parse (Parser.init { rest := text }).2 with ⟨x, p'⟩
  rw [hp] at h
  subst h
  exact (C71_parsed hp).1

theorem sample_cue_proper : Proper sampleCue :=
  proper_of "WEBVTT\n\n1\n00:00:00.500 --> 00:00:01.500  line:0\nHi\nyou\n".toUTF8.toList (by decide +kernel)

theorem sample_chapter_proper : Proper sampleChapterCue :=
  proper_of "WEBVTT\n\nc\n00:00 --> 00:02\nOne\n".toUTF8.toList (by decide +kernel)

theorem sample_cue_keepable : Keepable sampleCue where
  ident := by unfold NoNul; decide +kernel
  payload := by unfold NoNul; decide +kernel
  start := .inr (by decide)
  stop := .inr (by decide)
  settings := by decide +kernel
  order := by decide
  range := by decide

theorem sample_chapter_keepable : Keepable sampleChapterCue where
  ident := by unfold NoNul; decide +kernel
  payload := by unfold NoNul; decide +kernel
  start := .inl rfl
  stop := .inl rfl
  settings := by decide +kernel
  order := by decide
  range := by decide

/-- The block of the cue, between the other bytes of a file. -/
def sampleBlock : Rdr := { data := [0xFF, 0xFF] ++ makeFrame sampleCue, total := 18 }

example : ∃ text, demuxCue sampleBlock (some 1000000) 400
    { start := 0, size := 18, track := 3, timecode := 100, flags := 0x80, frames := [⟨2, 16⟩], discardPadding := 0 } 1000 =
    .ok text ∧ ReadsAs ("WEBVTT\n".toUTF8.toList ++ text) [sampleCue] := by
  obtain ⟨text, h1, h2⟩ := C71_cue_partial
  refine ⟨text sampleCue, h1 _ sample_cue_proper sample_cue_keepable (by decide) _ _ _ 0 0 _ _
    { time := 500, track := 3, data := makeFrame sampleCue, key := true, duration := 1000 } (by decide) (by decide +kernel) rfl
    (by decide) (by decide), ?_⟩
  have := h2 [sampleCue] fun c hc => by
    rw [List.mem_singleton.mp hc]; exact ⟨sample_cue_proper, sample_cue_keepable⟩
  rw [List.flatMap_singleton] at this
  exact this

/-- A NUL in the payload cuts the line: the cue comes back as another one. -/
theorem C71_nul :
    let c : Vtt.Cue := { sampleCue with payload := [[0x61, 0x00, 0x62]] }
    Proper c ∧ ∃ text, demuxCue { data := makeFrame c, total := 13 } (some 1000000) 400
        { start := 0, size := 13, track := 3, timecode := 100, flags := 0, frames := [⟨0, 13⟩], discardPadding := 0 } 1000 = .ok text ∧
      ReadsAs ("WEBVTT\n".toUTF8.toList ++ text) [{ c with payload := [[0x61]] }] := by
  refine ⟨proper_of ("WEBVTT\n\n1\n00:00:00.500 --> 00:00:01.500  line:0\na".toUTF8.toList ++ [0, 0x62]) (by decide +kernel),
    "\n1\n00:00.500 --> 00:01.500 line:0\na\n".toUTF8.toList, by decide +kernel, by decide +kernel, by decide +kernel⟩

/-- A segment with a video track 1 and a subtitles track 3, and a chapter. -/
def subtitleTrack : Track := { number := 3, uid := 3, type := 0x11, codecId := some "D_WEBVTT/SUBTITLES".toUTF8.toList }

def sampleChapter : Chapter :=
  { uid := 5, id := some [0x63], start := 0, stop := 2000, displays := [⟨some "One".toUTF8.toList, none, none⟩] }

def vttSeg : Seg :=
  { sampleSeg with seekable := false, tracks := { entries := [⟨1, .video⟩, ⟨3, .other⟩] },
                   tracksW := writeTracks [smallVideo, subtitleTrack], chaptersW := some (Mux.writeChapters [sampleChapter]) }

def cueFrame : Frame :=
  { frame := makeFrame sampleCue, trackNumber := 3, timestamp := 500000000, duration := 1000000000, durationSet := true, isKey := true }

theorem cue_frame : TrackCue.frame ⟨3, sampleCue⟩ = .ok cueFrame := by decide +kernel

theorem chapter_added : addChapter 1000000 5 sampleChapterCue = .ok sampleChapter := by decide +kernel

def vttCalls : List SegCall := [.frame (video 0), .frame cueFrame, .frame (video 600)]

theorem vtt_ok : ∀ t ∈ [smallVideo, subtitleTrack], TrackOk t := by
  intro t ht
  rcases List.mem_cons.mp ht with rfl | ht
  · exact rec_ok _ (.head _)
  · rw [List.mem_singleton.mp ht]
    refine ⟨by decide, by decide +kernel, fun h => absurd h (by decide +kernel), ?_, ?_⟩
    · intro e he; cases he
    · intro v c hv hc; cases hv

theorem vtt_set : ∀ t ∈ [smallVideo, subtitleTrack], TrackSet t := by
  intro t ht
  rcases List.mem_cons.mp ht with rfl | ht
  · exact rec_set _ (.head _)
  · rw [List.mem_singleton.mp ht]
    refine ⟨by decide +kernel, ?_, ?_⟩
    · intro e he; cases he
    · intro v c hv hc; cases hv

theorem vtt_settings : vttSeg.Settings [0x6D] [0x77] (tracksTree [smallVideo, subtitleTrack]).bytes
    ((some [sampleChapter]).map fun c => (chaptersTree c).bytes) ((none : Option (List Tag)).map fun t => (tagsTree t).bytes) :=
  { muxing := ⟨rfl, by decide⟩
    writing := ⟨rfl, by decide⟩
    scale := by decide
    docType := by decide
    version := rfl
    tracks := tracks_puts vtt_ok vtt_set (C60_small_fits (by decide +kernel))
    chapters := chapters_puts (by unfold ChapterOk; decide +kernel) (C60_small_fits (by decide +kernel))
    tags := trivial
    cues := fun _ => .inr (by decide) }

theorem vtt_fed : vttSeg.WellFed vttCalls where
  sound := by
    intro f hf
    simp only [vttCalls, List.mem_cons, List.not_mem_nil, or_false, SegCall.frame.injEq] at hf
    rcases hf with rfl | rfl | rfl <;>
      exact ⟨by decide +kernel, by decide +kernel, ⟨⟨by decide +kernel, by intro a h; cases h⟩, by decide +kernel⟩, by decide +kernel⟩
  waiting := by decide +kernel
  start := by unfold Span; decide +kernel

theorem vtt_viewable : Viewable vttSeg.docType vttSeg.info.scale none [0x6D] [0x77] [smallVideo, subtitleTrack]
    (some [sampleChapter]) none where
  docType := by decide
  info := ⟨by decide, by decide, by decide, fun d hd => by cases hd⟩
  tracks := ⟨C60_small_fits (by decide +kernel), by
    intro t ht
    rcases List.mem_cons.mp ht with rfl | ht
    · exact rec_viewable.tracks.2 _ (.head _)
    · rw [List.mem_singleton.mp ht]
      refine ⟨by decide, by decide, by decide, ?_, ?_, ?_, ?_, ?_, ?_⟩
      · intro s hs; cases hs; decide +kernel
      · intro s hs; cases hs
      · intro s hs; cases hs
      · intro s hs; cases hs
      · intro e he; cases he
      · exact ⟨by decide, by decide, fun _ => rfl⟩⟩
  numbers := by decide
  chapters := by
    intro cs h
    cases h
    refine ⟨C60_small_fits (by decide +kernel), ?_⟩
    intro c hc
    rw [List.mem_singleton.mp hc]
    refine ⟨by unfold ChapterOk; decide +kernel, ⟨?_, by decide, ?_⟩, by unfold ReadsUnsigned; decide +kernel⟩
    · intro b hb; cases hb; decide
    · intro d hd
      rw [List.mem_singleton.mp hd]
      refine ⟨?_, ?_, ?_⟩ <;> (intro b hb; cases hb; try decide +kernel)
  tags := by intro t h; cases h

/-- The cues of the example. -/
def vttCues (n : Nat) : List Vtt.Cue := if n = 0 then [sampleChapterCue] else if n = 3 then [sampleCue] else []

theorem vtt_outcome : (Seg.run vttCalls vttSeg freshSink).1 = [.ok (), .ok (), .ok ()] := by decide +kernel

theorem vtt_small : (Seg.finalize none (Seg.run vttCalls vttSeg freshSink).2.1
      (Seg.run vttCalls vttSeg freshSink).2.2).2.2.data.length < 1000 := by decide +kernel

/-- A recording with two video frames, a subtitle and a chapter: the demuxer makes two files of it. -/
example : let file := (Seg.finalize none (Seg.run vttCalls vttSeg freshSink).2.1 (Seg.run vttCalls vttSeg freshSink).2.2).2.2.data
    ∃ m, vttdemux { data := file, total := file.length } 1000 = .ok m ∧
      (∀ n kind, (∃ x ∈ m, x.key = n ∧ x.kind = kind) ↔ (n = 0 ∧ kind = .chapters) ∨ (n = 3 ∧ kind = .subtitles)) ∧
      ∀ x ∈ m, ReadsAs x.text (vttCues x.key) := by
  have h1 := vtt_outcome
  have h2 := vtt_small
  rcases hrun : Seg.run vttCalls vttSeg freshSink with ⟨rs, g1, s1⟩
  rw [hrun] at h1 h2
  simp only at h1 h2
  subst h1
  rcases hfin : Seg.finalize none g1 s1 with ⟨r, g2, s2⟩
  simp only [hfin] at h2 ⊢
  have hsub : ∀ kind, TextTrack subtitleTrack kind ↔ kind = .subtitles := by
    intro kind; unfold TextTrack; cases kind <;> decide +kernel
  have hvid : ∀ kind, ¬ TextTrack smallVideo kind := by
    intro kind; unfold TextTrack; cases kind <;> decide +kernel
  obtain ⟨m, m1, -, m2, m3⟩ := C72_recording_partial (ch := some [sampleChapter]) (tg := none) vtt_settings
    ⟨rfl, rfl, rfl, rfl, rfl, rfl, rfl, rfl, rfl, rfl⟩ (by unfold Seg.Numbered; decide) rfl rfl (by unfold Seg.Room; decide) vtt_fed
    (fun f hf => by
      simp only [vttCalls, List.mem_cons, List.not_mem_nil, or_false, SegCall.frame.injEq] at hf
      rcases hf with rfl | rfl | rfl <;> exact ⟨by decide, by decide⟩) rfl rfl (fun _ => rfl) hrun hfin (by omega)
    ⟨video 0, by decide +kernel, by decide⟩ rfl vtt_viewable (by decide +kernel) (by decide) (cues := vttCues)
    (by
      intro n c hc
      unfold vttCues at hc
      split at hc
      · rw [List.mem_singleton.mp hc]; exact ⟨sample_chapter_proper, sample_chapter_keepable⟩
      split at hc
      · rw [List.mem_singleton.mp hc]; exact ⟨sample_cue_proper, sample_cue_keepable⟩
      · cases hc)
    (by
      intro t ht kind hk
      rcases List.mem_cons.mp ht with rfl | ht
      · exact absurd hk (hvid kind)
      rw [List.mem_singleton.mp ht]
      refine ⟨by decide +kernel, ?_⟩
      intro c hc
      rw [List.mem_singleton.mp (show c ∈ [sampleCue] from hc)]
      decide)
    (by
      intro chs h
      cases h
      exact ⟨by decide +kernel, [5], rfl, by decide +kernel⟩)
    (.inl (by simp)) (reader := { data := s2.data, total := s2.data.length }) rfl rfl h2
  refine ⟨m, m1, fun n kind => (m2 n kind).trans ?_, m3⟩
  simp only [ne_eq, reduceCtorEq, not_false_eq_true, true_and, List.mem_cons, List.not_mem_nil, or_false]
  constructor
  · rintro (h | ⟨t, rfl | rfl, rfl, h⟩)
    · exact .inl h
    · exact absurd h (hvid kind)
    · exact .inr ⟨rfl, (hsub kind).mp h⟩
  · rintro (h | ⟨rfl, h⟩)
    · exact .inl h
    · exact .inr ⟨subtitleTrack, .inr rfl, rfl, (hsub kind).mpr h⟩

/-- A cue that ends when it starts is accepted by the sample's metadata writer and by the muxer, but then the demuxer fails. -/
theorem C71_zero_length :
    let text := "WEBVTT\n\n00:00.500 --> 00:00.500\nHi\n".toUTF8.toList
    let cue : Vtt.Cue :=
      { identifier := [], start := ⟨0, 0, 0, 500⟩, stop := ⟨0, 0, 0, 500⟩, settings := [], payload := ["Hi".toUTF8.toList] }
    let g : Seg := { vttSeg with chaptersW := none }
    loadCues 3 { rest := text } [] = ([⟨3, cue⟩], .ok ()) ∧
    ∃ f, TrackCue.frame ⟨3, cue⟩ = .ok f ∧
      let run := Seg.run [.frame (video 0), .frame f] g freshSink
      let fin := Seg.finalize none run.2.1 run.2.2
      run.1 = [.ok (), .ok ()] ∧ fin.1 = .ok () ∧
      vttdemux { data := fin.2.2.data, total := fin.2.2.data.length } 1000 = .err (-1) := by
  refine ⟨by decide +kernel, { cueFrame with frame := "\n\nHi\n".toUTF8.toList, duration := 0 }, by decide +kernel, by decide +kernel, by decide +kernel, by decide +kernel⟩

end Verif.Props
