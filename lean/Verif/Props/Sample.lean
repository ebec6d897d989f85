/-
C73 and C76: what the muxer sample makes of a file and of WebVTT files.
-/
import Verif.Lemmas.SampleLoad
import Verif.Props.VttThrough

namespace Verif.Props
open Verif Verif.Par Verif.Mux Verif.Spec Verif.Vtt Verif.Vtt.Spec Verif.Sample

/-! ### The cues that wait -/

/-- **C73, loading.** Whatever the file: loading comes to an end without undefined behaviour, and it succeeds if and only if the
parser accepts all of the file, the cues start in order and none ends before it starts.  Then exactly the cues of the file have been
added, in the order of the file, those of the other tracks are as before, and all cues stand in the order of their start. -/
theorem C73_loaded (track : Nat) (file : Parser) {set : List TrackCue} (hset : InTurn set) (hn : ∀ y ∈ set, Normal y.cue.start)
    (hnew : cuesOn track set = []) :
    ∃ (cs : List Vtt.Cue) (e : Int), cueResults (cs.length + 1) file.init.2 = cs.map .ok ++ [.err e] ∧
      (Vtt.loadCues track file set).2 ≠ .ub ∧
      ((Vtt.loadCues track file set).2 = .ok () ↔ 0 ≤ file.init.1 ∧ 0 ≤ e ∧ (cs.map (millisOf ·.start)).Pairwise (· ≤ ·) ∧
        ∀ c ∈ cs, millisOf c.start ≤ millisOf c.stop) ∧
      ((Vtt.loadCues track file set).2 = .ok () →
        InTurn (Vtt.loadCues track file set).1 ∧ cuesOn track (Vtt.loadCues track file set).1 = cs ∧
        (∀ n, n ≠ track → cuesOn n (Vtt.loadCues track file set).1 = cuesOn n set) ∧
        ∀ y ∈ (Vtt.loadCues track file set).1, y ∈ set ∨ (Proper y.cue ∧ millisOf y.cue.start ≤ millisOf y.cue.stop)) := by
  obtain ⟨cs, e, -, h2⟩ := results_exist _ file.init.2 (Nat.lt_succ_self _)
  have hle := Parser.init_le file
  obtain ⟨a1, a2, a3⟩ := parseCues_results (track := track) cs (fuel := file.size + 1) (t := ⟨-1, 0, 0, 0⟩) (set := set)
    (by omega) (.inl rfl) h2
  have hprop := results_proper cs h2
  have hno : ¬ Normal ⟨-1, 0, 0, 0⟩ := fun h => by have := h.1; simp at this
  refine ⟨cs, e, h2, ?_⟩
  unfold Vtt.loadCues
  rcases hi : file.init with ⟨ie, p⟩
  rw [hi] at a1 a2 a3
  simp only at a1 a2 a3 ⊢
  by_cases h0 : ie < 0
  · rw [if_pos h0]
    exact ⟨by simp, ⟨fun h => (by cases h), fun h => by have := h.1; omega⟩, fun h => (by cases h)⟩
  · rw [if_neg h0]
    refine ⟨a1, a2.trans ⟨fun ⟨b1, b2, b3, _⟩ => ⟨by omega, b1, b2, b3⟩, fun ⟨_, b1, b2, b3⟩ => ⟨b1, b2, b3, fun h => absurd h hno⟩⟩, ?_⟩
    intro h
    obtain ⟨-, b2, b3, -⟩ := a2.mp h
    obtain ⟨f1, f2, f3, f4⟩ := foldl_insert (track := track) cs (set := set) (fun c hc => (hprop c hc).1.start.1) hn hset b2
      (by
        intro y hy hyt
        exfalso
        unfold cuesOn at hnew
        have : y ∈ set.filter (·.track == track) := List.mem_filter.mpr ⟨hy, by simpa using hyt⟩
        rw [List.map_eq_nil_iff.mp hnew] at this
        cases this)
    rw [a3 h]
    refine ⟨f1, ?_, ?_, ?_⟩
    · unfold cuesOn at hnew ⊢
      rw [f2, List.map_append, hnew, List.nil_append, List.map_map]
      exact List.map_id _
    · intro n hnt
      unfold cuesOn
      rw [f3 n hnt]
    · intro y hy
      rcases (f4 y).mp hy with hy' | ⟨c, hc, rfl⟩
      · exact .inl hy'
      · exact .inr ⟨(hprop c hc).1, b3 c hc⟩

/-- **C74, loading.** The same for a file of chapters: it is accepted under the same conditions if no chapters have been loaded before, and then
the chapters are the cues of the file, in its order. -/
theorem C74_loaded (file : Parser) (had : List Vtt.Cue) :
    ∃ (cs : List Vtt.Cue) (e : Int), cueResults (cs.length + 1) file.init.2 = cs.map .ok ++ [.err e] ∧
      loadChapters file had ≠ .ub ∧
      ∀ chs, loadChapters file had = .ok chs ↔ had = [] ∧ 0 ≤ file.init.1 ∧ 0 ≤ e ∧ (cs.map (millisOf ·.start)).Pairwise (· ≤ ·) ∧
        (∀ c ∈ cs, millisOf c.start ≤ millisOf c.stop) ∧ chs = cs := by
  obtain ⟨cs, e, -, h2⟩ := results_exist _ file.init.2 (Nat.lt_succ_self _)
  have hle := Parser.init_le file
  obtain ⟨a1, a2, -⟩ := parseCues_results (track := 0) cs (fuel := file.size + 1) (t := ⟨-1, 0, 0, 0⟩) (set := [])
    (by omega) (.inl rfl) h2
  have hno : ¬ Normal ⟨-1, 0, 0, 0⟩ := fun h => by have := h.1; simp at this
  rw [chapters_as_cues (acc := [])] at a1 a2
  have a3 := fun r => chapters_list cs (n := file.size + 1) (t := ⟨-1, 0, 0, 0⟩) (acc := []) (r := r) h2
  refine ⟨cs, e, h2, ?_⟩
  unfold loadChapters
  rcases hi : file.init with ⟨ie, p⟩
  rw [hi] at a1 a2 a3
  simp only at a1 a2 a3 ⊢
  by_cases hh : had = []
  · rw [Res.refuse_neg (by simp [hh])]
    simp only [Res.bind_ok]
    by_cases h0 : ie < 0
    · rw [if_pos h0]
      exact ⟨by simp, fun chs => ⟨fun h => (by cases h), fun h => by have := h.2.1; omega⟩⟩
    · rw [if_neg h0]
      constructor
      · intro h
        rw [h] at a1
        exact a1 rfl
      · intro chs
        constructor
        · intro h
          obtain ⟨b1, b2, b3, -⟩ := a2.mp (by rw [h]; rfl)
          exact ⟨hh, by omega, b1, b2, b3, by simpa using a3 chs h⟩
        · rintro ⟨-, b0, b1, b2, b3, rfl⟩
          have := a2.mpr ⟨b1, b2, b3, fun h => absurd h hno⟩
          cases hx : parseChapters (file.size + 1) p ⟨-1, 0, 0, 0⟩ [] with
          | ub => rw [hx] at this; cases this
          | err e => rw [hx] at this; cases this
          | ok r => rw [show r = chs by simpa using a3 r hx]
  · rw [Res.refuse_pos (by simpa using hh)]
    exact ⟨by simp, fun chs => ⟨fun h => (by cases h), fun h => absurd h.1 hh⟩⟩

/-! ### The frames of the new file -/

/-- **C73.** Whatever the file that is copied, as long as mkvparser shows its frames, and whatever the muxer does with what it is given:
the frames handed to the muxer are those of the `schedule`, in its order, up to and including the first that is refused; if none is
refused it is all of them, no cue is left, and otherwise the program fails. -/
theorem C73_schedule {r : Rdr} {file : Bytes} (ho : Opened r file) {fuel : Nat} (hf : file.length < fuel) {pos : Nat}
    {g g' : ReadSegment} (hc : createInstance r pos = .ok g) (hl : g.load r fuel = (g', .ok ())) {tracks : List ReadTrack}
    {info : ReadInfo} (ht : g'.tracks = some tracks) (hi : g'.info = some info) (hk : 0 < info.timecodeScale)
    {fs : List SeenFrame} (hw : watch r fuel g' = .ok fs)
    (hfs : ∀ s ∈ fs, (∃ t ∈ tracks, t.info.number = s.track) ∧ 0 ≤ s.time ∧ s.time * info.timecodeScale < 2 ^ 63)
    {set : List TrackCue} (hset : ∀ x ∈ set, Normal x.cue.start ∧ millisOf x.cue.start ≤ millisOf x.cue.stop ∧
      millisOf x.cue.stop * 1000000 < 2 ^ 63) (o : Choice) (seg : Seg) (sink : Sink) :
    ∃ pre post x set' seg' sink' rs, schedule o tracks info.timecodeScale fs set = pre ++ post ∧
      copyAll r o fuel g' ⟨set, seg, sink⟩ = (x, ⟨set', seg', sink'⟩) ∧ Seg.run (pre.map .frame) seg sink = (rs, seg', sink') ∧
      ((x = .ok () ∧ post = [] ∧ rs = List.replicate pre.length (.ok ()) ∧ set' = []) ∨
        (x ≠ .ok () ∧ ∃ n y, rs = List.replicate n (.ok ()) ++ [y] ∧ y ≠ .ok ())) := by
  have hwh : r.Whole := by unfold Rdr.Whole; rw [ho.total, ho.data]
  have hok := ((createInstance_state hc).load ho.fails hwh (by rw [ho.data]; exact hf)).2
  rw [hl] at hok
  obtain ⟨set', h1, h2⟩ := (copyAll_does (o := o) (st := ⟨set, seg, sink⟩) ho.fails hwh hok ht hi hk hw
    (fun s hs => by
      obtain ⟨⟨t, htm, hte⟩, u2, u3⟩ := hfs s hs
      refine ⟨?_, u2, u3⟩
      unfold typeOf
      intro hnone
      have := List.find?_eq_none.mp (Option.map_eq_none_iff.mp hnone) t htm
      simp [hte] at this)
    (fun x hx => ⟨(hset x hx).1, (hset x hx).2.1, (hset x hx).2.2⟩)).does
  simp only at h1 h2
  rcases hh : handOver (schedule o tracks info.timecodeScale fs set) seg sink with ⟨x, seg', sink'⟩
  rw [hh] at h1 h2
  obtain ⟨pre, post, rs, p1, p2, p3⟩ := handOver_run _ hh
  refine ⟨pre, post, x, set', seg', sink', rs, p1, h1, p2, ?_⟩
  rcases p3 with ⟨q1, q2, q3⟩ | h
  · refine .inl ⟨q1, q2, ?_, h2 q1⟩
    rw [q3, p1, q2, List.append_nil]
  · exact .inr h

/-- **C73, nothing lost, nothing twice.** The frames of a cue track in the schedule are its cues, those of another track are the
copies, each in their order. -/
theorem C73_complete (o : Choice) (tracks : List ReadTrack) (scale : Int) (fs : List SeenFrame) (set : List TrackCue) (n : Nat) :
    ((∀ s ∈ fs, newTrack o tracks s.track ≠ some n) →
      (schedule o tracks scale fs set).filter (·.trackNumber = n) = (cuesOn n set).map fun c => cueAsFrame ⟨n, c⟩) ∧
    ((∀ x ∈ set, x.track ≠ n) → (schedule o tracks scale fs set).filter (·.trackNumber = n) =
      (fs.filter fun s => newTrack o tracks s.track = some n).filterMap (copyFor o tracks scale)) := by
  have hcopy : ∀ s f, copyFor o tracks scale s = some f → newTrack o tracks s.track = some f.trackNumber := by
    intro s f h
    unfold copyFor at h
    cases hn : newTrack o tracks s.track with
    | none => rw [hn] at h; cases h
    | some m => rw [hn] at h; cases h; rfl
  constructor
  · intro h
    unfold schedule
    rw [interleave_cues _ _ (by
      intro b hb f hf
      obtain ⟨s, hs, rfl⟩ := List.mem_map.mp hb
      have := hcopy s f hf
      simp only [decide_eq_false_iff_not]
      intro he
      exact h s hs (by rw [this, he]))]
    induction set with
    | nil => rfl
    | cons x xs ih =>
      rw [List.map_cons]
      have hx : (cueAsFrame x).trackNumber = x.track := rfl
      unfold cuesOn at ih ⊢
      rw [List.filter_cons, List.filter_cons, hx]
      by_cases hxn : x.track = n
      · subst hxn
        rw [if_pos (by simp), if_pos (by simp), ih]
        rfl
      · rw [if_neg (by simpa using hxn), if_neg (by simpa using hxn), ih]
  · intro h
    unfold schedule
    rw [interleave_copies _ _ (by intro x hx; exact decide_eq_false (h x hx))]
    induction fs with
    | nil => rfl
    | cons s ss ih =>
      rw [List.map_cons, List.filterMap_cons, List.filter_cons]
      simp only
      cases hc : copyFor o tracks scale s with
      | none =>
        simp only
        rw [ih]
        split
        · rw [List.filterMap_cons, hc]
        · rfl
      | some f =>
        have := hcopy s f hc
        simp only
        rw [List.filter_cons, ih, this]
        by_cases hn : f.trackNumber = n
        · rw [if_pos (by simpa using hn), if_pos (by simpa using hn), List.filterMap_cons, hc]
        · rw [if_neg (by simpa using hn), if_neg (by simpa using hn)]

/-- **C73, order.** When the blocks of the file are in order of time, so are the frames of the schedule: nothing is refused for being
late. -/
theorem C73_in_order (o : Choice) (tracks : List ReadTrack) {scale : Int} (hs : 0 < scale) {fs : List SeenFrame}
    (h0 : ∀ s ∈ fs, 0 ≤ s.time) (hfs : (fs.map (·.time)).Pairwise (· ≤ ·)) {set : List TrackCue} (hset : InTurn set)
    (hn : ∀ y ∈ set, Normal y.cue.start) : InOrder (schedule o tracks scale fs set) := by
  refine interleave_order _ _ ?_ ?_ ?_ ?_
  · intro b hb
    obtain ⟨s, hsm, rfl⟩ := List.mem_map.mp hb
    refine ⟨Int.mul_nonneg (h0 s hsm) (Int.le_of_lt hs), fun f hf => ?_⟩
    simp only [Option.mem_def] at hf
    unfold copyFor at hf
    obtain ⟨m, -, rfl⟩ := Option.map_eq_some_iff.mp hf
    rfl
  · rw [List.map_map, List.pairwise_map]
    rw [List.pairwise_map] at hfs
    exact hfs.imp fun {a b} hab => Int.mul_le_mul_of_nonneg_right hab (Int.le_of_lt hs)
  · intro x hx
    have := millis_nonneg (hn x hx)
    unfold startNs
    omega
  · rw [List.pairwise_map]
    refine hset.imp fun {a b} hab => ?_
    unfold startNs
    omega

/-! ### The new file -/

private theorem accepted_all : ∀ (fs : List Frame), acceptedFrames (fs.map .frame) (List.replicate fs.length (.ok ())) = fs
  | [] => rfl
  | f :: fs => by
    rw [List.map_cons, List.length_cons, List.replicate_succ, acceptedFrames, accepted_all fs]
    rfl

private theorem filterMap_map {α β : Type} {f : α → Option β} {h : α → β} : ∀ {l : List α}, (∀ y ∈ l, f y = some (h y)) →
    l.filterMap f = l.map h
  | [], _ => rfl
  | y :: ys, hy => by
    rw [List.filterMap_cons, hy y (by simp), List.map_cons, filterMap_map fun z hz => hy z (by simp [hz])]

/-- What the new file shows of a frame that has been copied to this track: the time, the data, whether it is a key frame and the discard
padding are kept, the duration and additional data are not. -/
def recopied (n : Nat) (s : SeenFrame) : SeenFrame := { s with track := n, duration := 0, additional := none }

/-- **C76, partial.** A file copied by the muxer sample, with WebVTT files: if the sample does not report a failure, and the new file is
finished, mkvparser shows of it, for each track of the new file that is not one of cues, the frames of the track it was copied from, in
their order and with their times (see `recopied`), and for each track of cues the cues.
Missing: what is missing in C65; the frames must be `WellFed`; how the sample sets up the segment. -/
theorem C76_shown_partial {r : Rdr} {file : Bytes} (ho : Opened r file) {fuel : Nat} (hf : file.length < fuel) {pos : Nat}
    {q q' : ReadSegment} (hc : createInstance r pos = .ok q) (hql : q.load r fuel = (q', .ok ())) {tracks : List ReadTrack}
    {info : ReadInfo} (ht : q'.tracks = some tracks) (hi : q'.info = some info) (hk : 0 < info.timecodeScale)
    {fs : List SeenFrame} (hw : watch r fuel q' = .ok fs)
    (hfs : ∀ s ∈ fs, (∃ t ∈ tracks, t.info.number = s.track) ∧ 0 ≤ s.time ∧ s.time * info.timecodeScale < 2 ^ 63)
    {set : List TrackCue} (hset : ∀ x ∈ set, Normal x.cue.start ∧ millisOf x.cue.start ≤ millisOf x.cue.stop ∧
      millisOf x.cue.stop * 1000000 < 2 ^ 63) {o : Choice}
    {g : Seg} {muxing writing : Bytes} {ts : List Track} {ch : Option (List Chapter)} {tg : Option (List Tag)}
    (hg : g.Settings muxing writing (tracksTree ts).bytes (ch.map fun c => (chaptersTree c).bytes)
      (tg.map fun t => (tagsTree t).bytes)) (hu : g.Unused) (hn : g.Numbered)
    (hacc : g.accurate = false) (hl : g.live = false)
    (hroom : g.Room (ch.map fun c => (chaptersTree c).bytes) (tg.map fun t => (tagsTree t).bytes))
    (hxs : g.WellFed ((schedule o tracks info.timecodeScale fs set).map .frame))
    (hr : ∀ f ∈ schedule o tracks info.timecodeScale fs set, f.Showable g.info.scale)
    {s : Sink} (hd : s.data = []) (hp : s.pos = 0) (hs : s.Sure) {set' : List TrackCue}
    {g1 g2 : Seg} {s1 s2 : Sink} {res : Res Unit} {d : Option Nat} {du : Option UInt32}
    (hcopy : copyAll r o fuel q' ⟨set, g, s⟩ = (.ok (), ⟨set', g1, s1⟩)) (hfin : Seg.finalize d g1 s1 = (res, g2, s2))
    (hsm : s2.data.length < 2 ^ 48) (hq : ∃ f ∈ schedule o tracks info.timecodeScale fs set, g.queues f = false)
    (hdu : g.lastDuration d = du.map UInt32.toNat) (hv : Viewable g.docType g.info.scale du muxing writing ts ch tg)
    (hsame : (g.info.scale : Int) = info.timecodeScale) :
    res = .ok () ∧ set' = [] ∧ ∃ shown, WatchedAs s2.data (shownAs g.docType g.info.scale du muxing writing ts ch tg) shown ∧
      (∀ n, (∀ x ∈ set, x.track ≠ n) →
        shown.filter (·.track = n) = (fs.filter fun s => newTrack o tracks s.track = some n).map (recopied n)) ∧
      (∀ n, (∀ s ∈ fs, newTrack o tracks s.track ≠ some n) →
        shown.filter (·.track = n) = (cuesOn n set).map (seenCue g.info.scale n)) := by
  obtain ⟨pre, post, x, set1, seg1, sink1, rs, p1, p2, p3, p4⟩ :=
    C73_schedule ho hf hc hql ht hi hk hw hfs hset o g s
  rw [hcopy] at p2
  cases p2
  obtain ⟨rfl, rfl, rfl⟩ : post = [] ∧ rs = List.replicate pre.length (.ok ()) ∧ set' = [] := by
    rcases p4 with ⟨-, h⟩ | ⟨h, -⟩
    · exact h
    · exact absurd rfl h
  rw [List.append_nil] at p1
  subst p1
  have hall := accepted_all (schedule o tracks info.timecodeScale fs set)
  obtain ⟨h1, h2⟩ := C65_recording_partial hg hu hn hacc hl hroom hxs
    (by
      intro f hfm
      obtain ⟨f', hf', he⟩ := List.mem_map.mp hfm
      cases he
      exact hr f hf') hd hp hs p3 hfin hsm (by rw [hall]; exact hq) hdu hv
  rw [hall] at h2
  refine ⟨h1, rfl, _, h2, fun n hno => ?_, fun n hno => ?_⟩
  · rw [filter_watched, (C73_complete o tracks info.timecodeScale fs set n).2 hno, List.map_filterMap]
    refine filterMap_map ?_
    intro y hy
    obtain ⟨hym, hyn⟩ := List.mem_filter.mp hy
    have hyn : newTrack o tracks y.track = some n := by simpa using hyn
    obtain ⟨-, hy0, -⟩ := hfs y hym
    unfold copyFor
    rw [hyn]
    simp only [Option.map_some, Function.comp_apply, Option.some.injEq]
    unfold recopied Frame.asWatched Frame.asSeen
    simp only
    have hdiv : (((y.time * info.timecodeScale).toNat / g.info.scale : Nat) : Int) = y.time := by
      have e1 : (y.time * info.timecodeScale).toNat = y.time.toNat * g.info.scale := by
        have h1 : (y.time.toNat : Int) = y.time := Int.toNat_of_nonneg hy0
        have h2 : ((y.time.toNat * g.info.scale : Nat) : Int) = y.time * info.timecodeScale := by
          rw [Int.natCast_mul, h1, hsame]
        omega
      rw [e1, Nat.mul_div_cancel _ (by omega)]
      omega
    rw [hdiv, Nat.zero_div]
  · rw [filter_watched, (C73_complete o tracks info.timecodeScale fs set n).1 hno, List.map_map]
    refine List.map_congr_left fun c hcm => ?_
    obtain ⟨y, hy, rfl⟩ := List.mem_map.mp hcm
    obtain ⟨hym, hyt⟩ := List.mem_filter.mp hy
    rfl

/-- **C76, subtitles, partial.** WebVTT files that went into a new file with the sample, and come out with the demuxer: with the conditions
of `C76_shown_partial` and `C72_recording_partial`, the demuxer makes one file for each WebVTT track, and the parser reads it as exactly the
cues that were loaded for this track; and one file with the chapters.  Missing: as there. -/
theorem C76_subtitles_partial {r : Rdr} {file : Bytes} (ho : Opened r file) {fuel : Nat} (hf : file.length < fuel) {pos : Nat}
    {q q' : ReadSegment} (hc : createInstance r pos = .ok q) (hql : q.load r fuel = (q', .ok ())) {tracks : List ReadTrack}
    {info : ReadInfo} (ht : q'.tracks = some tracks) (hi : q'.info = some info) (hk : 0 < info.timecodeScale)
    {fs : List SeenFrame} (hw : watch r fuel q' = .ok fs)
    (hfs : ∀ s ∈ fs, (∃ t ∈ tracks, t.info.number = s.track) ∧ 0 ≤ s.time ∧ s.time * info.timecodeScale < 2 ^ 63)
    {set : List TrackCue} (hset : ∀ x ∈ set, Proper x.cue ∧ Keepable x.cue ∧ millisOf x.cue.start < millisOf x.cue.stop)
    {o : Choice}
    {g : Seg} {muxing writing : Bytes} {ts : List Track} {ch : Option (List Chapter)} {tg : Option (List Tag)}
    (hg : g.Settings muxing writing (tracksTree ts).bytes (ch.map fun c => (chaptersTree c).bytes)
      (tg.map fun t => (tagsTree t).bytes)) (hu : g.Unused) (hn : g.Numbered)
    (hacc : g.accurate = false) (hl : g.live = false)
    (hroom : g.Room (ch.map fun c => (chaptersTree c).bytes) (tg.map fun t => (tagsTree t).bytes))
    (hxs : g.WellFed ((schedule o tracks info.timecodeScale fs set).map .frame))
    (hr : ∀ f ∈ schedule o tracks info.timecodeScale fs set, f.Showable g.info.scale)
    {s : Sink} (hd : s.data = []) (hp : s.pos = 0) (hs : s.Sure) {set' : List TrackCue}
    {g1 g2 : Seg} {s1 s2 : Sink} {res : Res Unit} {d : Option Nat} {du : Option UInt32}
    (hcopy : copyAll r o fuel q' ⟨set, g, s⟩ = (.ok (), ⟨set', g1, s1⟩)) (hfin : Seg.finalize d g1 s1 = (res, g2, s2))
    (hsm : s2.data.length < 2 ^ 48) (hq : ∃ f ∈ schedule o tracks info.timecodeScale fs set, g.queues f = false)
    (hdu : g.lastDuration d = du.map UInt32.toNat) (hv : Viewable g.docType g.info.scale du muxing writing ts ch tg)
    (hdoc : g.docType = "webm".toUTF8.toList) (hscale : g.info.scale ∣ 1000000)
    (htext : ∀ t ∈ ts, ∀ kind, TextTrack t kind → ∀ x ∈ fs, newTrack o tracks x.track ≠ some t.number.toNat)
    {chapters : List Vtt.Cue} (hchcues : ∀ c ∈ chapters, Proper c ∧ Keepable c)
    (hchapters : ∀ chs ∈ ch, (∀ c ∈ chapters, c.identifier ≠ [] ∧ c.settings = []) ∧
      ∃ us : List UInt64, us.length = chapters.length ∧
        chs.map Res.ok = List.zipWith (addChapter (UInt64.ofNat g.info.scale)) us chapters)
    (hsome : ch ≠ none ∨ ∃ t ∈ ts, ∃ kind, TextTrack t kind)
    {reader : Rdr} (hdata : reader.data = s2.data) (htotal : reader.total = s2.data.length) {fuel' : Nat}
    (hfuel : s2.data.length < fuel') :
    ∃ m : List VttFile, vttdemux reader fuel' = .ok m ∧
      (∀ n kind, (∃ x ∈ m, x.key = n ∧ x.kind = kind) ↔
        (ch ≠ none ∧ n = 0 ∧ kind = .chapters) ∨ ∃ t ∈ ts, t.number.toNat = n ∧ TextTrack t kind) ∧
      ∀ x ∈ m, ReadsAs x.text (if x.key = 0 then chapters else cuesOn x.key set) := by
  obtain ⟨pre, post, x, set1, seg1, sink1, rs, p1, p2, p3, p4⟩ :=
    C73_schedule ho hf hc hql ht hi hk hw hfs
      (fun x hx => ⟨(hset x hx).1.start.1, Int.le_of_lt (hset x hx).2.2, (hset x hx).2.1.range⟩) o g s
  rw [hcopy] at p2
  cases p2
  obtain ⟨rfl, rfl, rfl⟩ : post = [] ∧ rs = List.replicate pre.length (.ok ()) ∧ set' = [] := by
    rcases p4 with ⟨-, h⟩ | ⟨h, -⟩
    · exact h
    · exact absurd rfl h
  rw [List.append_nil] at p1
  subst p1
  have hall := accepted_all (schedule o tracks info.timecodeScale fs set)
  have hon : ∀ n, ∀ c ∈ cuesOn n set, (⟨n, c⟩ : TrackCue) ∈ set := by
    intro n c hcm
    obtain ⟨y, hy, rfl⟩ := List.mem_map.mp hcm
    obtain ⟨hym, hyt⟩ := List.mem_filter.mp hy
    have : y.track = n := by simpa using hyt
    subst this
    exact hym
  obtain ⟨m, m1, -, m2, m3⟩ := C72_recording_partial (cues := fun n => if n = 0 then chapters else cuesOn n set) hg hu hn hacc hl hroom hxs
    (by
      intro f hfm
      obtain ⟨f', hf', he⟩ := List.mem_map.mp hfm
      cases he
      exact hr f hf') hd hp hs p3 hfin hsm (by rw [hall]; exact hq) hdu hv hdoc hscale
    (by
      intro n c hcm
      split at hcm
      · exact hchcues c hcm
      · exact ⟨(hset _ (hon n c hcm)).1, (hset _ (hon n c hcm)).2.1⟩)
    (by
      intro t htm kind hkind
      have h1 := (hv.tracks.2 t htm).number.1
      rw [if_neg (by omega), hall, (C73_complete o tracks info.timecodeScale fs set _).1 (htext t htm kind hkind), List.map_map]
      refine ⟨List.map_congr_left fun c hcm => ?_, fun c hcm => (hset _ (hon _ c hcm)).2.2⟩
      obtain ⟨y1, y2, y3⟩ := hset _ (hon _ c hcm)
      exact (frame_counted ⟨y1.start.1, Int.le_of_lt y3, y2.range⟩).symm)
    (by
      intro chs hchs
      exact hchapters chs hchs)
    hsome hdata htotal hfuel
  exact ⟨m, m1, m2, m3⟩

/-! ### An example, and what is lost -/

/-- A file of 118 bytes: a video track with number 4 and two frames, at 0 and 600 milliseconds. -/
def oldFile : Bytes := [
  0x1A, 0x45, 0xDF, 0xA3, 0x9F, 0x42, 0x86, 0x81, 0x01, 0x42, 0xF7, 0x81, 0x01, 0x42, 0xF2, 0x81, 0x04, 0x42, 0xF3, 0x81,
  0x08, 0x42, 0x82, 0x84, 0x77, 0x65, 0x62, 0x6D, 0x42, 0x87, 0x81, 0x04, 0x42, 0x85, 0x81, 0x02, 0x18, 0x53, 0x80, 0x67,
  0xCF, 0x15, 0x49, 0xA9, 0x66, 0x8F, 0x2A, 0xD7, 0xB1, 0x83, 0x0F, 0x42, 0x40, 0x4D, 0x80, 0x81, 0x6D, 0x57, 0x41, 0x81,
  0x77, 0x16, 0x54, 0xAE, 0x6B, 0x97, 0xAE, 0x95, 0xD7, 0x81, 0x04, 0x73, 0xC5, 0x81, 0x01, 0x83, 0x81, 0x01, 0x86, 0x81,
  0x56, 0xE0, 0x86, 0xB0, 0x81, 0x01, 0xBA, 0x81, 0x01, 0x1F, 0x43, 0xB6, 0x75, 0x8A, 0xE7, 0x81, 0x00, 0xA3, 0x85, 0x84,
  0x00, 0x00, 0x80, 0x01, 0x1F, 0x43, 0xB6, 0x75, 0x8B, 0xE7, 0x82, 0x02, 0x58, 0xA3, 0x85, 0x84, 0x00, 0x00, 0x80, 0x01]

def oldReader : Rdr := ⟨oldFile, -1, by decide, oldFile.length⟩

/-- The file as it is loaded. -/
def oldSegment : ReadSegment :=
  match createInstance oldReader 36 with
  | .ok g => (g.load oldReader 200).1
  | _ => { start := 0, pos := 0, size := none }

def oldTracks : List ReadTrack := oldSegment.tracks.getD []

/-- Video to track 1. -/
def toFirst : Choice := { audioTrack := 2, videoTrack := 1 }

theorem old_opened : Opened oldReader oldFile := ⟨rfl, rfl, by decide⟩

/-- The frames mkvparser shows of it. -/
def oldFrames : List SeenFrame :=
  [{ time := 0, track := 4, data := [1], key := true, duration := 0 }, { time := 600, track := 4, data := [1], key := true, duration := 0 }]

theorem old_watched : watch oldReader 200 oldSegment = .ok oldFrames := by decide +kernel

private theorem old_created : ∃ q, createInstance oldReader 36 = .ok q ∧ q.load oldReader 200 = (oldSegment, .ok ()) := by
  have h : ∀ x, createInstance oldReader 36 = x → (∃ q, x = .ok q ∧ (q.load oldReader 200).2 = .ok ()) →
      ∃ q, createInstance oldReader 36 = .ok q ∧ q.load oldReader 200 = (oldSegment, .ok ()) := by
    intro x hx ⟨q, hq, h2⟩
    subst hx
    refine ⟨q, hq, ?_⟩
    have : oldSegment = (q.load oldReader 200).1 := by unfold oldSegment; rw [hq]
    rw [this, ← h2]
  refine h _ rfl ?_
  have h2 : (match createInstance oldReader 36 with
    | .ok q => some (q.load oldReader 200).2
    | _ => none) = some (.ok ()) := by decide +kernel
  cases hc : createInstance oldReader 36 with
  | ok q => rw [hc] at h2; exact ⟨q, rfl, by simpa using h2⟩
  | err e => rw [hc] at h2; cases h2
  | ub => rw [hc] at h2; cases h2

private theorem old_length : oldFile.length < 200 := by decide +kernel

private theorem old_tracks : oldSegment.tracks = some oldTracks := by
  have : oldSegment.tracks ≠ none := by decide +kernel
  unfold oldTracks
  cases h : oldSegment.tracks with
  | none => exact absurd h this
  | some _ => rfl

private theorem old_info : ∃ i, oldSegment.info = some i ∧ i.timecodeScale = 1000000 := by
  have h2 : oldSegment.info.map (·.timecodeScale) = some 1000000 := by decide +kernel
  exact Option.map_eq_some_iff.mp h2

private theorem old_frames : ∀ s ∈ oldFrames, (∃ t ∈ oldTracks, t.info.number = s.track) ∧ 0 ≤ s.time ∧ s.time * 1000000 < 2 ^ 63 := by
  have h : ∃ t ∈ oldTracks, t.info.number = 4 := by decide +kernel
  intro s hs
  rcases List.mem_cons.mp hs with rfl | hs'
  · exact ⟨h, by decide, by decide⟩
  · rw [List.mem_singleton.mp hs']
    exact ⟨h, by decide, by decide⟩

/-- A subtitle at half a second goes between the two frames. -/
theorem old_schedule : schedule toFirst oldTracks 1000000 oldFrames [⟨3, sampleCue⟩] = [video 0, cueFrame, video 600] := by decide +kernel

private theorem waiting_ok : ∀ x ∈ [(⟨3, sampleCue⟩ : TrackCue)], Proper x.cue ∧ Keepable x.cue ∧ millisOf x.cue.start < millisOf x.cue.stop := by
  intro x hx
  rw [List.mem_singleton.mp hx]
  exact ⟨sample_cue_proper, sample_cue_keepable, by decide⟩

-- Two files are loaded: the cues of the second track, and then those of the third.
example : InTurn [(⟨3, sampleCue⟩ : TrackCue)] ∧ cuesOn 2 [(⟨3, sampleCue⟩ : TrackCue)] = [] ∧
    (Vtt.loadCues 2 { rest := "WEBVTT\n\n00:00.200 --> 00:00.500\nA\n\n00:00.500 --> 00:00.900\nB\n".toUTF8.toList }
      [⟨3, sampleCue⟩]).1.map (fun x => (x.track, x.cue.payload)) =
    [(2, [[0x41]]), (2, [[0x42]]), (3, sampleCue.payload)] := by
  refine ⟨by unfold InTurn; simp, by decide +kernel, by decide +kernel⟩

-- Two chapters; a second file is refused.
example : (loadChapters { rest := "WEBVTT\n\nI\n00:00.200 --> 00:00.500\nA\n\n00:00.500 --> 00:00.900\nB\n".toUTF8.toList } []).map
      (·.map fun c => (c.identifier, c.payload)) = .ok [([0x49], [[0x41]]), ([], [[0x42]])] ∧
    loadChapters { rest := "WEBVTT\n".toUTF8.toList } [sampleChapterCue] = .err (-1) := by
  decide +kernel

-- The subtitle goes between the two frames, and nothing is refused.
example (seg : Seg) (sink : Sink) : ∃ pre post x set' seg' sink' rs, [video 0, cueFrame, video 600] = pre ++ post ∧
    copyAll oldReader toFirst 200 oldSegment ⟨[⟨3, sampleCue⟩], seg, sink⟩ = (x, ⟨set', seg', sink'⟩) ∧
    Seg.run (pre.map .frame) seg sink = (rs, seg', sink') ∧
    ((x = .ok () ∧ post = [] ∧ rs = List.replicate pre.length (.ok ()) ∧ set' = []) ∨
      (x ≠ .ok () ∧ ∃ n y, rs = List.replicate n (.ok ()) ++ [y] ∧ y ≠ .ok ())) := by
  obtain ⟨q, q1, q2⟩ := old_created
  obtain ⟨i, i1, i2⟩ := old_info
  have := C73_schedule (set := [⟨3, sampleCue⟩]) old_opened old_length q1 q2 old_tracks i1 (by omega) old_watched
    (by rw [i2]; exact old_frames)
    (fun x hx => ⟨(waiting_ok x hx).1.start.1, Int.le_of_lt (waiting_ok x hx).2.2, (waiting_ok x hx).2.1.range⟩) toFirst seg sink
  rw [i2, old_schedule] at this
  exact this

private theorem copied_ok : (copyAll oldReader toFirst 200 oldSegment ⟨[⟨3, sampleCue⟩], vttSeg, freshSink⟩).1 = .ok () := by
  decide +kernel

/-- The new file. -/
def newFile : Bytes :=
  let st := (copyAll oldReader toFirst 200 oldSegment ⟨[⟨3, sampleCue⟩], vttSeg, freshSink⟩).2
  (Seg.finalize none st.seg st.sink).2.2.data

private theorem new_small : newFile.length < 1000 := by decide +kernel

-- Out of the new file comes what went into it.
example : (∃ shown, WatchedAs newFile (shownAs vttSeg.docType 1000000 none [0x6D] [0x77] [smallVideo, subtitleTrack]
      (some [sampleChapter]) none) shown ∧ shown.filter (·.track = 1) = oldFrames.map (recopied 1) ∧
      shown.filter (·.track = 3) = [seenCue 1000000 3 sampleCue]) ∧
    ∃ m, vttdemux { data := newFile, total := newFile.length } 1000 = .ok m ∧
      ∀ x ∈ m, ReadsAs x.text (if x.key = 0 then [sampleChapterCue] else cuesOn x.key [⟨3, sampleCue⟩]) := by
  obtain ⟨q, q1, q2⟩ := old_created
  obtain ⟨i, i1, i2⟩ := old_info
  have hsch : schedule toFirst oldTracks i.timecodeScale oldFrames [⟨3, sampleCue⟩] = [video 0, cueFrame, video 600] := by
    rw [i2]; exact old_schedule
  have hsm := new_small
  have hco := copied_ok
  unfold newFile at hsm ⊢
  rcases hcopy : copyAll oldReader toFirst 200 oldSegment ⟨[⟨3, sampleCue⟩], vttSeg, freshSink⟩ with ⟨x, set', g1, s1⟩
  rw [hcopy] at hsm hco
  simp only at hsm hco ⊢
  subst hco
  rcases hfin : Seg.finalize none g1 s1 with ⟨res, g2, s2⟩
  simp only [hfin] at hsm ⊢
  have hshow : ∀ f ∈ schedule toFirst oldTracks i.timecodeScale oldFrames [⟨3, sampleCue⟩], f.Showable vttSeg.info.scale := by
    rw [hsch]
    intro f hf
    simp only [List.mem_cons, List.not_mem_nil, or_false] at hf
    rcases hf with rfl | rfl | rfl <;> exact ⟨by decide, by decide⟩
  have hfed : vttSeg.WellFed ((schedule toFirst oldTracks i.timecodeScale oldFrames [⟨3, sampleCue⟩]).map .frame) := by
    rw [hsch]; exact vtt_fed
  have hq : ∃ f ∈ schedule toFirst oldTracks i.timecodeScale oldFrames [⟨3, sampleCue⟩], vttSeg.queues f = false := by
    rw [hsch]; exact ⟨video 0, by simp, by decide⟩
  have hnt : newTrack toFirst oldTracks 4 = some 1 := by decide +kernel
  have hntall : ∀ x ∈ oldFrames, newTrack toFirst oldTracks x.track = some 1 := by
    intro x hx
    rcases List.mem_cons.mp hx with rfl | hx'
    · exact hnt
    · rw [List.mem_singleton.mp hx']; exact hnt
  have hunused : vttSeg.Unused := ⟨rfl, rfl, rfl, rfl, rfl, rfl, rfl, rfl, rfl, rfl⟩
  constructor
  · obtain ⟨-, -, shown, h1, h2, h3⟩ := C76_shown_partial (ch := some [sampleChapter]) (tg := none) old_opened old_length q1 q2 old_tracks i1
      (by omega) old_watched (by rw [i2]; exact old_frames)
      (fun x hx => ⟨(waiting_ok x hx).1.start.1, Int.le_of_lt (waiting_ok x hx).2.2, (waiting_ok x hx).2.1.range⟩)
      vtt_settings hunused (by unfold Seg.Numbered; decide) rfl rfl (by unfold Seg.Room; decide) hfed hshow rfl rfl (fun _ => rfl) hcopy hfin
      (by omega) hq rfl vtt_viewable (by rw [i2]; rfl)
    refine ⟨shown, h1, ?_, ?_⟩
    · rw [h2 1 (by intro x hx; rw [List.mem_singleton.mp hx]; decide), List.filter_eq_self.mpr]
      intro x hx
      simpa using hntall x hx
    · rw [h3 3 (by intro x hx; rw [hntall x hx]; decide)]
      rfl
  · obtain ⟨m, m1, -, m2⟩ := C76_subtitles_partial (ch := some [sampleChapter]) (tg := none) (chapters := [sampleChapterCue])
      (reader := { data := s2.data, total := s2.data.length }) (fuel' := 1000) old_opened old_length q1 q2 old_tracks i1
      (by omega) old_watched (by rw [i2]; exact old_frames) waiting_ok
      vtt_settings hunused (by unfold Seg.Numbered; decide) rfl rfl (by unfold Seg.Room; decide) hfed hshow rfl rfl (fun _ => rfl) hcopy hfin
      (by omega) hq rfl vtt_viewable (by decide +kernel) (by decide)
      (by
        intro t htm kind hkind x hx
        rw [hntall x hx]
        rcases List.mem_cons.mp htm with rfl | htm'
        · exfalso
          revert hkind
          unfold TextTrack
          cases kind <;> decide +kernel
        · rw [List.mem_singleton.mp htm']; decide)
      (by intro c hcm; rw [List.mem_singleton.mp hcm]; exact ⟨sample_chapter_proper, sample_chapter_keepable⟩)
      (by
        intro chs h
        cases h
        exact ⟨by decide +kernel, [5], rfl, by decide +kernel⟩)
      (.inl (by simp)) rfl rfl hsm
    exact ⟨m, m1, m2⟩

end Verif.Props
