/-
C85: the duration of a finished file.
-/
import Verif.Lemmas.MuxerDurationUse
import Verif.Props.Reading

namespace Verif.Props
open Verif Verif.Mux Verif.Spec Verif.Par

private theorem finished_with {g : Seg} {muxing writing tr : Bytes} {ch tg : Option Bytes}
    (hg : g.Settings muxing writing tr ch tg) (hu : g.Unused) (hn : g.Numbered)
    (hacc : g.accurate = false) (hl : g.live = false) (hroom : g.Room ch tg)
    {xs : List SegCall} (hxs : g.WellFed xs) {s : Sink} (hd : s.data = []) (hp : s.pos = 0) (hs : s.Sure)
    {rs : List (Res Unit)} {g1 g2 : Seg} {s1 s2 : Sink} {r : Res Unit} {o : DurationSettings}
    (hrun : Seg.run xs g s = (rs, g1, s1)) (hfin : Seg.finalizeNow o (Seg.counted xs g s {}) g1 s1 = (r, g2, s2))
    (hsm : s2.data.length < 2 ^ 48) (hw : ∃ f ∈ acceptedFrames xs rs, g.queues f = false)
    (hord : ((acceptedFrames xs rs).map Frame.timestamp).Pairwise (· ≤ ·))
    {f : Frame} (hf : (acceptedFrames xs rs).getLast? = some f) (hseek : g.seekable = true) :
    ∃ g3 : Seg, g3.lastTs = f.timestamp ∧ g3.info.scale = g.info.scale ∧ r = .ok () ∧
      ∃ p : Parts, s2.data = p.file g.docType true ∧
        p.info = infoElement g.info.scale
          (some ((durationBits (Seg.fileDuration o (Seg.counted xs g s {}) g3)).getD 0x3F800000)) g.info.date muxing writing := by
  have hx : ∃ f, .frame f ∈ xs := by obtain ⟨f, hf, -⟩ := hw; exact ⟨f, accepted_frame hf⟩
  unfold Seg.finalizeNow at hfin
  have h := whole_file hg hu hn hacc hl hroom hxs hd hp hs hrun hfin hsm hw
  have hlen : s1.data.length < 2 ^ 48 := by
    have := run_finalize_grows hg hu hd hp hs hrun hfin hx
    omega
  obtain ⟨gap, sp, t, -, rfl, hr, hb, -⟩ := muxing_history hg hu hn hacc hxs hd hp hs hrun hlen hx
  obtain ⟨h1, h2⟩ := flush_time hr hb hw hf hord
  obtain ⟨p, cs, q1, -, q3, -⟩ := h.2.2
  refine ⟨_, h1, ?_, h.1, p, by rw [q1, hseek], ?_⟩
  · rw [h2]; exact begun_scale g gap muxing writing tr ch tg sp
  · rw [q3]
    unfold Seg.lastDuration
    rw [if_pos hseek]

/-- **C85, the duration.**  A segment for a file that can be sought in takes a history of frames that are in order and well fed (as
in C21), with none of `set_duration`, and with no estimate or with a duration on the last frame.  The last frame accepted is of a
track whose frames do not wait.  Then the finished file says that it lasts, in units of the time scale, as long as the time of
that frame together with its own duration, up to one part in 2²³ (the precision of a `float`). -/
theorem C85_duration {g : Seg} {muxing writing tr : Bytes} {ch tg : Option Bytes}
    (hg : g.Settings muxing writing tr ch tg) (hu : g.Unused) (hn : g.Numbered)
    (hacc : g.accurate = false) (hl : g.live = false) (hroom : g.Room ch tg)
    {xs : List SegCall} (hxs : g.WellFed xs) {s : Sink} (hd : s.data = []) (hp : s.pos = 0) (hs : s.Sure)
    {rs : List (Res Unit)} {g1 g2 : Seg} {s1 s2 : Sink} {r : Res Unit} {o : DurationSettings}
    (hrun : Seg.run xs g s = (rs, g1, s1)) (hfin : Seg.finalizeNow o (Seg.counted xs g s {}) g1 s1 = (r, g2, s2))
    (hsm : s2.data.length < 2 ^ 48)
    (hord : ((acceptedFrames xs rs).map Frame.timestamp).Pairwise (· ≤ ·))
    {f : Frame} (hf : (acceptedFrames xs rs).getLast? = some f) (hq : g.queues f = false)
    (hseek : g.seekable = true) (hset : o.duration = 0) (hest : o.estimate = false ∨ f.duration ≠ 0)
    (hscale : g.info.scale < 2 ^ 53) (hsize : f.timestamp < 2 ^ 64 ∧ f.duration < 2 ^ 64)
    (hpos : 0 < f.timestamp + f.duration) :
    r = .ok () ∧ ∃ p : Parts, ∃ bits, s2.data = p.file g.docType true ∧
      p.info = infoElement g.info.scale (some bits) g.info.date muxing writing ∧
      IsAbout bits (f.timestamp + f.duration) g.info.scale := by
  obtain ⟨g3, e1, e2, h1, p, h2, h3⟩ := finished_with hg hu hn hacc hl hroom hxs hd hp hs hrun hfin hsm
    ⟨f, List.mem_of_getLast? hf, hq⟩ hord hf hseek
  have hlast : (Seg.counted xs g s {}).lastBlockDuration = f.duration :=
    (counted_last (xs := xs) (g := g) (s := s) {}).2 f (by rw [hrun]; exact hf) hq
  have hdur : Seg.fileDuration o (Seg.counted xs g s {}) g3 =
      Ticks.quot (Ticks.add (Ticks.ofNat f.timestamp) (Ticks.ofNat f.duration)) (Ticks.ofNat g.info.scale) := by
    unfold Seg.fileDuration
    simp only
    rw [hlast, e1, e2, hset, if_neg (by decide), if_neg (by
      rintro ⟨h, h'⟩
      rcases hest with hest | hest
      · rw [hest] at h'; cases h'
      · exact hest h)]
  obtain ⟨b1, b2⟩ := (Ticks.duration_about hpos hg.scale.1 hscale).float hpos (by omega) hg.scale.1 hscale
  rw [← hdur] at b1 b2
  refine ⟨h1, p, _, h2, ?_, b2⟩
  rw [h3]
  unfold durationBits
  rw [if_pos b1]
  rfl

private theorem lessen {A B : Nat} {U : Int} (h : A ≤ B) (h' : (2 ^ 23 - 1) * ((B : Nat) : Int) ≤ 2 ^ 23 * U) :
    (2 ^ 23 - 1) * ((A : Nat) : Int) ≤ 2 ^ 23 * U := by omega

private theorem natLe {U N : Nat} (h : 2 ^ 23 * (U : Int) ≤ (2 ^ 23 + 1) * (N : Int)) : 2 ^ 23 * U ≤ (2 ^ 23 + 1) * N := by omega

private theorem natGe {U N : Nat} (h : (2 ^ 23 - 1) * (N : Int) ≤ 2 ^ 23 * (U : Int)) : (2 ^ 23 - 1) * N ≤ 2 ^ 23 * U := by omega

private theorem bigger {U N w : Nat} (h : 2 ^ 23 * U ≤ (2 ^ 23 + 1) * N) (h' : N ≤ 2 ^ 62 * w) (hw : 0 < w) : U < 2 ^ 63 * w := by omega

/-- **C85, covering.**  Whatever track the last frame is of, the file says that it lasts at least until the time of the last frame, up
to one part in 2²³. -/
theorem C85_covers {g : Seg} {muxing writing tr : Bytes} {ch tg : Option Bytes}
    (hg : g.Settings muxing writing tr ch tg) (hu : g.Unused) (hn : g.Numbered)
    (hacc : g.accurate = false) (hl : g.live = false) (hroom : g.Room ch tg)
    {xs : List SegCall} (hxs : g.WellFed xs) {s : Sink} (hd : s.data = []) (hp : s.pos = 0) (hs : s.Sure)
    {rs : List (Res Unit)} {g1 g2 : Seg} {s1 s2 : Sink} {r : Res Unit} {o : DurationSettings}
    (hrun : Seg.run xs g s = (rs, g1, s1)) (hfin : Seg.finalizeNow o (Seg.counted xs g s {}) g1 s1 = (r, g2, s2))
    (hsm : s2.data.length < 2 ^ 48) (hw : ∃ f ∈ acceptedFrames xs rs, g.queues f = false)
    (hord : ((acceptedFrames xs rs).map Frame.timestamp).Pairwise (· ≤ ·))
    {f : Frame} (hf : (acceptedFrames xs rs).getLast? = some f)
    (hseek : g.seekable = true) (hset : o.duration = 0) (hest : o.estimate = false)
    (hscale : g.info.scale < 2 ^ 53) (hsize : f.timestamp < 2 ^ 64 ∧ ∀ x, .frame x ∈ xs → x.duration < 2 ^ 64)
    (hpos : 0 < f.timestamp) :
    r = .ok () ∧ ∃ p : Parts, ∃ bits, s2.data = p.file g.docType true ∧
      p.info = infoElement g.info.scale (some bits) g.info.date muxing writing ∧
      ∀ a ∈ acceptedFrames xs rs, IsAtLeast bits a.timestamp g.info.scale := by
  obtain ⟨g3, e1, e2, h1, p, h2, h3⟩ := finished_with hg hu hn hacc hl hroom hxs hd hp hs hrun hfin hsm hw hord hf hseek
  have hB : (Seg.counted xs g s {}).lastBlockDuration < 2 ^ 64 := by
    rcases counted_mem (xs := xs) (g := g) (s := s) {} with h | ⟨x, hx, h⟩
    · rw [h]; decide
    · rw [h]; exact hsize.2 x hx
  generalize hcn : Seg.counted xs g s {} = n at *
  have hdur : Seg.fileDuration o n g3 =
      Ticks.quot (Ticks.add (Ticks.ofNat f.timestamp) (Ticks.ofNat n.lastBlockDuration)) (Ticks.ofNat g.info.scale) := by
    unfold Seg.fileDuration
    simp only
    rw [e1, e2, hset, if_neg (by decide), if_neg (by
      rintro ⟨-, h'⟩
      rw [hest] at h'; cases h')]
  have hpos' : 0 < f.timestamp + n.lastBlockDuration := by omega
  obtain ⟨b1, b2⟩ := (Ticks.duration_about hpos' hg.scale.1 hscale).float hpos' (by omega) hg.scale.1 hscale
  rw [← hdur] at b1 b2
  refine ⟨h1, p, _, h2, by rw [h3]; unfold durationBits; rw [if_pos b1]; rfl, fun a ha => ⟨b2.1, ?_⟩⟩
  have hle : a.timestamp * 2 ^ 149 ≤ (f.timestamp + n.lastBlockDuration) * 2 ^ 149 :=
    Nat.mul_le_mul_right _ (Nat.le_trans (last_latest hord hf a ha) (Nat.le_add_right _ _))
  exact lessen hle b2.2.2.2

private theorem down {U n ns : Nat} (w : Nat) (hw : 0 < w) (h : 2 ^ 23 * U ≤ (2 ^ 23 + 1) * (n * w)) (h' : ns * w ≤ U) :
    2 ^ 23 * ns ≤ (2 ^ 23 + 1) * n := by
  refine Nat.le_of_mul_le_mul_right ?_ hw
  rw [Nat.mul_assoc, Nat.mul_assoc]
  omega

private theorem up {U n ns : Nat} (w : Nat) (hw : 0 < w) (h : (2 ^ 23 - 1) * (n * w) ≤ 2 ^ 23 * U) (h' : U ≤ (ns + 1) * w) :
    (2 ^ 23 - 1) * n ≤ 2 ^ 23 * (ns + 1) := by
  refine Nat.le_of_mul_le_mul_right ?_ hw
  rw [Nat.mul_assoc, Nat.mul_assoc]
  omega

/-- **C85, reading.**  mkvparser's `GetDuration` gives, in nanoseconds, the number the duration in the file is about, up to one part in
2²³ and to rounding down; for durations below 2⁶² ns, a hundred years. -/
theorem C85_told {bits n scale : Nat} {date : Option Int} {muxing writing : Bytes} (h : IsAbout bits n scale) (hn : n < 2 ^ 62)
    (hs : 1 ≤ scale ∧ scale ≤ 2 ^ 29) (hm : muxing.length ≤ 20000000) (hw : writing.length ≤ 20000000) :
    ∃ i, ∃ ns : Nat, ReadAs infoParse 0x1549A966 (infoElement scale (some bits) date muxing writing) i ∧
      i.getDuration = .ok (ns : Int) ∧ 2 ^ 23 * ns ≤ (2 ^ 23 + 1) * n ∧ (2 ^ 23 - 1) * n ≤ 2 ^ 23 * (ns + 1) := by
  obtain ⟨h1, h2, h3, h4⟩ := h
  have hb : (UInt32.ofNat bits).toNat = bits := by
    rw [UInt32.toNat_ofNat', Nat.mod_eq_of_lt]
    show _ < 4294967296
    omega
  obtain ⟨U, hU⟩ : ∃ U : Nat, floatUnits (UInt32.ofNat bits) = U := ⟨_, (Int.toNat_of_nonneg (by omega)).symm⟩
  rw [hU, ← Int.natCast_mul] at h3 h4
  have k3 := natLe h3
  have k4 := natGe h4
  have hbig : floatUnits (UInt32.ofNat bits) * scale < 2 ^ 63 * 2 ^ 149 := by
    rw [hU, ← Int.natCast_mul]
    have h5 : n * 2 ^ 149 ≤ 2 ^ 62 * 2 ^ 149 := Nat.mul_le_mul_right _ (Nat.le_of_lt hn)
    have : U * scale < 2 ^ 63 * 2 ^ 149 := bigger k3 h5 (Nat.two_pow_pos _)
    exact Int.ofNat_lt.mpr this
  have hr : ReadableInfo scale (some (UInt32.ofNat bits)) muxing writing :=
    ⟨hs, hm, hw, fun d hd => by
      cases hd
      refine ⟨?_, by omega, hbig⟩
      unfold Finite
      rw [hb]
      omega⟩
  have hread := C63_info (date := date) hr
  rw [show (some (UInt32.ofNat bits)).map UInt32.toNat = some bits from congrArg some hb] at hread
  refine ⟨_, _, hread, C63_duration hr, ?_, ?_⟩
  · rw [hU]
    exact down (2 ^ 149) (Nat.two_pow_pos _) k3 (Nat.div_mul_le_self _ _)
  · rw [hU]
    exact up (2 ^ 149) (Nat.two_pow_pos _) k4 (Nat.le_of_lt (Nat.lt_mul_of_div_lt (Nat.lt_succ_self _) (Nat.two_pow_pos _)))

/-- **C85, a duration that was set.**  After `set_duration(d)` with a positive `d` (here `d / 2¹⁰⁷⁴`), the file has the float next to
`d`, whatever the frames. -/
theorem C85_set {g : Seg} {muxing writing tr : Bytes} {ch tg : Option Bytes}
    (hg : g.Settings muxing writing tr ch tg) (hu : g.Unused) (hn : g.Numbered)
    (hacc : g.accurate = false) (hl : g.live = false) (hroom : g.Room ch tg)
    {xs : List SegCall} (hxs : g.WellFed xs) {s : Sink} (hd : s.data = []) (hp : s.pos = 0) (hs : s.Sure)
    {rs : List (Res Unit)} {g1 g2 : Seg} {s1 s2 : Sink} {r : Res Unit} {o : DurationSettings}
    (hrun : Seg.run xs g s = (rs, g1, s1)) (hfin : Seg.finalizeNow o (Seg.counted xs g s {}) g1 s1 = (r, g2, s2))
    (hsm : s2.data.length < 2 ^ 48) (hw : ∃ f ∈ acceptedFrames xs rs, g.queues f = false)
    (hseek : g.seekable = true) (hset : 2 ^ (925 + 23) ≤ o.duration) (hfin' : o.duration < 2 ^ (1074 + 127)) :
    r = .ok () ∧ ∃ p : Parts, ∃ bits, ∃ U : Nat, s2.data = p.file g.docType true ∧
      p.info = infoElement g.info.scale (some bits) g.info.date muxing writing ∧
      bits < 255 * 2 ^ 23 ∧ floatUnits (UInt32.ofNat bits) = U ∧
      2 ^ 24 * (U * 2 ^ 925) ≤ (2 ^ 24 + 1) * o.duration ∧ (2 ^ 24 - 1) * o.duration ≤ 2 ^ 24 * (U * 2 ^ 925) := by
  unfold Seg.finalizeNow at hfin
  have hpos : 0 < o.duration := Nat.lt_of_lt_of_le (Nat.two_pow_pos _) hset
  have e : ∀ g3, durationBits (Seg.fileDuration o (Seg.counted xs g s {}) g3) = some (Ticks.floatBits o.duration) := by
    intro g3
    unfold Seg.fileDuration durationBits
    simp only
    rw [if_pos hpos, if_pos hpos]
  rw [e] at hfin
  obtain ⟨h1, -, p, cs, q1, -, q3, -⟩ := whole_file hg hu hn hacc hl hroom hxs hd hp hs hrun hfin hsm hw
  obtain ⟨U, u1, u2, -, u4, u5⟩ := Ticks.floatBits_spec hfin' hset
  refine ⟨h1, p, _, U, by rw [q1, hseek], ?_, u1, u2, u4, u5⟩
  rw [q3]
  unfold Seg.lastDuration
  rw [if_pos hseek]
  rfl

/-- **C85, estimates.**  With `set_estimate_file_duration`, and no duration on the last frame written, the duration is the greatest of the
one computed without an estimate and of the estimates for the tracks: for each track that has at least two frames, the time of its
last frame, lengthened by the mean distance of its frames. -/
theorem C85_estimate (g : Seg) (n : Counts) {o : DurationSettings} (hset : o.duration = 0) (hest : o.estimate = true)
    (hlast : n.lastBlockDuration = 0) :
    Seg.fileDuration { o with estimate := false } n g ≤ Seg.fileDuration o n g ∧
    (∀ i < g.tracks.entries.length, 2 ≤ n.written (i + 1) → g.trackDuration n i ≤ Seg.fileDuration o n g) ∧
    (Seg.fileDuration o n g = Seg.fileDuration { o with estimate := false } n g ∨
      ∃ i < g.tracks.entries.length, 2 ≤ n.written (i + 1) ∧ Seg.fileDuration o n g = g.trackDuration n i) := by
  unfold Seg.fileDuration
  simp only [hset, hest, hlast]
  rw [if_neg (by decide), if_neg (by decide), if_neg (by decide), if_pos ⟨trivial, trivial⟩]
  obtain ⟨h1, h2, h3⟩ := estimateLoop_ge g n (List.range g.tracks.entries.length)
    (Ticks.quot (Ticks.add (Ticks.ofNat g.lastTs) (Ticks.ofNat 0)) (Ticks.ofNat g.info.scale))
  refine ⟨h1, fun i hi => h2 i (List.mem_range.mpr hi), ?_⟩
  rcases h3 with h3 | ⟨i, hi, h3⟩
  · exact .inl h3
  · exact .inr ⟨i, List.mem_range.mp hi, h3⟩

/-- **C85, the frames counted.**  The number of frames of a track from which the estimate takes the mean distance is the number of frames of
that track that were accepted, for every history; whether they had to wait or not. -/
theorem C85_counted (t : Nat) : ∀ {xs : List SegCall} {g : Seg} {s : Sink} (n : Counts),
    (Seg.counted xs g s n).written t =
      n.written t + ((acceptedFrames xs (Seg.run xs g s).1).filter fun f => f.trackNumber == t).length := by
  intro xs
  induction xs with
  | nil => intro g s n; rfl
  | cons x xs ih =>
    intro g s n
    rcases hc : Seg.call x g s with ⟨r, g', s'⟩
    rw [counted_cons hc, run_cons hc, ih]
    cases r with
    | err c => cases x <;> rfl
    | ub => cases x <;> rfl
    | ok u =>
      cases x with
      | frame f =>
        have h1 : (n.after g (.frame f) (.ok u)).written = upd n.written f.trackNumber (n.written f.trackNumber + 1) := by
          show (if g.waits f then _ else _ : Counts).written = _
          split <;> rfl
        show (n.after g (.frame f) (.ok u)).written t + _ = n.written t + ((f :: acceptedFrames xs _).filter _).length
        rw [h1, List.filter_cons]
        unfold upd
        by_cases h : f.trackNumber = t
        · subst h
          simp
          omega
        · have h' : (f.trackNumber == t) = false := by simpa using h
          simp only [h', if_neg (Ne.symm h)]
          rfl
      | _ => rfl

/-! ### Examples -/

/-- The duration in the file, after handing over the frames and finalising. -/
def lasting (o : DurationSettings) (g : Seg) (fs : List Frame) : List (Res Unit) × Option Nat :=
  let r := Seg.run (fs.map .frame) g freshSink
  let f := Seg.finalizeNow o (Seg.counted (fs.map .frame) g freshSink {}) r.2.1 r.2.2
  (r.1, f.2.1.info.duration)

/-- The frames of the example: the last one has a duration. -/
def lastingFrames : List Frame := [video 0, audio 1, video 33 false, audio 50, { video 66 with duration := 33000000 }]

/-- 66 ms and 33 ms: the file lasts 99 ms; ... -/
example : lasting {} sampleSeg lastingFrames = ([.ok (), .ok (), .ok (), .ok (), .ok ()], some 0x42C60000) := by decide +kernel

/-- ... and the conditions of the theorems hold. -/
example : sampleSeg.WellFed (lastingFrames.map .frame) ∧
    (acceptedFrames (lastingFrames.map .frame) (Seg.run (lastingFrames.map .frame) sampleSeg freshSink).1).getLast? =
      some { video 66 with duration := 33000000 } ∧
    ((acceptedFrames (lastingFrames.map .frame) (Seg.run (lastingFrames.map .frame) sampleSeg freshSink).1).map
      Frame.timestamp).Pairwise (· ≤ ·) ∧
    sampleSeg.queues { video 66 with duration := 33000000 } = false ∧ sampleSeg.seekable = true ∧
    IsAbout 0x42C60000 (66000000 + 33000000) 1000000 ∧
    (Seg.finalizeNow {} (Seg.counted (lastingFrames.map .frame) sampleSeg freshSink {})
      (Seg.run (lastingFrames.map .frame) sampleSeg freshSink).2.1
      (Seg.run (lastingFrames.map .frame) sampleSeg freshSink).2.2).2.2.data.length < 2 ^ 48 := by
  refine ⟨⟨?_, by decide, by unfold Span; decide⟩, by decide +kernel, by decide +kernel, by decide, by decide, ?_, by decide +kernel⟩
  · intro f hf
    simp only [lastingFrames, List.map_cons, List.map_nil, List.mem_cons, List.not_mem_nil, or_false, SegCall.frame.injEq] at hf
    rcases hf with rfl | rfl | rfl | rfl | rfl <;>
      exact ⟨by decide, by decide, ⟨⟨by decide, by intro a h; cases h⟩, by decide⟩, by decide⟩
  · unfold IsAbout; decide +kernel

/-- A duration that was set: 2.5, and not what the frames say. -/
example : lasting { duration := 5 * 2 ^ 1073 } sampleSeg lastingFrames =
    ([.ok (), .ok (), .ok (), .ok (), .ok ()], some 0x40200000) := by decide +kernel

/-- With an estimate: the video frames at 0, 30 and 60 ms give 90 ms. -/
example : lasting { estimate := true } sampleSeg [video 0, video 30 false, video 60 false] =
    ([.ok (), .ok (), .ok ()], some 0x42B40000) ∧
    lasting {} sampleSeg [video 0, video 30 false, video 60 false] = ([.ok (), .ok (), .ok ()], some 0x42700000) := by
  decide +kernel

/-- **Out of order, the file is shorter than what is in it.**  An audio frame at 100 ms waits; a video frame at 50 ms is accepted after
it (see `C21_times_decrease`).  The file says that it lasts 50 ms. -/
theorem C85_too_short : lasting {} sampleSeg [video 0, audio 100, video 50 false] =
    ([.ok (), .ok (), .ok ()], some 0x42480000) := by decide +kernel

/-- **The duration of a last frame that waits is not looked at; that of an earlier frame of another track is added.**  A video
frame at 0 ms lasts 40 ms, an audio frame at 100 ms lasts 10 ms.  The file says that it lasts 140 ms, not 110. -/
theorem C85_other_frame : lasting {} sampleSeg [{ video 0 with duration := 40000000 }, { audio 100 with duration := 10000000 }] =
    ([.ok (), .ok ()], some 0x430C0000) := by decide +kernel

/-- **An audio frame that starts a cluster does not wait**: one at 40 s, too far from the cluster for it, lasts 10 ms, and the file says
that it lasts 40010 ms. -/
theorem C85_far_frame : lasting {} sampleSeg [video 0, { audio 40000 with duration := 10000000 }] =
    ([.ok (), .ok ()], some 0x471C4A00) := by decide +kernel

/-- The same segment with its video track numbered 7. -/
def renumberedSeg : Seg :=
  { sampleSeg with tracks := { sampleSeg.tracks with entries := sampleSeg.tracks.entries.map fun e =>
      if e.number = 1 then { e with number := 7 } else e } }

/-- **There is no estimate for a track whose number is not among the first.**  The tables are indexed with track numbers, the loop goes
over the number of tracks: with the video track numbered 7, the example above lasts 60 ms. -/
theorem C85_no_estimate : lasting { estimate := true } renumberedSeg
      ([video 0, video 30 false, video 60 false].map fun f => { f with trackNumber := 7 }) =
    ([.ok (), .ok (), .ok ()], some 0x42700000) := by decide +kernel

/-- **A file whose frames are all at 0 ms lasts one unit**, 1 ms: the placeholder remains. -/
theorem C85_placeholder : (lasting {} sampleSeg [video 0]).2 = none ∧
    (let r := Seg.run [.frame (video 0)] sampleSeg freshSink
     let f := Seg.finalizeNow {} (Seg.counted [.frame (video 0)] sampleSeg freshSink {}) r.2.1 r.2.2
     (f.2.2.data.drop 170).take 7 = [0x44, 0x89, 0x84, 0x3F, 0x80, 0, 0]) := by
  refine ⟨by decide +kernel, by decide +kernel⟩

end Verif.Props
