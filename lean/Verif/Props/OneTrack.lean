/-
C68: following one track of a recording, and seeking on it.
-/
import Verif.Props.Seeking
import Verif.Lemmas.ParserTrackFile

namespace Verif.Props
open Verif Verif.Par Verif.Mux Spec

/-- The frames of this track come in the order of their times. -/
def OnTrackInOrder (t : ReadTrack) (fs : List Frame) : Prop :=
  (fs.filter fun f => decide ((f.trackNumber : Int) = t.info.number)).Pairwise fun a b => a.timestamp ≤ b.timestamp

private theorem track_order {scale : Nat} {t : ReadTrack} {fs : List Frame} (h : OnTrackInOrder t fs) :
    ((fs.map (Frame.asWatched scale)).filter t.isOf).Pairwise fun a b => a.time ≤ b.time := by
  rw [List.filter_map, List.pairwise_map]
  refine List.Pairwise.imp ?_ h
  intro a b hab
  rw [asWatched_time, asWatched_time]
  exact Int.ofNat_le.mpr (Nat.div_le_div_right hab)

private theorem carried_times {a b : List Frame} (h : CarriedAll a b) (ha : ∀ f ∈ a, f.timestamp < 2 ^ 63) :
    ∀ f ∈ b, f.timestamp < 2 ^ 63 := by
  intro f hf
  obtain ⟨x, hx, e⟩ := h.mem f hf
  rw [← e]; exact ha x hx

private theorem TracksAs.mono {file : Bytes} {scale : Nat} {ok ok' : ReadTrack → Prop} {cs : List (Nat × List SeenFrame)}
    (h : TracksAs file scale ok cs) (hi : ∀ t, ok' t → ok t) : TracksAs file scale ok' cs := by
  intro r hr ht fuel hf
  obtain ⟨pos, head, g, g', h1, h2, h3, h4, h5⟩ := h r hr ht fuel hf
  exact ⟨pos, head, g, g', h1, h2, h3, h4, fun t => ⟨(h5 t).1, fun hok => (h5 t).2 (hi t hok)⟩⟩

private theorem seen_after {scale off : Nat} {sized : Bool} {cs : List (Nat × ClusterOf)} {bs : Bytes}
    (h : ClustersAt scale sized off cs bs) : ∀ c ∈ seenAt scale cs, ∀ f ∈ c.2, (c.1 : Int) ≤ f.time := by
  intro c hc f hf
  obtain ⟨x, hx, rfl⟩ := List.mem_map.mp hc
  obtain ⟨y, hy, rfl⟩ := List.mem_map.mp hf
  rw [asWatched_time]
  exact Int.ofNat_le.mpr (clusters_after h x hx y hy)

private theorem seen_order {scale : Nat} {cs : List (Nat × ClusterOf)} (h : (cs.map (·.2.tc)).Pairwise (· ≤ ·)) :
    ((seenAt scale cs).map (·.1)).Pairwise (· ≤ ·) := by
  simpa only [seenAt, List.map_map, Function.comp_def] using h

/-- **C68, partial.** Following one track of a recording made with the muxer, with mkvparser: for all settings, tracks,
chapters, tags and frames within mkvparser's limits the file loads into clusters that show the accepted frames, in
order, no cluster begins later than one of its frames or than the next cluster, and for every track

* `GetFirst` goes to the first frame with which playing can begin (of a video track, a key frame), if it is in the first
  100 clusters, and `GetNext` from there to every following frame of the track, until 99 clusters in a row have none;
* `Seek` on a video track, when its frames come in order of time, goes to the last key frame that is not later than
  the time asked for, or to the first one;
* `Seek` on another track goes to the first frame of the track if that is not earlier, otherwise to the first one in the
  last cluster that has any and does not begin later than the time asked for.

`C68_plays_all`, `C68_video_seek` and `C68_other_seek` draw the conclusions.  What is missing is as for
`C65_recording_partial`, and the limit of 100 clusters: see `C68_gives_up`. -/
theorem C68_recording_partial {g : Seg} {muxing writing : Bytes} {ts : List Track} {ch : Option (List Chapter)}
    {tg : Option (List Tag)}
    (hg : g.Settings muxing writing (tracksTree ts).bytes (ch.map fun c => (chaptersTree c).bytes)
      (tg.map fun t => (tagsTree t).bytes)) (hu : g.Unused) (hn : g.Numbered)
    (hacc : g.accurate = false) (hl : g.live = false)
    (hroom : g.Room (ch.map fun c => (chaptersTree c).bytes) (tg.map fun t => (tagsTree t).bytes))
    {xs : List SegCall} (hxs : g.WellFed xs) (hr : ∀ f, .frame f ∈ xs → f.Showable g.info.scale)
    {s : Sink} (hd : s.data = []) (hp : s.pos = 0) (hs : s.Sure)
    {rs : List (Res Unit)} {g1 g2 : Seg} {s1 s2 : Sink} {r : Res Unit} {d : Option Nat} {du : Option UInt32}
    (hrun : Seg.run xs g s = (rs, g1, s1)) (hfin : Seg.finalize d g1 s1 = (r, g2, s2))
    (hsm : s2.data.length < 2 ^ 48) (hw : ∃ f ∈ acceptedFrames xs rs, g.queues f = false)
    (hdu : g.lastDuration d = du.map UInt32.toNat) (hv : Viewable g.docType g.info.scale du muxing writing ts ch tg)
    (htimes : ∀ f ∈ acceptedFrames xs rs, f.timestamp < 2 ^ 63) :
    r = .ok () ∧ ∃ clusters : List (Nat × List SeenFrame),
      (clusters.map (·.2)).flatten = (acceptedFrames xs rs).map (Frame.asWatched g.info.scale) ∧
      (∀ c ∈ clusters, ∀ f ∈ c.2, (c.1 : Int) ≤ f.time) ∧ (clusters.map (·.1)).Pairwise (· ≤ ·) ∧
      TracksAs s2.data g.info.scale (fun t => t.info.type = 1 → OnTrackInOrder t (acceptedFrames xs rs)) clusters := by
  obtain ⟨h1, off, at', cs, bs, q, h2, h3, h4, -, h5, h6, h7, -, h8⟩ :=
    recording_opens hg hu hn hacc hl hroom hxs hr hd hp hs hrun hfin hsm hw hdu hv
  have e : (watchedClusters g.info.scale cs).flatten = (acceptedFrames xs rs).map (Frame.asWatched g.info.scale) := by
    rw [watchedClusters_flatten, h7]
  refine ⟨h1, seenAt g.info.scale cs, by rw [seenAt_in]; exact e, seen_after h3, seen_order h8, ?_⟩
  refine TracksAs.mono (tracks_file h2 h3 hv.info.ticks.1 rfl h8 (carried_times h5 htimes)) fun t hok hv => ?_
  rw [e]
  exact track_order (hok hv)

/-- **C68, after moving the cues to the front, partial.** The same for the copy that has the cues before the
clusters. -/
theorem C68_moved_partial {g : Seg} {muxing writing : Bytes} {ts : List Track} {ch : Option (List Chapter)}
    {tg : Option (List Tag)}
    (hg : g.Settings muxing writing (tracksTree ts).bytes (ch.map fun c => (chaptersTree c).bytes)
      (tg.map fun t => (tagsTree t).bytes)) (hu : g.Unused) (hn : g.Numbered)
    (hacc : g.accurate = false) (hl : g.live = false)
    (hroom : g.Room (ch.map fun c => (chaptersTree c).bytes) (tg.map fun t => (tagsTree t).bytes))
    (hcues : g.outputCues = true) (hseek : g.seekable = true)
    {xs : List SegCall} (hxs : g.WellFed xs) (hr : ∀ f, .frame f ∈ xs → f.Showable g.info.scale)
    {s : Sink} (hd : s.data = []) (hp : s.pos = 0) (hs : s.Sure)
    {rs : List (Res Unit)} {g1 g2 g3 : Seg} {s1 s2 s3 t : Sink} {r r' : Res Unit} {d : Option Nat} {du : Option UInt32}
    (hrun : Seg.run xs g s = (rs, g1, s1)) (hfin : Seg.finalize d g1 s1 = (r, g2, s2))
    (hsm : s2.data.length < 2 ^ 48) (hw : ∃ f ∈ acceptedFrames xs rs, g.queues f = false)
    (hmany : g2.cues.entries.length < 2 ^ 31) {depth : Nat} (hdepth : 7 * g2.cues.entries.length < depth)
    (htd : t.data = []) (htp : t.pos = 0) (hts : t.Sure)
    (hcopy : Seg.copyAndMoveCues depth true s2.data g2 t = (r', g3, s3)) (hsm3 : s3.data.length < 2 ^ 48)
    (hdu : g.lastDuration d = du.map UInt32.toNat) (hv : Viewable g.docType g.info.scale du muxing writing ts ch tg)
    (htimes : ∀ f ∈ acceptedFrames xs rs, f.timestamp < 2 ^ 63) :
    r' = .ok () ∧ ∃ clusters : List (Nat × List SeenFrame),
      (clusters.map (·.2)).flatten = (acceptedFrames xs rs).map (Frame.asWatched g.info.scale) ∧
      (∀ c ∈ clusters, ∀ f ∈ c.2, (c.1 : Int) ≤ f.time) ∧ (clusters.map (·.1)).Pairwise (· ≤ ·) ∧
      TracksAs s3.data g.info.scale (fun t => t.info.type = 1 → OnTrackInOrder t (acceptedFrames xs rs)) clusters := by
  obtain ⟨h1, off, at', cs, bs, q, h2, h3, h4, -, h5, h6, h7, -, h8⟩ :=
    moved_opens hg hu hn hacc hl hroom hcues hseek hxs hr hd hp hs hrun hfin hsm hw hmany hdepth htd htp hts hcopy hsm3 hdu hv
  have e : (watchedClusters g.info.scale cs).flatten = (acceptedFrames xs rs).map (Frame.asWatched g.info.scale) := by
    rw [watchedClusters_flatten, h7]
  refine ⟨h1, seenAt g.info.scale cs, by rw [seenAt_in]; exact e, seen_after h3, seen_order h8, ?_⟩
  refine TracksAs.mono (tracks_file h2 h3 hv.info.ticks.1 rfl h8 (carried_times h5 htimes)) fun t hok hv => ?_
  rw [e]
  exact track_order (hok hv)

/-! ### What this means -/

/-- The track is never away for 99 clusters in a row, with more clusters behind them. -/
def Often (t : ReadTrack) (cs : List (List SeenFrame)) : Prop :=
  ∀ before away after, cs = before ++ away ++ after → away.length = 99 → after ≠ [] → ∃ f ∈ away.flatten, t.isOf f = true

private theorem Often.suffix {t : ReadTrack} {a b : List (List SeenFrame)} (h : Often t (a ++ b)) : Often t b := by
  intro before away after e
  exact h (a ++ before) away after (by rw [e]; simp)

private theorem follow_all {t : ReadTrack} : ∀ (cs : List (List SeenFrame)) {n : Nat} {gone : List (List SeenFrame)},
    n + gone.length = 99 → (∀ f ∈ gone.flatten, t.isOf f = false) → Often t (gone ++ cs) →
    follow t n cs = cs.flatten.filter t.isOf := by
  intro cs
  induction cs with
  | nil => intro n gone _ _ _; cases n <;> rfl
  | cons c cs ih =>
    intro n gone hn hg ho
    cases n with
    | zero =>
      obtain ⟨f, hf, hf'⟩ := ho [] gone (c :: cs) rfl (by omega) (by simp)
      rw [hg f hf] at hf'
      cases hf'
    | succ n =>
      rw [follow, List.flatten_cons, List.filter_append]
      cases hc : c.filter t.isOf with
      | nil =>
        simp only [List.nil_append]
        refine ih (gone := gone ++ [c]) (by simp; omega) ?_ (by rw [List.append_assoc]; exact ho)
        intro f hf
        rw [List.flatten_append, List.mem_append] at hf
        rcases hf with hf | hf
        · exact hg f hf
        · rw [List.flatten_cons, List.flatten_nil, List.append_nil] at hf
          rw [List.filter_eq_nil_iff] at hc
          simpa using hc f hf
      | cons f fs =>
        simp only
        rw [ih (n := 99) (gone := []) rfl (by simp) (by
          have : gone ++ c :: cs = (gone ++ [c]) ++ cs := by simp
          rw [this] at ho
          exact ho.suffix)]

private theorem takeWhile_all {p : SeenFrame → Bool} {l : List SeenFrame} : ∀ f ∈ l.takeWhile p, p f = true := by
  induction l with
  | nil => intro f hf; cases hf
  | cons a l ih =>
    intro f hf
    by_cases ha : p a = true
    · rw [List.takeWhile_cons_of_pos ha] at hf
      rcases List.mem_cons.mp hf with rfl | hf
      · exact ha
      · exact ih f hf
    · rw [List.takeWhile_cons_of_neg ha] at hf; cases hf

private theorem firstSpot_parts {t : ReadTrack} : ∀ (cs : List (List SeenFrame)) (n : Nat) {s : Spot}, firstSpot t n cs = some s →
    ∃ pre skipped f fs, cs = pre ++ (skipped ++ f :: fs) :: s.2 ∧ s.1 = f :: fs ∧ t.starts f = true ∧
      ∀ f ∈ pre.flatten ++ skipped, t.starts f = false := by
  intro cs
  induction cs with
  | nil => intro n s h; cases n <;> cases h
  | cons c cs ih =>
    intro n s h
    cases n with
    | zero => cases h
    | succ n =>
      rw [firstSpot] at h
      cases hd : c.dropWhile fun f => !t.starts f with
      | nil =>
        rw [hd] at h
        obtain ⟨pre, sk, f, fs, h1, h2, h3, h4⟩ := ih n h
        refine ⟨c :: pre, sk, f, fs, by rw [h1]; rfl, h2, h3, fun x hx => ?_⟩
        rw [List.flatten_cons, List.append_assoc, List.mem_append] at hx
        rcases hx with hx | hx
        · exact dropWhile_none_starts hd x hx
        · exact h4 x hx
      | cons f fs =>
        rw [hd] at h
        cases h
        refine ⟨[], c.takeWhile fun f => !t.starts f, f, fs, ?_, rfl, ?_, fun x hx => ?_⟩
        · rw [← hd, List.takeWhile_append_dropWhile]; rfl
        · exact dropWhile_head hd
        · have := takeWhile_all x (by simpa using hx)
          simpa using this

private theorem firstSpot_none {t : ReadTrack} : ∀ (cs : List (List SeenFrame)) (n : Nat), firstSpot t n cs = none →
    ∀ f ∈ (cs.take n).flatten, t.starts f = false := by
  intro cs
  induction cs with
  | nil => intro n _ f hf; simp at hf
  | cons c cs ih =>
    intro n h f hf
    cases n with
    | zero => simp at hf
    | succ n =>
      rw [firstSpot] at h
      cases hd : c.dropWhile fun f => !t.starts f with
      | nil =>
        rw [hd] at h
        rw [List.take_succ_cons, List.flatten_cons, List.mem_append] at hf
        rcases hf with hf | hf
        · exact dropWhile_none_starts hd f hf
        · exact ih n h f hf
      | cons a l => rw [hd] at h; cases h

private theorem shown_all {t : ReadTrack} {pre : List (List SeenFrame)} {c : List SeenFrame} {s : Spot}
    (h : Often t (pre ++ c :: s.2)) : s.shown t = (s.1 ++ s.2.flatten).filter t.isOf := by
  unfold Spot.shown
  rw [follow_all s.2 (n := 99) (gone := []) rfl (by simp), List.filter_append]
  have e : pre ++ c :: s.2 = (pre ++ [c]) ++ s.2 := by simp
  rw [e] at h
  exact h.suffix

private theorem dropWhile_filter_starts {t : ReadTrack} {a b : List SeenFrame} {f : SeenFrame} (ha : ∀ f ∈ a, t.starts f = false)
    (hf : t.starts f = true) :
    ((a ++ f :: b).filter t.isOf).dropWhile (fun f => !t.starts f) = (f :: b).filter t.isOf := by
  rw [List.filter_append, List.filter_cons_of_pos (starts_isOf hf), List.dropWhile_append]
  rw [dropWhile_all_nil (fun x hx => by simp [ha x (List.mem_filter.mp hx).1]), List.isEmpty_nil, if_pos rfl,
    List.dropWhile_cons_of_neg (by simp [hf])]

/-- **C68, playing a track.** When the track is never away for 99 clusters and playing can begin in the first 100 (or
nowhere), `GetFirst` and `GetNext` show exactly the frames of the track, from the first with which playing can begin. -/
theorem C68_plays_all {t : ReadTrack} {cs : List (List SeenFrame)} (ho : Often t cs)
    (hs : (∃ f ∈ (cs.take 100).flatten, t.starts f = true) ∨ ∀ f ∈ cs.flatten, t.starts f = false) :
    (firstSpot t 100 cs).elim [] (Spot.shown t) = (cs.flatten.filter t.isOf).dropWhile fun f => !t.starts f := by
  cases h : firstSpot t 100 cs with
  | none =>
    rw [Option.elim_none]
    rcases hs with ⟨f, hf, hf'⟩ | hs
    · rw [firstSpot_none cs 100 h f hf] at hf'
      cases hf'
    · exact (dropWhile_all_nil fun x hx => by simp [hs x (List.mem_filter.mp hx).1]).symm
  | some s =>
    obtain ⟨pre, sk, f, fs, h1, h2, h3, h4⟩ := firstSpot_parts cs 100 h
    rw [h1] at ho
    rw [Option.elim_some, shown_all ho, h2]
    have e : cs.flatten = (pre.flatten ++ sk) ++ f :: (fs ++ s.2.flatten) := by rw [h1]; simp
    rw [e, dropWhile_filter_starts h4 h3]
    simp

private theorem last_split {α : Type} {p : α → Bool} {l : List α} {s : α} (h : (l.filter p).getLast? = some s) :
    ∃ A B, l = A ++ s :: B ∧ p s = true ∧ ∀ x ∈ B, p x = false := by
  induction l with
  | nil => cases h
  | cons a l ih =>
    by_cases ha : p a = true
    · rw [List.filter_cons_of_pos ha] at h
      cases hl : l.filter p with
      | nil =>
        rw [hl] at h
        cases h
        exact ⟨[], l, rfl, ha, fun x hx => by simpa using List.filter_eq_nil_iff.mp hl x hx⟩
      | cons b m =>
        rw [hl, List.getLast?_cons_cons, ← hl] at h
        obtain ⟨A, B, h1, h2⟩ := ih h
        exact ⟨a :: A, B, by rw [h1]; rfl, h2⟩
    · rw [List.filter_cons_of_neg ha] at h
      obtain ⟨A, B, h1, h2⟩ := ih h
      exact ⟨a :: A, B, by rw [h1]; rfl, h2⟩

private theorem spotsIn_split {later : List (List SeenFrame)} {rest B : List Spot} {s : Spot} : ∀ (c : List SeenFrame) {A : List Spot},
    spotsIn later c ++ rest = A ++ s :: B →
    (∃ a, c = a ++ s.1 ∧ s.2 = later ∧ s :: B = spotsIn later s.1 ++ rest) ∨ ∃ A', rest = A' ++ s :: B := by
  intro c
  induction c with
  | nil => intro A h; exact .inr ⟨A, h⟩
  | cons f fs ih =>
    intro A h
    rw [spotsIn, List.cons_append] at h
    cases A with
    | nil =>
      rw [List.nil_append] at h
      have h1 := (List.cons.inj h).1
      subst h1
      exact .inl ⟨[], rfl, rfl, h.symm⟩
    | cons x A =>
      rcases ih (List.cons.inj h).2 with ⟨a, h1, h2⟩ | h1
      · exact .inl ⟨f :: a, by rw [h1]; rfl, h2⟩
      · exact .inr h1

private theorem spots_split {B : List Spot} {s : Spot} : ∀ (cs : List (List SeenFrame)) {A : List Spot}, spots cs = A ++ s :: B →
    ∃ pre a, cs = pre ++ (a ++ s.1) :: s.2 ∧ s :: B = spotsIn s.2 s.1 ++ spots s.2 := by
  intro cs
  induction cs with
  | nil => intro A h; rw [spots] at h; exact absurd h (by simp)
  | cons c cs ih =>
    intro A h
    rw [spots] at h
    rcases spotsIn_split c h with ⟨a, h1, h2, h3⟩ | ⟨A', h1⟩
    · subst h2
      exact ⟨[], a, by rw [h1]; rfl, h3⟩
    · obtain ⟨pre, a, h2, h3⟩ := ih h1
      exact ⟨c :: pre, a, by rw [h2]; rfl, h3⟩

private theorem spotsIn_covers {later : List (List SeenFrame)} : ∀ (c : List SeenFrame), ∀ f ∈ c, ∃ s ∈ spotsIn later c, s.1.head? = some f := by
  intro c
  induction c with
  | nil => intro f hf; cases hf
  | cons a c ih =>
    intro f hf
    rcases List.mem_cons.mp hf with rfl | hf
    · exact ⟨_, List.mem_cons_self, rfl⟩
    · obtain ⟨s, h1, h2⟩ := ih f hf
      exact ⟨s, List.mem_cons_of_mem _ h1, h2⟩

private theorem spots_covers : ∀ (cs : List (List SeenFrame)), ∀ f ∈ cs.flatten, ∃ s ∈ spots cs, s.1.head? = some f := by
  intro cs
  induction cs with
  | nil => intro f hf; simp at hf
  | cons c cs ih =>
    intro f hf
    rw [List.flatten_cons, List.mem_append] at hf
    rw [spots]
    rcases hf with hf | hf
    · obtain ⟨s, h1, h2⟩ := spotsIn_covers (later := cs) c f hf
      exact ⟨s, List.mem_append_left _ h1, h2⟩
    · obtain ⟨s, h1, h2⟩ := ih f hf
      exact ⟨s, List.mem_append_right _ h1, h2⟩

private theorem starts_video {t : ReadTrack} (hv : t.info.type = 1) {f : SeenFrame} : t.starts f = (t.isOf f && f.key) := by
  unfold ReadTrack.starts
  simp [hv]

private theorem firstSpot_of {t : ReadTrack} {cs : List (List SeenFrame)} (h : ∃ f ∈ (cs.take 100).flatten, t.starts f = true) :
    ∃ s, firstSpot t 100 cs = some s := by
  cases h' : firstSpot t 100 cs with
  | some s => exact ⟨s, rfl⟩
  | none =>
    obtain ⟨f, hf, hf'⟩ := h
    rw [firstSpot_none cs 100 h' f hf] at hf'
    cases hf'

/-- **C68, seeking on a video track.** When the track is never away for 99 clusters and has a key frame in the first 100,
then after `Seek(time)` the application sees frame `f` and all that follow on the track, where `f` is a key frame: the
first one, if that is not earlier than `time`, or else the last one that is not later than `time`. -/
theorem C68_video_seek {t : ReadTrack} {scale : Nat} {time : Int} {cs : List (Nat × List SeenFrame)} (hv : t.info.type = 1)
    (ho : Often t (cs.map (·.2))) (hs : ∃ f ∈ ((cs.map (·.2)).take 100).flatten, t.isOf f = true ∧ f.key = true) :
    ∃ before f after, (cs.map (·.2)).flatten.filter t.isOf = before ++ f :: after ∧
      (seekSpot t scale time cs).elim [] (Spot.shown t) = f :: after ∧ f.key = true ∧
      ((time ≤ f.time * scale ∧ ∀ x ∈ before, x.key = false) ∨
        (f.time * scale ≤ time ∧ ∀ x ∈ after, x.key = true → time < x.time * scale)) := by
  obtain ⟨s0, h0⟩ := firstSpot_of (t := t) (cs := cs.map (·.2)) (by
    obtain ⟨f, hf, h1, h2⟩ := hs
    exact ⟨f, hf, by rw [starts_video hv, h1, h2]; rfl⟩)
  generalize hcs : cs.map (·.2) = css at *
  obtain ⟨pre, sk, f, fs, h1, h2, h3, h4⟩ := firstSpot_parts css 100 h0
  have hf3 : t.isOf f = true ∧ f.key = true := by rw [starts_video hv, Bool.and_eq_true] at h3; exact h3
  unfold seekSpot videoSpot
  rw [if_pos hv, hcs, h0]
  simp only
  by_cases ht : time ≤ s0.time scale
  · rw [if_pos ht, Option.elim_some]
    have hsa := shown_all (s := s0) (h1 ▸ ho)
    rw [h2, List.cons_append, List.filter_cons_of_pos hf3.1] at hsa
    refine ⟨(pre.flatten ++ sk).filter t.isOf, f, (fs ++ s0.2.flatten).filter t.isOf, ?_, hsa, hf3.2, .inl ⟨?_, fun x hx => ?_⟩⟩
    · rw [← List.filter_cons_of_pos hf3.1, ← List.filter_append]
      conv => lhs; rw [h1]
      simp
    · unfold Spot.time at ht
      rw [h2] at ht
      exact ht
    · obtain ⟨x1, x2⟩ := List.mem_filter.mp hx
      have := h4 x x1
      rw [starts_video hv, x2] at this
      simpa using this
  · rw [if_neg ht]
    have hmem : ∃ s, ((spots css).filter fun s => s.starts t && decide (s.time scale ≤ time)).getLast? = some s := by
      cases hg : ((spots css).filter fun s => s.starts t && decide (s.time scale ≤ time)).getLast? with
      | some s => exact ⟨s, rfl⟩
      | none =>
        rw [List.getLast?_eq_none_iff, List.filter_eq_nil_iff] at hg
        obtain ⟨s, hs1, hs2⟩ := spots_covers css f (by rw [h1]; simp)
        refine absurd ?_ (hg s hs1)
        have e1 : s.starts t = true := by unfold Spot.starts; rw [hs2]; exact h3
        have e2 : s.time scale ≤ time := by
          have : s.time scale = s0.time scale := by unfold Spot.time; rw [hs2, h2]; rfl
          omega
        rw [e1, decide_eq_true e2]; rfl
    obtain ⟨s, hs'⟩ := hmem
    rw [hs', Option.elim_some]
    obtain ⟨A, B, k1, k2, k3⟩ := last_split hs'
    obtain ⟨p, a, k4, k5⟩ := spots_split css k1
    obtain ⟨l, later⟩ := s
    cases l with
    | nil => simp [Spot.starts] at k2
    | cons x xs =>
      rw [Bool.and_eq_true, decide_eq_true_iff] at k2
      have hx3 : t.isOf x = true ∧ x.key = true := by
        have : t.starts x = true := k2.1
        rw [starts_video hv, Bool.and_eq_true] at this; exact this
      have hsa := shown_all (s := (x :: xs, later)) (k4 ▸ ho)
      simp only [List.cons_append] at hsa
      rw [List.filter_cons_of_pos hx3.1] at hsa
      refine ⟨(p.flatten ++ a).filter t.isOf, x, (xs ++ later.flatten).filter t.isOf, ?_, hsa, hx3.2, .inr ⟨k2.2, fun y hy hk => ?_⟩⟩
      · rw [← List.filter_cons_of_pos hx3.1, ← List.filter_append]
        conv => lhs; rw [k4]
        simp
      · obtain ⟨y1, y2⟩ := List.mem_filter.mp hy
        simp only [spotsIn, List.cons_append, List.cons.injEq, true_and] at k5
        have hB : ∃ s ∈ B, s.1.head? = some y := by
          rw [k5]
          rcases List.mem_append.mp y1 with y1 | y1
          · obtain ⟨s, e1, e2⟩ := spotsIn_covers (later := later) xs y y1
            exact ⟨s, List.mem_append_left _ e1, e2⟩
          · obtain ⟨s, e1, e2⟩ := spots_covers later y y1
            exact ⟨s, List.mem_append_right _ e1, e2⟩
        obtain ⟨s, e1, e2⟩ := hB
        have hno := k3 s e1
        have est : s.starts t = true := by
          unfold Spot.starts; rw [e2]
          show t.starts y = true
          rw [starts_video hv, y2, hk]; rfl
        rw [est, Bool.true_and, decide_eq_false_iff_not] at hno
        have etime : s.time scale = y.time * scale := by unfold Spot.time; rw [e2]; rfl
        omega

private theorem clusterSpots_split {t : ReadTrack} {B : List (Nat × Spot)} {s : Nat × Spot} : ∀ (cs : List (Nat × List SeenFrame))
    {A : List (Nat × Spot)}, clusterSpots t cs = A ++ s :: B →
    ∃ pre skipped f fs post, cs = pre ++ (s.1, skipped ++ f :: fs) :: post ∧ s.2 = (f :: fs, post.map (·.2)) ∧ t.starts f = true ∧
      (∀ f ∈ skipped, t.starts f = false) ∧ B = clusterSpots t post := by
  intro cs
  induction cs with
  | nil => intro A h; rw [clusterSpots] at h; exact absurd h (by simp)
  | cons c cs ih =>
    intro A h
    obtain ⟨tc, c⟩ := c
    rw [clusterSpots] at h
    cases hd : c.dropWhile fun f => !t.starts f with
    | nil =>
      rw [hd] at h
      obtain ⟨pre, sk, f, fs, post, h1, h2⟩ := ih h
      exact ⟨(tc, c) :: pre, sk, f, fs, post, by rw [h1]; rfl, h2⟩
    | cons f fs =>
      rw [hd] at h
      cases A with
      | nil =>
        rw [List.nil_append] at h
        obtain ⟨h1, h2⟩ := List.cons.inj h
        subst h1
        refine ⟨[], c.takeWhile fun f => !t.starts f, f, fs, cs, ?_, rfl, dropWhile_head hd, fun x hx => ?_, h2.symm⟩
        · rw [← hd, List.takeWhile_append_dropWhile]; rfl
        · simpa using takeWhile_all x hx
      | cons x A =>
        obtain ⟨pre, sk, g, gs, post, h1, h2⟩ := ih (List.cons.inj h).2
        exact ⟨(tc, c) :: pre, sk, g, gs, post, by rw [h1]; rfl, h2⟩

private theorem clusterSpots_covers {t : ReadTrack} : ∀ (cs : List (Nat × List SeenFrame)), ∀ c ∈ cs, (∃ f ∈ c.2, t.starts f = true) →
    ∃ s ∈ clusterSpots t cs, s.1 = c.1 := by
  intro cs
  induction cs with
  | nil => intro c hc; cases hc
  | cons d cs ih =>
    intro c hc hf
    obtain ⟨tc, d⟩ := d
    rw [clusterSpots]
    rcases List.mem_cons.mp hc with rfl | hc
    · obtain ⟨f, hf, hf'⟩ := hf
      cases hd : d.dropWhile fun f => !t.starts f with
      | nil => rw [dropWhile_none_starts hd f hf] at hf'; cases hf'
      | cons a l => exact ⟨_, List.mem_cons_self, rfl⟩
    · obtain ⟨s, h1, h2⟩ := ih c hc hf
      cases hd : d.dropWhile fun f => !t.starts f with
      | nil => exact ⟨s, h1, h2⟩
      | cons a l => exact ⟨s, List.mem_cons_of_mem _ h1, h2⟩

private theorem starts_other {t : ReadTrack} (hv : t.info.type ≠ 1) {f : SeenFrame} : t.starts f = t.isOf f := by
  unfold ReadTrack.starts
  simp [hv]

/-- **C68, seeking on another track.** When the track is never away for 99 clusters and has a frame in the first 100, then
after `Seek(time)` the application sees frame `f` and all that follow on the track, where `f` is the first one of the
track, if that is not earlier than `time`, or else the first one in a cluster that does not begin later than `time`,
while all later clusters with frames of the track do. -/
theorem C68_other_seek {t : ReadTrack} {scale : Nat} {time : Int} {cs : List (Nat × List SeenFrame)} (hv : t.info.type ≠ 1)
    (ho : Often t (cs.map (·.2))) (hs : ∃ f ∈ ((cs.map (·.2)).take 100).flatten, t.isOf f = true)
    (hafter : ∀ c ∈ cs, ∀ f ∈ c.2, (c.1 : Int) ≤ f.time) :
    ∃ before f after, (cs.map (·.2)).flatten.filter t.isOf = before ++ f :: after ∧
      (seekSpot t scale time cs).elim [] (Spot.shown t) = f :: after ∧
      ((time ≤ f.time * scale ∧ before = []) ∨
        ∃ (pre : List (Nat × List SeenFrame)) (tc : Nat) (skipped fs : List SeenFrame) (post : List (Nat × List SeenFrame)),
          cs = pre ++ (tc, skipped ++ f :: fs) :: post ∧
          before = (pre.map (·.2)).flatten.filter t.isOf ∧ (tc : Int) * scale ≤ time ∧
          ∀ c ∈ post, (∃ x ∈ c.2, t.isOf x = true) → time < (c.1 : Int) * scale) := by
  obtain ⟨s0, h0⟩ := firstSpot_of (t := t) (cs := cs.map (·.2)) (by
    obtain ⟨f, hf, h1⟩ := hs
    exact ⟨f, hf, by rw [starts_other hv, h1]⟩)
  obtain ⟨pre, sk, f, fs, h1, h2, h3, h4⟩ := firstSpot_parts _ 100 h0
  have hf3 : t.isOf f = true := by rw [starts_other hv] at h3; exact h3
  unfold seekSpot otherSpot
  rw [if_neg hv, h0]
  simp only
  by_cases ht : time ≤ s0.time scale
  · rw [if_pos ht, Option.elim_some]
    have hsa := shown_all (s := s0) (h1 ▸ ho)
    rw [h2, List.cons_append, List.filter_cons_of_pos hf3] at hsa
    refine ⟨[], f, (fs ++ s0.2.flatten).filter t.isOf, ?_, hsa, .inl ⟨?_, rfl⟩⟩
    · have hnil : (pre.flatten ++ sk).filter t.isOf = [] := by
        rw [List.filter_eq_nil_iff]
        intro x hx
        have := h4 x hx
        rw [starts_other hv] at this
        simp [this]
      rw [← List.filter_cons_of_pos hf3, ← hnil, ← List.filter_append, h1]
      simp
    · unfold Spot.time at ht
      rw [h2] at ht
      exact ht
  · rw [if_neg ht]
    obtain ⟨s, hs'⟩ : ∃ s, ((clusterSpots t cs).filter fun s => decide (((s.1 * scale : Nat) : Int) ≤ time)).getLast? = some s := by
      cases hg : ((clusterSpots t cs).filter fun s => decide (((s.1 * scale : Nat) : Int) ≤ time)).getLast? with
      | some s => exact ⟨s, rfl⟩
      | none =>
        rw [List.getLast?_eq_none_iff, List.filter_eq_nil_iff] at hg
        have hc : (sk ++ f :: fs) ∈ cs.map (·.2) := by rw [h1]; simp
        obtain ⟨c, hc1, hc2⟩ := List.mem_map.mp hc
        have hfc : f ∈ c.2 := by rw [hc2]; simp
        obtain ⟨s, e1, e2⟩ := clusterSpots_covers cs c hc1 ⟨f, hfc, h3⟩
        refine absurd ?_ (hg s e1)
        have e3 := Int.mul_le_mul_of_nonneg_right (hafter c hc1 f hfc) (Int.natCast_nonneg scale)
        have e4 : s0.time scale = f.time * scale := by unfold Spot.time; rw [h2]; rfl
        rw [decide_eq_true_iff, e2, Int.natCast_mul]
        omega
    rw [hs', Option.map_some, Option.elim_some]
    obtain ⟨A, B, k1, k2, k3⟩ := last_split hs'
    obtain ⟨p, a, x, xs, post, k4, k5, k6, k7, k8⟩ := clusterSpots_split cs k1
    have hx3 : t.isOf x = true := by rw [starts_other hv] at k6; exact k6
    have k4' : cs.map (·.2) = p.map (·.2) ++ (a ++ x :: xs) :: s.2.2 := by rw [k4, k5]; simp
    have hsa := shown_all (s := s.2) (k4' ▸ ho)
    rw [k5] at hsa ⊢
    simp only [List.cons_append] at hsa
    rw [List.filter_cons_of_pos hx3] at hsa
    refine ⟨(p.map (·.2)).flatten.filter t.isOf, x, (xs ++ (post.map (·.2)).flatten).filter t.isOf, ?_, hsa,
      .inr ⟨p, s.1, a, xs, post, k4, rfl, ?_, fun c hc hf => ?_⟩⟩
    · have hnil : a.filter t.isOf = [] := by
        rw [List.filter_eq_nil_iff]
        intro y hy
        have := k7 y hy
        rw [starts_other hv] at this
        simp [this]
      rw [k4', k5, List.flatten_append, List.filter_append, List.flatten_cons, List.filter_append, List.filter_append, hnil,
        List.nil_append, List.filter_cons_of_pos hx3, List.cons_append, List.filter_append]
    · rw [decide_eq_true_iff, Int.natCast_mul] at k2
      exact k2
    · obtain ⟨y, y1, y2⟩ := hf
      obtain ⟨s', e1, e2⟩ := clusterSpots_covers post c hc ⟨y, y1, by rw [starts_other hv, y2]⟩
      have := k3 s' (k8 ▸ e1)
      rw [decide_eq_false_iff_not, e2, Int.natCast_mul] at this
      omega

/-! ### What following a track and seeking on it do not do -/

/-- Opening a file, loading it, and using its track number `n` (counting from 0). -/
def onTrack (file : Bytes) (n : Nat) (use : Rdr → ReadTrack → ReadSegment → Res (List SeenFrame)) : Res (List SeenFrame) :=
  match createInstance { data := file, total := file.length } 0 with
  | .ok g =>
    match ((g.load { data := file, total := file.length } 3000).1.tracks.bind fun ts => ts[n]?) with
    | some t => use { data := file, total := file.length } t (g.load { data := file, total := file.length } 3000).1
    | none => .ub
  | .err c => .err c
  | .ub => .ub

/-- What is before the clusters in `longFile`: a video track with number 1 and an audio track with number 2. -/
def twoTracks : Bytes := longFile.take 138

/-- A cluster with these blocks. -/
def smallCluster (tc : UInt8) (blocks : List Bytes) : Bytes :=
  [0x1F, 0x43, 0xB6, 0x75, UInt8.ofNat (0x80 + (3 + blocks.flatten.length)), 0xE7, 0x81, tc] ++ blocks.flatten

/-- A SimpleBlock with one byte of data, and with a timecode of two bytes; `flags` is 0x80 for a key frame. -/
def smallBlock (track hi lo flags : UInt8) : Bytes := [0xA3, 0x85, 0x80 + track, hi, lo, flags, 1]

private theorem firstSpot_no {t : ReadTrack} : ∀ (n : Nat) {cs : List (List SeenFrame)},
    (∀ f ∈ (cs.take n).flatten, t.starts f = false) → firstSpot t n cs = none := by
  intro n
  induction n with
  | zero => intro cs _; cases cs <;> rfl
  | succ n ih =>
    intro cs h
    cases cs with
    | nil => rfl
    | cons c cs =>
      rw [List.take_succ_cons, List.flatten_cons] at h
      rw [firstSpot, dropWhile_all_nil fun f hf => by rw [h f (List.mem_append_left _ hf)]; rfl]
      exact ih fun f hf => h f (List.mem_append_right _ hf)

/-- **A track that begins late is taken to be empty**: whatever comes later, nothing of a track is shown when the first 100
clusters have no frame with which it can begin. -/
theorem C68_gives_up {file : Bytes} {scale : Nat} {ok : ReadTrack → Prop} {cs : List (Nat × List SeenFrame)}
    (h : TracksAs file scale ok cs) {t : ReadTrack} (hno : ∀ f ∈ ((cs.map (·.2)).take 100).flatten, t.starts f = false)
    {r : Rdr} (hr : r.data = file) (ht : r.total = file.length) {fuel : Nat} (hf : file.length < fuel) :
    ∃ pos head g, ebmlHeadParse r = .ok (.done pos head) ∧ createInstance r pos = .ok g ∧
      playWhole r fuel t (g.load r fuel).1 = .ok [] := by
  obtain ⟨pos, head, g, g', h1, h2, h3, -, h4⟩ := h r hr ht fuel hf
  refine ⟨pos, head, g, h1, h2, ?_⟩
  rw [h3, (h4 t).1, firstSpot_no 100 hno]
  rfl

/-- For example a video track whose first frame is behind 100 clusters with audio. -/
example {t : ReadTrack} (hn : t.info.number = 1) (tail : List (Nat × List SeenFrame)) :
    ∀ f ∈ (((List.replicate 100 (0, [({ time := 0, track := 2, data := [1], key := true } : SeenFrame)]) ++ tail).map
      (fun c : Nat × List SeenFrame => c.2)).take 100).flatten, t.starts f = false := by
  intro f hf
  rw [List.map_append, List.map_replicate, List.take_left' (by simp)] at hf
  obtain ⟨l, hl, hf⟩ := List.mem_flatten.mp hf
  rw [List.eq_of_mem_replicate hl] at hf
  cases List.mem_singleton.mp hf
  simp [ReadTrack.starts, ReadTrack.isOf, hn]

/-- **`Seek` on an audio track may arrive later than asked**, although there are frames before: it looks at the times of
the clusters only, and at the first frame of the track in the one it has found. -/
theorem C68_audio_seek_late :
    onTrack (twoTracks ++ (smallCluster 0 [smallBlock 1 0 0 0x80, smallBlock 2 0 0 0x80] ++
      smallCluster 60 [smallBlock 1 0 0 0x80, smallBlock 2 0 30 0x80])) 1 (fun r t g => playSeek r 3000 t 70000000 g) =
      .ok [{ time := 90, track := 2, data := [1], key := true }] := by
  decide +kernel

/-- **`Seek` goes wrong on frames earlier than their cluster**: the format permits blocks with a time relative to
the cluster that is negative, and they are shown, but when the first one of the track is such a block, a `Seek` to a
time between it and its cluster fails an assertion, and without assertions reads what is in memory before the table
of clusters. -/
theorem C68_seek_before_cluster :
    onTrack (twoTracks ++ smallCluster 100 [smallBlock 1 255 206 0x80, smallBlock 1 0 0 0]) 0
      (fun r t g => playWhole r 3000 t g) =
      .ok [{ time := 50, track := 1, data := [1], key := true }, { time := 100, track := 1, data := [1], key := false }] ∧
    onTrack (twoTracks ++ smallCluster 100 [smallBlock 1 255 206 0x80, smallBlock 1 0 0 0]) 0
      (fun r t g => playSeek r 3000 t 60000000 g) = .ub := by
  refine ⟨?_, ?_⟩ <;> decide +kernel

/-! ### Examples -/

/-- The recording of `Props/Timeline.lean`: six frames in two tracks, in three clusters. -/
example : ∃ clusters : List (Nat × List SeenFrame),
    (clusters.map (·.2)).flatten = recordedFrames.map (Frame.asWatched 1000000) ∧
    (∀ c ∈ clusters, ∀ f ∈ c.2, (c.1 : Int) ≤ f.time) ∧ (clusters.map (·.1)).Pairwise (· ≤ ·) ∧
    TracksAs (Seg.finalize (some 0x40000000) (Seg.run (recordedFrames.map .frame) recordingSeg freshSink).2.1
      (Seg.run (recordedFrames.map .frame) recordingSeg freshSink).2.2).2.2.data 1000000
      (fun t => t.info.type = 1 → OnTrackInOrder t recordedFrames) clusters := by
  have h1 := rec_outcome
  have h2 := rec_small
  rcases hrun : Seg.run (recordedFrames.map .frame) recordingSeg freshSink with ⟨rs, g1, s1⟩
  rw [hrun] at h1 h2
  simp only at h1 h2
  subst h1
  rcases hfin : Seg.finalize (some 0x40000000) g1 s1 with ⟨r, g2, s2⟩
  simp only [hfin] at h2 ⊢
  exact (C68_recording_partial (ch := none) (tg := some _) rec_settings ⟨rfl, rfl, rfl, rfl, rfl, rfl, rfl, rfl, rfl, rfl⟩
    (by unfold Seg.Numbered; decide) rfl rfl (by unfold Seg.Room; decide) rec_fed (fun f hf => by
      simp only [recordedFrames, List.map_cons, List.map_nil, List.mem_cons, List.not_mem_nil, or_false, SegCall.frame.injEq] at hf
      rcases hf with rfl | rfl | rfl | rfl | rfl | rfl <;> exact ⟨by decide, by decide⟩) rfl rfl (fun _ => rfl) hrun hfin h2
    ⟨video 0, by decide, by decide⟩ rfl rec_viewable (by decide)).2

/-- The frames of that recording come in order on every track. -/
example (t : ReadTrack) : OnTrackInOrder t recordedFrames := by
  unfold OnTrackInOrder
  exact List.Pairwise.filter _ (by decide)

/-- Following the video track and seeking on it in `longFile`. -/
example :
    onTrack longFile 0 (fun r t g => playWhole r 3000 t g) =
      .ok [{ time := 0, track := 1, data := [1], key := true }, { time := 33, track := 1, data := [1], key := false },
        { time := 66, track := 1, data := [1], key := false }] ∧
    onTrack longFile 0 (fun r t g => playSeek r 3000 t 66000000 g) = onTrack longFile 0 (fun r t g => playWhole r 3000 t g) ∧
    onTrack longFile 1 (fun r t g => playWhole r 3000 t g) = .ok [] := by
  refine ⟨?_, ?_, ?_⟩ <;> decide +kernel

/-- Two tracks in two clusters, to which `C68_plays_all`, `C68_video_seek` and `C68_other_seek` apply. -/
def fewClusters : List (Nat × List SeenFrame) :=
  [(0, [{ time := 0, track := 1, data := [1], key := true }, { time := 5, track := 2, data := [2], key := true },
      { time := 33, track := 1, data := [3], key := false }]),
    (66, [{ time := 66, track := 1, data := [4], key := true }, { time := 70, track := 2, data := [5], key := true }])]

private theorem few_often (t : ReadTrack) : Often t (fewClusters.map (·.2)) := by
  intro before away after e hl
  have := congrArg List.length e
  simp only [List.length_append, hl] at this
  simp [fewClusters] at this
  omega

example {t : ReadTrack} (hv : t.info.type = 1) (hn : t.info.number = 1) :
    ∃ before f after, (fewClusters.map (·.2)).flatten.filter t.isOf = before ++ f :: after ∧
      (seekSpot t 1000000 66000000 fewClusters).elim [] (Spot.shown t) = f :: after ∧ f.key = true ∧
      (((66000000 : Int) ≤ f.time * (1000000 : Nat) ∧ ∀ x ∈ before, x.key = false) ∨
        (f.time * (1000000 : Nat) ≤ 66000000 ∧ ∀ x ∈ after, x.key = true → 66000000 < x.time * (1000000 : Nat))) :=
  C68_video_seek hv (few_often t) ⟨_, List.mem_cons_self, by simp [ReadTrack.isOf, hn], rfl⟩

example {t : ReadTrack} (hv : t.info.type = 2) (hn : t.info.number = 2) :
    ∃ before f after, (fewClusters.map (·.2)).flatten.filter t.isOf = before ++ f :: after ∧
      (seekSpot t 1000000 66000000 fewClusters).elim [] (Spot.shown t) = f :: after := by
  obtain ⟨b, f, a, h1, h2, -⟩ := C68_other_seek (time := 66000000) (scale := 1000000) (cs := fewClusters) (by omega) (few_often t)
    ⟨_, List.mem_cons_of_mem _ List.mem_cons_self, by simp [ReadTrack.isOf, hn]⟩ (by unfold fewClusters; decide)
  exact ⟨b, f, a, h1, h2⟩

end Verif.Props
