/-
The copying loop of the muxer sample.
-/
import Verif.Spec.Sample
import Verif.Lemmas.VttFile
import Verif.Lemmas.AnyFile
import Verif.Props.WebVtt

namespace Verif.Sample
open Verif Verif.Par Verif.Mux Verif.Spec Verif.Vtt Verif.Vtt.Spec

/-! ### One thing after the other -/

theorem andThen_assoc (x : Res Unit × St) (f g : St → Res Unit × St) :
    St.andThen (St.andThen x f) g = St.andThen x fun st => St.andThen (f st) g := by
  rcases x with ⟨_ | _ | _, st⟩ <;> rfl

theorem andThen_ok (x : Res Unit × St) : (St.andThen x fun st => (.ok (), st)) = x := by
  rcases x with ⟨_ | _ | _, st⟩ <;> rfl

/-- Handing over frames until one is refused. -/
def handOver : List Frame → Seg → Sink → Res Unit × Seg × Sink
  | [], g, s => (.ok (), g, s)
  | f :: fs, g, s =>
    match Seg.addGenericFrame f g s with
    | (.ok (), g', s') => handOver fs g' s'
    | (.err _, g', s') => (.err (-1), g', s')
    | (.ub, g', s') => (.ub, g', s')

theorem handOver_append : ∀ (a b : List Frame) (g : Seg) (s : Sink), handOver (a ++ b) g s =
    match handOver a g s with
    | (.ok (), g', s') => handOver b g' s'
    | (.err e, g', s') => (.err e, g', s')
    | (.ub, g', s') => (.ub, g', s')
  | [], _, _, _ => rfl
  | f :: a, b, g, s => by
    rw [List.cons_append, handOver, handOver]
    rcases h : Seg.addGenericFrame f g s with ⟨_ | _ | _, g', s'⟩
    · simp only
      exact handOver_append a b g' s'
    · rfl
    · rfl

/-- In terms of the calls. -/
theorem handOver_run : ∀ (fs : List Frame) {g g' : Seg} {s s' : Sink} {r : Res Unit}, handOver fs g s = (r, g', s') →
    ∃ pre post rs, fs = pre ++ post ∧ Seg.run (pre.map .frame) g s = (rs, g', s') ∧
      ((r = .ok () ∧ post = [] ∧ rs = List.replicate fs.length (.ok ())) ∨
        (r ≠ .ok () ∧ ∃ n x, rs = List.replicate n (.ok ()) ++ [x] ∧ x ≠ .ok ()))
  | [], g, g', s, s', r, h => by
    rw [handOver] at h
    cases h
    exact ⟨[], [], [], rfl, rfl, .inl ⟨rfl, rfl, rfl⟩⟩
  | f :: fs, g, g', s, s', r, h => by
    rw [handOver] at h
    rcases ha : Seg.addGenericFrame f g s with ⟨x, g1, s1⟩
    rw [ha] at h
    have hc : ∀ xs, Seg.run (.frame f :: xs) g s = (x :: (Seg.run xs g1 s1).1, (Seg.run xs g1 s1).2.1, (Seg.run xs g1 s1).2.2) := by
      intro xs
      rw [Seg.run]
      have : Seg.call (.frame f) g s = (x, g1, s1) := ha
      rw [this]
    cases x with
    | ok _ =>
      obtain ⟨pre, post, rs, h1, h2, h3⟩ := handOver_run fs h
      refine ⟨f :: pre, post, .ok () :: rs, by rw [h1]; rfl, ?_, ?_⟩
      · rw [List.map_cons, hc, h2]
      · rcases h3 with ⟨a, b, c⟩ | ⟨a, n, x, b, c⟩
        · exact .inl ⟨a, b, by rw [c]; rfl⟩
        · exact .inr ⟨a, n + 1, x, by rw [b]; rfl, c⟩
    | err e =>
      cases h
      exact ⟨[f], fs, [.err e], rfl, by rw [List.map_cons, hc]; rfl, .inr ⟨by simp, 0, _, rfl, by simp⟩⟩
    | ub =>
      cases h
      exact ⟨[f], fs, [.ub], rfl, by rw [List.map_cons, hc]; rfl, .inr ⟨by simp, 0, _, rfl, by simp⟩⟩

/-! ### Cues -/

/-- A cue whose times can be counted. -/
structure Counted (x : TrackCue) : Prop where
  start : Normal x.cue.start
  order : millisOf x.cue.start ≤ millisOf x.cue.stop
  range : millisOf x.cue.stop * 1000000 < 2 ^ 63

theorem frame_counted {x : TrackCue} (h : Counted x) : x.frame = .ok (cueAsFrame x) := by
  have h0 := millis_nonneg h.start
  have h1 := h.order
  have h2 := h.range
  unfold TrackCue.frame
  rw [ns_ok h0 (by omega), Res.bind_ok, ns_ok (by omega) h2, Res.bind_ok, i64_ok (by omega), Res.bind_ok,
    toU64_nat (by omega) (by omega), toU64_nat (by omega) (by omega)]
  unfold cueAsFrame
  congr 3
  omega

theorem handOver_cons_ok {f : Frame} {fs : List Frame} {g g' : Seg} {s s' : Sink} (h : Seg.addGenericFrame f g s = (.ok (), g', s')) :
    handOver (f :: fs) g s = handOver fs g' s' := by
  rw [handOver, h]

/-- Writing the cues that are due. -/
theorem writeCues_spec {time : Int} (ht : 0 ≤ time) : ∀ {set : List TrackCue} (_ : ∀ x ∈ set, Counted x) (g : Seg) (s : Sink),
    ∃ set', writeCues time set g s =
      ((handOver ((set.takeWhile fun x => startNs x ≤ time).map cueAsFrame) g s).1, set',
        (handOver ((set.takeWhile fun x => startNs x ≤ time).map cueAsFrame) g s).2) ∧
      ((handOver ((set.takeWhile fun x => startNs x ≤ time).map cueAsFrame) g s).1 = .ok () →
        set' = set.dropWhile fun x => startNs x ≤ time)
  | [], _, g, s => ⟨[], rfl, fun _ => rfl⟩
  | x :: xs, h, g, s => by
    have hx := h x (by simp)
    have h0 := millis_nonneg hx.start
    have h1 := hx.order
    have h2 := hx.range
    rw [writeCues, if_pos ht, ns_ok h0 (by omega)]
    simp only [Res.map]
    have hns : millisOf x.cue.start * 1000000 = startNs x := rfl
    rw [hns]
    by_cases hd : startNs x ≤ time
    · have e1 : decide (startNs x > time) = false := by simp; omega
      rw [e1]
      simp only
      rw [List.takeWhile_cons_of_pos (by simpa using hd), List.dropWhile_cons_of_pos (by simpa using hd), frame_counted hx]
      simp only [List.map_cons]
      rcases ha : Seg.addGenericFrame (cueAsFrame x) g s with ⟨_ | _ | _, g', s'⟩
      · simp only
        rw [handOver_cons_ok ha]
        exact writeCues_spec ht (fun y hy => h y (by simp [hy])) g' s'
      · refine ⟨x :: xs, ?_, ?_⟩
        · rw [handOver, ha]
        · rw [handOver, ha]; intro h; cases h
      · refine ⟨x :: xs, ?_, ?_⟩
        · rw [handOver, ha]
        · rw [handOver, ha]; intro h; cases h
    · have e1 : decide (startNs x > time) = true := by simp; omega
      rw [e1]
      simp only
      rw [List.takeWhile_cons_of_neg (by simpa using hd), List.dropWhile_cons_of_neg (by simpa using hd)]
      exact ⟨x :: xs, rfl, fun _ => rfl⟩

/-- Writing all cues. -/
theorem writeCues_all : ∀ {set : List TrackCue} (_ : ∀ x ∈ set, Counted x) (g : Seg) (s : Sink),
    ∃ set', writeCues (-1) set g s = ((handOver (set.map cueAsFrame) g s).1, set', (handOver (set.map cueAsFrame) g s).2) ∧
      ((handOver (set.map cueAsFrame) g s).1 = .ok () → set' = [])
  | [], _, g, s => ⟨[], rfl, fun _ => rfl⟩
  | x :: xs, h, g, s => by
    rw [writeCues, if_neg (by decide)]
    simp only
    rw [frame_counted (h x (by simp))]
    simp only [List.map_cons]
    rcases ha : Seg.addGenericFrame (cueAsFrame x) g s with ⟨_ | _ | _, g', s'⟩
    · simp only
      rw [handOver_cons_ok ha]
      exact writeCues_all (fun y hy => h y (by simp [hy])) g' s'
    · refine ⟨x :: xs, ?_, ?_⟩
      · rw [handOver, ha]
      · rw [handOver, ha]; intro h; cases h
    · refine ⟨x :: xs, ?_, ?_⟩
      · rw [handOver, ha]
      · rw [handOver, ha]; intro h; cases h

/-! ### The frames that are shown -/

theorem copyFor_some {o : Choice} {tracks : List ReadTrack} {k : Int} {s : SeenFrame} {type : Int}
    (h : typeOf tracks s.track = some type) : copyFor o tracks k s =
      if o.copies type then
        some { frame := s.data, trackNumber := o.track type, discardPadding := s.padding, timestamp := (s.time * k).toNat, isKey := s.key }
      else none := by
  unfold typeOf at h
  unfold copyFor newTrack
  cases hf : tracks.find? fun t => t.info.number == (s.track : Int) with
  | none => rw [hf] at h; cases h
  | some t =>
    rw [hf] at h
    cases h
    simp only
    unfold Choice.copies Choice.track
    rcases o with ⟨a, v, at', vt⟩
    by_cases h1 : t.info.type = 1
    · cases v <;> simp [h1]
    · by_cases h2 : t.info.type = 2
      · cases a <;> simp [h2]
      · simp [h1, h2]

/-- The body of the loop, in terms of what is shown. -/
def copySeen (o : Choice) (tracks : List ReadTrack) (k : Int) (s : SeenFrame) (st : St) : Res Unit × St :=
  match typeOf tracks s.track with
  | none => (.err (-1), st)
  | some _ =>
    St.andThen (st.flush (s.time * k)) fun st =>
      match copyFor o tracks k s with
      | some f => st.add f
      | none => (.ok (), st)

def copyMany (o : Choice) (tracks : List ReadTrack) (k : Int) : List SeenFrame → St → Res Unit × St
  | [], st => (.ok (), st)
  | s :: ss, st => St.andThen (copySeen o tracks k s st) (copyMany o tracks k ss)

theorem copyMany_append (o : Choice) (tracks : List ReadTrack) (k : Int) : ∀ (a b : List SeenFrame) (st : St),
    copyMany o tracks k (a ++ b) st = St.andThen (copyMany o tracks k a st) (copyMany o tracks k b)
  | [], _, _ => rfl
  | s :: a, b, st => by
    rw [List.cons_append, copyMany, copyMany, andThen_assoc]
    congr 1
    funext st
    exact copyMany_append o tracks k a b st

/-- No cue is due. -/
def Idle (time : Int) (set : List TrackCue) : Prop := ∀ g s, writeCues time set g s = (.ok (), set, g, s)

theorem writeCues_idle {time : Int} (ht : 0 ≤ time) : ∀ {set set' : List TrackCue} {g g' : Seg} {s s' : Sink},
    writeCues time set g s = (.ok (), set', g', s') → Idle time set'
  | [], set', g, g', s, s', h => by
    rw [writeCues] at h
    cases h
    exact fun _ _ => rfl
  | x :: xs, set', g, g', s, s', h => by
    rw [writeCues, if_pos ht] at h
    split at h
    · cases h
    · cases h
    · rename_i hx
      cases h
      intro g s
      rw [writeCues, if_pos ht, hx]
    · split at h
      · cases h
      · cases h
      · split at h
        · exact writeCues_idle ht h
        · cases h
        · cases h

theorem flush_idle {time : Int} (ht : 0 ≤ time) {st st' : St} (h : st.flush time = (.ok (), st')) : Idle time st'.set := by
  unfold St.flush at h
  rcases hw : writeCues time st.set st.seg st.sink with ⟨r, set, g, s⟩
  rw [hw] at h
  cases h
  exact writeCues_idle ht hw

theorem flush_again {time : Int} {st : St} (h : Idle time st.set) : st.flush time = (.ok (), st) := by
  unfold St.flush
  rw [h]

theorem add_set (f : Frame) (st : St) : (st.add f).2.set = st.set := by
  unfold St.add
  rcases Seg.addGenericFrame f st.seg st.sink with ⟨_ | _ | _, g', s'⟩ <;> rfl

/-- The frames of a block after the cues that are due have been written. -/
theorem copyFrames_ok {r : Rdr} {o : Choice} {tracks : List ReadTrack} {k tc time : Int} {e : Entry} {type : Int}
    (hty : typeOf tracks e.block.track = some type) (hT : blockGetTimeCode tc e.block.timecode = .ok time)
    (h0 : 0 ≤ time * k) (hm : time * k < 2 ^ 63) (hcopy : o.copies type = true) :
    ∀ (fs : List BFrame) {ss : List SeenFrame} (st : St), Idle (time * k) st.set → watchFrames r tc e fs = .ok ss →
      copyFrames r (o.track type) (time * k) e.block fs st = copyMany o tracks k ss st
  | [], ss, st, _, h => by
    cases h
    rfl
  | f :: fs, ss, st, hi, h => by
    unfold watchFrames at h
    rw [hT, Res.bind_ok] at h
    obtain ⟨data, h2, h⟩ := Res.bind_eq_ok.mp h
    obtain ⟨rest, h3, h⟩ := Res.bind_eq_ok.mp h
    cases h
    have hr : f.read r = .ok data := by
      cases hr : f.read r with
      | error c => rw [hr] at h2; cases h2
      | ok d => rw [hr] at h2; cases h2; rfl
    rw [copyFrames, copyMany, hr, copySeen]
    simp only
    rw [hty]
    simp only
    rw [flush_again hi, copyFor_some hty, if_pos hcopy]
    simp only [St.andThen]
    rw [copyOf, toU64_nat h0 (by omega)]
    generalize Frame.mk _ _ _ _ _ _ _ _ _ _ _ = fr
    rcases ha : st.add fr with ⟨_ | _ | _, st'⟩
    · simp only
      refine copyFrames_ok hty hT h0 hm hcopy fs st' ?_ h3
      have := add_set fr st
      rw [ha] at this
      simp only at this
      rw [this]
      exact hi
    · rfl
    · rfl

theorem copyEntry_skip {r : Rdr} {o : Choice} {tracks : List ReadTrack} {k tc time : Int} {e : Entry} {type : Int}
    (hty : typeOf tracks e.block.track = some type) (hT : blockGetTimeCode tc e.block.timecode = .ok time)
    (hcopy : ¬ o.copies type = true) :
    ∀ (fs : List BFrame) {ss : List SeenFrame} (st : St), Idle (time * k) st.set → watchFrames r tc e fs = .ok ss →
      copyMany o tracks k ss st = (.ok (), st)
  | [], ss, st, _, h => by
    cases h
    rfl
  | f :: fs, ss, st, hi, h => by
    unfold watchFrames at h
    rw [hT, Res.bind_ok] at h
    obtain ⟨data, h2, h⟩ := Res.bind_eq_ok.mp h
    obtain ⟨rest, h3, h⟩ := Res.bind_eq_ok.mp h
    cases h
    rw [copyMany, copySeen]
    simp only
    rw [hty]
    simp only
    rw [flush_again hi, copyFor_some hty, if_neg hcopy]
    simp only [St.andThen]
    exact copyEntry_skip hty hT hcopy fs st hi h3

/-- A frame whose time can be counted, of a track that is there. -/
structure Usable (tracks : List ReadTrack) (k : Int) (s : SeenFrame) : Prop where
  track : typeOf tracks s.track ≠ none
  time : 0 ≤ s.time
  range : s.time * k < 2 ^ 63

theorem copyEntry_ok {r : Rdr} {o : Choice} {tracks : List ReadTrack} {k tc : Int} {e : Entry} {ss : List SeenFrame} (hk : 0 < k)
    (hne : e.block.frames ≠ []) (h : watchEntry r tc e = .ok ss) (hu : ∀ s ∈ ss, Usable tracks k s) (st : St) :
    copyEntry r o tracks k tc e st = copyMany o tracks k ss st := by
  unfold watchEntry at h
  obtain ⟨f, fs, hfs⟩ := List.exists_cons_of_ne_nil hne
  have h' := h
  rw [hfs] at h
  unfold watchFrames at h
  obtain ⟨time, hT, h⟩ := Res.bind_eq_ok.mp h
  obtain ⟨data, h2, h⟩ := Res.bind_eq_ok.mp h
  obtain ⟨rest, h3, h⟩ := Res.bind_eq_ok.mp h
  cases h
  obtain ⟨u1, u2, u3⟩ := hu _ (List.mem_cons_self)
  simp only at u1 u2 u3
  have h0 := Int.mul_nonneg u2 (Int.le_of_lt hk)
  obtain ⟨type, hty⟩ := Option.ne_none_iff_exists'.mp u1
  unfold copyEntry
  rw [hty, blockGetTime_of hT hk u2 (by omega)]
  simp only
  rw [copyMany, copySeen]
  simp only
  rw [hty]
  simp only
  rcases hfl : st.flush (time * k) with ⟨_ | _ | _, st'⟩
  · have hi := flush_idle h0 hfl
    simp only [St.andThen]
    by_cases hcopy : o.copies type = true
    · rw [if_pos hcopy, copyFrames_ok hty hT h0 u3 hcopy _ _ hi h', copyMany, copySeen]
      simp only
      rw [hty]
      simp only
      rw [flush_again hi]
      rfl
    · rw [if_neg hcopy, copyFor_some hty, if_neg hcopy]
      simp only
      exact (copyEntry_skip hty hT hcopy _ _ hi h3).symm
  · rfl
  · rfl

/-! ### The walk -/

theorem copyFrom_ok {r : Rdr} (hr : r.Fails) (hw : r.Whole) {o : Choice} {tracks : List ReadTrack} {k tc : Int} (hk : 0 < k) :
    ∀ (fuel : Nat) {c : ReadCluster} {idx : Nat} {e : Entry} {ss : List SeenFrame} (st : St), c.Ok r →
      (c.entries.getD [])[idx]? = some e → watchFrom r tc fuel c idx e = .ok ss → (∀ s ∈ ss, Usable tracks k s) →
      copyFrom r o tracks k tc fuel c idx e st = copyMany o tracks k ss st
  | 0, c, idx, e, ss, st, _, _, h, _ => by cases h
  | n + 1, c, idx, e, ss, st, hc, hidx, h, hu => by
    unfold watchFrom at h
    obtain ⟨fs, h1, h⟩ := Res.bind_eq_ok.mp h
    obtain ⟨⟨c', e'⟩, h2, h⟩ := Res.bind_eq_ok.mp h
    have hne := (hc.entries e (List.mem_of_getElem? hidx)).some
    unfold copyFrom
    cases e' with
    | none =>
      cases h
      rw [copyEntry_ok hk hne h1 hu, h2]
      exact andThen_ok _
    | some e' =>
      obtain ⟨rest, h3, h⟩ := Res.bind_eq_ok.mp h
      cases h
      rw [copyEntry_ok hk hne h1 (fun s hs => hu s (List.mem_append_left _ hs)), h2, copyMany_append]
      simp only
      congr 1
      funext st
      have hg := hc.getNext hr hw (idx := idx) (List.getElem?_eq_some_iff.mp hidx).1
      exact copyFrom_ok hr hw hk n st (hg.grows _ _ h2).1.ok (hc.getNext_at hw h2) h3
        (fun s hs => hu s (List.mem_append_right _ hs))

theorem copyCluster_ok {r : Rdr} (hr : r.Fails) (hw : r.Whole) {o : Choice} {tracks : List ReadTrack} {k : Int} (hk : 0 < k)
    {fuel : Nat} {c : ReadCluster} {ss : List SeenFrame} (st : St) (hc : c.Ok r) (h : watchCluster r fuel c = .ok ss)
    (hu : ∀ s ∈ ss, Usable tracks k s) : copyCluster r o tracks k fuel c st = copyMany o tracks k ss st := by
  unfold watchCluster at h
  obtain ⟨⟨c1, tc⟩, h1, h⟩ := Res.bind_eq_ok.mp h
  obtain ⟨⟨c2, e⟩, h2, h⟩ := Res.bind_eq_ok.mp h
  have hc1 : c1.Ok r := by
    unfold ReadCluster.getTimeCode at h1
    split at h1
    · rename_i c' hl
      cases h1
      exact (hc.load hl).1
    · cases h1
      exact hc
    · cases h1
  unfold copyCluster
  rw [h1]
  simp only at h2 ⊢
  rw [h2]
  cases e with
  | none => cases h; rfl
  | some e =>
    simp only
    simp only at h
    have hg := hc1.getFirst hr hw
    refine copyFrom_ok hr hw hk fuel st (hg.grows _ _ h2).1.ok ?_ h hu
    unfold ReadCluster.getFirst at h2
    split at h2
    · rename_i e1 es he
      cases h2
      rw [he]
      rfl
    · obtain ⟨⟨c3, b⟩, hp, hx⟩ := Res.bind_eq_ok.mp h2
      simp only [Res.ok.injEq, Prod.mk.injEq] at hx
      obtain ⟨rfl, hy⟩ := hx
      rw [← hy, List.head?_eq_getElem?]

theorem copyClusters_ok {r : Rdr} (hr : r.Fails) (hw : r.Whole) {o : Choice} {tracks : List ReadTrack} {k : Int} (hk : 0 < k)
    {g : ReadSegment} (hg : g.Ok r) {rounds : Nat} : ∀ (fuel : Nat) (idx : Option Nat) {ss : List SeenFrame} (st : St),
      watchClusters r g rounds fuel idx = .ok ss → (∀ s ∈ ss, Usable tracks k s) →
      copyClusters r o tracks k g rounds fuel idx st = copyMany o tracks k ss st
  | fuel, none, ss, st, h, _ => by
    unfold watchClusters at h
    cases h
    cases fuel <;> rfl
  | 0, some _, ss, st, h, _ => by cases h
  | n + 1, some idx, ss, st, h, hu => by
    unfold watchClusters at h
    unfold copyClusters
    cases hc : g.clusters[idx]? with
    | none => rw [hc] at h; cases h
    | some c =>
      rw [hc] at h
      simp only at h ⊢
      obtain ⟨fs, h1, h⟩ := Res.bind_eq_ok.mp h
      obtain ⟨rest, h2, h⟩ := Res.bind_eq_ok.mp h
      cases h
      rw [copyCluster_ok hr hw hk st (hg.clusters c (List.mem_of_getElem? hc)) h1 (fun s hs => hu s (List.mem_append_left _ hs)),
        copyMany_append]
      congr 1
      funext st
      exact copyClusters_ok hr hw hk hg n _ st h2 (fun s hs => hu s (List.mem_append_right _ hs))

/-! ### The frames handed over -/

theorem handOver_append_ok {a b : List Frame} {g g' : Seg} {s s' : Sink} (h : handOver a g s = (.ok (), g', s')) :
    handOver (a ++ b) g s = handOver b g' s' := by
  rw [handOver_append, h]

theorem handOver_append_not {a b : List Frame} {g g' : Seg} {s s' : Sink} {x : Res Unit} (h : handOver a g s = (x, g', s'))
    (hx : x ≠ .ok ()) : handOver (a ++ b) g s = (x, g', s') := by
  rw [handOver_append, h]
  cases x with
  | ok _ => exact absurd rfl hx
  | err _ => rfl
  | ub => rfl

/-- The result of the whole loop and the writing of the remaining cues, in terms of the frames handed over. -/
structure Does (x : Res Unit × St) (fs : List Frame) (st : St) : Prop where
  does : ∃ set', x = ((handOver fs st.seg st.sink).1, ⟨set', (handOver fs st.seg st.sink).2.1, (handOver fs st.seg st.sink).2.2⟩) ∧
    ((handOver fs st.seg st.sink).1 = .ok () → set' = [])

theorem flush_does {time : Int} (ht : 0 ≤ time) {st : St} (h : ∀ x ∈ st.set, Counted x) :
    ∃ set', st.flush time = ((handOver ((st.set.takeWhile fun x => startNs x ≤ time).map cueAsFrame) st.seg st.sink).1,
      ⟨set', (handOver ((st.set.takeWhile fun x => startNs x ≤ time).map cueAsFrame) st.seg st.sink).2.1,
        (handOver ((st.set.takeWhile fun x => startNs x ≤ time).map cueAsFrame) st.seg st.sink).2.2⟩) ∧
      ((handOver ((st.set.takeWhile fun x => startNs x ≤ time).map cueAsFrame) st.seg st.sink).1 = .ok () →
        set' = st.set.dropWhile fun x => startNs x ≤ time) := by
  obtain ⟨set', h1, h2⟩ := writeCues_spec ht h st.seg st.sink
  refine ⟨set', ?_, h2⟩
  unfold St.flush
  rw [h1]

theorem copyMany_does {o : Choice} {tracks : List ReadTrack} {k : Int} (hk : 0 < k) : ∀ {ss : List SeenFrame} {st : St},
    (∀ s ∈ ss, Usable tracks k s) → (∀ x ∈ st.set, Counted x) →
    Does (St.andThen (copyMany o tracks k ss st) (St.flush (-1))) (schedule o tracks k ss st.set) st
  | [], st, _, hc => by
    obtain ⟨set', h1, h2⟩ := writeCues_all hc st.seg st.sink
    refine ⟨set', ?_, h2⟩
    show St.flush (-1) st = _
    unfold St.flush
    rw [h1]
    rfl
  | s :: ss, st, hu, hc => by
    obtain ⟨u1, u2, u3⟩ := hu s (by simp)
    obtain ⟨type, hty⟩ := Option.ne_none_iff_exists'.mp u1
    have h0 := Int.mul_nonneg u2 (Int.le_of_lt hk)
    obtain ⟨set', h1, h2⟩ := flush_does h0 hc
    have hs : schedule o tracks k (s :: ss) st.set =
        (st.set.takeWhile fun x => startNs x ≤ s.time * k).map cueAsFrame ++ ((copyFor o tracks k s).toList ++
          schedule o tracks k ss (st.set.dropWhile fun x => startNs x ≤ s.time * k)) := by
      unfold schedule
      rw [List.map_cons, interleave, List.append_assoc]
    rw [hs, copyMany, copySeen, hty, andThen_assoc]
    simp only
    rw [andThen_assoc, h1]
    rcases hh : handOver ((st.set.takeWhile fun x => startNs x ≤ s.time * k).map cueAsFrame) st.seg st.sink with ⟨x, g1, s1⟩
    rw [hh] at h2
    simp only at h2 ⊢
    cases x with
    | ok _ =>
      have hset := h2 rfl
      subst hset
      simp only [St.andThen]
      have hc' : ∀ x ∈ st.set.dropWhile fun x => startNs x ≤ s.time * k, Counted x :=
        fun x hx => hc x ((List.dropWhile_sublist _).mem hx)
      have hu' : ∀ s ∈ ss, Usable tracks k s := fun x hx => hu x (by simp [hx])
      cases hf : copyFor o tracks k s with
      | none =>
        obtain ⟨set2, h3, h4⟩ := (copyMany_does (o := o) hk (st := ⟨st.set.dropWhile fun x => startNs x ≤ s.time * k, g1, s1⟩) hu' hc').does
        refine ⟨set2, ?_⟩
        rw [handOver_append_ok hh]
        exact ⟨h3, h4⟩
      | some f =>
        unfold St.add
        simp only
        rcases ha : Seg.addGenericFrame f g1 s1 with ⟨_ | e | _, g2, s2⟩
        · simp only
          obtain ⟨set2, h3, h4⟩ := (copyMany_does (o := o) hk (st := ⟨st.set.dropWhile fun x => startNs x ≤ s.time * k, g2, s2⟩) hu' hc').does
          refine ⟨set2, ?_⟩
          rw [handOver_append_ok hh, Option.toList_some, List.singleton_append, handOver_cons_ok ha]
          exact ⟨h3, h4⟩
        · refine ⟨st.set.dropWhile fun x => startNs x ≤ s.time * k, ?_⟩
          rw [handOver_append_ok hh, Option.toList_some, List.singleton_append, handOver, ha]
          exact ⟨rfl, fun h => by cases h⟩
        · refine ⟨st.set.dropWhile fun x => startNs x ≤ s.time * k, ?_⟩
          rw [handOver_append_ok hh, Option.toList_some, List.singleton_append, handOver, ha]
          exact ⟨rfl, fun h => by cases h⟩
    | err e =>
      refine ⟨set', ?_⟩
      rw [handOver_append_not hh (by simp)]
      exact ⟨rfl, fun h => by cases h⟩
    | ub =>
      refine ⟨set', ?_⟩
      rw [handOver_append_not hh (by simp)]
      exact ⟨rfl, fun h => by cases h⟩

/-- The whole run on any file. -/
theorem copyAll_does {r : Rdr} (hr : r.Fails) (hw : r.Whole) {g : ReadSegment} (hg : g.Ok r) {tracks : List ReadTrack}
    {info : ReadInfo} (ht : g.tracks = some tracks) (hi : g.info = some info) (hk : 0 < info.timecodeScale) {o : Choice} {fuel : Nat}
    {ss : List SeenFrame} (h : watch r fuel g = .ok ss) (hu : ∀ s ∈ ss, Usable tracks info.timecodeScale s) {st : St}
    (hc : ∀ x ∈ st.set, Counted x) : Does (copyAll r o fuel g st) (schedule o tracks info.timecodeScale ss st.set) st := by
  unfold copyAll
  rw [ht, hi]
  simp only
  unfold watch at h
  rw [copyClusters_ok hr hw hk hg fuel _ st h hu]
  exact copyMany_does hk hu hc

end Verif.Sample
