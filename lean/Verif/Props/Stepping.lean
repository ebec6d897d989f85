/-
C84: loading clusters one by one, jumping ahead and stepping from cluster to cluster, in any order.
-/
import Verif.Props.Ahead
import Verif.Lemmas.ParserNextFile

namespace Verif.Props
open Verif Verif.Par Verif.Mux Spec

/-- **C84, partial.** An application reads a recording with any calls of `LoadCluster`, `FindOrPreloadCluster`, `GetNext`,
`ParseNext` and, for the frames of a cluster, `GetFirst` and `GetNext`, in any order and any number of them.  For all
settings, tracks, chapters, tags and frames within mkvparser's limits, with an output that can seek, with or without cues: there
are offsets for the clusters, in increasing order, such that every history of calls that `Progress.answer` allows gets the
answers that `Progress.answer` says; and the frames of the clusters, put together, are the accepted frames, each once.  So the clusters that were
read ahead become the loaded ones when their turn comes, none is there twice or left out, and each cluster
shows its own frames whatever was read before.

What is missing: files made without seeking (`C83_live_next` shows what happens there), calls of `ParseNext` for a cluster that was
neither loaded nor looked into (`C84_unread`: they fail), and files of other writers (`C84_empty_cluster`). -/
theorem C84_recording_partial {g : Seg} {muxing writing : Bytes} {ts : List Track} {ch : Option (List Chapter)}
    {tg : Option (List Tag)}
    (hg : g.Settings muxing writing (tracksTree ts).bytes (ch.map fun c => (chaptersTree c).bytes)
      (tg.map fun t => (tagsTree t).bytes)) (hu : g.Unused) (hn : g.Numbered)
    (hacc : g.accurate = false) (hl : g.live = false)
    (hroom : g.Room (ch.map fun c => (chaptersTree c).bytes) (tg.map fun t => (tagsTree t).bytes))
    (hseek : g.seekable = true)
    {xs : List SegCall} (hxs : g.WellFed xs) (hr : ∀ f, .frame f ∈ xs → f.Showable g.info.scale)
    {s : Sink} (hd : s.data = []) (hp : s.pos = 0) (hs : s.Sure)
    {rs : List (Res Unit)} {g1 g2 : Seg} {s1 s2 : Sink} {r : Res Unit} {d : Option Nat} {du : Option UInt32}
    (hrun : Seg.run xs g s = (rs, g1, s1)) (hfin : Seg.finalize d g1 s1 = (r, g2, s2))
    (hsm : s2.data.length < 2 ^ 48) (hw : ∃ f ∈ acceptedFrames xs rs, g.queues f = false)
    (hdu : g.lastDuration d = du.map UInt32.toNat) (hv : Viewable g.docType g.info.scale du muxing writing ts ch tg) :
    r = .ok () ∧ ∃ clusters : List (Nat × List SeenFrame),
      (clusters.map (·.2)).flatten = (acceptedFrames xs rs).map (Frame.asWatched g.info.scale) ∧
      (clusters.map (·.1)).Pairwise (· < ·) ∧ (∀ c ∈ clusters, c.2 ≠ []) ∧ StepsAs s2.data clusters := by
  obtain ⟨h1, -, p, cs, h3, h4, h5, h6, h7, h8, h9, h10, h11, -, -, -, -, -⟩ :=
    whole_file hg hu hn hacc hl hroom hxs hd hp hs hrun hfin hsm hw
  rw [hseek] at h3 h4 h9
  obtain ⟨c1, c2⟩ := carried_watched (scale := g.info.scale) h10 fun f hf => hr f (accepted_frame hf)
  have hcues : ∃ q : Option (List Cue), p.cues = q.map cuesElement := by
    by_cases hc : g.outputCues = true
    · rw [if_pos hc] at h11; exact ⟨some _, h11.1⟩
    · rw [if_neg hc] at h11; exact ⟨none, h11⟩
  obtain ⟨q, hq⟩ := hcues
  have hne : cs ≠ [] := by
    intro h0
    subst h0
    refine carried_ne h10 ?_ rfl
    obtain ⟨f, hf, -⟩ := hw
    intro h; rw [h] at hf; cases hf
  refine ⟨h1, placedClusters g.info.scale cs, by rw [placed_flatten, watchedClusters_flatten, c2], placed_sorted h9, placed_ne h9,
    steps_file hv h4 (by rw [h5, hdu]) h6 h7 h8 h3 hsm hq h9 hne (accepted_fine hxs h10 c1)⟩

/-- **C84, after moving the cues to the front, partial.** The same for the copy that has the cues before the
clusters. -/
theorem C84_moved_partial {g : Seg} {muxing writing : Bytes} {ts : List Track} {ch : Option (List Chapter)}
    {tg : Option (List Tag)}
    (hg : g.Settings muxing writing (tracksTree ts).bytes (ch.map fun c => (chaptersTree c).bytes)
      (tg.map fun t => (tagsTree t).bytes)) (hu : g.Unused) (hn : g.Numbered)
    (hacc : g.accurate = false) (hl : g.live = false)
    (hroom : g.Room (ch.map fun c => (chaptersTree c).bytes) (tg.map fun t => (tagsTree t).bytes))
    (hcues : g.outputCues = true) (hseek : g.seekable = true)
    {xs : List SegCall} (hxs : g.WellFed xs) (hr : ∀ f, .frame f ∈ xs → f.Showable g.info.scale)
    {s : Sink} (hd : s.data = []) (hp : s.pos = 0) (hs : s.Sure)
    {rs : List (Res Unit)} {g1 g2 g3 : Seg} {s1 s2 s3 t : Sink} {r r' : Res Unit} {d : Option Nat} {du : Option UInt32}
    (hrun : Seg.run xs g s = (rs, g1, s1)) (hfin : Seg.finalize d g1 s1 = (r, g2, s2))
    (hsm : s2.data.length < 2 ^ 48) (hw : ∃ f ∈ acceptedFrames xs rs, g.queues f = false)
    (hmany : g2.cues.entries.length < 2 ^ 31) {depth : Nat} (hdepth : 7 * g2.cues.entries.length < depth)
    (htd : t.data = []) (htp : t.pos = 0) (hts : t.Sure)
    (hcopy : Seg.copyAndMoveCues depth true s2.data g2 t = (r', g3, s3)) (hsm3 : s3.data.length < 2 ^ 48)
    (hdu : g.lastDuration d = du.map UInt32.toNat) (hv : Viewable g.docType g.info.scale du muxing writing ts ch tg) :
    r' = .ok () ∧ ∃ clusters : List (Nat × List SeenFrame),
      (clusters.map (·.2)).flatten = (acceptedFrames xs rs).map (Frame.asWatched g.info.scale) ∧
      (clusters.map (·.1)).Pairwise (· < ·) ∧ (∀ c ∈ clusters, c.2 ≠ []) ∧ StepsAs s3.data clusters := by
  obtain ⟨h1, p, cs, q, h3, h4, h5, h6, h7, h8, h9, h10, h11, h12, -⟩ :=
    C22_after_moving_partial hg hu hn hacc hl hroom hcues hseek hxs hd hp hs hrun hfin hsm hw hmany hdepth htd htp hts hcopy
  obtain ⟨c1, c2⟩ := carried_watched (scale := g.info.scale) h10 fun f hf => hr f (accepted_frame hf)
  have hne : cs ≠ [] := by
    intro h0
    subst h0
    refine carried_ne h10 ?_ rfl
    obtain ⟨f, hf, -⟩ := hw
    intro h; rw [h] at hf; cases hf
  exact ⟨h1, placedClusters g.info.scale cs, by rw [placed_flatten, watchedClusters_flatten, c2], placed_sorted h9, placed_ne h9,
    steps_front hv h4 (by rw [h5, hdu]) h6 h7 h8 h3 hsm3 h11 h9 hne (accepted_fine hxs h10 c1)⟩

/-! ### Any file -/

/-- While nothing has been read ahead, loading is what it is for the segment alone (the model of C30 and C67). -/
theorem C84_nothing_ahead (r : Rdr) : ∀ (fuel : Nat) (g : ReadSegment),
    Ahead.loadCluster r fuel ⟨g, []⟩ = (⟨(g.loadCluster r fuel).1, []⟩, (g.loadCluster r fuel).2)
  | 0, g => rfl
  | f + 1, g => by
    have h : Ahead.doLoadCluster r ⟨g, []⟩ = (⟨(g.doLoadCluster r).1, []⟩, (g.doLoadCluster r).2) := by
      unfold Ahead.doLoadCluster ReadSegment.doLoadCluster
      simp only
      split
      · rfl
      split
      · rfl
      split
      · rename_i h; rw [h]
      · rename_i h; rw [h]
      · rename_i h; rw [h]
      · rename_i g' idpos pos size h
        rw [h]
        simp only
        split <;> rename_i h2 <;> rw [h2]
        rfl
    rw [Ahead.loadCluster, ReadSegment.loadCluster, h]
    rcases g.doLoadCluster r with ⟨g', x⟩
    cases x with
    | ok n =>
      simp only
      split
      · rfl
      · exact C84_nothing_ahead r f g'
    | err c => rfl
    | ub => rfl

/-- **`ParseNext` never succeeds for a cluster that was read ahead and not looked into**, in any file: where the object does not know the
size, the ID is read as if it were a number, and the result is compared with the ID of a cluster, which has a
bit more. -/
theorem C84_unread {r : Rdr} {a : Ahead} {k fuel : Nat} {c : ReadCluster} (hk : a.seg.clusters.length ≤ k)
    (hc : a.preloaded[k - a.seg.clusters.length]? = some c) (hsize : c.size = none) (hat : At r.data c.start [0x1F, 0x43, 0xB6, 0x75]) :
    ∀ x, (a.parseNext r fuel k).2 ≠ .ok x := by
  intro x hx
  unfold Ahead.parseNext at hx
  rw [if_neg (by omega), hc] at hx
  simp only at hx
  split at hx
  · cases hx
  cases hn : nextEnd r a.seg c with
  | err e => rw [hn] at hx; cases hx
  | ub => rw [hn] at hx; cases hx
  | ok p =>
    unfold nextEnd at hn
    rw [hsize] at hn
    simp only at hn
    obtain ⟨_, -, hn⟩ := Res.bind_eq_ok.mp hn
    obtain ⟨⟨id, len⟩, h1, hn⟩ := Res.bind_eq_ok.mp hn
    obtain ⟨_, h2, -⟩ := Res.bind_eq_ok.mp hn
    rw [Res.refuse_eq_ok] at h2
    have hu : readUInt r c.start = .ok (0x0F43B675, 4) := readUInt_at (by decide) (by decide) (by decide) (by
      have : vint 4 0x0F43B675 = [0x1F, 0x43, 0xB6, 0x75] := by decide +kernel
      rw [this]; exact hat)
    rw [hu] at h1
    cases h1
    exact h2 (by decide)

/-- **In any file, behind a cluster that was read ahead `GetNext` goes to a cluster with blocks**, if it goes on at all. -/
theorem C84_next_has_blocks {r : Rdr} {g : ReadSegment} {c : ReadCluster} {p : Nat} (h : nextPlace r g c = .ok (some p)) :
    hasBlockEntries r g.stop p = .ok true ∧ ∃ len, readID r p = .ok (Mux.kMkvCluster, len) := by
  have hloop : ∀ (f stop pos : Nat), nextLoop r g stop f pos = .ok (some p) →
      hasBlockEntries r g.stop p = .ok true ∧ ∃ len, readID r p = .ok (Mux.kMkvCluster, len) := by
    intro f
    induction f with
    | zero => intro stop pos h; cases h
    | succ f ih =>
      intro stop pos h
      unfold nextLoop at h
      split at h
      · obtain ⟨x, hx, h⟩ := Res.bind_eq_ok.mp h
        cases x with
        | none => cases h
        | some x =>
          cases x with
          | inr p' => exact ih _ _ h
          | inl p' =>
            simp only at h
            cases h
            unfold nextStep at hx
            obtain ⟨_, -, hx⟩ := Res.bind_eq_ok.mp hx
            split at hx
            · cases hx
            · cases hx
            · rename_i id len hid
              obtain ⟨_, -, hx⟩ := Res.bind_eq_ok.mp hx
              split at hx
              · obtain ⟨_, -, hx⟩ := Res.bind_eq_ok.mp hx
                split at hx
                · cases hx
                · split at hx
                  · rename_i hc
                    split at hx
                    · rename_i hb
                      cases hx
                      exact ⟨hb, len, by rw [hid, hc]⟩
                    · cases hx
                    · cases hx
                  · cases hx
              · cases hx
      · cases h
  unfold nextPlace at h
  split at h
  · cases h
  · obtain ⟨_, -, h⟩ := Res.bind_eq_ok.mp h
    split at h
    · cases h
    · cases h
    · split at h
      · cases h
      · obtain ⟨_, -, h⟩ := Res.bind_eq_ok.mp h
        split at h
        · obtain ⟨_, -, h⟩ := Res.bind_eq_ok.mp h
          exact hloop _ _ _ h
        · cases h

/-- **C84, `ParseNext` finds the cues.** In any file of which everything can be read, if the cues are all that comes behind a cluster
that was read ahead and whose size is known, `ParseNext` answers that there is no more cluster, and has noted where the cues are, unless
it already knew of some. -/
theorem C84_notes_cues {r : Rdr} (hw : r.Whole) (hmax : r.data.length < 2 ^ 48) {a : Ahead} {k fuel n : Nat} {c : ReadCluster}
    (hk : a.seg.clusters.length ≤ k) (hc : a.preloaded[k - a.seg.clusters.length]? = some c) (hsize : c.size = some n)
    (hpos : 0 < a.seg.pos) (hstop : a.seg.stop = some r.data.length) {q : List Spec.Cue} (hq : Spec.cuesPayload q ≠ [])
    (hat : At r.data (c.start + n) (cuesElement q)) (hend : c.start + n + (cuesElement q).length = r.data.length) :
    ∃ a' place, a.parseNext r (fuel + 1) k = (a', .ok none) ∧ At r.data place (Spec.cuesPayload q) ∧
      a'.seg.cues = a.seg.cues.or (some (place, (Spec.cuesPayload q).length)) ∧ a'.table = a.table := by
  obtain ⟨ht, hp⟩ := cues_tail (start := c.start) (p := n) hat hend hmax
  have h0 : ¬ (Spec.cuesPayload q).length = 0 := fun h => hq (List.length_eq_zero_iff.mp h)
  have e : tailCues n (some q) = some (n + 4 + sizeWidth (Spec.cuesPayload q).length, Spec.cuesPayload q) := by
    unfold tailCues
    simp only
    rw [if_neg h0]
  rw [e] at ht hp
  have h1 := (parse_tail hw (g := a.seg) hstop ht).2
  refine ⟨{ a with seg := { a.seg with cues := a.seg.cues.or (some (c.start + (n + 4 + sizeWidth (Spec.cuesPayload q).length),
    (Spec.cuesPayload q).length)) } }, _, ?_, hp _ rfl, rfl, rfl⟩
  have hwhole : ¬ (r.total ≥ 0 ∧ (r.data.length : Int) > r.total) := by unfold Rdr.Whole at hw; omega
  unfold Ahead.parseNext
  rw [if_neg (by omega), hc]
  simp only
  rw [if_neg (by intro h; rcases h with h | h; omega; exact hwhole h)]
  unfold nextEnd
  rw [hsize]
  simp only
  unfold Ahead.parseOn Ahead.doParseNext
  rw [if_neg hwhole, h1]
  rfl

/-- Elements with these IDs follow each other from here to there. -/
inductive Elements (r : Rdr) : Nat → List Nat → Nat → Prop where
  | nil (pos : Nat) : Elements r pos [] pos
  | cons {pos id n size m stop : Nat} {ids : List Nat} (hid : readID r pos = .ok (id, n)) (hsize : readUInt r (pos + n) = .ok (size, m))
      (rest : Elements r (pos + n + m + size) ids stop) : Elements r pos (id :: ids) stop

/-- **C84, clusters of unknown size.** In any file, `ParseNext` takes a cluster of unknown size and without blocks to end at the first
Cluster or Cues element, or else at the end of the file or of the segment. -/
theorem C84_unknown_end {r : Rdr} {g : ReadSegment} : ∀ {fuel pos stop : Nat}, clusterEnd r g fuel pos = .ok stop →
    ∃ ids, Elements r pos ids stop ∧ (∀ id ∈ ids, id ≠ 0x1F43B675 ∧ id ≠ 0x1C53BB6B) ∧
      (atEnd r stop ∨ reached g.stop stop ∨ ∃ n, readID r stop = .ok (0x1F43B675, n) ∨ readID r stop = .ok (0x1C53BB6B, n)) := by
  intro fuel
  induction fuel with
  | zero =>
    intro pos stop h
    unfold clusterEnd at h
    split at h
    · rename_i he
      cases h
      exact ⟨[], .nil _, (fun _ h => nomatch h), he.elim .inl fun h => .inr (.inl h)⟩
    · cases h
  | succ f ih =>
    intro pos stop h
    unfold clusterEnd at h
    split at h
    · rename_i he
      cases h
      exact ⟨[], .nil _, (fun _ h => nomatch h), he.elim .inl fun h => .inr (.inl h)⟩
    · obtain ⟨_, -, h⟩ := Res.bind_eq_ok.mp h
      obtain ⟨⟨id, n⟩, hid, h⟩ := Res.bind_eq_ok.mp h
      simp only at h
      split at h
      · rename_i hc
        cases h
        refine ⟨[], .nil _, (fun _ h => nomatch h), .inr (.inr ⟨n, ?_⟩)⟩
        rcases hc with rfl | rfl
        · exact .inl hid
        · exact .inr hid
      · rename_i hc
        obtain ⟨_, -, h⟩ := Res.bind_eq_ok.mp h
        obtain ⟨⟨size, m⟩, hsize, h⟩ := Res.bind_eq_ok.mp h
        simp only at h
        have hne : id ≠ 0x1F43B675 ∧ id ≠ 0x1C53BB6B := ⟨fun e => hc (.inl e), fun e => hc (.inr e)⟩
        have go : clusterEnd r g f (pos + n + m + size) = .ok stop := by
          split at h
          · rename_i h0
            rw [h0]; exact h
          · obtain ⟨_, -, h⟩ := Res.bind_eq_ok.mp h
            obtain ⟨_, -, h⟩ := Res.bind_eq_ok.mp h
            exact h
        obtain ⟨ids, h1, h2, h3⟩ := ih go
        refine ⟨id :: ids, .cons hid hsize h1, fun i hi => ?_, h3⟩
        rcases List.mem_cons.mp hi with rfl | hi
        · exact hne
        · exact h2 i hi

/-! ### Examples -/

/-- Two clusters with a block each, and one without blocks between them. -/
def gapFile : Bytes :=
  Spec.segmentId ++ (Spec.vint 8 86 ++ (infoElement 1000000 none none [0x6D] [0x77] ++ ((tracksTree [smallVideo]).bytes ++
    (element 0x1F43B675 (element 0xE7 [0] ++ element 0xA3 [0x81, 0, 0, 0x80, 1]) ++ (element 0x1F43B675 (element 0xE7 [1]) ++
      element 0x1F43B675 (element 0xE7 [2] ++ element 0xA3 [0x81, 0, 0, 0x80, 3]))))))

/-- Opening this file and making these calls. -/
def stepIn (file : Bytes) (calls : List Ask) : Res (List Reply) := do
  let g ← headIn file 0
  let (_, ts) ← replies { data := file, total := file.length } 1000 ⟨g, []⟩ calls
  .ok ts

/-- **A cluster without blocks makes `ParseNext` go back**: behind the first cluster, it returns the first cluster again, so that an
application that steps with it never ends.  The search among the clusters that were read ahead uses the variable that held the place of the
cluster in the file for their places in the segment, and the search goes on from there.  Loading the clusters and `GetNext` go to the
cluster with the next block. -/
theorem C84_empty_cluster :
    stepIn gapFile [.find 48, .frame 48 0, .parseNext 48] =
      .ok [.cluster 48, .frames [{ time := 0, track := 1, data := [1], key := true }], .cluster 48] ∧
    stepIn gapFile [.find 48, .next 48] = .ok [.cluster 48, .cluster 71] ∧
    stepIn gapFile [.load, .load, .load, .frame 71 0, .parseNext 48, .next 71] =
      .ok [.cluster 48, .cluster 71, .nothing, .frames [{ time := 2, track := 1, data := [3], key := true }], .cluster 71, .nothing] := by
  decide +kernel

/-- The conditions of `C84_unread` hold for the first cluster of this file. -/
example : stepIn gapFile [.find 48, .parseNext 48] = .err (-1) := by decide +kernel

/-- A cluster with a block, and cues behind it. -/
def cuedFile : Bytes :=
  Spec.segmentId ++ (Spec.vint 8 85 ++ (infoElement 1000000 none none [0x6D] [0x77] ++ ((tracksTree [smallVideo]).bytes ++
    (element 0x1F43B675 (element 0xE7 [0] ++ element 0xA3 [0x81, 0, 0, 0x80, 1]) ++ cuesElement [⟨0, 1, 36, some 1⟩]))))

/-- The conditions of `C84_notes_cues` hold in it: the payload of the cues, 17 bytes, starts at 80. -/
example : (do
    let g ← headIn cuedFile 0
    let (a, ts) ← replies { data := cuedFile, total := cuedFile.length } 1000 ⟨g, []⟩ [.find 48, .frame 48 0, .parseNext 48]
    .ok (g.cues, a.seg.cues, a.seg.stop == some cuedFile.length, ts) : Res _) =
    .ok (none, some (80, 17), true, [.cluster 48, .frames [{ time := 0, track := 1, data := [1], key := true }], .nothing]) := by
  decide +kernel

/-- A timecode and a Void element, then cues: a cluster of unknown size ends before the cues. -/
example : clusterEnd { data := [0xE7, 0x81, 5, 0xEC, 0x81, 0, 0x1C, 0x53, 0xBB, 0x6B, 0x80], total := 11 } { start := 0, pos := 0, size := some 11 }
    12 0 = .ok 6 := by decide +kernel

/-- Clusters at 100, 120 and 150. -/
def threeClusters : List (Nat × List SeenFrame) :=
  [(100, [{ time := 0, track := 1, data := [1], key := true }, { time := 5, track := 1, data := [2], key := false }]),
   (120, [{ time := 9, track := 1, data := [3], key := true }]), (150, [{ time := 12, track := 1, data := [4], key := true }])]

/-- What the answers are for a history in which the second cluster is read ahead before the first one is loaded. -/
example : Progress.answers threeClusters {} [.find 120, .load, .next 100, .frame 120 0, .parseNext 120, .next 150, .parseNext 100, .frame 100 1,
    .next 100, .load, .load] =
    some [.cluster 120, .cluster 100, .nothing, .frames [{ time := 9, track := 1, data := [3], key := true }], .cluster 150, .nothing, .cluster 120,
      .frames [{ time := 5, track := 1, data := [2], key := false }], .cluster 120, .cluster 150, .nothing] := by
  decide +kernel

/-- Six frames in two tracks, in three clusters: the conditions of `C84_recording_partial` hold. -/
example : ∃ clusters : List (Nat × List SeenFrame),
    (clusters.map (·.2)).flatten = recordedFrames.map (Frame.asWatched 1000000) ∧ (clusters.map (·.1)).Pairwise (· < ·) ∧
    (∀ c ∈ clusters, c.2 ≠ []) ∧
    StepsAs (Seg.finalize (some 0x40000000) (Seg.run (recordedFrames.map .frame) aheadSeg freshSink).2.1
      (Seg.run (recordedFrames.map .frame) aheadSeg freshSink).2.2).2.2.data clusters := by
  have h1 : (Seg.run (recordedFrames.map .frame) aheadSeg freshSink).1 = [.ok (), .ok (), .ok (), .ok (), .ok (), .ok ()] := by
    decide +kernel
  have h2 : (Seg.finalize (some 0x40000000) (Seg.run (recordedFrames.map .frame) aheadSeg freshSink).2.1
      (Seg.run (recordedFrames.map .frame) aheadSeg freshSink).2.2).2.2.data.length < 2 ^ 48 := by decide +kernel
  rcases hrun : Seg.run (recordedFrames.map .frame) aheadSeg freshSink with ⟨rs, g1, s1⟩
  rw [hrun] at h1 h2
  simp only at h1 h2
  subst h1
  rcases hfin : Seg.finalize (some 0x40000000) g1 s1 with ⟨r, g2, s2⟩
  simp only [hfin] at h2 ⊢
  exact (C84_recording_partial (ch := none) (tg := some _) ahead_settings ⟨rfl, rfl, rfl, rfl, rfl, rfl, rfl, rfl, rfl, rfl⟩
    (by unfold Seg.Numbered; decide) rfl rfl (by unfold Seg.Room; decide) rfl ahead_fed (fun f hf => by
      simp only [recordedFrames, List.map_cons, List.map_nil, List.mem_cons, List.not_mem_nil, or_false, SegCall.frame.injEq] at hf
      rcases hf with rfl | rfl | rfl | rfl | rfl | rfl <;> exact ⟨by decide, by decide⟩) rfl rfl (fun _ => rfl) hrun hfin h2
    ⟨video 0, by decide, by decide⟩ rfl ahead_viewable).2

end Verif.Props
