/-
Stepping through the clusters of a file of the muxer.
-/
import Verif.Lemmas.ParserNext
import Verif.Lemmas.ParserAheadFile

namespace Verif.Props
open Verif Verif.Par Verif.Mux Spec

/-- Where the clusters are, and the frames they show. -/
def placedClusters (scale : Nat) (cs : List (Nat × ClusterOf)) : List (Nat × List SeenFrame) :=
  cs.map fun c => (c.1, c.2.frames.map (Frame.asWatched scale))

theorem placed_offsets {scale S : Nat} {cs : List (Nat × ClusterOf)} :
    offsets scale S (cs.map fun c => (S + c.1, c.2)) = placedClusters scale cs := by
  unfold offsets placedClusters
  rw [List.map_map]
  refine List.map_congr_left fun c _ => ?_
  simp only [Function.comp, Nat.add_sub_cancel_left]

theorem placed_flatten {scale : Nat} {cs : List (Nat × ClusterOf)} :
    ((placedClusters scale cs).map (·.2)).flatten = (watchedClusters scale cs).flatten := by
  unfold placedClusters watchedClusters
  rw [List.map_map]
  rfl

theorem placed_from {scale off : Nat} {cs : List (Nat × ClusterOf)} {bs : Bytes} (h : ClustersAt scale true off cs bs) :
    (cs.map (·.1)).Pairwise (· < ·) ∧ (∀ c ∈ cs, off ≤ c.1) ∧ ∀ c ∈ cs, c.2.frames ≠ [] := by
  induction h with
  | nil => simp
  | cons h hr ih =>
    obtain ⟨i1, i2, i3⟩ := ih
    obtain ⟨body, -, h2, h3⟩ := h
    rename_i off c cs b bs
    have hb : 0 < b.length := by rw [h3]; simp [clusterId]
    refine ⟨?_, ?_, ?_⟩
    · rw [List.map_cons, List.pairwise_cons]
      refine ⟨fun x hx => ?_, i1⟩
      obtain ⟨y, hy, rfl⟩ := List.mem_map.mp hx
      have := i2 y hy
      simp only
      omega
    · intro x hx
      rcases List.mem_cons.mp hx with rfl | hx
      · exact Nat.le_refl _
      · have := i2 x hx; omega
    · intro x hx
      rcases List.mem_cons.mp hx with rfl | hx
      · exact h2
      · exact i3 x hx

theorem placed_sorted {scale off : Nat} {cs : List (Nat × ClusterOf)} {bs : Bytes} (h : ClustersAt scale true off cs bs) :
    ((placedClusters scale cs).map (·.1)).Pairwise (· < ·) := by
  unfold placedClusters
  rw [List.map_map]
  exact (placed_from h).1

theorem placed_ne {scale off : Nat} {cs : List (Nat × ClusterOf)} {bs : Bytes} (h : ClustersAt scale true off cs bs) :
    ∀ c ∈ placedClusters scale cs, c.2 ≠ [] := by
  intro c hc
  obtain ⟨x, hx, rfl⟩ := List.mem_map.mp hc
  simpa using (placed_from h).2.2 x hx

/-- From the segment as it is after `ParseHeaders`. -/
theorem stepping_start {r : Rdr} {scale e at' : Nat} {cs : List (Nat × ClusterOf)} {g : ReadSegment} {tl : Option (Nat × Nat)} (hw : r.Whole)
    (hcl : g.clusters = []) (hstop : g.stop = some r.data.length) (hpos : g.pos = (g.start + at' : Nat)) (hat : 0 < at')
    (hc : SizedChain r scale (g.start + at') (cs.map fun c => (g.start + c.1, c.2)) e) (ht : TailAt r e tl) {fuel : Nat} (hf : 0 < fuel)
    {calls : List Ask} {answers : List Reply} (hans : Progress.answers (placedClusters scale cs) {} calls = some answers) :
    ∃ a, replies r fuel ⟨g, []⟩ calls = .ok (a, answers) := by
  rw [← placed_offsets (S := g.start)] at hans
  have htable : (⟨g, []⟩ : Ahead).table = [] := by unfold Ahead.table; rw [hcl]; rfl
  refine replies_ok (S := g.start) (k := {}) hw hc ht (by omega) hf calls ⟨rfl, hstop, Nat.zero_le _, ?_, ⟨[], .nil, .nil, by simp⟩,
    ⟨g.start + at', e, tl, hpos, by omega, hc, ht⟩, ?_, ?_, by simp⟩ (by simp) hans
  · simp only [hcl, List.take_zero]
    exact .nil
  · rw [htable]; simp
  · rw [htable]; simp

/-- A file whose clusters come before the cues, or without cues. -/
theorem steps_file {p : Parts} {docType : Bytes} {ts : List Track} {ch : Option (List Chapter)} {tg : Option (List Tag)}
    {scale : Nat} {du : Option UInt32} {date : Option Int} {muxing writing : Bytes} {file : Bytes} {cs : List (Nat × ClusterOf)}
    (hv : Viewable docType scale du muxing writing ts ch tg) (hreg : p.HasSeekHead true)
    (hi : p.info = infoElement scale (du.map UInt32.toNat) date muxing writing) (htr : p.tracks = (tracksTree ts).bytes)
    (hch : p.chapters = ch.map fun c => (chaptersTree c).bytes) (htg : p.tags = tg.map fun t => (tagsTree t).bytes)
    (hfile : file = p.file docType true) (hmax : file.length < 2 ^ 48) {q : Option (List Cue)} (hcues : p.cues = q.map cuesElement)
    (hcs : ClustersAt scale true p.clustersAt cs p.clusters) (hne : cs ≠ []) (hfine : ∀ f ∈ clusterFrames cs, Fine scale f) :
    StepsAs file (placedClusters scale cs) := by
  intro r hr htotal fuel hfuel
  have hw : r.Whole := by unfold Rdr.Whole; rw [htotal, hr]
  have hmax' : r.data.length < 2 ^ 48 := by rw [hr]; exact hmax
  have hsize : p.payload.length < 2 ^ 48 := by
    have : p.payload.length ≤ (p.file docType true).length := by
      simp only [Parts.file, List.length_append]; omega
    rw [← hfile] at this; omega
  obtain ⟨es1, es2⟩ := places_small hsize
  have hrok := regionOk hreg hsize
  have hstart : ∀ start, At r.data start p.payload → start + p.payload.length = r.data.length →
      ∃ e tl, SizedChain r scale (start + p.clustersAt) (cs.map fun c => (start + c.1, c.2)) e ∧ TailAt r e tl := by
    intro start hat hend
    obtain ⟨g, -, -, h3⟩ := start_pass (rest := p.clusters ++ p.cues.getD []) (size := some p.payload.length) hw hmax' hv hrok hi htr
      hch htg (by intro n hn; cases hn; exact hend) hat
    have hl : start + p.clustersAt + p.clusters.length + (p.cues.getD []).length = r.data.length := by
      rw [← hend]
      simp only [Parts.payload, List.length_append, Parts.clustersAt, Parts.tagsAt, Parts.chaptersAt, Parts.tracksAt]
      omega
    rw [at_append] at h3
    have hsc := SizedChain.of hcs hmax' rfl h3.1 (by omega) hfine
    cases q with
    | none =>
      rw [hcues] at hl
      exact ⟨_, none, hsc, .inl ⟨hl, rfl⟩⟩
    | some q =>
      rw [hcues] at hl h3
      simp only [Option.map_some, Option.getD_some] at hl h3
      have e1 : start + p.cuesAt = start + p.clustersAt + p.clusters.length := by unfold Parts.cuesAt; omega
      have ht := (cues_tail (start := start) (p := p.cuesAt) (q := q) (by rw [e1]; exact h3.2) (by rw [e1]; exact hl) hmax').1
      rw [e1] at ht
      exact ⟨_, _, hsc, ht⟩
  have hreg' := hreg
  unfold Parts.HasSeekHead at hreg'
  rw [if_pos rfl] at hreg'
  obtain ⟨n, hn⟩ := hreg'
  obtain ⟨pos, head, g, g', p0, h1, h2, h3, h4, h5, h6, h7, h8, h9⟩ := headed (payload := p.payload) (docType := docType)
    (i := seenInfo scale du muxing writing) (ts := ts.map seenTrack) (ch := ch.map seenChapters) (tg := tg.map seenTags)
    (es := p.places) (at' := p.clustersAt) (cu := none) hv.docType hw (by rw [hr, hfile]; rfl) hmax' (by
      intro start hat hend
      have hs : ∀ n ∈ some p.payload.length, start + n = r.data.length := by intro n hn; cases hn; exact hend
      obtain ⟨g, k1, k2, -⟩ := start_pass (rest := p.clusters ++ p.cues.getD []) (size := some p.payload.length) hw hmax' hv hrok hi
        htr hch htg hs hat
      have hat' := hat
      unfold Parts.payload at hat'
      rw [at_append] at hat'
      obtain ⟨g1, q1, p0, m1, m2⟩ := region_seekHead (g := { start := start, pos := (start : Nat), size := some p.payload.length }) hw
        (by intro s hs; unfold ReadSegment.stop at hs; simp at hs; omega) es1 es2 rfl (hn ▸ hat'.1) hmax'
      obtain ⟨e, tl, c1, -⟩ := hstart start hat hend
      exact ⟨g, g1, q1, p0, k1, k2, .inr (c1.start_head (by simpa using hne)), m1, m2⟩)
  obtain ⟨e, tl, c1, c2⟩ := hstart g'.start h6 h7
  refine ⟨pos, head, g, g', h1, h2, h3, fun calls answers hans => stepping_start hw h4.clusters h8 h9 ?_ c1 c2 (by omega) hans⟩
  have : 0 < p.info.length := by
    rw [hi]; exact List.length_pos_iff.mpr (element_ne_nil _ _)
  simp only [Parts.clustersAt, Parts.tagsAt, Parts.chaptersAt, Parts.tracksAt]
  omega

/-- A file whose cues come first. -/
theorem steps_front {p : Parts} {docType : Bytes} {ts : List Track} {ch : Option (List Chapter)} {tg : Option (List Tag)}
    {scale : Nat} {du : Option UInt32} {date : Option Int} {muxing writing : Bytes} {file : Bytes} {cs : List (Nat × ClusterOf)}
    (hv : Viewable docType scale du muxing writing ts ch tg) (hreg : p.HasFrontSeekHead)
    (hi : p.info = infoElement scale (du.map UInt32.toNat) date muxing writing) (htr : p.tracks = (tracksTree ts).bytes)
    (hch : p.chapters = ch.map fun c => (chaptersTree c).bytes) (htg : p.tags = tg.map fun t => (tagsTree t).bytes)
    (hfile : file = p.frontFile docType) (hmax : file.length < 2 ^ 48) {q : List Cue} (hcues : p.cues = some (cuesElement q))
    (hcs : ClustersAt scale true p.frontClustersAt cs p.clusters) (hne : cs ≠ []) (hfine : ∀ f ∈ clusterFrames cs, Fine scale f) :
    StepsAs file (placedClusters scale cs) := by
  intro r hr htotal fuel hfuel
  have hw : r.Whole := by unfold Rdr.Whole; rw [htotal, hr]
  have hmax' : r.data.length < 2 ^ 48 := by rw [hr]; exact hmax
  have hsize : p.frontPayload.length < 2 ^ 48 := by
    have : p.frontPayload.length ≤ (p.frontFile docType).length := by
      simp only [Parts.frontFile, List.length_append]; omega
    rw [← hfile] at this; omega
  obtain ⟨es1, es2⟩ := frontPlaces_small hsize
  have hrok := frontRegionOk hreg hsize
  have hid : IsId 4 0x1C53BB6B := by unfold IsId; decide +kernel
  have hfc : p.frontClustersAt = p.clustersAt + (cuesElement q).length := by
    simp only [Parts.frontClustersAt, Parts.clustersAt, hcues, Option.getD_some]
  have hstart : ∀ start, At r.data start p.frontPayload → start + p.frontPayload.length = r.data.length →
      ∃ e, SizedChain r scale (start + p.frontClustersAt) (cs.map fun c => (start + c.1, c.2)) e ∧ TailAt r e none ∧
        ∃ g', Passes r { start := start, pos := (start : Nat), size := some p.frontPayload.length } start g' (start + p.frontClustersAt) ∧
          Has g' start (some p.frontPayload.length) (some (seenInfo scale du muxing writing)) (some (ts.map seenTrack))
            (ch.map seenChapters) (tg.map seenTags)
            ((some (p.clustersAt + 4 + sizeWidth (Spec.cuesPayload q).length, (Spec.cuesPayload q).length)).map
              fun c => (start + c.1, c.2)) := by
    intro start hat hend
    obtain ⟨g, h1, h2, h3⟩ := start_pass (rest := p.cues.getD [] ++ p.clusters) (size := some p.frontPayload.length) hw hmax' hv hrok hi
      htr hch htg (by intro n hn; cases hn; exact hend) hat
    rw [hcues, Option.getD_some, at_append] at h3
    have hst : ∀ s ∈ g.stop, s = r.data.length := by
      intro s hs
      unfold ReadSegment.stop at hs
      rw [h2.start, h2.size] at hs
      simp at hs
      omega
    obtain ⟨g', c1, c2⟩ := cues_pass (q := q) hw h2 hst h3.1 hmax'
    have hl : start + p.clustersAt + (cuesElement q).length + p.clusters.length = r.data.length := by
      rw [← hend]
      simp only [Parts.frontPayload, List.length_append, Parts.clustersAt, Parts.tagsAt, Parts.chaptersAt, Parts.tracksAt, hcues,
        Option.getD_some]
      omega
    have hfc' : start + p.frontClustersAt = start + p.clustersAt + (cuesElement q).length := by omega
    rw [← hfc'] at hl
    refine ⟨_, SizedChain.of hcs hmax' rfl (by rw [hfc']; exact h3.2) (by omega) hfine, .inl ⟨hl, rfl⟩, g', ?_, ?_⟩
    · rw [hfc']; exact h1.trans c1
    · simp only [Option.map_some]
      rw [← Nat.add_assoc, ← Nat.add_assoc]
      exact c2
  have hreg' := hreg
  obtain ⟨n, hn⟩ := hreg'
  obtain ⟨pos, head, g, g', p0, h1, h2, h3, h4, h5, h6, h7, h8, h9⟩ := headed (payload := p.frontPayload) (docType := docType)
    (i := seenInfo scale du muxing writing) (ts := ts.map seenTrack) (ch := ch.map seenChapters) (tg := tg.map seenTags)
    (es := p.frontPlaces) (at' := p.frontClustersAt)
    (cu := some (p.clustersAt + 4 + sizeWidth (Spec.cuesPayload q).length, (Spec.cuesPayload q).length)) hv.docType hw
    (by rw [hr, hfile]; rfl) hmax' (by
      intro start hat hend
      have hat' := hat
      unfold Parts.frontPayload at hat'
      rw [at_append] at hat'
      obtain ⟨g1, q1, p0, m1, m2⟩ := region_seekHead (g := { start := start, pos := (start : Nat), size := some p.frontPayload.length }) hw
        (by intro s hs; unfold ReadSegment.stop at hs; simp at hs; omega) es1 es2 rfl (hn ▸ hat'.1) hmax'
      obtain ⟨e, c1, -, g, k1, k2⟩ := hstart start hat hend
      exact ⟨g, g1, q1, p0, k1, k2, .inr (c1.start_head (by simpa using hne)), m1, m2⟩)
  obtain ⟨e, c1, c2, -⟩ := hstart g'.start h6 h7
  refine ⟨pos, head, g, g', h1, h2, h3, fun calls answers hans => stepping_start hw h4.clusters h8 h9 ?_ c1 c2 (by omega) hans⟩
  have : 0 < p.info.length := by
    rw [hi]; exact List.length_pos_iff.mpr (element_ne_nil _ _)
  simp only [Parts.frontClustersAt, Parts.tagsAt, Parts.chaptersAt, Parts.tracksAt]
  omega

end Verif.Props
