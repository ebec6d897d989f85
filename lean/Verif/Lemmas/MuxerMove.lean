/-
Making a second file, with the cues before the clusters: lemmas.
-/
import Verif.Model.MuxerMove
import Verif.Lemmas.MuxerFile
import Verif.Props.Cues

namespace Verif.Mux
open Verif Spec

theorem slice_split (bs : Bytes) (p n k : Nat) (h : n ≤ k) : slice bs p n ++ slice bs (p + n) (k - n) = slice bs p k := by
  unfold slice
  rw [← List.drop_drop]
  generalize bs.drop p = l
  have e : k = n + (k - n) := by omega
  conv => rhs; rw [e]
  rw [List.take_add]

/-- Copying from a source that has all the bytes. -/
theorem chunkedCopy_sure (src : Bytes) : ∀ (size start : Nat) {s : Sink}, s.AtEnd → s.Sure → start + size ≤ src.length →
    ∃ s', chunkedCopy src start size s = (.ok (), s') ∧ Grew s (slice src start size) s' := by
  intro size
  induction size using Nat.strongRecOn with
  | _ size ih =>
    intro start s h1 h2 hle
    unfold chunkedCopy
    by_cases h0 : size = 0
    · subst h0
      rw [dif_pos rfl]
      exact ⟨s, rfl, by simpa [slice] using Grew.refl h1 h2⟩
    rw [dif_neg h0]
    generalize hn : (if 2048 < size then 2048 else size) = n
    have hn1 : 0 < n ∧ n ≤ size := by rw [← hn]; split <;> omega
    rw [if_neg (by rw [Int.toNat_natCast]; omega), Int.toNat_natCast]
    obtain ⟨s1, e1, g1⟩ := grew_emits (Emits.write (slice src start n)) h1 h2
    have e1' : writeIgnored (slice src start n) s = (.ok (), s1) := by unfold writeIgnored; rw [e1]
    rw [W.bind_of_ok e1', show ((start : Int) + (n : Int)) = ((start + n : Nat) : Int) by omega]
    obtain ⟨s2, e2, g2⟩ := ih (size - n) (by omega) (start + n) g1.atEnd g1.sure (by omega)
    refine ⟨s2, e2, ?_⟩
    rw [← slice_split src start n size hn1.2]
    exact g1.trans g2

/-- Cues of shifted clusters. -/
theorem cuesOf_shift {scale track : Nat} {numbered : Bool} (k : Nat) {cs : List (Nat × ClusterOf)} {q : List Cue}
    (h : CuesOf scale track numbered cs q) :
    CuesOf scale track numbered (cs.map fun c => (c.1 + k, c.2)) (q.map fun c => { c with pos := c.pos + k }) := by
  induction h with
  | nil => exact .nil
  | skip h _ ih => exact .skip h ih
  | cue h _ ih => exact .cue h ih

theorem clustersAt_shift {scale : Nat} {sized : Bool} (k : Nat) {off : Nat} {cs : List (Nat × ClusterOf)} {bs : Bytes}
    (h : ClustersAt scale sized off cs bs) :
    ClustersAt scale sized (off + k) (cs.map fun c => (c.1 + k, c.2)) bs := by
  induction h with
  | nil => exact .nil
  | cons h _ ih =>
    refine .cons h ?_
    rwa [Nat.add_right_comm] at ih

/-- The places fit the seek head. -/
theorem frontPlaces_recordable {p : Parts} (h : p.frontPayload.length < 2 ^ 56) : ∀ e ∈ p.frontPlaces, Props.Recordable e := by
  simp only [Parts.frontPayload, List.length_append] at h
  have k1 : p.frontClustersAt < 2 ^ 56 := by
    unfold Parts.frontClustersAt Parts.tagsAt Parts.chaptersAt Parts.tracksAt; omega
  have k2 : p.tagsAt + (p.tags.getD []).length ≤ p.frontClustersAt := by unfold Parts.frontClustersAt; omega
  have k3 : p.chaptersAt ≤ p.tagsAt := by unfold Parts.tagsAt; omega
  have k4 : p.tracksAt ≤ p.chaptersAt := by unfold Parts.chaptersAt; omega
  have k5 : p.region.length ≤ p.tracksAt := by unfold Parts.tracksAt; omega
  intro e he
  simp only [Parts.frontPlaces, List.mem_append, List.mem_cons, List.not_mem_nil, or_false] at he
  rcases he with (((((rfl | rfl) | m) | m) | rfl) | m)
  · exact ⟨⟨4, (by unfold IsId; decide : IsId 4 kMkvInfo)⟩, by show p.region.length < _; omega⟩
  · exact ⟨⟨4, (by unfold IsId; decide : IsId 4 kMkvTracks)⟩, by show p.tracksAt < _; omega⟩
  · split at m
    · simp only [List.mem_singleton] at m
      subst m
      exact ⟨⟨4, (by unfold IsId; decide : IsId 4 kMkvChapters)⟩, by show p.chaptersAt < _; omega⟩
    · simp at m
  · split at m
    · simp only [List.mem_singleton] at m
      subst m
      exact ⟨⟨4, (by unfold IsId; decide : IsId 4 kMkvTags)⟩, by show p.tagsAt < _; omega⟩
    · simp at m
  · exact ⟨⟨4, (by unfold IsId; decide : IsId 4 kMkvCluster)⟩, by show p.frontClustersAt < _; omega⟩
  · split at m
    · simp only [List.mem_singleton] at m
      subst m
      exact ⟨⟨4, (by unfold IsId; decide : IsId 4 kMkvCues)⟩, by show p.tagsAt + _ < _; omega⟩
    · simp at m

/-- Where the clusters and the cues are in the seek head. -/
theorem places_slots {p : Parts} (hroom : ¬ (p.chapters.isSome = true ∧ p.tags.isSome = true)) (hc : p.cues.isSome = true) :
    ∃ i j, (slots p.places).length = 5 ∧ (slots p.places)[i]? = some (0x1F43B675, p.clustersAt) ∧
      (slots p.places)[j]? = some (0x1C53BB6B, p.cuesAt) ∧
      (∀ k e, (slots p.places)[k]? = some e → (e.1 = 0x1F43B675 → k = i) ∧ (e.1 = 0x1C53BB6B → k = j)) ∧
      ∀ p' : Parts, p'.region.length = p.region.length → p'.info = p.info → p'.tracks = p.tracks →
        p'.chapters = p.chapters → p'.tags = p.tags → p'.cues.isSome = true →
        ((slots p.places).set j (0x1C53BB6B, p.clustersAt)).set i (0x1F43B675, p.clustersAt + (p'.cues.getD []).length) =
          slots p'.frontPlaces ∧ p'.frontPlaces.length ≤ 5 ∧ p'.frontPlaces ≠ [] := by
  have key : ∀ (l : List (Nat × Nat)) (i j : Nat), l.length = 5 →
      (∀ k, k < 5 → (((l[k]?.getD (0, 0)).1 = 0x1F43B675 → k = i) ∧ ((l[k]?.getD (0, 0)).1 = 0x1C53BB6B → k = j))) →
      ∀ k e, l[k]? = some e → (e.1 = 0x1F43B675 → k = i) ∧ (e.1 = 0x1C53BB6B → k = j) := by
    intro l i j hl h k e he
    have hk : k < 5 := by
      rcases Nat.lt_or_ge k 5 with h | h
      · exact h
      · rw [List.getElem?_eq_none (by omega)] at he; cases he
    have := h k hk
    rw [he] at this
    exact this
  have small : ∀ {P : Nat → Prop}, P 0 → P 1 → P 2 → P 3 → P 4 → ∀ k, k < 5 → P k := by
    intro P h0 h1 h2 h3 h4 k hk
    match k with
    | 0 => exact h0
    | 1 => exact h1
    | 2 => exact h2
    | 3 => exact h3
    | 4 => exact h4
    | k + 5 => omega
  have front : ∀ p' : Parts, p'.region.length = p.region.length → p'.info = p.info → p'.tracks = p.tracks →
        p'.chapters = p.chapters → p'.tags = p.tags → p'.tracksAt = p.tracksAt ∧ p'.chaptersAt = p.chaptersAt ∧
        p'.tagsAt = p.tagsAt ∧ p'.tagsAt + (p'.tags.getD []).length = p.clustersAt ∧
        p'.frontClustersAt = p.clustersAt + (p'.cues.getD []).length := by
    intro p' h1 h2 h3 h4 h5
    unfold Parts.frontClustersAt Parts.clustersAt Parts.tagsAt Parts.chaptersAt Parts.tracksAt
    rw [h1, h2, h3, h4, h5]
    exact ⟨rfl, rfl, rfl, rfl, rfl⟩
  rcases hch : p.chapters.isSome with _ | _ <;> rcases htg : p.tags.isSome with _ | _
  · refine ⟨2, 3, ?_, ?_, ?_, key _ _ _ ?_ (small ?_ ?_ ?_ ?_ ?_), ?_⟩ <;>
      simp [slots, Parts.places, hch, htg, hc]
    intro p' h1 h2 h3 h4 h5 h6
    obtain ⟨f1, f2, f3, f4, f5⟩ := front p' h1 h2 h3 h4 h5
    simp [Parts.frontPlaces, h4, h5, h6, hch, htg, f1, f5, h1]
    rw [← h5, f4]
  · refine ⟨3, 4, ?_, ?_, ?_, key _ _ _ ?_ (small ?_ ?_ ?_ ?_ ?_), ?_⟩ <;>
      simp [slots, Parts.places, hch, htg, hc]
    intro p' h1 h2 h3 h4 h5 h6
    obtain ⟨f1, f2, f3, f4, f5⟩ := front p' h1 h2 h3 h4 h5
    simp [Parts.frontPlaces, h4, h5, h6, hch, htg, f1, f3, f5, h1]
    rw [← h5, ← f3, f4]
  · refine ⟨3, 4, ?_, ?_, ?_, key _ _ _ ?_ (small ?_ ?_ ?_ ?_ ?_), ?_⟩ <;>
      simp [slots, Parts.places, hch, htg, hc]
    intro p' h1 h2 h3 h4 h5 h6
    obtain ⟨f1, f2, f3, f4, f5⟩ := front p' h1 h2 h3 h4 h5
    simp [Parts.frontPlaces, h4, h5, h6, hch, htg, f1, f2, f5, h1]
    rw [← h5, f4]
  · exact absurd ⟨hch, htg⟩ hroom

/-- The parts of a file, as the copy sees them. -/
theorem file_split (p : Parts) (docType : Bytes) :
    slice (p.file docType true) 0 ((ebmlHeader docType 4).length + 12 + p.clustersAt) =
        fileStart docType (vint 8 p.payload.length) ++ (p.region ++ (p.info ++ (p.tracks ++ (p.chapters.getD [] ++ p.tags.getD [])))) ∧
    slice (p.file docType true) ((ebmlHeader docType 4).length + 12 + p.clustersAt) p.clusters.length = p.clusters ∧
    (ebmlHeader docType 4).length + 12 + p.clustersAt + p.clusters.length ≤ (p.file docType true).length := by
  have e : p.file docType true = (fileStart docType (vint 8 p.payload.length) ++ (p.region ++ (p.info ++ (p.tracks ++
      (p.chapters.getD [] ++ p.tags.getD []))))) ++ (p.clusters ++ p.cues.getD []) := by
    conv => lhs; unfold Parts.file
    generalize hv : vint 8 p.payload.length = v
    simp [fileStart, Parts.payload]
  have l : (fileStart docType (vint 8 p.payload.length) ++ (p.region ++ (p.info ++ (p.tracks ++
      (p.chapters.getD [] ++ p.tags.getD []))))).length = (ebmlHeader docType 4).length + 12 + p.clustersAt := by
    have hv : (vint 8 p.payload.length).length = 8 := by simp [vint]
    simp only [fileStart, segmentId, List.length_append, hv]
    simp only [List.length_cons, List.length_nil]
    unfold Parts.clustersAt Parts.tagsAt Parts.chaptersAt Parts.tracksAt
    omega
  rw [e]
  unfold slice
  refine ⟨?_, ?_, ?_⟩
  · rw [List.drop_zero, ← l, List.take_left]
  · rw [← l, List.drop_left, List.take_left]
  · rw [← l]
    simp only [List.length_append]
    omega

/-- The whole copy. -/
theorem copy_finished {g : Seg} {p : Parts} (hf : g.Finished p) (hk : g.seekable = true) (ho : g.outputCues = true)
    (hroom : ¬ (p.chapters.isSome = true ∧ p.tags.isSome = true))
    (hc : p.cues = some (cuesElement (g.cues.entries.map CuePoint.cue))) (hn : g.cues.entries.length < 2 ^ 31)
    (hsm : (p.file g.docType true).length < 2 ^ 48) {depth : Nat} (hdep : 7 * g.cues.entries.length < depth)
    {s : Sink} (hd : s.data = []) (hp : s.pos = 0) (hs : s.Sure) :
    ∃ (g' : Seg) (s' : Sink) (p' : Parts), Seg.copyAndMoveCues depth true (p.file g.docType true) g s = (.ok (), g', s') ∧
      s'.data = p'.frontFile g.docType ∧ p'.HasFrontSeekHead ∧
      p'.info = p.info ∧ p'.tracks = p.tracks ∧ p'.chapters = p.chapters ∧ p'.tags = p.tags ∧ p'.clusters = p.clusters ∧
      p'.frontClustersAt = p.clustersAt + (p'.cues.getD []).length ∧
      p'.cues = some (cuesElement ((g.cues.entries.map CuePoint.cue).map fun c =>
        { c with pos := c.pos + (p'.cues.getD []).length })) := by
  obtain ⟨k, k1, k2⟩ := hf.first
  obtain ⟨i, j, q1, q2, q3, q4, q5⟩ := places_slots hroom (by rw [hc]; rfl)
  obtain ⟨f1, f2, f3⟩ := file_split p g.docType
  have hreg := hf.region hk
  have hat : p.clustersAt < 2 ^ 48 := by omega
  have hle : ∀ c ∈ g.cues.entries, c.InRange ∧ c.clusterPos < 2 ^ 62 := fun c hm => by
    obtain ⟨x1, -, -, x4⟩ := hf.cues ho c hm; exact ⟨x1, by omega⟩
  obtain ⟨q', h', hsz, m1, m2, m3⟩ := Props.moving_cues (q := g.cues) (h := ⟨slots p.places, (ebmlHeader g.docType 4).length + 12⟩)
    hn hle q1 (by omega) q2 q3 q4
  generalize hqe : cuesElement (q'.entries.map CuePoint.cue) = cb at *
  unfold Seg.copyAndMoveCues
  rw [M.get_bind, if_neg (by simp), k1]
  have hoff : (k.sizePosition.elim (-1) Int.ofNat) - ((getUIntSize kMkvCluster : Nat) : Int) =
      (((ebmlHeader g.docType 4).length + 12 + p.clustersAt : Nat) : Int) := by
    rw [k2, show getUIntSize kMkvCluster = 4 by decide]
    show Int.ofNat _ - _ = _
    simp only [Int.ofNat_eq_natCast]
    omega
  dsimp only
  rw [hoff, Int.toNat_natCast, hf.last]
  generalize hst : (ebmlHeader g.docType 4).length + 12 = st at *
  have hclen : p.cuesAt = p.clustersAt + p.clusters.length := rfl
  have hat0 : s.AtEnd := by unfold Sink.AtEnd; rw [hd, hp]; rfl
  -- the headers
  obtain ⟨s1, e1, g1⟩ := chunkedCopy_sure (p.file g.docType true) (st + p.clustersAt) 0 hat0 hs (by omega)
  rw [show ((0 : Nat) : Int) = 0 from rfl] at e1
  rw [M.bind_of_ok (M.lift_of e1), hf.seekHead hk, hst, m1 depth hdep]
  rw [f1] at g1
  dsimp only
  rw [M.modify_bind]
  -- the cues
  have hr' : ∀ c ∈ q'.entries, c.InRange ∧ 1 ≤ c.track ∧ 1 ≤ c.clusterPos := by
    intro c hm
    rw [m2] at hm
    obtain ⟨d, hd', rfl⟩ := List.mem_map.mp hm
    obtain ⟨⟨x1, x2, x3, x4⟩, y2, y3, y4⟩ := hf.cues ho d hd'
    exact ⟨⟨x1, x2, by show _ + _ < _; omega, x4⟩, y2, by show 1 ≤ _ + _; omega⟩
  have hlen : q'.entries.length = g.cues.entries.length := by rw [m2, List.length_map]
  obtain ⟨s2, e2, g2⟩ := grew_emits (Cues.write_emits (q := q') hr' (by omega)) g1.atEnd g1.sure
  rw [M.bind_of_ok (M.lift_of e2)]
  rw [hqe] at g2
  have hcue : q'.entries.map CuePoint.cue = (g.cues.entries.map CuePoint.cue).map fun c => { c with pos := c.pos + cb.length } := by
    rw [m2, List.map_map, List.map_map]
    rfl
  -- the seek head
  have hpl : p.payload.length < 2 ^ 48 := by
    have : p.payload.length ≤ (p.file g.docType true).length := by
      unfold Parts.file; simp only [List.length_append]; omega
    omega
  have fin : ∀ p' : Parts, p' = ⟨p'.region, p.info, p.tracks, p.chapters, p.tags, p.clusters, some cb⟩ → p'.region.length = 110 →
      p'.frontPayload.length < 2 ^ 56 - 1 := by
    intro p' h1 h2
    rw [h1]
    unfold Parts.frontPayload
    unfold Parts.payload at hpl
    simp only [List.length_append, Option.getD_some] at hpl ⊢
    omega
  obtain ⟨w1, w2, w3⟩ := q5 ⟨p.region, p.info, p.tracks, p.chapters, p.tags, p.clusters, some cb⟩ rfl rfl rfl rfl rfl rfl
  have hrec := frontPlaces_recordable (p := ⟨p.region, p.info, p.tracks, p.chapters, p.tags, p.clusters, some cb⟩)
    (by have := fin ⟨p.region, p.info, p.tracks, p.chapters, p.tags, p.clusters, some cb⟩ rfl hreg; omega)
  have hfs : (fileStart g.docType (vint 8 p.payload.length)).length = st := by
    rw [← hst]
    have hv : (vint 8 p.payload.length).length = 8 := by simp [vint]
    simp only [fileStart, segmentId, List.length_append, hv]
    simp only [List.length_cons, List.length_nil]
  obtain ⟨s3, e, e3, u3, p3, l3, d3⟩ := seekHead_sure hrec w3 w2 g2.sure
    (pre := fileStart g.docType (vint 8 p.payload.length)) (gap := p.region)
    (post := p.info ++ (p.tracks ++ (p.chapters.getD [] ++ (p.tags.getD [] ++ cb))))
    (by rw [g2.data, g1.data, hd]; simp) hreg (h := h') (by
      rw [m3, hfs]
      show (⟨_, _⟩ : SeekHead) = _
      congr 1)
  rw [M.bind_of_ok (M.lift_of e3)]
  generalize hR : element 0x114D9B74 (seekEntries (Parts.frontPlaces ⟨p.region, p.info, p.tracks, p.chapters, p.tags, p.clusters, some cb⟩)) ++
    element 0xEC (List.replicate e 0) = R at *
  have a3 : s3.AtEnd := by
    unfold Sink.AtEnd
    rw [p3, show s2.pos = s2.data.length from g2.atEnd, g2.data, g1.data, hd, d3]
    simp only [List.length_append, List.length_nil]
    omega
  -- the clusters
  have hsz2 : (((st + p.cuesAt : Nat) : Int) - ((st + p.clustersAt : Nat) : Int)).toNat = p.clusters.length := by
    rw [hclen]; omega
  rw [hsz2]
  obtain ⟨s4, e4, g4⟩ := chunkedCopy_sure (p.file g.docType true) p.clusters.length (st + p.clustersAt) a3 u3 f3
  rw [f2] at g4
  rw [M.bind_of_ok (M.lift_of e4)]
  -- the size
  have hd4 : s4.data = fileStart g.docType (vint 8 p.payload.length) ++
      Parts.frontPayload ⟨R, p.info, p.tracks, p.chapters, p.tags, p.clusters, some cb⟩ := by
    rw [g4.data, d3]
    simp [Parts.frontPayload]
  have hsmall := fin ⟨R, p.info, p.tracks, p.chapters, p.tags, p.clusters, some cb⟩ rfl l3
  generalize hP : (⟨R, p.info, p.tracks, p.chapters, p.tags, p.clusters, some cb⟩ : Parts) = P at *
  have hpos4 : s4.pos = st + P.frontPayload.length := by
    rw [show s4.pos = s4.data.length from g4.atEnd, hd4, List.length_append, hfs]
  obtain ⟨s5, e5, u5, p5, d5⟩ := patch_sure (writeUIntSize_emits (v := P.frontPayload.length) (n := 8) (by omega) (by omega) (by omega))
    g4.sure (pre := ebmlHeader g.docType 4 ++ segmentId) (old := vint 8 p.payload.length) (post := P.frontPayload)
    (by rw [hd4]; simp [fileStart]) (by simp [vint]) (p := g.sizePosition) (by rw [hf.size]; simp [segmentId])
  have e5' : g.patchCopySize s4 = (.ok (), s5) := by
    unfold Seg.patchCopySize
    rw [W.bind_of_ok (show Sink.position s4 = (.ok s4.pos, s4) from rfl), hf.payload, hst]
    have : toU64 ((s4.pos : Int) - (st : Int)) = P.frontPayload.length := by
      unfold toU64; rw [hpos4]; omega
    rw [this]
    exact e5
  refine ⟨_, s5, P, M.lift_of e5', ?_, ?_, ?_, ?_, ?_, ?_, ?_, ?_, ?_⟩
  · rw [d5]; simp [Parts.frontFile]
  · refine ⟨e, ?_⟩
    rw [← hP]
    have l3' : R.length = p.region.length := by omega
    have : Parts.frontPlaces ⟨R, p.info, p.tracks, p.chapters, p.tags, p.clusters, some cb⟩ =
        Parts.frontPlaces ⟨p.region, p.info, p.tracks, p.chapters, p.tags, p.clusters, some cb⟩ := by
      simp only [Parts.frontPlaces, Parts.tracksAt, Parts.chaptersAt, Parts.tagsAt, Parts.frontClustersAt, l3']
    rw [this]
    exact hR.symm
  · rw [← hP]
  · rw [← hP]
  · rw [← hP]
  · rw [← hP]
  · rw [← hP]
  · rw [← hP]
    have l3' : R.length = p.region.length := by omega
    simp only [Parts.clustersAt, Parts.tracksAt, Parts.chaptersAt, Parts.tagsAt, Parts.frontClustersAt, l3']
  · rw [← hP]
    show some cb = some (cuesElement (List.map (fun c : Cue => { c with pos := c.pos + cb.length }) _))
    rw [← hcue, hqe]

end Verif.Mux
