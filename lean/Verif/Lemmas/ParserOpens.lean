/-
Opening the files of the muxer with mkvparser.
-/
import Verif.Lemmas.ParserFile
import Verif.Props.Timeline
import Verif.Props.Reading

namespace Verif.Props
open Verif Verif.Par Verif.Mux Spec

theorem carried_watched {scale : Nat} {a b : List Frame} (h : CarriedAll a b) (hr : ∀ f ∈ a, f.Showable scale) :
    (∀ f ∈ b, f.Showable scale) ∧ b.map (Frame.asWatched scale) = a.map (Frame.asWatched scale) := by
  induction h with
  | nil => exact ⟨by simp, rfl⟩
  | cons h _ ih =>
    rename_i f g fs gs _
    obtain ⟨i1, i2⟩ := ih fun f hf => hr f (.tail _ hf)
    have hf := hr f (.head _)
    constructor
    · intro x hx
      rcases List.mem_cons.mp hx with rfl | hx
      · exact ⟨by rw [h.discard]; exact hf.padding, by rw [h.duration]; exact hf.duration⟩
      · exact i1 x hx
    · simp only [List.map_cons, i2]
      congr 1
      simp only [Frame.asWatched, Frame.asSeen, h.time, h.track, h.data, h.key, h.duration, h.discard]

theorem accepted_fine {g : Seg} {xs : List SegCall} {rs : List (Res Unit)} (hxs : g.WellFed xs) {gs : List Frame}
    (hc : CarriedAll (acceptedFrames xs rs) gs) (hr : ∀ f ∈ gs, f.Showable g.info.scale) : ∀ f ∈ gs, Fine g.info.scale f := by
  have ht := carried_times (P := fun t => t / g.info.scale < 2 ^ 63) hc fun f hf => (hxs.sound f (accepted_frame hf)).fine.2
  exact fun f hf => ⟨ht f hf, (hr f hf).padding, (hr f hf).duration⟩

theorem places_ids (p : Parts) : p.places.length ≤ 6 ∧ ∀ e ∈ p.places, IsId 4 e.1 := by
  constructor
  · unfold Parts.places
    simp only [List.length_append, List.length_cons, List.length_nil]
    repeat' split
    all_goals simp
  · intro e he
    simp only [Parts.places, List.mem_append, List.mem_cons, List.not_mem_nil, or_false] at he
    rcases he with ((((rfl | rfl) | he) | he) | rfl) | he
    · show IsId 4 0x1549A966; unfold IsId; decide +kernel
    · show IsId 4 0x1654AE6B; unfold IsId; decide +kernel
    · split at he
      · rw [List.mem_singleton.mp he]; show IsId 4 0x1043A770; unfold IsId; decide +kernel
      · cases he
    · split at he
      · rw [List.mem_singleton.mp he]; show IsId 4 0x1254C367; unfold IsId; decide +kernel
      · cases he
    · show IsId 4 0x1F43B675; unfold IsId; decide +kernel
    · split at he
      · rw [List.mem_singleton.mp he]; show IsId 4 0x1C53BB6B; unfold IsId; decide +kernel
      · cases he

theorem frontPlaces_ids (p : Parts) : p.frontPlaces.length ≤ 6 ∧ ∀ e ∈ p.frontPlaces, IsId 4 e.1 := by
  constructor
  · unfold Parts.frontPlaces
    simp only [List.length_append, List.length_cons, List.length_nil]
    repeat' split
    all_goals simp
  · intro e he
    simp only [Parts.frontPlaces, List.mem_append, List.mem_cons, List.not_mem_nil, or_false] at he
    rcases he with ((((rfl | rfl) | he) | he) | rfl) | he
    · show IsId 4 0x1549A966; unfold IsId; decide +kernel
    · show IsId 4 0x1654AE6B; unfold IsId; decide +kernel
    · split at he
      · rw [List.mem_singleton.mp he]; show IsId 4 0x1043A770; unfold IsId; decide +kernel
      · cases he
    · split at he
      · rw [List.mem_singleton.mp he]; show IsId 4 0x1254C367; unfold IsId; decide +kernel
      · cases he
    · show IsId 4 0x1F43B675; unfold IsId; decide +kernel
    · split at he
      · rw [List.mem_singleton.mp he]; show IsId 4 0x1C53BB6B; unfold IsId; decide +kernel
      · cases he

theorem carried_ne {a b : List Frame} (h : CarriedAll a b) (ha : a ≠ []) : b ≠ [] := by
  cases h with
  | nil => exact absurd rfl ha
  | cons _ _ => simp

theorem regionOk {p : Parts} {seekable : Bool} (h : p.HasSeekHead seekable) (hsize : p.payload.length < 2 ^ 48) :
    RegionOk p.region := by
  unfold Parts.HasSeekHead at h
  split at h
  · obtain ⟨n, e⟩ := h
    refine .inr (.inr ⟨p.places, n, e, by have := (places_ids p).1; omega, fun e he => ⟨⟨4, (places_ids p).2 e he⟩, ?_⟩⟩)
    have hb : p.cuesAt + (p.cues.getD []).length < 2 ^ 48 := by
      simp only [Parts.cuesAt, Parts.clustersAt, Parts.tagsAt, Parts.chaptersAt, Parts.tracksAt]
      simp only [Parts.payload, List.length_append] at hsize
      omega
    simp only [Parts.places, List.mem_append, List.mem_cons, List.not_mem_nil, or_false] at he
    simp only [Parts.cuesAt, Parts.clustersAt, Parts.tagsAt, Parts.chaptersAt, Parts.tracksAt] at hb he
    rcases he with ((((rfl | rfl) | he) | he) | rfl) | he
    · simp only; omega
    · simp only; omega
    · split at he
      · rw [List.mem_singleton.mp he]; simp only; omega
      · cases he
    · split at he
      · rw [List.mem_singleton.mp he]; simp only; omega
      · cases he
    · simp only; omega
    · split at he
      · rw [List.mem_singleton.mp he]; simp only; omega
      · cases he
  · exact .inl h

theorem frontRegionOk {p : Parts} (h : p.HasFrontSeekHead) (hsize : p.frontPayload.length < 2 ^ 48) : RegionOk p.region := by
  obtain ⟨n, e⟩ := h
  refine .inr (.inr ⟨p.frontPlaces, n, e, by have := (frontPlaces_ids p).1; omega,
    fun e he => ⟨⟨4, (frontPlaces_ids p).2 e he⟩, ?_⟩⟩)
  have hb : p.frontClustersAt + p.clusters.length < 2 ^ 48 := by
    simp only [Parts.frontClustersAt, Parts.tagsAt, Parts.chaptersAt, Parts.tracksAt]
    simp only [Parts.frontPayload, List.length_append] at hsize
    omega
  simp only [Parts.frontPlaces, List.mem_append, List.mem_cons, List.not_mem_nil, or_false] at he
  simp only [Parts.frontClustersAt, Parts.tagsAt, Parts.chaptersAt, Parts.tracksAt] at hb he
  rcases he with ((((rfl | rfl) | he) | he) | rfl) | he
  · simp only; omega
  · simp only; omega
  · split at he
    · rw [List.mem_singleton.mp he]; simp only; omega
    · cases he
  · split at he
    · rw [List.mem_singleton.mp he]; simp only; omega
    · cases he
  · simp only; omega
  · split at he
    · rw [List.mem_singleton.mp he]; simp only; omega
    · cases he

/-- Where the payload of a Cues element after the clusters is, unless it is empty. -/
def tailCues (at' : Nat) : Option (List Cue) → Option (Nat × Bytes)
  | none => none
  | some q => if (Spec.cuesPayload q).length = 0 then none
    else some (at' + 4 + sizeWidth (Spec.cuesPayload q).length, Spec.cuesPayload q)

theorem cues_tail {r : Rdr} {start p : Nat} {q : List Cue} (hat : At r.data (start + p) (cuesElement q))
    (hend : start + p + (cuesElement q).length = r.data.length) (hmax : r.data.length < 2 ^ 48) :
    TailAt r (start + p) ((tailCues p (some q)).map fun c => (start + c.1, c.2.length)) ∧
      ∀ c ∈ tailCues p (some q), At r.data (start + c.1) c.2 := by
  have hid : IsId 4 0x1C53BB6B := by unfold IsId; decide +kernel
  unfold cuesElement at hat hend
  have hl := element_length_id hid (Spec.cuesPayload q)
  have hpl := at_payload hid hat
  simp only [tailCues]
  refine ⟨.inr ⟨_, _, elemAt hid (by omega) hat, by omega, ?_⟩, ?_⟩
  · by_cases h0 : (Spec.cuesPayload q).length = 0
    · rw [if_pos h0, if_pos h0]; rfl
    · rw [if_neg h0, if_neg h0]
      simp only [Option.map_some, Option.some.injEq, Prod.mk.injEq, and_true]
      omega
  · intro c hc
    split at hc
    · cases hc
    · cases hc
      simp only
      rw [← Nat.add_assoc, ← Nat.add_assoc]
      exact hpl

/-- A file whose clusters come before the cues. -/
theorem opens_file {p : Parts} {docType : Bytes} {ts : List Track} {ch : Option (List Chapter)} {tg : Option (List Tag)}
    {scale : Nat} {du : Option UInt32} {date : Option Int} {muxing writing : Bytes} {known : Bool} {file : Bytes}
    (hv : Viewable docType scale du muxing writing ts ch tg) (hreg : RegionOk p.region)
    (hi : p.info = infoElement scale (du.map UInt32.toNat) date muxing writing) (htr : p.tracks = (tracksTree ts).bytes)
    (hch : p.chapters = ch.map fun c => (chaptersTree c).bytes) (htg : p.tags = tg.map fun t => (tagsTree t).bytes)
    (hfile : file = p.file docType known) (hmax : file.length < 2 ^ 48) {q : Option (List Cue)} (hcues : p.cues = q.map cuesElement)
    {cs : List (Nat × ClusterOf)}
    (hchain : ∀ (r : Rdr) (start : Nat) (tl : Option (Nat × Nat)), r.data.length < 2 ^ 48 →
      At r.data (start + p.clustersAt) p.clusters →
      start + p.clustersAt + p.clusters.length ≤ r.data.length → TailAt r (start + p.clustersAt + p.clusters.length) tl →
      Chain r scale (start + p.clustersAt) (cs.map fun c => (start + c.1, c.2)) (start + p.clustersAt + p.clusters.length))
    (hne : cs ≠ [] ∨ p.cues = none) :
    Opens file (shownAs docType scale du muxing writing ts ch tg) scale cs (tailCues p.cuesAt q) := by
  refine opened (docType := docType) (payload := p.payload) (known := known) hv.docType rfl (by rw [hfile]; rfl) hmax ?_
  intro r hw hr start size hsize hat hend
  have hmax' : r.data.length < 2 ^ 48 := by rw [hr]; exact hmax
  obtain ⟨g, h1, h2, h3⟩ := start_pass (rest := p.clusters ++ p.cues.getD []) hw hmax' hv hreg hi htr hch htg hsize hat
  rw [at_append] at h3
  have hl : start + p.clustersAt + p.clusters.length + (p.cues.getD []).length = r.data.length := by
    rw [← hend]
    simp only [Parts.payload, List.length_append, Parts.clustersAt, Parts.tagsAt, Parts.chaptersAt, Parts.tracksAt]
    omega
  have htail : TailAt r (start + p.clustersAt + p.clusters.length) ((tailCues p.cuesAt q).map fun c => (start + c.1, c.2.length)) ∧
      ∀ c ∈ tailCues p.cuesAt q, At r.data (start + c.1) c.2 := by
    cases q with
    | none =>
      rw [hcues] at hl
      exact ⟨.inl ⟨hl, rfl⟩, fun c hc => by cases hc⟩
    | some q =>
      rw [hcues] at hl h3
      have := cues_tail (start := start) (p := p.cuesAt) (q := q) (by unfold Parts.cuesAt; rw [← Nat.add_assoc]; exact h3.2)
        (by unfold Parts.cuesAt; rw [← Nat.add_assoc]; exact hl) hmax'
      rwa [Parts.cuesAt, ← Nat.add_assoc] at this
  refine ⟨g, _, _, none, _, h1, h2, hchain r _ _ hmax' h3.1 (by omega) htail.1, htail.1, by simp, htail.2, ?_⟩
  rcases hne with h | h
  · exact .inl h
  · rw [h] at hl
    exact .inr hl

/-- A file whose cues come first. -/
theorem opens_front {p : Parts} {docType : Bytes} {ts : List Track} {ch : Option (List Chapter)} {tg : Option (List Tag)}
    {scale : Nat} {du : Option UInt32} {date : Option Int} {muxing writing : Bytes} {file : Bytes}
    (hv : Viewable docType scale du muxing writing ts ch tg) (hreg : RegionOk p.region)
    (hi : p.info = infoElement scale (du.map UInt32.toNat) date muxing writing) (htr : p.tracks = (tracksTree ts).bytes)
    (hch : p.chapters = ch.map fun c => (chaptersTree c).bytes) (htg : p.tags = tg.map fun t => (tagsTree t).bytes)
    (hfile : file = p.frontFile docType) (hmax : file.length < 2 ^ 48) {q : List Cue} (hcues : p.cues = some (cuesElement q))
    {cs : List (Nat × ClusterOf)}
    (hchain : ∀ (r : Rdr) (start : Nat) (tl : Option (Nat × Nat)), r.data.length < 2 ^ 48 →
      At r.data (start + p.frontClustersAt) p.clusters →
      start + p.frontClustersAt + p.clusters.length ≤ r.data.length →
      TailAt r (start + p.frontClustersAt + p.clusters.length) tl →
      Chain r scale (start + p.frontClustersAt) (cs.map fun c => (start + c.1, c.2))
        (start + p.frontClustersAt + p.clusters.length)) :
    Opens file (shownAs docType scale du muxing writing ts ch tg) scale cs
      (some (p.clustersAt + 4 + sizeWidth (Spec.cuesPayload q).length, Spec.cuesPayload q)) := by
  refine opened (docType := docType) (payload := p.frontPayload) (known := true) hv.docType rfl (by rw [hfile]; rfl) hmax ?_
  intro r hw hr start size hsize hat hend
  have hmax' : r.data.length < 2 ^ 48 := by rw [hr]; exact hmax
  obtain ⟨g, h1, h2, h3⟩ := start_pass (rest := p.cues.getD [] ++ p.clusters) hw hmax' hv hreg hi htr hch htg hsize hat
  rw [hcues] at h3
  rw [at_append] at h3
  have hst : ∀ s ∈ g.stop, s = r.data.length := by
    intro s hs
    unfold ReadSegment.stop at hs
    rw [h2.start, h2.size] at hs
    cases hz : size with
    | none => rw [hz] at hs; cases hs
    | some n =>
      rw [hz] at hs
      have := hsize n hz
      simp at hs
      omega
  obtain ⟨g', c1, c2⟩ := cues_pass (q := q) hw h2 hst h3.1 hmax'
  have hl : start + p.clustersAt + (cuesElement q).length + p.clusters.length = r.data.length := by
    rw [← hend]
    simp only [Parts.frontPayload, List.length_append, Parts.clustersAt, Parts.tagsAt, Parts.chaptersAt, Parts.tracksAt, hcues,
      Option.getD_some]
    omega
  have hfc : start + p.frontClustersAt = start + p.clustersAt + (cuesElement q).length := by
    simp only [Parts.frontClustersAt, Parts.clustersAt, hcues, Option.getD_some]
    omega
  have hid : IsId 4 0x1C53BB6B := by unfold IsId; decide +kernel
  rw [← hfc] at hl
  have hc := hchain r start none hmax' (by rw [hfc]; exact h3.2) (by omega) (.inl ⟨hl, rfl⟩)
  refine ⟨g', _, _, _, none, h1.trans c1, c2, by rw [← hfc]; exact hc, .inl ⟨hl, rfl⟩, ?_, ?_, .inr hl⟩
  · simp only [Option.or_none, Option.map_some, Option.some.injEq, Prod.mk.injEq, and_true]
    omega
  · intro c hc
    cases hc
    simp only
    rw [← Nat.add_assoc, ← Nat.add_assoc]
    exact at_payload hid h3.1

theorem chain_all {scale off : Nat} {sized : Bool} {cs : List (Nat × ClusterOf)} {bs : Bytes}
    (h : ClustersAt scale sized off cs bs) (hf : ∀ f ∈ clusterFrames cs, Fine scale f) (r : Rdr) (start : Nat)
    (tl : Option (Nat × Nat)) (hmax : r.data.length < 2 ^ 48) (hat : At r.data (start + off) bs)
    (hle : start + off + bs.length ≤ r.data.length) (ht : TailAt r (start + off + bs.length) tl) :
    Chain r scale (start + off) (cs.map fun c => (start + c.1, c.2)) (start + off + bs.length) := by
  have := Chain.more h hmax rfl hat hle hf (Chain.nil (r := r) (scale := scale)) ht
  rwa [List.append_nil] at this

theorem chain_open {scale : Nat} {sized : Bool} {cs : List (Nat × ClusterOf)} {last : Option ClusterOf} {p : Parts}
    {docType data : Bytes} (h : p.Unfinished docType scale sized cs last data)
    (hf : ∀ f ∈ clusterFrames cs ++ last.elim [] ClusterOf.frames, Fine scale f) :
    ∃ off, ∀ (r : Rdr) (start : Nat) (tl : Option (Nat × Nat)), r.data.length < 2 ^ 48 →
      At r.data (start + p.clustersAt) p.clusters →
      start + p.clustersAt + p.clusters.length ≤ r.data.length → TailAt r (start + p.clustersAt + p.clusters.length) tl →
      Chain r scale (start + p.clustersAt) ((cs ++ last.toList.map fun c => (off, c)).map fun (c : Nat × ClusterOf) => (start + c.1, c.2))
        (start + p.clustersAt + p.clusters.length) := by
  obtain ⟨-, -, a, b, h1, h2, h3⟩ := h
  refine ⟨p.clustersAt + a.length, fun r start tl hmax hat hle ht => ?_⟩
  rw [h1] at hat hle ht ⊢
  cases last with
  | none =>
    obtain ⟨rfl, rfl⟩ := h3
    cases h2
    exact .nil
  | some c =>
    rw [at_append] at hat
    rw [List.length_append, ← Nat.add_assoc] at hle ht ⊢
    rw [List.map_append]
    refine Chain.more h2 hmax rfl hat.1 (by omega) (fun f hf' => hf f (List.mem_append_left _ hf')) ?_ ht
    simp only [Option.toList, List.map_cons, List.map_nil]
    rw [← Nat.add_assoc]
    exact Chain.one h3 hat.2 (by omega) (fun f hf' => hf f (List.mem_append_right _ hf')) .nil ht

theorem open_frames (cs : List (Nat × ClusterOf)) (last : Option ClusterOf) (off : Nat) :
    clusterFrames (cs ++ last.toList.map fun c => (off, c)) = clusterFrames cs ++ last.elim [] ClusterOf.frames := by
  unfold clusterFrames
  rw [List.map_append, List.flatten_append]
  cases last <;> simp

/-- A finished recording, opened. -/
theorem recording_opens {g : Seg} {muxing writing : Bytes} {ts : List Track} {ch : Option (List Chapter)}
    {tg : Option (List Tag)}
    (hg : g.Settings muxing writing (tracksTree ts).bytes (ch.map fun c => (chaptersTree c).bytes)
      (tg.map fun t => (tagsTree t).bytes)) (hu : g.Unused) (hn : g.Numbered)
    (hacc : g.accurate = false) (hl : g.live = false)
    (hroom : g.Room (ch.map fun c => (chaptersTree c).bytes) (tg.map fun t => (tagsTree t).bytes))
    {xs : List SegCall} (hxs : g.WellFed xs) (hr : ∀ f, .frame f ∈ xs → f.Showable g.info.scale)
    {s : Sink} (hd : s.data = []) (hp : s.pos = 0) (hs : s.Sure)
    {rs : List (Res Unit)} {g1 g2 : Seg} {s1 s2 : Sink} {r : Res Unit} {d : Option Nat} {du : Option UInt32}
    (hrun : Seg.run xs g s = (rs, g1, s1)) (hfin : Seg.finalize d g1 s1 = (r, g2, s2))
    (hsm : s2.data.length < 2 ^ 48) (hw : ∃ f ∈ acceptedFrames xs rs, g.queues f = false)
    (hdu : g.lastDuration d = du.map UInt32.toNat) (hv : Viewable g.docType g.info.scale du muxing writing ts ch tg) :
    r = .ok () ∧ ∃ (off at' : Nat) (cs : List (Nat × ClusterOf)) (bs : Bytes) (q : Option (List Cue)),
      Opens s2.data (shownAs g.docType g.info.scale du muxing writing ts ch tg) g.info.scale cs (tailCues at' q) ∧
      ClustersAt g.info.scale g.seekable off cs bs ∧ off + bs.length < 2 ^ 48 ∧ 0 < off ∧
      CarriedAll (acceptedFrames xs rs) (clusterFrames cs) ∧ (∀ f ∈ clusterFrames cs, Fine g.info.scale f) ∧
      (clusterFrames cs).map (Frame.asWatched g.info.scale) = (acceptedFrames xs rs).map (Frame.asWatched g.info.scale) ∧
      (g.outputCues = true → ∃ cues, q = some cues ∧ CuesOf g.info.scale g.cuesOn g.cues.outputBlockNumber cs cues) ∧
      (cs.map (·.2.tc)).Pairwise (· ≤ ·) := by
  obtain ⟨h1, -, p, cs, h3, h4, h5, h6, h7, h8, h9, h10, h11, -, -, -, -, h12⟩ :=
    whole_file hg hu hn hacc hl hroom hxs hd hp hs hrun hfin hsm hw
  have hfl : p.payload.length < 2 ^ 48 := by
    have : p.payload.length ≤ (p.file g.docType g.seekable).length := by
      simp only [Parts.file, List.length_append]; omega
    rw [← h3] at this; omega
  obtain ⟨c1, c2⟩ := carried_watched (scale := g.info.scale) h10 fun f hf => hr f (accepted_frame hf)
  have hcues : ∃ q : Option (List Cue), p.cues = q.map cuesElement ∧
      (g.outputCues = true → ∃ cues, q = some cues ∧ CuesOf g.info.scale g.cuesOn g.cues.outputBlockNumber cs cues) := by
    split at h11
    · exact ⟨some _, h11.1, fun _ => ⟨_, rfl, h11.2⟩⟩
    · rename_i h
      exact ⟨none, h11, fun h' => absurd h' h⟩
  obtain ⟨q, hq, hq'⟩ := hcues
  have hne : cs ≠ [] := by
    intro h0
    subst h0
    refine carried_ne h10 ?_ rfl
    obtain ⟨f, hf, -⟩ := hw
    intro h; rw [h] at hf; cases hf
  have hfine := accepted_fine hxs h10 c1
  refine ⟨h1, _, _, cs, p.clusters, q, opens_file hv (regionOk h4 hfl) (by rw [h5, hdu]) h6 h7 h8 h3 hsm hq (chain_all h9 hfine)
    (.inl hne), h9, ?_, ?_, h10, hfine, c2, hq', h12⟩
  · simp only [Parts.payload, List.length_append] at hfl
    simp only [Parts.clustersAt, Parts.tagsAt, Parts.chaptersAt, Parts.tracksAt]
    omega
  · have : 0 < p.info.length := by
      rw [h5]; exact List.length_pos_iff.mpr (element_ne_nil _ _)
    simp only [Parts.clustersAt, Parts.tagsAt, Parts.chaptersAt, Parts.tracksAt]
    omega

/-- A recording whose cues were moved to the front, opened. -/
theorem moved_opens {g : Seg} {muxing writing : Bytes} {ts : List Track} {ch : Option (List Chapter)}
    {tg : Option (List Tag)}
    (hg : g.Settings muxing writing (tracksTree ts).bytes (ch.map fun c => (chaptersTree c).bytes)
      (tg.map fun t => (tagsTree t).bytes)) (hu : g.Unused) (hn : g.Numbered)
    (hacc : g.accurate = false) (hl : g.live = false)
    (hroom : g.Room (ch.map fun c => (chaptersTree c).bytes) (tg.map fun t => (tagsTree t).bytes))
    (hcues : g.outputCues = true) (hseek : g.seekable = true)
    {xs : List SegCall} (hxs : g.WellFed xs) (hr : ∀ f, .frame f ∈ xs → f.Showable g.info.scale)
    {s : Sink} (hd : s.data = []) (hp : s.pos = 0) (hs : s.Sure)
    {rs : List (Res Unit)} {g1 g2 g3 : Seg} {s1 s2 s3 t : Sink} {r r' : Res Unit} {d : Option Nat} {du : Option UInt32}
    (hrun : Seg.run xs g s = (rs, g1, s1)) (hfin : Seg.finalize d g1 s1 = (r, g2, s2))
    (hsm : s2.data.length < 2 ^ 48) (hw : ∃ f ∈ acceptedFrames xs rs, g.queues f = false)
    (hmany : g2.cues.entries.length < 2 ^ 31) {depth : Nat} (hdepth : 7 * g2.cues.entries.length < depth)
    (htd : t.data = []) (htp : t.pos = 0) (hts : t.Sure)
    (hcopy : Seg.copyAndMoveCues depth true s2.data g2 t = (r', g3, s3)) (hsm3 : s3.data.length < 2 ^ 48)
    (hdu : g.lastDuration d = du.map UInt32.toNat) (hv : Viewable g.docType g.info.scale du muxing writing ts ch tg) :
    r' = .ok () ∧ ∃ (off at' : Nat) (cs : List (Nat × ClusterOf)) (bs : Bytes) (q : List Cue),
      Opens s3.data (shownAs g.docType g.info.scale du muxing writing ts ch tg) g.info.scale cs
        (some (at' + 4 + sizeWidth (Spec.cuesPayload q).length, Spec.cuesPayload q)) ∧
      ClustersAt g.info.scale true off cs bs ∧ off + bs.length < 2 ^ 48 ∧ 0 < off ∧
      CarriedAll (acceptedFrames xs rs) (clusterFrames cs) ∧ (∀ f ∈ clusterFrames cs, Fine g.info.scale f) ∧
      (clusterFrames cs).map (Frame.asWatched g.info.scale) = (acceptedFrames xs rs).map (Frame.asWatched g.info.scale) ∧
      CuesOf g.info.scale g.cuesOn g.cues.outputBlockNumber cs q ∧ (cs.map (·.2.tc)).Pairwise (· ≤ ·) := by
  obtain ⟨h1, p, cs, q, h3, h4, h5, h6, h7, h8, h9, h10, h11, h12, h13⟩ :=
    C22_after_moving_partial hg hu hn hacc hl hroom hcues hseek hxs hd hp hs hrun hfin hsm hw hmany hdepth htd htp hts hcopy
  have hsize : p.frontPayload.length < 2 ^ 48 := by
    have : p.frontPayload.length ≤ (p.frontFile g.docType).length := by
      simp only [Parts.frontFile, List.length_append]; omega
    rw [← h3] at this; omega
  obtain ⟨c1, c2⟩ := carried_watched (scale := g.info.scale) h10 fun f hf => hr f (accepted_frame hf)
  have hfine := accepted_fine hxs h10 c1
  refine ⟨h1, _, _, cs, p.clusters, q, opens_front hv (frontRegionOk h4 hsize) (by rw [h5, hdu]) h6 h7 h8 h3 hsm3 h11
    (chain_all h9 hfine), h9, ?_, ?_, h10, hfine, c2, h12, h13⟩
  · simp only [Parts.frontPayload, List.length_append] at hsize
    simp only [Parts.frontClustersAt, Parts.tagsAt, Parts.chaptersAt, Parts.tracksAt]
    omega
  · have : 0 < p.info.length := by
      rw [h5]; exact List.length_pos_iff.mpr (element_ne_nil _ _)
    simp only [Parts.frontClustersAt, Parts.tagsAt, Parts.chaptersAt, Parts.tracksAt]
    omega

end Verif.Props
