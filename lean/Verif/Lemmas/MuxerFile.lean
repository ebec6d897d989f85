/-
The whole file: a history of frames, and finalisation.
-/
import Verif.Lemmas.MuxerSegmentEnd

namespace Verif.Mux
open Verif Spec

/-- The clusters with their offsets. -/
def placed (fixed : Bool) (scale : Nat) (sized : Bool) : Nat → List Piece → List (Nat × ClusterOf)
  | _, [] => []
  | off, p :: ps => (off, ⟨p.tc, p.frames⟩) :: placed fixed scale sized (off + (p.bytes fixed scale sized).length) ps

theorem placed_times (fixed : Bool) (scale : Nat) (sized : Bool) : ∀ (ps : List Piece) (off : Nat),
    (placed fixed scale sized off ps).map (·.2.tc) = ps.map Piece.tc
  | [], _ => rfl
  | p :: ps, off => by rw [placed, List.map_cons, placed_times fixed scale sized ps, List.map_cons]

theorem placed_frames (fixed : Bool) (scale : Nat) (sized : Bool) : ∀ (ps : List Piece) (off : Nat),
    clusterFrames (placed fixed scale sized off ps) = flatFrames ps
  | [], _ => rfl
  | p :: ps, off => by
    have := placed_frames fixed scale sized ps (off + (p.bytes fixed scale sized).length)
    unfold clusterFrames at this ⊢
    simp only [placed, List.map_cons, List.flatten_cons, this]
    simp [flatFrames]

theorem placed_clusters (fixed : Bool) (scale : Nat) (sized : Bool) : ∀ (ps : List Piece) (off : Nat),
    (placed fixed scale sized off ps).map Prod.snd = ps.map fun p => (⟨p.tc, p.frames⟩ : ClusterOf)
  | [], _ => rfl
  | p :: ps, off => by
    simp [placed, placed_clusters fixed scale sized ps (off + (p.bytes fixed scale sized).length)]

theorem piece_cluster {g : Seg} {p : Piece} (h : g.GoodPiece p) (fixed sized : Bool) :
    IsCluster g.info.scale sized ⟨p.tc, p.frames⟩ (p.bytes fixed g.info.scale sized) := by
  obtain ⟨h1, h2, h3⟩ := h
  refine ⟨p.body fixed g.info.scale, ?_, h2, ?_⟩
  · exact Cluster.body_spec (c := { timecode := p.tc, scale := g.info.scale, fixedTimecode := fixed }) h1
      fun f hf => (h3 f hf)
  · unfold Piece.bytes
    rw [clusterHead_eq, unknownSize_eq, List.append_assoc]

theorem pieces_clusters {g : Seg} (fixed sized : Bool) : ∀ {ps : List Piece} (off : Nat)
    (_ : ∀ p ∈ ps, g.GoodPiece p),
    ClustersAt g.info.scale sized off (placed fixed g.info.scale sized off ps) (piecesBytes fixed g.info.scale sized ps)
  | [], _, _ => .nil
  | p :: ps, off, h => .cons (piece_cluster (h p (by simp)) fixed sized)
      (pieces_clusters fixed sized _ fun q hq => h q (by simp [hq]))

theorem firstOf_spec (track : Nat) : ∀ (fs : List Frame) (n : Nat),
    (firstOf track n fs = none ∧ ∀ f ∈ fs, f.trackNumber ≠ track) ∨
    ∃ f before after, firstOf track n fs = some (f.timestamp, n + before.length + 1) ∧ fs = before ++ f :: after ∧
      f.trackNumber = track ∧ ∀ x ∈ before, x.trackNumber ≠ track
  | [], _ => .inl ⟨rfl, by simp⟩
  | f :: fs, n => by
    unfold firstOf
    by_cases h : track = f.trackNumber
    · rw [if_pos h]
      exact .inr ⟨f, [], fs, rfl, rfl, h.symm, by simp⟩
    · rw [if_neg h]
      rcases firstOf_spec track fs (n + 1) with ⟨h1, h2⟩ | ⟨x, a, b, h1, h2, h3, h4⟩
      · refine .inl ⟨h1, ?_⟩
        intro y hy
        rcases List.mem_cons.mp hy with rfl | hy
        · exact fun he => h he.symm
        · exact h2 y hy
      · refine .inr ⟨x, f :: a, b, ?_, by rw [h2]; rfl, h3, ?_⟩
        · rw [h1]; simp only [List.length_cons]; congr 2; omega
        · intro y hy
          rcases List.mem_cons.mp hy with rfl | hy
          · exact fun he => h he.symm
          · exact h4 y hy

/-- The cue points recorded are those the clusters call for. -/
theorem cuesFor_spec (g : Seg) : ∀ {ps : List Piece} (off : Nat)
    (_ : off + (piecesBytes g.fixedTimecode g.info.scale g.seekable ps).length < 2 ^ 64),
    CuesOf g.info.scale g.cuesTrack g.cues.outputBlockNumber
      (placed g.fixedTimecode g.info.scale g.seekable off ps) ((cuesFor g off ps).map CuePoint.cue)
  | [], _, _ => .nil
  | p :: ps, off, h => by
    simp only [piecesBytes, List.length_append] at h
    have ih := cuesFor_spec g (ps := ps) (off + (p.bytes g.fixedTimecode g.info.scale g.seekable).length) (by omega)
    simp only [placed, cuesFor, List.map_append]
    unfold cueFor
    rcases firstOf_spec g.cuesTrack p.frames 0 with ⟨h1, h2⟩ | ⟨f, a, b, h1, h2, h3, h4⟩
    · rw [h1]
      exact .skip h2 ih
    · rw [h1]
      simp only [List.map_cons, List.map_nil, List.cons_append, List.nil_append, CuePoint.cue, CuePoint.block]
      rw [Nat.mod_eq_of_lt (by omega), Nat.zero_add]
      have := CuesOf.cue (numbered := g.cues.outputBlockNumber) (off := off) (c := ⟨p.tc, p.frames⟩)
        ⟨a, b, h2, rfl, h3, h4⟩ ih (scale := g.info.scale)
      have hn : (⟨f.timestamp / g.info.scale, g.cuesTrack, off, a.length + 1, g.cues.outputBlockNumber⟩ : CuePoint).numbered =
          decide (g.cues.outputBlockNumber = true ∧ 1 < a.length + 1) := by
        unfold CuePoint.numbered; simp
      rw [hn]
      simpa using this

theorem frameBytes_pos (tc scale : Nat) (f : Frame) : 1 ≤ (frameBytes tc scale f).length := by
  unfold frameBytes
  split <;> rw [element_length _ (by decide)] <;>
    have := (getUIntSize_bounds 0xA3).1 <;> have := (getUIntSize_bounds 0xA0).1 <;> omega

theorem frames_le_body (fixed : Bool) (scale : Nat) (p : Piece) : p.frames.length ≤ (p.body fixed scale).length := by
  unfold Piece.body Cluster.body
  rw [List.length_append]
  suffices h : ∀ ws : List Frame, ws.length ≤ ((ws.map (frameBytes p.tc scale)).flatten).length by
    have := h p.frames
    exact Nat.le_trans this (Nat.le_add_left _ _)
  intro ws
  induction ws with
  | nil => simp
  | cons f ws ih =>
    have := frameBytes_pos p.tc scale f
    simp only [List.map_cons, List.flatten_cons, List.length_append, List.length_cons]
    omega

theorem bytes_length (fixed : Bool) (scale : Nat) (sized : Bool) (p : Piece) :
    (p.bytes fixed scale sized).length = 12 + (p.body fixed scale).length := by
  unfold Piece.bytes clusterHead
  cases sized <;> simp [vint, unknownSize] <;> omega

/-- The cue points are in range, and there are not more of them than bytes. -/
theorem cuesFor_range {g : Seg} : ∀ {ps : List Piece} {off : Nat} (_ : ∀ p ∈ ps, g.GoodPiece p) (_ : 1 ≤ off)
    (_ : off + (piecesBytes g.fixedTimecode g.info.scale g.seekable ps).length < 2 ^ 62),
    (cuesFor g off ps).length ≤ (piecesBytes g.fixedTimecode g.info.scale g.seekable ps).length ∧
    ∀ c ∈ cuesFor g off ps, (c.InRange ∧ 1 ≤ c.track ∧ 1 ≤ c.clusterPos) ∧
      c.clusterPos < off + (piecesBytes g.fixedTimecode g.info.scale g.seekable ps).length
  | [], _, _, _, _ => ⟨by simp [cuesFor], by simp [cuesFor]⟩
  | p :: ps, off, hp, ho, h => by
    simp only [piecesBytes, List.length_append] at h
    obtain ⟨i1, i2⟩ := cuesFor_range (ps := ps) (off := off + (p.bytes g.fixedTimecode g.info.scale g.seekable).length)
      (fun q hq => hp q (by simp [hq])) (by omega) (by omega)
    obtain ⟨k1, k2, k3⟩ := hp p (by simp)
    have hb := bytes_length g.fixedTimecode g.info.scale g.seekable p
    have hf := frames_le_body g.fixedTimecode g.info.scale p
    simp only [cuesFor, piecesBytes, List.length_append]
    have hc : (cueFor g off p.frames).length ≤ 1 ∧
        ∀ c ∈ cueFor g off p.frames, c.InRange ∧ 1 ≤ c.track ∧ 1 ≤ c.clusterPos := by
      unfold cueFor
      rcases firstOf_spec g.cuesTrack p.frames 0 with ⟨h1, h2⟩ | ⟨f, a, b, h1, h2, h3, h4⟩
      · rw [h1]; exact ⟨by simp, by simp⟩
      · rw [h1]
        obtain ⟨v, t⟩ := k3 f (by rw [h2]; simp)
        have hv : 1 ≤ f.trackNumber ∧ f.trackNumber ≤ 126 := by
          unfold Frame.isValid kMaxTrackNumber at v
          split at v
          · cases v
          split at v
          · cases v
          split at v
          · cases v
          omega
        refine ⟨by simp, ?_⟩
        intro c hc
        simp only [List.mem_singleton] at hc
        subst hc
        have hal : a.length + 1 ≤ p.frames.length := by rw [h2]; simp
        refine ⟨⟨?_, ?_, ?_, ?_⟩, ?_, ?_⟩
        · have := t.2.2; show f.timestamp / g.info.scale < 2 ^ 64; omega
        · show g.cuesTrack < 2 ^ 64; omega
        · show off % 2 ^ 64 < 2 ^ 64; omega
        · show 0 + a.length + 1 < 2 ^ 64; omega
        · show 1 ≤ g.cuesTrack; omega
        · show 1 ≤ off % 2 ^ 64; omega
    have hpos : ∀ c ∈ cueFor g off p.frames, c.clusterPos ≤ off := by
      unfold cueFor
      split
      · simp
      · intro c hc
        simp only [List.mem_singleton] at hc
        subst hc
        exact Nat.mod_le _ _
    refine ⟨by omega, ?_⟩
    intro c hc'
    rcases List.mem_append.mp hc' with m | m
    · exact ⟨hc.2 c m, by have := hpos c m; omega⟩
    · exact ⟨(i2 c m).1, by have := (i2 c m).2; omega⟩

/-- Writing the frames that still wait. -/
theorem flush_last {g : Seg} {head : Bytes} (hg : g.Ready head) {t : SegSt} {s : Sink} {acc : List Frame}
    (hb : g.Between head t s acc) (ho : ∃ f ∈ acc, g.queues f = false) :
    ∃ t' s' ps ws c, Seg.writeFramesAll (g.put t) s = (.ok (), g.put t', s') ∧ g.Open head t' s' ps ws c ∧ ws ≠ [] ∧
      CarriedAll acc (flatFrames ps ++ ws) ∧ t'.queue = [] := by
  rcases hb.state with ⟨-, hacc, -⟩ | ⟨ps, ws, c, hop, hne, hacc, -, hw⟩
  · obtain ⟨f, hf, hq⟩ := ho
    have := hacc.queues hb.held f hf
    rw [hq] at this; cases this
  · obtain ⟨t', s', c', e, o, q, -⟩ := writeFramesAll_open hg hop hb.used hw
    exact ⟨t', s', ps, ws ++ t.queue, c', e, o, by simp [hne], by simpa using hacc, q⟩

/-- Closing the last cluster. -/
theorem end_last {g : Seg} {head : Bytes} (hl : g.live = false) {t : SegSt} {s : Sink} {ps : List Piece} {ws : List Frame} {c : Cluster}
    (ho : g.Open head t s ps ws c) (hne : ws ≠ []) :
    (∃ t' s', Seg.endLast (g.put t) s = (.ok (), g.put t', s') ∧ s'.Sure ∧ s'.AtEnd ∧ t'.cues = t.cues ∧
      t'.closed = t.closed ∧ t'.cur = some { c with finalized := true } ∧ s'.data = g.pre head (ps ++ [⟨c.timecode, ws⟩]) ∧ ∀ p ∈ ps ++ [⟨c.timecode, ws⟩], g.GoodPiece p) ∨
    (∃ e g' s', Seg.endLast (g.put t) s = (.err e, g', s') ∧ 2 ^ 56 ≤ s'.data.length + 1) := by
  unfold Seg.endLast
  rw [M.get_bind]
  have e1 : (g.put t).live = g.live := rfl
  have e2 : (g.put t).cur = some c := ho.cur
  have e3 : (g.put t).seekable = g.seekable := rfl
  rw [e1, e2, e3, hl, if_pos (by simp)]
  have hcur := fun {r : Res Unit} {c' s'} (h : Cluster.finalize g.seekable false 0 c s = (r, c', s')) =>
    onCur_put (g := g) ho.cur h
  rcases finalize_open ho.holds ho.sure ho.direct hne g.seekable false 0 with ⟨s', h1, h2, h3⟩ | ⟨e, s', h1, h2⟩
  · refine .inl ⟨{ t with cur := some { c with finalized := true } }, s', hcur h1, h2, h3.atEnd, rfl, rfl, rfl, ?_, ?_⟩
    · rw [h3.data]
      unfold Seg.pre
      rw [piecesBytes_append, ← List.append_assoc head, List.append_cancel_left_eq]
      simp only [piecesBytes, List.append_nil, Piece.bytes]
      rw [body_of (c := { c with finalized := true }) rfl ho.scale ho.fixed]
    · intro p hp
      rcases List.mem_append.mp hp with hp | hp
      · exact ho.good p hp
      · simp only [List.mem_singleton] at hp
        subst hp
        refine ⟨ho.tc, hne, fun f hf => ?_⟩
        have := ho.holds.fit f hf
        rw [ho.scale] at this
        exact this
  · exact .inr ⟨e, _, s', hcur h1, h2⟩

theorem waitTimes_congr {g g' : Seg} (h : ∀ f, g.queues f = g'.queues f) : ∀ xs, g.waitTimes xs = g'.waitTimes xs
  | [] => rfl
  | .force :: xs => waitTimes_congr h xs
  | .frame f :: xs => by simp only [Seg.waitTimes, h f, waitTimes_congr h xs]

theorem opening_congr {g g' : Seg} (h : ∀ f, g.queues f = g'.queues f) (hk : ∀ f, g.knows f = g'.knows f) :
    ∀ (xs : List SegCall) (b : Bool), g.opening b xs = g'.opening b xs
  | [], _ => rfl
  | .force :: xs, _ => opening_congr h hk xs true
  | .frame f :: xs, b => by simp only [Seg.opening, h f, hk f, opening_congr h hk xs b]

theorem begun_scale (g : Seg) (gap muxing writing tr : Bytes) (ch tg : Option Bytes) (sp : Nat) :
    (g.begun gap muxing writing tr ch tg sp).info.scale = g.info.scale := by
  show (g.headInfo.placed _).scale = _
  unfold SegInfo.placed Seg.headInfo
  split <;> rfl

theorem begun_orderly {g : Seg} (hu : g.Unused) {xs : List SegCall} (h : g.WellFed xs) (gap muxing writing tr : Bytes)
    (ch tg : Option Bytes) (sp : Nat) :
    (g.begun gap muxing writing tr ch tg sp).Orderly (g.begun gap muxing writing tr ch tg sp).st xs := by
  have hq : (g.begun gap muxing writing tr ch tg sp).st.queue = [] := hu.queue
  have hsc := begun_scale g gap muxing writing tr ch tg sp
  refine ⟨fun f hf => ?_, ?_, fun _ => ?_⟩
  · obtain ⟨a, b, ⟨c1, c2⟩, d⟩ := h.sound f hf
    exact ⟨a, b, ⟨c1, by rw [hsc]; exact c2⟩, d⟩
  · have e := waitTimes_congr (g := g.begun gap muxing writing tr ch tg sp) (g' := g) (fun _ => rfl) xs
    rw [hq, e]
    simpa using h.waiting
  · have e := opening_congr (g := g.begun gap muxing writing tr ch tg sp) (g' := g) (fun _ => rfl) (fun _ => rfl) xs g.forceNew
    rw [hq, hsc, show (g.begun gap muxing writing tr ch tg sp).st.forceNew = g.forceNew from rfl, e]
    simpa using h.start

theorem headSeeks_recordable {gap info tr : Bytes} {ch tg : Option Bytes}
    (h : (headParts gap info tr ch tg).length < 2 ^ 56) : ∀ e ∈ headSeeks gap info tr ch tg, Props.Recordable e := by
  simp only [headParts, List.length_append] at h
  intro e he
  simp only [headSeeks, headParts, List.length_append, List.mem_append, List.mem_cons, List.not_mem_nil, or_false] at he
  rcases he with (((rfl | rfl) | m) | m) | rfl
  · exact ⟨⟨4, (by unfold IsId; decide : IsId 4 kMkvInfo)⟩, by show _ % _ < _; omega⟩
  · exact ⟨⟨4, (by unfold IsId; decide : IsId 4 kMkvTracks)⟩, by show _ % _ < _; omega⟩
  · cases ch with
    | none => simp [optSeek] at m
    | some c =>
      simp only [optSeek, List.mem_singleton] at m
      subst m
      exact ⟨⟨4, (by unfold IsId; decide : IsId 4 kMkvChapters)⟩, by show _ % _ < _; omega⟩
  · cases tg with
    | none => simp [optSeek] at m
    | some c =>
      simp only [optSeek, List.mem_singleton] at m
      subst m
      exact ⟨⟨4, (by unfold IsId; decide : IsId 4 kMkvTags)⟩, by show _ % _ < _; omega⟩
  · exact ⟨⟨4, (by unfold IsId; decide : IsId 4 kMkvCluster)⟩, by show _ % _ < _; omega⟩

/-- The seek entries of the finished file are the places of its parts. -/
theorem lastSeeks_places {p : Parts} {gap info rest : Bytes} (h1 : p.region.length = gap.length)
    (h2 : p.info.length = info.length) (hr : rest = p.tracks ++ (p.chapters.getD [] ++ (p.tags.getD [] ++ p.clusters)))
    (hs : (gap ++ (info ++ rest)).length < 2 ^ 64) :
    lastSeeks (headSeeks gap info p.tracks p.chapters p.tags) p.cues.isSome (gap ++ (info ++ rest)).length = p.places := by
  subst hr
  simp only [List.length_append] at hs
  have e1 : ∀ (id a : Nat) (o : Option Bytes), a < 2 ^ 64 → optSeek id a o = if o.isSome then [(id, a)] else [] := by
    intro id a o ha
    cases o with
    | none => rfl
    | some x => simp only [optSeek, Option.isSome_some, if_true]; rw [Nat.mod_eq_of_lt ha]
  unfold lastSeeks headSeeks Parts.places headParts
  rw [e1 _ _ _ (by simp only [List.length_append]; omega), e1 _ _ _ (by simp only [List.length_append]; omega)]
  simp only [List.length_append]
  rw [Nat.mod_eq_of_lt (by omega), Nat.mod_eq_of_lt (by omega), Nat.mod_eq_of_lt (by omega), Nat.mod_eq_of_lt (by omega)]
  unfold Parts.cuesAt Parts.clustersAt Parts.tagsAt Parts.chaptersAt Parts.tracksAt
  rw [h1, h2]
  simp only [Nat.add_assoc]
  rfl

theorem Seg.Open.cuesRange {g : Seg} {head : Bytes} (hg : g.Ready head) (hp : g.payloadPos < head.length) {t : SegSt} {s : Sink}
    {ps : List Piece} {ws : List Frame} {c : Cluster} (ho : g.Open head t s ps ws c)
    (hgood : ∀ p ∈ ps ++ [⟨c.timecode, ws⟩], g.GoodPiece p)
    (hsm : (g.pre head (ps ++ [⟨c.timecode, ws⟩])).length < 2 ^ 48) :
    ∃ cb, Emits (W.when g.outputCues t.cues.write) () cb ∧ cb.length < 2 ^ 55 ∧
      (g.outputCues = true → ∀ c ∈ t.cues.entries, c.InRange ∧ 1 ≤ c.track ∧ 1 ≤ c.clusterPos ∧ c.clusterPos < 2 ^ 48) ∧
      (if g.outputCues then
        cb = cuesElement ((cuesFor g (head.length - g.payloadPos) (ps ++ [⟨c.timecode, ws⟩])).map CuePoint.cue)
       else cb = []) := by
  have hc := ho.cues
  unfold W.when
  cases hoc : g.outputCues
  · exact ⟨[], Emits.pure _, by simp, by simp, rfl⟩
  · rw [hoc, if_pos rfl] at hc
    simp only [List.length_append] at hsm
    obtain ⟨r1, r2⟩ := cuesFor_range (g := g) (ps := ps ++ [⟨c.timecode, ws⟩]) (off := head.length - g.payloadPos)
      hgood (by omega) (by omega)
    refine ⟨_, Cues.write_emits (q := t.cues) (by rw [hc]; exact fun c h => (r2 c h).1) (by rw [hc]; omega), ?_, ?_, by simp only [if_true]; rw [hc]⟩
    rotate_left
    · intro _ c hm
      rw [hc] at hm
      obtain ⟨⟨x1, x2, x3⟩, x4⟩ := r2 c hm
      exact ⟨x1, x2, x3, by omega⟩
    have l := cuesPayload_len (cs := t.cues.entries) (by rw [hc]; exact fun c hc => (r2 c hc).1.1)
    have hle := cuesPayload_le t.cues.entries
    have := element_length_le 0x1C53BB6B (Spec.cuesPayload (t.cues.entries.map CuePoint.cue)) (by decide)
    unfold cuesElement
    rw [hc] at *
    omega

theorem headSeeks_length {g : Seg} {gap info tr : Bytes} {ch tg : Option Bytes} (h : g.Room ch tg) :
    (headSeeks gap info tr ch tg).length + (if g.outputCues then 1 else 0) ≤ 5 ∧ headSeeks gap info tr ch tg ≠ [] := by
  unfold Seg.Room at h
  refine ⟨?_, by simp [headSeeks]⟩
  unfold headSeeks
  cases ch <;> cases tg <;> cases hc : g.outputCues <;> simp [optSeek, hc] at h ⊢

theorem grows_tail {α β : Type} {m : M Seg α} {f : α → M Seg β} (hm : GrowsM m) (hf : ∀ a, GrowsM (f a)) {g : Seg}
    {s : Sink} (hw : g.headerWritten = true) : (m g s).2.2.data.length ≤ ((m >>= f) g s).2.2.data.length := by
  have h1 := hm g s hw
  rw [M.bind_run]
  rcases h : m g s with ⟨r, g', s'⟩
  rw [h] at h1
  cases r with
  | ok a => exact (hf a g' s' h1.1).2
  | err e => exact Nat.le_refl _
  | ub => exact Nat.le_refl _

/-- What the segment remembers about a finished file with these parts. -/
structure Seg.Finished (g : Seg) (p : Parts) : Prop where
  size : g.sizePosition = (ebmlHeader g.docType 4).length + 4
  payload : g.payloadPos = (ebmlHeader g.docType 4).length + 12
  last : g.clusterEnd = some ((ebmlHeader g.docType 4).length + 12 + p.cuesAt)
  first : ∃ k, (g.closed ++ g.cur.toList).head? = some k ∧
    k.sizePosition = some ((ebmlHeader g.docType 4).length + 12 + p.clustersAt + 4)
  seekHead : g.seekable = true → g.seekHead = ⟨slots p.places, (ebmlHeader g.docType 4).length + 12⟩
  region : g.seekable = true → p.region.length = 110
  cues : g.outputCues = true → ∀ c ∈ g.cues.entries, c.InRange ∧ 1 ≤ c.track ∧ 1 ≤ c.clusterPos ∧ c.clusterPos < 2 ^ 48

/-- Finalisation of a file, from the state a history of frames leaves. -/
theorem finish_file {g : Seg} {muxing writing tr : Bytes} {ch tg : Option Bytes}
    (hg : g.Settings muxing writing tr ch tg) (hl : g.live = false) (hroom : g.Room ch tg)
    {gap : Bytes} {sp : Nat} (hres : g.Reserved gap sp) {t : SegSt} {s : Sink} {acc : List Frame}
    (hG : (g.begun gap muxing writing tr ch tg sp).Ready (fileStart g.docType sizeUnknown ++ g.headBytes gap muxing writing tr ch tg))
    (hb : (g.begun gap muxing writing tr ch tg sp).Between (fileStart g.docType sizeUnknown ++ g.headBytes gap muxing writing tr ch tg) t s acc)
    (ho : ∃ f ∈ acc, g.queues f = false) (d : Option Nat)
    (hsm : (Seg.finalize d ((g.begun gap muxing writing tr ch tg sp).put t) s).2.2.data.length < 2 ^ 48) :
    ∃ g' s', ∃ p : Parts, ∃ cs, Seg.finalize d ((g.begun gap muxing writing tr ch tg sp).put t) s = (.ok (), g', s') ∧
      s'.data = p.file g.docType g.seekable ∧ p.HasSeekHead g.seekable ∧
      p.info = infoElement g.info.scale (g.lastDuration d) g.info.date muxing writing ∧
      p.tracks = tr ∧ p.chapters = ch ∧ p.tags = tg ∧
      ClustersAt g.info.scale g.seekable p.clustersAt cs p.clusters ∧
      CarriedAll acc (clusterFrames cs) ∧
      (if g.outputCues then p.cues = some (cuesElement (g'.cues.entries.map CuePoint.cue)) ∧
          CuesOf g.info.scale g.cuesOn g.cues.outputBlockNumber cs (g'.cues.entries.map CuePoint.cue)
        else p.cues = none) ∧
      g'.docType = g.docType ∧ g'.seekable = g.seekable ∧ g'.outputCues = g.outputCues ∧ g'.Finished p ∧
      (cs.map (·.2.tc)).Pairwise (· ≤ ·) := by
  generalize hGe : g.begun gap muxing writing tr ch tg sp = G at *
  have eo : G.outputCues = g.outputCues := by rw [← hGe]; rfl
  have ek : G.seekable = g.seekable := by rw [← hGe]; rfl
  have el : G.live = g.live := by rw [← hGe]; rfl
  have ed : G.docType = g.docType := by rw [← hGe]; rfl
  have esc : G.info.scale = g.info.scale := by rw [← hGe]; exact begun_scale ..
  have ect : G.cuesTrack = g.cuesOn := by rw [← hGe]; rfl
  have ecu : G.cues = g.cues := by rw [← hGe]; rfl
  have epp : G.payloadPos = (fileStart g.docType sizeUnknown).length := by
    rw [← hGe]; show (ebmlHeader g.docType 4).length + 12 = _; simp [fileStart, segmentId, sizeUnknown]
  have eib : G.info.bytes muxing writing = g.headInfo.bytes muxing writing := by rw [← hGe]; rfl
  have hq : ∀ f, G.queues f = g.queues f := by intro f; rw [← hGe]; rfl
  obtain ⟨t1, s1, ps, ws, c, e1, o1, hne, hca, -⟩ := flush_last hG hb (by
    obtain ⟨f, hf, h⟩ := ho; exact ⟨f, hf, by rw [hq]; exact h⟩)
  unfold Seg.finalize at hsm ⊢
  rw [M.bind_of_ok e1] at hsm ⊢
  have hgrow : ∀ {r g2 s2}, Seg.endLast (G.put t1) s1 = (r, g2, s2) → s2.data.length < 2 ^ 48 := by
    intro r g2 s2 h
    have h1 := grows_tail endLast_grows (fun _ : Unit => GrowsM.get.bind fun g : Seg =>
      GrowsM.ite (c := g.live = true) (GrowsM.pure ()) (finalizeFile_grows d)) (g := G.put t1) (s := s1) hG.header
    rw [h] at h1
    exact Nat.lt_of_le_of_lt h1 hsm
  rcases end_last (by rw [el]; exact hl) o1 hne with ⟨t2, s2, e2, u2, a2, c2, c3, c4, d2, good⟩ | ⟨e, g2, s2, e2, hbig⟩
  rotate_left
  · have := hgrow e2; omega
  have hs2 := hgrow e2
  rw [M.bind_of_ok e2, M.get_bind, show (G.put t2).live = false from by rw [← hl, ← el]; rfl, if_neg (by simp)]
  have hinfo : 1 ≤ (g.headInfo.bytes muxing writing).length := by
    unfold SegInfo.bytes infoElement
    rw [element_length _ (by decide)]
    have := (getUIntSize_bounds 0x1549A966).1
    omega
  have hhead : G.payloadPos < (fileStart g.docType sizeUnknown ++ g.headBytes gap muxing writing tr ch tg).length := by
    rw [epp]
    simp only [Seg.headBytes, headParts, List.length_append]
    omega
  obtain ⟨cb, hem, hcl, hcr, hcb⟩ := o1.cuesRange hG hhead good (by rw [← d2]; exact hs2)
  generalize hpieces : ps ++ [(⟨c.timecode, ws⟩ : Piece)] = pieces at *
  generalize hpb : piecesBytes G.fixedTimecode G.info.scale G.seekable pieces = pb at *
  have hd2 : s2.data = fileStart g.docType sizeUnknown ++ (gap ++ (g.headInfo.bytes muxing writing ++
      (tr ++ (ch.getD [] ++ (tg.getD [] ++ pb))))) := by
    rw [d2]
    unfold Seg.pre
    rw [hpb]
    simp [Seg.headBytes, headParts]
  have hhl : (headParts gap (g.headInfo.bytes muxing writing) tr ch tg).length < 2 ^ 56 := by
    rw [hd2] at hs2
    simp only [headParts, List.length_append] at hs2 ⊢
    omega
  obtain ⟨i1, i2, i3, i4, i5⟩ : G.info.muxingApp = g.info.muxingApp ∧ G.info.writingApp = g.info.writingApp ∧
      G.info.date = g.info.date ∧ (g.seekable = true → G.info.duration = some 0x3F800000) ∧
      (g.seekable = false → G.info.duration = g.info.duration) := by
    rw [← hGe]
    show (g.headInfo.placed _).muxingApp = _ ∧ (g.headInfo.placed _).writingApp = _ ∧ (g.headInfo.placed _).date = _ ∧
      (_ → (g.headInfo.placed _).duration = _) ∧ (_ → (g.headInfo.placed _).duration = _)
    unfold SegInfo.placed Seg.headInfo
    rw [hl]
    cases g.seekable <;> simp
  have hdp : g.seekable = true → G.info.durationPos = some (durationAt G.info ((fileStart g.docType sizeUnknown).length + gap.length)) := by
    intro h
    have := i4 h
    rw [← hGe] at this ⊢
    show (g.headInfo.placed _).durationPos = some (durationAt (g.headInfo.placed _) _)
    unfold SegInfo.placed
    rw [if_pos (by rw [show g.headInfo.duration = some 0x3F800000 from this]; rfl)]
    rfl
  have hspos : G.seekHead.startPos = sp := by rw [← hGe]; rfl
  obtain ⟨hlen, hnil⟩ := headSeeks_length (gap := gap) (info := g.headInfo.bytes muxing writing) (tr := tr) hroom
  obtain ⟨g3, s3, region, payload, e3, u3, a3, hpay, hdata, hrl, hil, hreg, k1, k2, k3, k4, k5, k6, k7, k8, k9, k10⟩ :=
    finalizeFile_run (g := G.put t2) (muxing := muxing) (writing := writing) (by rw [← hGe]; exact hg.version) (by rw [← hGe]; rfl)
    (by rw [← hGe]; rfl) (i1.trans hg.muxing.1) (i2.trans hg.writing.1) (by show G.info.scale < _; rw [esc]; exact hg.scale.2) (headSeeks_recordable hhl) hnil (by rw [show (G.put t2).outputCues = g.outputCues from eo]; exact hlen)
    (by rw [← hGe]; rfl) u2 a2 (by show _ = fileStart G.docType sizeUnknown ++ (gap ++ (G.info.bytes muxing writing ++ _)); rw [ed, eib]; exact hd2)
    (by
      intro h
      have hk : g.seekable = true := ek ▸ h
      unfold Seg.Reserved at hres
      rw [hl, hk] at hres
      obtain ⟨r1, r2, -⟩ := hres
      refine ⟨r1, ?_, ?_, ?_⟩
      · show G.seekHead.startPos = (fileStart G.docType sizeUnknown).length
        rw [hspos, ed]; exact r2
      · show G.info.duration.isSome = true
        rw [i4 hk]; rfl
      · show G.info.durationPos = some (durationAt G.info ((fileStart G.docType sizeUnknown).length + _))
        rw [ed]; exact hdp hk) (cb := cb) (by show Emits (W.when G.outputCues t2.cues.write) () cb; rw [c2]; exact hem) (by omega) d
  have x1 : (G.put t2).seekable = g.seekable := ek
  have x2 : (G.put t2).outputCues = g.outputCues := eo
  have x3 : (G.put t2).docType = g.docType := ed
  have x4 : (G.put t2).info = G.info := rfl
  rw [x1] at hpay hdata hil hreg
  rw [x2] at hreg
  rw [x3] at hdata
  rw [x4] at hpay hil hreg
  generalize hib : (lastInfo g.seekable G.info d).bytes muxing writing = ib at *
  have hcg : (if g.outputCues then some cb else none : Option Bytes).getD [] = cb := by
    rw [eo] at hcb
    cases hoc : g.outputCues <;> rw [hoc] at hcb <;> simp at hcb ⊢
    exact hcb
  refine ⟨g3, s3, ⟨region, ib, tr, ch, tg, pb, if g.outputCues then some cb else none⟩,
    placed G.fixedTimecode g.info.scale g.seekable
      (Parts.clustersAt ⟨region, ib, tr, ch, tg, pb, if g.outputCues then some cb else none⟩) pieces,
    e3, ?_, ?_, ?_, rfl, rfl, rfl, ?_, ?_, ?_, k8.trans ed, k9.trans ek, k10.trans eo, ?_, by
      rw [placed_times, ← hpieces, List.map_append]; exact o1.order⟩
  · rw [hdata, hpay]
    unfold Parts.file fileStart Parts.payload
    simp only [List.append_assoc, hcg]
  · unfold Parts.HasSeekHead
    by_cases hk : g.seekable = true
    · rw [if_pos hk] at hreg ⊢
      obtain ⟨n, hn⟩ := hreg
      refine ⟨n, hn.trans ?_⟩
      congr 2
      have := lastSeeks_places (p := ⟨region, ib, tr, ch, tg, pb, if g.outputCues then some cb else none⟩) (gap := gap)
        (info := G.info.bytes muxing writing) hrl hil rfl (by
          rw [hd2] at hs2
          simp only [List.length_append, eib] at hs2 ⊢
          omega)
      rw [← this]
      rw [eib]
      cases g.outputCues <;> rfl
    · rw [if_neg hk] at hreg ⊢
      unfold Seg.Reserved at hres
      rw [show g.seekable = false by simpa using hk] at hres
      simp at hres
      exact hreg.trans hres
  · show ib = _
    rw [← hib]
    unfold SegInfo.bytes lastInfo Seg.lastDuration
    by_cases hk : g.seekable = true
    · simp only [hk, if_true, i4 hk, Option.getD_some, esc, i3]
    · have hk' : g.seekable = false := by simpa using hk
      simp only [hk', Bool.false_eq_true, if_false, i5 hk', esc, i3]
  · have := pieces_clusters (g := G) G.fixedTimecode g.seekable (ps := pieces)
      (Parts.clustersAt ⟨region, ib, tr, ch, tg, pb, if g.outputCues then some cb else none⟩) good
    rw [esc] at this
    rw [esc, ek] at hpb
    rwa [hpb] at this
  · rw [placed_frames, ← hpieces]
    simpa using hca
  · have hoff : Parts.clustersAt ⟨region, ib, tr, ch, tg, pb, if g.outputCues then some cb else none⟩ =
        (fileStart g.docType sizeUnknown ++ g.headBytes gap muxing writing tr ch tg).length - G.payloadPos := by
      rw [epp]
      unfold Parts.clustersAt Parts.tagsAt Parts.chaptersAt Parts.tracksAt
      simp only [Seg.headBytes, headParts, List.length_append]
      rw [eib] at hil
      omega
    by_cases hoc : g.outputCues = true
    · rw [if_pos hoc]
      rw [eo, if_pos hoc] at hcb
      have hce : g3.cues.entries = cuesFor G ((fileStart g.docType sizeUnknown ++ g.headBytes gap muxing writing tr ch tg).length -
          G.payloadPos) pieces := by
        rw [k3, show (G.put t2).cues = t2.cues from rfl, c2, o1.cues, eo, if_pos hoc, hpieces]
      rw [hce]
      refine ⟨by show (if _ then _ else _) = _; rw [if_pos hoc, hcb], ?_⟩
      rw [hoff]
      have := cuesFor_spec G (ps := pieces) ((fileStart g.docType sizeUnknown ++ g.headBytes gap muxing writing tr ch tg).length - G.payloadPos) (by
        rw [hpb]
        rw [d2] at hs2
        unfold Seg.pre at hs2
        rw [hpb] at hs2
        simp only [List.length_append] at hs2 ⊢
        omega)
      rw [esc, ek, ect, ecu] at this
      exact this
    · rw [if_neg hoc]
      show (if _ then _ else _) = _
      rw [if_neg hoc]
  · have hfs : ∀ x : Bytes, x.length = 8 → (fileStart g.docType x).length = (ebmlHeader g.docType 4).length + 12 := by
      intro x hx; simp only [fileStart, segmentId, List.length_append, hx]; simp only [List.length_cons, List.length_nil]
    have hsu := hfs sizeUnknown rfl
    have hdt : g3.docType = g.docType := k8.trans ed
    have hat : Parts.clustersAt ⟨region, ib, tr, ch, tg, pb, if g.outputCues then some cb else none⟩ =
        (g.headBytes gap muxing writing tr ch tg).length := by
      unfold Parts.clustersAt Parts.tagsAt Parts.chaptersAt Parts.tracksAt
      simp only [Seg.headBytes, headParts, List.length_append]
      rw [eib] at hil
      omega
    refine ⟨?_, ?_, ?_, ?_, ?_, ?_, ?_⟩
    · rw [k6, hdt, ← hGe]; rfl
    · rw [k7, hdt, ← hGe]; rfl
    · rw [k2, hdt, show s2.pos = s2.data.length from a2]
      unfold Parts.cuesAt
      rw [hat, hd2]
      simp only [Seg.headBytes, headParts, List.length_append]
      congr 1
      omega
    · rw [k4, k5, show (G.put t2).closed = t2.closed from rfl, show (G.put t2).cur = t2.cur from rfl, c3, c4, hat, hdt]
      have hwh : (fileStart g.docType sizeUnknown ++ g.headBytes gap muxing writing tr ch tg).length + 4 =
          (ebmlHeader g.docType 4).length + 12 + (g.headBytes gap muxing writing tr ch tg).length + 4 := by
        rw [List.length_append, hsu]
      cases hcl : t1.closed with
      | cons k ks =>
        refine ⟨k, rfl, ?_⟩
        rw [o1.first k (by rw [hcl]; rfl), hwh]
      | nil =>
        refine ⟨_, rfl, ?_⟩
        have hps := o1.none_closed.mp hcl
        have hh : c.headerWritten = true := by
          cases h : c.headerWritten with
          | true => rfl
          | false => exact absurd (o1.holds.noHeader h).2.2.1 hne
        obtain ⟨-, -, h3⟩ := o1.holds.header hh
        show c.sizePosition = _
        rw [h3, hps, ← hwh]
        simp [Seg.pre, piecesBytes]
    · intro hk
      rw [k1, hdt, show (G.put t2).seekHead = G.seekHead from rfl, hspos]
      have hk' : g.seekable = true := by rw [← ek]; exact k9 ▸ hk
      unfold Seg.Reserved at hres
      rw [hl, hk'] at hres
      obtain ⟨r1, r2, -⟩ := hres
      rw [r2, hsu]
      congr 2
      have := lastSeeks_places (p := ⟨region, ib, tr, ch, tg, pb, if g.outputCues then some cb else none⟩) (gap := gap)
        (info := G.info.bytes muxing writing) hrl hil rfl (by
          rw [hd2] at hs2
          simp only [List.length_append, eib] at hs2 ⊢
          omega)
      rw [← this, x2, x4, eib]
      cases g.outputCues <;> rfl
    · intro hk
      have hk' : g.seekable = true := by rw [← ek]; exact k9 ▸ hk
      unfold Seg.Reserved at hres
      rw [hl, hk'] at hres
      exact hrl.trans hres.1
    · intro ho
      rw [k3, show (G.put t2).cues = t2.cues from rfl, c2]
      exact hcr ((eo.trans (k10.trans x2).symm).trans ho)

/-- The Info element of a file that is being written. -/
theorem headInfo_bytes (g : Seg) (muxing writing : Bytes) : g.headInfo.bytes muxing writing =
    infoElement g.info.scale (if !g.live && g.seekable then some 0x3F800000 else g.info.duration) g.info.date muxing writing := by
  unfold SegInfo.bytes Seg.headInfo
  split <;> rfl

/-- The file while a cluster is open. -/
theorem open_file {g : Seg} {muxing writing tr : Bytes} {ch tg : Option Bytes} {gap : Bytes} {sp : Nat}
    {t : SegSt} {s : Sink} {ps : List Piece} {ws : List Frame} {c : Cluster}
    (ho : (g.begun gap muxing writing tr ch tg sp).Open (fileStart g.docType sizeUnknown ++ g.headBytes gap muxing writing tr ch tg) t s ps ws c)
    (hne : ws ≠ []) :
    ∃ p : Parts, ∃ cs last, p.Unfinished g.docType g.info.scale g.seekable cs (some last) s.data ∧ p.region = gap ∧
      p.info = g.headInfo.bytes muxing writing ∧ p.tracks = tr ∧ p.chapters = ch ∧ p.tags = tg ∧
      clusterFrames cs ++ last.frames = flatFrames ps ++ ws ∧
      cs.map Prod.snd = ps.map (fun p => (⟨p.tc, p.frames⟩ : ClusterOf)) ∧ last = ⟨c.timecode, ws⟩ := by
  generalize hGe : g.begun gap muxing writing tr ch tg sp = G at *
  have ek : G.seekable = g.seekable := by rw [← hGe]; rfl
  have esc : G.info.scale = g.info.scale := by rw [← hGe]; exact begun_scale ..
  have hh : c.headerWritten = true := by
    cases h : c.headerWritten with
    | true => rfl
    | false => exact absurd (ho.holds.noHeader h).2.2.1 hne
  obtain ⟨h1, -, -⟩ := ho.holds.header hh
  have key : ∀ p : Parts, p = ⟨gap, g.headInfo.bytes muxing writing, tr, ch, tg,
      piecesBytes G.fixedTimecode G.info.scale G.seekable ps ++ (clusterHead unknownSize ++ c.body ws), none⟩ →
      ∃ cs last, p.Unfinished g.docType g.info.scale g.seekable cs (some last) s.data ∧ p.region = gap ∧
      p.info = g.headInfo.bytes muxing writing ∧ p.tracks = tr ∧ p.chapters = ch ∧ p.tags = tg ∧
      clusterFrames cs ++ last.frames = flatFrames ps ++ ws ∧
      cs.map Prod.snd = ps.map (fun p => (⟨p.tc, p.frames⟩ : ClusterOf)) ∧ last = ⟨c.timecode, ws⟩ := by
    rintro p rfl
    generalize hoff : Parts.clustersAt ⟨gap, g.headInfo.bytes muxing writing, tr, ch, tg,
      piecesBytes G.fixedTimecode G.info.scale G.seekable ps ++ (clusterHead unknownSize ++ c.body ws), none⟩ = off
    refine ⟨placed G.fixedTimecode G.info.scale G.seekable off ps, ⟨c.timecode, ws⟩, ⟨?_, rfl, _, _, rfl, ?_, ?_⟩, rfl, rfl, rfl, rfl, rfl, ?_, placed_clusters .., rfl⟩
    · rw [h1]
      simp [Seg.pre, Seg.headBytes, headParts, Parts.file, Parts.payload, fileStart]
    · rw [hoff, ← esc, ← ek]
      exact pieces_clusters (g := G) G.fixedTimecode G.seekable (ps := ps) off ho.good
    · refine ⟨c.body ws, ?_, hne, ?_⟩
      · have := Cluster.body_spec ho.tc (fun f hf => (ho.holds.fit f hf))
        rw [ho.scale, esc] at this
        exact this
      · rw [clusterHead_eq, unknownSize_eq, List.append_assoc]; rfl
    · rw [placed_frames]
  exact ⟨_, key _ rfl⟩

end Verif.Mux
